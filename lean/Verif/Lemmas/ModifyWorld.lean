import Verif.Lemmas.Change
import Verif.Props.C39
import Verif.Props.C21
import Verif.Props.C56World
/-! # Counting and numbering new entities over the ranks -/
namespace OmegaH
open Spec

theorem repAdds_owned (owned : List Int) (mdl reps : List Nat) (nprods : List Int) (R : Nat → Nat) (n : Nat → Int)
    (cnt : Nat → Bool) :
    ∀ (items : List Nat) (counts : List Int),
      (∀ m ∈ items, reps[m]? = some (R m) ∧ nprods[m]? = some (n m) ∧ R m < counts.length ∧
        (mdl[m]?).bind (fun md => (owned[md]?).map (fun o => decide (o ≠ 0))) = some (cnt m)) →
      ∃ out, repAdds false owned mdl reps nprods items counts = some out ∧ out.length = counts.length ∧
        ∀ (r : Nat) (c : Int), counts[r]? = some c →
          out[r]? = some (c + ((items.filter (fun m => decide (R m = r) && cnt m)).map n).sum) := by
  intro items
  induction items with
  | nil => intro counts _; exact ⟨counts, rfl, rfl, by intro r c hc; simp [hc]⟩
  | cons m rest ih =>
    intro counts h
    obtain ⟨h1, h2, h3, h4⟩ := h m (by simp)
    have hc := List.getElem?_eq_getElem h3
    cases hb : cnt m with
    | false =>
      obtain ⟨out, o1, o2, o3⟩ := ih counts (fun m' hm' => h m' (by simp [hm']))
      refine ⟨out, ?_, o2, ?_⟩
      · unfold repAdds
        simp only [bind, h1, h2, Option.bind_some, Bool.false_eq_true, if_false, h4, hb]
        exact o1
      · intro r c hrc
        rw [o3 r c hrc, List.filter_cons_of_neg (by simp [hb])]
    | true =>
      obtain ⟨out, o1, o2, o3⟩ := ih (counts.set (R m) (counts[R m] + n m)) (by
        intro m' hm'
        rw [List.length_set]
        exact h m' (by simp [hm']))
      rw [List.length_set] at o2
      refine ⟨out, ?_, o2, ?_⟩
      · unfold repAdds
        simp only [bind, h1, h2, Option.bind_some, Bool.false_eq_true, if_false, h4, hb, if_true, hc]
        exact o1
      · intro r c hrc
        by_cases e : R m = r
        · subst e
          obtain rfl : counts[R m] = c := Option.some.inj (hc.symm.trans hrc)
          rw [o3 (R m) (counts[R m] + n m) (by rw [List.getElem?_set_self h3])]
          rw [List.filter_cons_of_pos (by simp [hb]), List.map_cons, List.sum_cons]
          congr 1; omega
        · rw [o3 r c (by rw [List.getElem?_set_ne e]; exact hrc), List.filter_cons_of_neg (by simp [e])]

section
variable {mesh : ModifyMesh} {E : Nat} {mods2mds mods2prods : Nat → Option (List Nat)} {keepMods : Bool}
  {same : List Nat} {P : Nat} {mds : Nat → List Nat} {rep : Nat → Nat → Nat}
  {L : Nat → Nat → List (Nat × Int)}

/-- The rank owns entity `i` of dimension `d`. -/
def ownsEnt (mesh : ModifyMesh) (d i : Nat) : Bool := ((mesh.owned d)[i]?).any (fun o => decide (o ≠ 0))

/-- The rank owns the modified entity. -/
def ownsMod (mesh : ModifyMesh) (mds : Nat → List Nat) (x : Nat × Nat) : Bool :=
  ((mds x.1)[x.2]?).any (fun md => ownsEnt mesh x.1 md)

theorem ownsEnt_iff {mesh : ModifyMesh} {d i : Nat} : ownsEnt mesh d i = true ↔ ∃ o, (mesh.owned d)[i]? = some o ∧ o ≠ 0 := by
  unfold ownsEnt
  cases (mesh.owned d)[i]? with
  | none => simp
  | some o => simp

theorem ownsMod_iff {mesh : ModifyMesh} {mds : Nat → List Nat} {x : Nat × Nat} : ownsMod mesh mds x = true ↔
    ∃ (md : Nat) (o : Int), (mds x.1)[x.2]? = some md ∧ (mesh.owned x.1)[md]? = some o ∧ o ≠ 0 := by
  unfold ownsMod
  cases (mds x.1)[x.2]? with
  | none => simp
  | some md =>
    show ownsEnt mesh x.1 md = true ↔ _
    rw [ownsEnt_iff]
    simp

theorem getRepCounts_owned (h : ModifyInput mesh E mods2mds mods2prods keepMods same P mds rep L) (s : Nat → Sched)
    (hown : ∀ d, (mesh.owned d).length = mesh.nents d)
    (reps : Nat → Option (List Nat)) (nprods : Nat → Option (List Int))
    (hreps : reps = fun d => if (mods2prods d).isSome then some ((List.range (mds d).length).map (rep d)) else none)
    (hnp : nprods = fun d => if (mods2prods d).isSome then
      some ((List.range (mds d).length).map (fun m => (prodLen mods2prods (d, m) : Int))) else none) :
    ∃ out, getRepCounts s mesh E mods2mds reps nprods same false = some out ∧ out.length = mesh.nents E ∧
      ∀ r, r < mesh.nents E → out[r]? = some ((((if r ∈ same ∧ ownsEnt mesh E r = true then 1 else 0) +
        (((allMods mods2prods mds (mesh.dim + 1)).filter (fun x => decide (rep x.1 x.2 = r) && ownsMod mesh mds x)).map
          (prodLen mods2prods)).sum : Nat) : Int)) := by
  unfold getRepCounts
  rw [if_pos h.owned]
  obtain ⟨c0, a1, a2, a3, a4⟩ := parScatter_ontoR (s 0) same.length (fun i => do
      let ent ← same[i]?
      let counted ← (if false then some true else
        ((mesh.owned E)[ent]?).map (fun o => decide (o ≠ 0)))
      pure (if counted then [(ent, (1 : Int))] else []))
    (fun i p v => same[i]? = some p ∧ v = 1 ∧ ownsEnt mesh E p = true) (fun _ => some 1) (List.replicate (mesh.nents E) 0) (by
      intro i hi
      have e := List.getElem?_eq_getElem hi
      have hlt : same[i] < (mesh.owned E).length := by rw [h.owned]; exact h.sameLt _ (List.getElem_mem hi)
      have eo := List.getElem?_eq_getElem hlt
      refine ⟨if decide ((mesh.owned E)[same[i]] ≠ 0) then [(same[i], 1)] else [], ?_, ?_⟩
      · simp only [bind, e, Option.bind_some, Bool.false_eq_true, if_false, eo, Option.map_some]; rfl
      intro p v
      rw [e]
      have hb : ownsEnt mesh E same[i] = decide ((mesh.owned E)[same[i]] ≠ 0) := by
        unfold ownsEnt; rw [eo]; rfl
      constructor
      · intro hm
        split at hm
        next hc =>
          rw [List.mem_singleton] at hm
          obtain ⟨rfl, rfl⟩ := Prod.mk.inj hm
          exact ⟨rfl, rfl, by rw [hb]; exact hc⟩
        next => simp at hm
      · rintro ⟨q, rfl, hq⟩
        have q := Option.some.inj q
        subst q
        rw [hb] at hq
        rw [if_pos hq]; simp) (by
      rintro i hi p v ⟨e, rfl, _⟩
      rw [List.length_replicate]
      exact ⟨h.sameLt p (List.mem_of_getElem? e), rfl⟩)
  rw [List.length_replicate] at a2
  have hc0 : ∀ r, r < mesh.nents E → c0[r]? = some (((if r ∈ same ∧ ownsEnt mesh E r = true then 1 else 0 : Nat) : Int)) := by
    intro r hr
    by_cases hm : r ∈ same ∧ ownsEnt mesh E r = true
    · obtain ⟨i, hi⟩ := List.mem_iff_getElem?.1 hm.1
      rw [a3 i (List.getElem?_eq_some_iff.1 hi).1 r 1 ⟨hi, rfl, hm.2⟩, if_pos hm]
      rfl
    · rw [a4 r (by
        rintro i hi v ⟨e, _, ho⟩
        exact hm ⟨List.mem_of_getElem? e, ho⟩), List.getElem?_replicate, if_pos hr, if_neg hm]
      rfl
  rw [← Mem.filled_eq] at a1
  simp only [bind] at a1 ⊢
  rw [a1]
  simp only [Option.bind_some]
  obtain ⟨out, o1, o2, o3⟩ := foldlM_range (fun counts d =>
      repCountsDim (s (d + 1)) mesh false mods2mds reps nprods counts d)
    (fun k (counts : List Int) => counts.length = mesh.nents E ∧ ∀ r, r < mesh.nents E →
      counts[r]? = some ((((if r ∈ same ∧ ownsEnt mesh E r = true then 1 else 0) +
        (((allMods mods2prods mds k).filter (fun x => decide (rep x.1 x.2 = r) && ownsMod mesh mds x)).map
          (prodLen mods2prods)).sum : Nat) : Int))) (mesh.dim + 1) c0
    ⟨a2, by intro r hr; rw [hc0 r hr]; simp [allMods]⟩ (by
      rintro k hk counts ⟨c1, c2⟩
      have hall : allMods mods2prods mds (k + 1) = allMods mods2prods mds k ++ modsOf mods2prods mds k := by
        unfold allMods; rw [List.range_succ, List.flatMap_append]; simp
      unfold repCountsDim
      by_cases hs : (mods2prods k).isSome = true
      · obtain ⟨prods, hp⟩ := Option.isSome_iff_exists.1 hs
        obtain ⟨_, hmds, _, _, hmlt, _⟩ := h.exist k prods hp
        have er : reps k = some ((List.range (mds k).length).map (rep k)) := by rw [hreps]; simp only [hs, if_true]
        have en : nprods k = some ((List.range (mds k).length).map (fun m => (prodLen mods2prods (k, m) : Int))) := by
          rw [hnp]; simp only [hs, if_true]
        rw [er]
        simp only [bind, en, hmds, Option.bind_some]
        rw [if_pos (by simp)]
        have hord := (s (k + 1)).ok (mds k).length
        have hlen : ((List.range (mds k).length).map (rep k)).length = (mds k).length := by simp
        rw [hlen]
        obtain ⟨out, o1, o2, o3⟩ := repAdds_owned (mesh.owned k) (mds k) ((List.range (mds k).length).map (rep k))
          ((List.range (mds k).length).map (fun m => (prodLen mods2prods (k, m) : Int))) (rep k)
          (fun m => (prodLen mods2prods (k, m) : Int)) (fun m => ownsMod mesh mds (k, m))
          ((s (k + 1)).order (mds k).length) counts (by
            intro m hm
            have hm' : m < (mds k).length := List.mem_range.1 (hord.mem_iff.1 hm)
            refine ⟨by rw [List.getElem?_map, List.getElem?_range hm']; rfl,
              by rw [List.getElem?_map, List.getElem?_range hm']; rfl, ?_, ?_⟩
            · rw [c1]; exact h.repLt k m ⟨hs, hm'⟩
            · have e1 := List.getElem?_eq_getElem hm'
              have hlt : (mds k)[m] < (mesh.owned k).length := by rw [hown]; exact hmlt _ (List.getElem_mem hm')
              unfold ownsMod ownsEnt
              show _ = some (((mds k)[m]?).any _)
              rw [e1]
              show _ = some (((mesh.owned k)[(mds k)[m]]?).any _)
              rw [Option.bind_some, List.getElem?_eq_getElem hlt]; rfl)
        refine ⟨out, o1, by omega, ?_⟩
        intro r hr
        rw [o3 r _ (c2 r hr), hall, List.filter_append, List.map_append, List.sum_append]
        congr 1
        rw [((hord.filter (fun m => decide (rep k m = r) && ownsMod mesh mds (k, m))).map
          (fun m => (prodLen mods2prods (k, m) : Int))).sum_eq]
        unfold modsOf
        rw [if_pos hs, List.filter_map, List.map_map]
        simp only [Nat.cast_add]
        rw [add_assoc]
        congr 2
        rw [cast_sum, List.map_map]
        rfl
      · have er : reps k = none := by rw [hreps]; simp only [hs, Bool.false_eq_true, if_false]
        rw [er]
        refine ⟨counts, rfl, c1, ?_⟩
        intro r hr
        rw [c2 r hr, hall]
        unfold modsOf
        rw [if_neg hs, List.append_nil])
  exact ⟨out, o1, o2, o3⟩

theorem globalRepCounts_spec {m : ModifyRank}
    (h : ModifyInput m.mesh E m.mods2mds m.mods2prods keepMods same P mds rep L) (s : Nat → Nat → Sched)
    (hown : ∀ d, (m.mesh.owned d).length = m.mesh.nents d) :
    ∃ out, globalRepCounts s E m same = some ((fun d => if (m.mods2prods d).isSome then
        some ((List.range (mds d).length).map (rep d)) else none), out) ∧ out.length = m.mesh.nents E ∧
      ∀ r, r < m.mesh.nents E → out[r]? = some ((((if r ∈ same ∧ ownsEnt m.mesh E r = true then 1 else 0) +
        (((allMods m.mods2prods mds (m.mesh.dim + 1)).filter (fun x => decide (rep x.1 x.2 = r) && ownsMod m.mesh mds x)).map
          (prodLen m.mods2prods)).sum : Nat) : Int)) := by
  have hreps := perDim_spec (m.mesh.dim + 1) (fun d => (m.mods2prods d).isSome) (fun d =>
      (m.mods2prods d).bind (fun prods => (m.mods2mds d).bind (fun mds =>
        if prods.length = mds.length + 1 then getMods2Reps (s 1 d) m.mesh E d mds else none)))
    (fun d => (List.range (mds d).length).map (rep d)) (by
      intro d _ hs
      obtain ⟨prods, hp⟩ := Option.isSome_iff_exists.1 hs
      obtain ⟨_, h2, h3, _⟩ := h.exist d prods hp
      rw [hp, h2]
      simp only [Option.bind_some]
      rw [if_pos h3]
      exact getMods2Reps_spec h (s 1 d) d hs) (by
      intro d hs
      obtain ⟨prods, hp⟩ := Option.isSome_iff_exists.1 hs
      have := (h.exist d prods hp).1
      omega)
  have hnp := perDim_spec (m.mesh.dim + 1) (fun d => (m.mods2prods d).isSome) (fun d =>
      (m.mods2prods d).bind (getDegrees (s 2 d)))
    (fun d => (List.range (mds d).length).map (fun i => (prodLen m.mods2prods (d, i) : Int))) (by
      intro d _ hs
      obtain ⟨prods, hp⟩ := Option.isSome_iff_exists.1 hs
      rw [hp]
      exact degrees_spec h (s 2 d) d prods hp) (by
      intro d hs
      obtain ⟨prods, hp⟩ := Option.isSome_iff_exists.1 hs
      have := (h.exist d prods hp).1
      omega)
  obtain ⟨out, o1, o2, o3⟩ := getRepCounts_owned h (s 7) hown _ _ rfl rfl
  refine ⟨out, ?_, o2, o3⟩
  unfold globalRepCounts
  simp only [bind]
  rw [hreps, Option.bind_some, hnp, Option.bind_some, o1]
  rfl

end
end OmegaH
