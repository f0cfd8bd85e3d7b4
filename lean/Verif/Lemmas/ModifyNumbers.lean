import Verif.Lemmas.ModifyGlobals
/-! # The new numbers of old entities, from the counts over all ranks -/
namespace OmegaH
open Spec

section
variable {n E : Nat} {keepMods : Bool} {rank : Nat → ModifyRank} {same : Nat → List Nat} {P : Nat → Nat}
    {mds : Nat → Nat → List Nat} {rep : Nat → Nat → Nat → Nat} {L : Nat → Nat → Nat → List (Nat × Int)}
    {gl : Nat → List Nat} {gid : Nat → Nat → Nat → Nat} {c : Change}

theorem foldl_add_total (l : List Int) (a : Int) : l.foldl (fun r x => r + x) a = a + l.sum := by
  induction l generalizing a with
  | nil => simp
  | cons b l ih => rw [List.foldl_cons, ih, List.sum_cons]; omega

theorem addressed_mem {n : Nat} {dests : Nat → Remotes} {p x r i : Nat} :
    (r, i) ∈ addressed n (fun r => (dests r).ranks) (fun r => (dests r).idxs) p x ↔ r < n ∧ destOf dests r i = some (p, x) := by
  unfold addressed
  rw [List.mem_filter, destOf_eq]
  constructor
  · rintro ⟨h1, h2⟩
    obtain ⟨a1, a2⟩ := arrivals_mem h1
    exact ⟨a1, a2, by simpa using h2⟩
  · rintro ⟨h1, h2, h3⟩
    refine ⟨?_, by simpa using h3⟩
    unfold arrivals
    rw [List.mem_flatMap]
    refine ⟨r, List.mem_range.2 h1, List.mem_map.2 ⟨i, List.mem_filter.2 ⟨List.mem_range.2 ?_, by simpa using h2⟩, rfl⟩⟩
    exact (List.getElem?_eq_some_iff.1 h2).1

/-- What is counted for the entity with global number `g`. -/
def lineCount (c : Change) (g : Nat) : Nat := (if c.stays g then 1 else 0) + c.represented g

theorem old2new_spec (hw : ModifyWorld n E keepMods rank same P mds rep L gl gid c) (hc : c.Ok) (hn : 0 < n) (hn' : n < 2 ^ 31)
    (hsz : c.N / n + 1 < 2 ^ 31) (hcnt : ∀ g, g < c.N → c.represented g + 1 < 2 ^ 31) (s1 s2 s4 : Nat → Nat → Sched) (s3 : Nat → Sched)
    (counts : Nat → List Int) (hl : ∀ r, r < n → (counts r).length = (rank r).mesh.nents E)
    (hv : ∀ r i, r < n → i < (rank r).mesh.nents E → (counts r)[i]? = some ((rankCount E rank same mds rep (r, i) : Nat) : Int)) :
    ∃ (D : List Dist) (lin linGl : List (List Int)) (old : Nat → List Int),
      copiesToLinearOwners s1 (world n (fun r => (rank r).globals)) = some D ∧
      Dist.exchReduce s2 (sumFunctor 32) D 1 (world n counts) = some lin ∧
      D.map (fun d => d.rev.roots2items.map (fun fan => fan.length - 1)) = lin.map (fun c => some c.length) ∧
      rescanGlobals s3 lin = some linGl ∧
      Dist.exch s4 (D.map Dist.invert) 1 linGl = some (world n old) ∧
      ∀ r, r < n → (old r).length = (rank r).mesh.nents E ∧
        ∀ i g : Nat, (gl r)[i]? = some g → (old r)[i]? = some ((c.below g : Nat) : Int) := by
  obtain ⟨dests, nroots, total, h1, h2, h3, _, _, h6, h7, _, h9⟩ := linear_full s1 hn hn' gl hw.globalsLt hsz
  obtain ⟨b1, b2, _⟩ := C07_deal_bijection nroots total n h7
  obtain ⟨D, hD⟩ := C20_new (fun r k => s1 r (k + 1)) h1
  obtain ⟨lin, l1, l2⟩ := C20_reduce_determined h1 hD s2 (sumFunctor 32) (by
    intro a b d; show a + b + d = a + d + b; omega) 1 counts (by omega) (by
    intro r hr; rw [hl r hr, h3 r hr, hw.globalsLen r hr, Nat.mul_one])
  -- the count at each root
  have hlin : ∀ p, p < n → lin p = (List.range (nroots p)).map (fun x => ((lineCount c (globalOf nroots p x) : Nat) : Int)) := by
    intro p hp
    obtain ⟨e1, e2⟩ := l2 p hp
    refine list_eq_range_map (by rw [e1, Nat.mul_one]) ?_
    intro x hx
    have e := e2 x 0 hx (by omega)
    rw [entry_one] at e
    rw [e]
    have hg : globalOf nroots p x < c.N := by have := b1 p x hp hx; omega
    have hmem : ∀ r i : Nat, (r, i) ∈ addressed n (fun r => (dests r).ranks) (fun r => (dests r).idxs) p x ↔
        r < n ∧ (gl r)[i]? = some (globalOf nroots p x) := by
      intro r i
      rw [addressed_mem]
      constructor
      · rintro ⟨a1, a2⟩
        have hi : i < (gl r).length := by
          rw [← h3 r a1]; exact (List.getElem?_eq_some_iff.1 (destOf_eq.1 a2).1).1
        obtain ⟨p', x', f1, f2, f3, f4⟩ := h9 r i _ a1 (List.getElem?_eq_getElem hi)
        rw [a2] at f1
        obtain ⟨rfl, rfl⟩ := Prod.mk.inj (Option.some.inj f1)
        exact ⟨a1, by rw [List.getElem?_eq_getElem hi, f4]⟩
      · rintro ⟨a1, a2⟩
        obtain ⟨p', x', f1, f2, f3, f4⟩ := h9 r i _ a1 a2
        obtain ⟨rfl, rfl⟩ := b2 p x p' x' hx f3 f4
        exact ⟨a1, f1⟩
    have hrows : rowsOf counts 1 0 (addressed n (fun r => (dests r).ranks) (fun r => (dests r).idxs) p x) =
        ((addressed n (fun r => (dests r).ranks) (fun r => (dests r).idxs) p x).map (rankCount E rank same mds rep)).map
          (fun k : Nat => (k : Int)) := by
      unfold rowsOf
      rw [List.map_map, ← List.filterMap_eq_map]
      apply List.filterMap_congr
      rintro ⟨r, i⟩ ha
      obtain ⟨a1, a2⟩ := (hmem r i).1 ha
      rw [entry_one, hv r i a1 (by rw [← hw.globalsLen r a1]; exact (List.getElem?_eq_some_iff.1 a2).1)]
      rfl
    rw [hrows]
    show some (wrapSigned 32 (List.foldl (fun r x => r + x) 0 _)) = _
    rw [foldl_add_total, ← cast_sum, count_copies hw hc hg (addressed n (fun r => (dests r).ranks) (fun r => (dests r).idxs) p x)
      ((arrivals_nodup _ _ _).filter _) hmem]
    have := hcnt _ hg
    have hb : lineCount c (globalOf nroots p x) < 2 ^ 31 := by unfold lineCount; split <;> omega
    rw [show (if c.stays (globalOf nroots p x) = true then 1 else 0) + c.represented (globalOf nroots p x) =
      lineCount c (globalOf nroots p x) from rfl]
    rw [wrapSigned_id (by omega) (by simp) (by simp; omega), Int.zero_add]
  have hlen : ∀ p, p < n → (lin p).length = nroots p := by
    intro p hp; rw [hlin p hp, List.length_map, List.length_range]
  -- the numbers at the roots
  obtain ⟨new, w1, w2⟩ := choose_world (n := n)
    (fun r => ((world n lin)[r]?).bind (fun c => rescanLocal (s3 r) c ((((world n lin).take r).map List.sum).sum)))
    (fun p out => out.length = nroots p ∧ ∀ x, x < nroots p → out[x]? = some ((c.below (globalOf nroots p x) : Nat) : Int)) (by
    intro p hp
    rw [world_get _ hp, Option.bind_some]
    obtain ⟨out, o1, o2, o3⟩ := rescanLocal_spec (s3 p) (lin p) ((((world n lin).take p).map List.sum).sum)
    rw [hlen p hp] at o2 o3
    refine ⟨out, o1, o2, ?_⟩
    intro x hx
    rw [o3 x hx]
    congr 1
    rw [← counts_below, ← rescan_sum, Int.natCast_add, Int.add_comm]
    congr 1
    · unfold world
      rw [← List.map_take, List.take_range, Nat.min_eq_left (by omega), List.map_map, cast_sum, List.map_map]
      congr 1
      apply List.map_congr_left
      intro q hq
      have hq := List.mem_range.1 hq
      show (lin q).sum = _
      rw [hlin q (by omega)]
      show _ = ((_ : Nat) : Int)
      rw [cast_sum, List.map_map]
      rfl
    · rw [hlin p hp, ← List.map_take, List.take_range, Nat.min_eq_left (by omega), cast_sum, List.map_map]
      rfl)
  obtain ⟨D', order, fan, rfl, hN⟩ := copyDist_of h1 hD
  obtain ⟨old, g1, g2, g3⟩ := exch_back_one hN s4 new (fun p hp => (w2 p hp).1)
  refine ⟨world n D', world n lin, world n new, old, ?_, l1, ?_, ?_, g1, ?_⟩
  · rw [world_congr hw.globals, h2, hD]
  · rw [world_map, world_map]
    apply world_congr
    intro p hp
    rw [hN.rroots p hp, Option.map_some, (hN.fanOk p hp).2.1, hlen p hp]
    rfl
  · unfold rescanGlobals
    rw [world_length]
    exact w1
  · intro r hr
    refine ⟨by rw [g2 r hr, h3 r hr, hw.globalsLen r hr], ?_⟩
    intro i g hi
    obtain ⟨p, x, f1, f2, f3, f4⟩ := h9 r i g hr hi
    rw [g3 r i p x hr f1, (w2 p f2).2 x f3, ← f4]

end

section
variable {mesh : ModifyMesh} {E : Nat} {mods2mds mods2prods : Nat → Option (List Nat)} {keepMods : Bool}
    {same : List Nat} {P : Nat} {mds : Nat → List Nat} {rep : Nat → Nat → Nat} {L : Nat → Nat → List (Nat × Int)}

/-- The first number of the products of a modified entity. -/
def firstOf (same : List Nat) (rep : Nat → Nat → Nat) (F : Nat → Nat) (pl : Nat × Nat → Nat) (x : Nat × Nat) : Nat :=
  F (rep x.1 x.2) + (if rep x.1 x.2 ∈ same then 1 else 0) + pl x

/-- How `assign_new_numbering` is told the places of the modified entities. -/
def PlacedBy (E : Nat) (mods2prods : Nat → Option (List Nat)) (mds : Nat → List Nat) (order : Nat → Option (List Int)) (pl : Nat × Nat → Nat) : Prop :=
  ∀ d m, IsMod mods2prods mds d m → (order d).isSome = decide (E < d) ∧ (order d = none → pl (d, m) = 0) ∧
    ∀ (ord : List Int) (md : Nat), order d = some ord → (mds d)[m]? = some md → ord[md]? = some ((pl (d, m) : Nat) : Int)

theorem prodNumbers_general (h : ModifyInput mesh E mods2mds mods2prods keepMods same P mds rep L)
    (newOffsets : List Int) (order : Nat → Option (List Int)) (F : Nat → Nat) (pl : Nat × Nat → Nat)
    (hord : PlacedBy E mods2prods mds order pl)
    (d m : Nat) (hm : IsMod mods2prods mds d m) (prods : List Nat) (hp : mods2prods d = some prods)
    (hoff : newOffsets[m]? = some ((F (rep d m) : Nat) : Int)) :
    ∃ ws, prodNumbers (mds d) prods newOffsets (order d)
        (if keepMods then 1 else if (order d).isSome then 1 else 0) m = some ws ∧
      ∀ p v, (p, v) ∈ ws ↔ ∃ j, j < prodLen mods2prods (d, m) ∧ p = prodLo mods2prods (d, m) + j ∧
        v = ((firstOf same rep F pl (d, m) + j : Nat) : Int) := by
  obtain ⟨prods', hp', hlo, hhi⟩ := prodLo_spec h hm
  obtain rfl : prods = prods' := Option.some.inj (hp.symm.trans hp')
  obtain ⟨ho1, ho0, ho2⟩ := hord d m hm
  have hmd := List.getElem?_eq_getElem hm.2
  have hO : modOrder (mds d) (order d) m = some (((pl (d, m) : Nat)) : Int) := by
    cases ho : order d with
    | none =>
      show some 0 = _
      rw [ho0 ho]; rfl
    | some ord =>
      show ((mds d)[m]?).bind _ = _
      rw [hmd]
      simp only [Option.bind_some]
      rw [ho2 ord _ ho hmd]
      simp only [Option.bind_some]
      rw [if_pos (by omega)]
  have hS : ((if keepMods then 1 else if (order d).isSome then 1 else 0 : Int)) =
      (((if rep d m ∈ same then 1 else 0) : Nat) : Int) := by
    rw [ho1]
    have := h.stays d m hm
    by_cases hk : keepMods = true
    · have hin := this.2 (Or.inl hk)
      simp [hk, hin]
    · by_cases hE : E < d
      · have hin := this.2 (Or.inr hE)
        simp [hE, hin]
      · have hin : ¬ rep d m ∈ same := by rw [this]; tauto
        simp [hk, hE, hin]
  rw [hS]
  unfold prodNumbers
  simp only [bind]
  rw [hoff]
  simp only [Option.bind_some]
  rw [hO, hlo, hhi]
  simp only [Option.bind_some]
  refine ⟨_, rfl, ?_⟩
  intro p v
  rw [mem_blockWrites, Nat.add_sub_cancel_left]
  constructor
  · rintro ⟨j, rfl, hj⟩
    rw [List.getElem?_map] at hj
    obtain ⟨j', hj', e⟩ := Option.map_eq_some_iff.1 hj
    obtain ⟨hl, e2⟩ := List.getElem?_eq_some_iff.1 hj'
    rw [List.getElem_range] at e2
    subst e2
    rw [List.length_range] at hl
    refine ⟨j, hl, rfl, ?_⟩
    rw [← e]; unfold firstOf; push_cast; omega
  · rintro ⟨j, hj, rfl, rfl⟩
    refine ⟨j, rfl, ?_⟩
    rw [List.getElem?_map, List.getElem?_range hj]
    show some _ = some _
    congr 1
    unfold firstOf; push_cast; omega

theorem assign_general (h : ModifyInput mesh E mods2mds mods2prods keepMods same P mds rep L) (s : Nat → Sched)
    (numbers : List Int) (mods2reps : Nat → Option (List Nat)) (order : Nat → Option (List Int)) (N : Nat → Nat) (pl : Nat × Nat → Nat)
    (hreps : mods2reps = fun d => if (mods2prods d).isSome then some ((List.range (mds d).length).map (rep d)) else none)
    (hnum : ∀ r, r < mesh.nents E → numbers[r]? = some ((N r : Nat) : Int))
    (hord : PlacedBy E mods2prods mds order pl) :
    ∃ prods2new, assignNewNumbering s numbers same mods2mds mods2reps mods2prods order keepMods =
        some (same.map (fun r => ((N r : Nat) : Int)), prods2new) ∧
      prods2new.length = P ∧ ∀ d m p, ProducedBy mods2prods d m p → prods2new[p]? =
        some ((firstOf same rep N pl (d, m) + (p - prodLo mods2prods (d, m)) : Nat) : Int) := by
  have hun : ∀ (s : Sched) (l : List Nat), (∀ r ∈ l, r < mesh.nents E) → unmap s l numbers 1 =
      some (l.map (fun r => ((N r : Nat) : Int))) := by
    intro s l hl
    rw [unmap_one s l numbers (fun b hb => (List.getElem?_eq_some_iff.1 (hnum b (hl b hb))).1)]
    exact mapM_map l _ _ (fun r hr => hnum r (hl r hr))
  have hF : ∀ p, ∃ v : Int, ∀ d m, ProducedBy mods2prods d m p → v =
      ((firstOf same rep N pl (d, m) + (p - prodLo mods2prods (d, m)) : Nat) : Int) := by
    intro p
    by_cases hp : ∃ d m, ProducedBy mods2prods d m p
    · obtain ⟨d, m, hdm⟩ := hp
      refine ⟨((firstOf same rep N pl (d, m) + (p - prodLo mods2prods (d, m)) : Nat) : Int),
        fun d' m' h' => ?_⟩
      · obtain ⟨rfl, rfl⟩ := h.once d m d' m' p hdm h'; rfl
    · exact ⟨0, fun d m h' => absurd ⟨d, m, h'⟩ hp⟩
  obtain ⟨F, hF⟩ := Classical.axiomOfChoice hF
  obtain ⟨m, m1, m2, m3⟩ := foldlM_range (fun m d =>
      assignDim (s (2 * d + 1)) (s (2 * d + 2)) numbers mods2mds mods2reps mods2prods order keepMods m d)
    (fun k (m : Mem Int) => m.length = P ∧ ∀ d i p, d < k → ProducedBy mods2prods d i p → m[p]? = some (some (F p)))
    4 (Mem.alloc P) ⟨List.length_replicate, fun d i p hd => absurd hd (Nat.not_lt_zero _)⟩ (by
      rintro k hk m ⟨i1, i2⟩
      unfold assignDim
      cases hp : mods2prods k with
      | none =>
        refine ⟨m, rfl, i1, ?_⟩
        intro d i p hd hdi
        rcases Nat.lt_succ_iff_lt_or_eq.1 hd with hd | rfl
        · exact i2 d i p hd hdi
        · obtain ⟨prods, e, _⟩ := hdi
          rw [hp] at e; cases e
      | some prods =>
        have hs : (mods2prods k).isSome = true := by rw [hp]; rfl
        obtain ⟨_, hmds, hlen, _⟩ := h.exist k prods hp
        have hr : mods2reps k = some ((List.range (mds k).length).map (rep k)) := by rw [hreps]; simp only [hs, if_true]
        simp only [bind]
        rw [hr, hmds]
        simp only [Option.bind_some]
        rw [hun (s (2 * k + 1)) ((List.range (mds k).length).map (rep k)) (by
          intro r hr
          obtain ⟨m, hm, rfl⟩ := List.mem_map.1 hr
          exact h.repLt k m ⟨hs, List.mem_range.1 hm⟩)]
        simp only [Option.bind_some]
        rw [if_pos (by simp [hlen])]
        have hex : ∀ i, ∃ ws, i < (mds k).length → prodNumbers (mds k) prods
            (((List.range (mds k).length).map (rep k)).map (fun r => ((N r : Nat) : Int)))
            (order k) (if keepMods then 1 else if (order k).isSome then 1 else 0) i = some ws ∧
            ∀ p v, (p, v) ∈ ws ↔ ∃ j, j < prodLen mods2prods (k, i) ∧ p = prodLo mods2prods (k, i) + j ∧
              v = ((firstOf same rep N pl (k, i) + j : Nat) : Int) := by
          intro i
          by_cases hi : i < (mds k).length
          · obtain ⟨ws, w1, w2⟩ := prodNumbers_general h
              (((List.range (mds k).length).map (rep k)).map (fun r => ((N r : Nat) : Int)))
              order N pl hord k i ⟨hs, hi⟩ prods hp (by
                rw [List.getElem?_map, List.getElem?_map, List.getElem?_range hi]; rfl)
            exact ⟨ws, fun _ => ⟨w1, w2⟩⟩
          · exact ⟨[], fun h => absurd h hi⟩
        obtain ⟨ws, hws⟩ := Classical.axiomOfChoice hex
        have hval : ∀ i, i < (mds k).length → ∀ p v, (p, v) ∈ ws i → p < m.length ∧ v = F p := by
          intro i hi p v hpv
          obtain ⟨j, hj, rfl, rfl⟩ := ((hws i hi).2 p v).1 hpv
          have hb : ProducedBy mods2prods k i (prodLo mods2prods (k, i) + j) :=
            (producedBy_iff h).2 ⟨⟨hs, hi⟩, by omega, by omega⟩
          refine ⟨by rw [i1]; exact h.bounded _ _ _ hb, ?_⟩
          rw [hF _ k i hb, Nat.add_sub_cancel_left]
        obtain ⟨m', a1, a2, a3, a4⟩ := parScatter_spec (s (2 * k + 2)) (mds k).length
          (prodNumbers (mds k) prods
            (((List.range (mds k).length).map (rep k)).map (fun r => ((N r : Nat) : Int)))
            (order k) (if keepMods then 1 else if (order k).isSome then 1 else 0)) ws F m
          (fun i hi => (hws i hi).1) hval
        refine ⟨m', by rw [List.length_map, List.length_range]; exact a1, by omega, ?_⟩
        intro d i p hd hdi
        by_cases hw : ∃ i, i < (mds k).length ∧ ∃ v, (p, v) ∈ ws i
        · obtain ⟨i', hi', v, hv⟩ := hw
          exact a3 i' hi' p v hv
        · rw [a4 p (fun i hi v hv => hw ⟨i, hi, v, hv⟩)]
          rcases Nat.lt_succ_iff_lt_or_eq.1 hd with hd | rfl
          · exact i2 d i p hd hdi
          · exfalso
            obtain ⟨g1, g2, g3⟩ := (producedBy_iff h).1 hdi
            apply hw
            exact ⟨i, g1.2, _, ((hws i g1.2).2 p _).2 ⟨p - prodLo mods2prods (d, i), by omega, by omega, rfl⟩⟩)
  obtain ⟨out, o1, o2, o3⟩ := Mem.toArray?_spec m (fun p => some (F p)) (by
    intro p hp
    obtain ⟨d, i, hdi⟩ := h.covered p (m2 ▸ hp)
    obtain ⟨⟨hs, _⟩, _⟩ := (producedBy_iff h).1 hdi
    obtain ⟨prods, hp'⟩ := Option.isSome_iff_exists.1 hs
    have h1 := (h.exist d prods hp').1
    have h2 := h.dim
    exact ⟨m3 d i p (by omega) hdi, rfl⟩)
  refine ⟨out, ?_, by omega, ?_⟩
  · unfold assignNewNumbering
    simp only [bind]
    rw [hun (s 0) same h.sameLt, h.count]
    simp only [Option.bind_some]
    rw [m1]
    simp only [Option.bind_some]
    rw [o1]; rfl
  · intro d i p hdi
    have hp := h.bounded d i p hdi
    rw [o3 p (by omega), hF p d i hdi]

/-- What stays and what is produced is put at its new numbers, and nothing is left out. -/
theorem placeNew_spec {nents : Nat} {l : NewNumbers} (hr : Renumbered nents same P mods2prods l) (s : Nat → Sched)
    (a b : List Int) (ha : a.length = same.length) (hb : b.length = P) :
    ∃ out, placeNew s l a b = some out ∧ out.length = same.length + P ∧
      (∀ i v : Nat, l.same2new[i]? = some (v : Int) → out[v]? = a[i]?) ∧
      ∀ p v : Nat, l.prods2new[p]? = some (v : Int) → out[v]? = b[p]? := by
  have hall : ∀ x ∈ l.same2new ++ l.prods2new, ∃ v : Nat, v < same.length + P ∧ x = (v : Int) := by
    intro x hx
    obtain ⟨v, hv, rfl⟩ := List.mem_map.1 (hr.all.mem_iff.1 hx)
    exact ⟨v, List.mem_range.1 hv, rfl⟩
  obtain ⟨A, hA⟩ : ∃ A : List Nat, l.same2new = A.map (fun i : Nat => (i : Int)) :=
    ⟨l.same2new.map Int.toNat, by
      rw [List.map_map]
      conv_lhs => rw [← List.map_id l.same2new]
      apply List.map_congr_left
      intro x hx
      obtain ⟨v, _, rfl⟩ := hall x (by simp [hx])
      simp⟩
  obtain ⟨B, hB⟩ : ∃ B : List Nat, l.prods2new = B.map (fun i : Nat => (i : Int)) :=
    ⟨l.prods2new.map Int.toNat, by
      rw [List.map_map]
      conv_lhs => rw [← List.map_id l.prods2new]
      apply List.map_congr_left
      intro x hx
      obtain ⟨v, _, rfl⟩ := hall x (by simp [hx])
      simp⟩
  have hperm : (A ++ B).Perm (List.range (same.length + P)) := by
    have := hr.all
    rw [hA, hB, ← List.map_append] at this
    have h2 := this.map Int.toNat
    rw [List.map_map, List.map_map] at h2
    have hid : (Int.toNat ∘ fun i : Nat => (i : Int)) = id := by funext i; simp
    rw [hid, List.map_id, List.map_id] at h2
    exact h2
  have hnd : (A ++ B).Nodup := hperm.nodup_iff.2 List.nodup_range
  obtain ⟨nA, nB, nAB⟩ := List.nodup_append.1 hnd
  have hlt : ∀ v ∈ A ++ B, v < same.length + P := fun v hv => List.mem_range.1 (hperm.mem_iff.1 hv)
  have lA : A.length = same.length := by rw [← hr.sameLen, hA, List.length_map]
  have lB : B.length = P := by rw [← hr.prodsLen, hB, List.length_map]
  have inj : ∀ {C : List Nat}, C.Nodup → Injective C := by
    intro C hC i j x hi hj
    obtain ⟨i1, i2⟩ := List.getElem?_eq_some_iff.1 hi
    obtain ⟨j1, j2⟩ := List.getElem?_eq_some_iff.1 hj
    exact (List.Nodup.getElem_inj_iff hC).1 (i2.trans j2.symm)
  obtain ⟨m1, p1, p2, p3, _, _⟩ := C05_map_into (s 0) a A (Mem.alloc (same.length + P)) 1 (same.length + P)
    (by omega) (by simp [Mem.alloc]) (fun v hv => hlt v (by simp [hv])) (inj nA)
  have p2' : m1.length = same.length + P := by rw [p2]; simp [Mem.alloc]
  obtain ⟨m2, q1, q2, q3, q4, _⟩ := C05_map_into (s 1) b B m1 1 (same.length + P)
    (by omega) (by omega) (fun v hv => hlt v (by simp [hv])) (inj nB)
  have hAv : ∀ i v : Nat, A[i]? = some v → m2[v]? = some a[i]? := by
    intro i v hi
    have e1 := p3 i v 0 hi (by omega)
    have e2 := q4 v 0 (by
      rintro ⟨j, hj⟩
      exact nAB v (List.mem_of_getElem? hi) v (List.mem_of_getElem? hj) rfl) (by omega)
    rw [entry_one, entry_one] at e1 e2
    rw [e2, e1]
  have hBv : ∀ i v : Nat, B[i]? = some v → m2[v]? = some b[i]? := by
    intro i v hi
    have e1 := q3 i v 0 hi (by omega)
    rw [entry_one, entry_one] at e1
    exact e1
  have q2' : m2.length = same.length + P := by omega
  obtain ⟨out, o1, o2, o3⟩ := Mem.toArray?_spec m2 (fun v => (m2[v]?).join) (by
    intro v hv
    have hv' := hperm.mem_iff.2 (List.mem_range.2 (by omega : v < same.length + P))
    rcases List.mem_append.1 hv' with hv' | hv'
    · obtain ⟨i, hi⟩ := List.mem_iff_getElem?.1 hv'
      have hl := (List.getElem?_eq_some_iff.1 hi).1
      rw [hAv i v hi]
      simp [List.getElem?_eq_getElem (by omega : i < a.length)]
    · obtain ⟨i, hi⟩ := List.mem_iff_getElem?.1 hv'
      have hl := (List.getElem?_eq_some_iff.1 hi).1
      rw [hBv i v hi]
      simp [List.getElem?_eq_getElem (by omega : i < b.length)])
  refine ⟨out, ?_, by omega, ?_, ?_⟩
  · unfold placeNew
    rw [hA, hB, toIndices?_natCast, Option.bind_some, toIndices?_natCast, Option.bind_some, List.length_map, lB, hr.sameEq,
      p1, Option.bind_some, q1, Option.bind_some]
    exact o1
  · intro i v hi
    rw [hA, List.getElem?_map] at hi
    obtain ⟨w, hw, e⟩ := Option.map_eq_some_iff.1 hi
    obtain rfl : w = v := by omega
    have := hlt w (by simp [List.mem_of_getElem? hw])
    rw [o3 w (by omega), hAv i w hw]; rfl
  · intro i v hi
    rw [hB, List.getElem?_map] at hi
    obtain ⟨w, hw, e⟩ := Option.map_eq_some_iff.1 hi
    obtain rfl : w = v := by omega
    have := hlt w (by simp [List.mem_of_getElem? hw])
    rw [o3 w (by omega), hBv i w hw]; rfl

end
end OmegaH
