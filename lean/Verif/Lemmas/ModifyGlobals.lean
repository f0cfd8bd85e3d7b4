import Verif.Lemmas.ModifyWorld
/-! # The numbers of new entities that old entities represent, over all ranks -/
namespace OmegaH
open Spec

theorem sum_unique {X : Type} (A : List X) (q : X → Prop) [DecidablePred q] (hnd : A.Nodup) (a : X) (ha : a ∈ A) (hq : q a)
    (hu : ∀ b ∈ A, q b → b = a) : (A.map (fun b => if q b then 1 else 0)).sum = 1 := by
  induction A with
  | nil => simp at ha
  | cons b A ih =>
    obtain ⟨n1, n2⟩ := List.nodup_cons.1 hnd
    rw [List.map_cons, List.sum_cons]
    by_cases e : a = b
    · subst e
      have : (A.map (fun b => if q b then 1 else 0)) = A.map (fun _ => 0) := by
        apply List.map_congr_left
        intro c hc
        rw [if_neg]
        intro hqc
        have := hu c (by simp [hc]) hqc
        subst this
        exact n1 hc
      rw [if_pos hq, this]
      simp
    · have hb : ¬ q b := fun hqb => e (hu b (by simp) hqb).symm
      rw [if_neg hb, ih n2 ((List.mem_cons.1 ha).resolve_left e) (fun c hc => hu c (by simp [hc]))]

theorem sum_map_add {X : Type} (A : List X) (f g : X → Nat) : (A.map (fun a => f a + g a)).sum = (A.map f).sum + (A.map g).sum := by
  induction A with
  | nil => rfl
  | cons a A ih => simp only [List.map_cons, List.sum_cons]; rw [ih]; omega

theorem sum_flat {X Y : Type} (A : List X) (F : X → List Y) (f : Y → Nat) :
    ((A.flatMap F).map f).sum = (A.map (fun a => ((F a).map f).sum)).sum := by
  induction A with
  | nil => rfl
  | cons a A ih => rw [List.flatMap_cons, List.map_append, List.sum_append, ih, List.map_cons, List.sum_cons]

section
variable {n E : Nat} {keepMods : Bool} {rank : Nat → ModifyRank} {same : Nat → List Nat} {P : Nat → Nat}
    {mds : Nat → Nat → List Nat} {rep : Nat → Nat → Nat → Nat} {L : Nat → Nat → Nat → List (Nat × Int)}
    {gl : Nat → List Nat} {gid : Nat → Nat → Nat → Nat} {c : Change}

theorem prodLen_eq (hw : ModifyWorld n E keepMods rank same P mds rep L gl gid c) {r d m : Nat} (hr : r < n)
    (hm : IsMod (rank r).mods2prods (mds r) d m) : prodLen (rank r).mods2prods (d, m) = c.nprods (d, gid r d m) := by
  obtain ⟨prods, e1, e2, e3⟩ := prodLo_spec (hw.input r hr) hm
  have := (hw.mods r d m hr hm).2.2.1 prods _ _ e1 e2 e3
  omega

/-- What one rank counts for one of its entities. -/
def rankCount (E : Nat) (rank : Nat → ModifyRank) (same : Nat → List Nat) (mds : Nat → Nat → List Nat) (rep : Nat → Nat → Nat → Nat)
    (a : Nat × Nat) : Nat :=
  (if a.2 ∈ same a.1 ∧ ownsEnt (rank a.1).mesh E a.2 = true then 1 else 0) +
    (((allMods (rank a.1).mods2prods (mds a.1) ((rank a.1).mesh.dim + 1)).filter (fun x =>
      decide (rep a.1 x.1 x.2 = a.2) && ownsMod (rank a.1).mesh (mds a.1) x)).map (prodLen (rank a.1).mods2prods)).sum

theorem count_copies (hw : ModifyWorld n E keepMods rank same P mds rep L gl gid c) (hc : c.Ok) {g : Nat} (hg : g < c.N)
    (A : List (Nat × Nat)) (hA : A.Nodup) (hmem : ∀ r i : Nat, (r, i) ∈ A ↔ r < n ∧ (gl r)[i]? = some g) :
    (A.map (rankCount E rank same mds rep)).sum = (if c.stays g then 1 else 0) + c.represented g := by
  unfold rankCount
  rw [sum_map_add]
  congr 1
  · by_cases hs : c.stays g = true
    · rw [if_pos hs]
      obtain ⟨r, i, o, h1, h2, h3, h4⟩ := hw.owned g hg
      refine sum_unique A _ hA (r, i) ((hmem r i).2 ⟨h1, h2⟩)
        ⟨(hw.stays r i g h1 h2).2 hs, ownsEnt_iff.2 ⟨o, h3, h4⟩⟩ ?_
      rintro ⟨r', i'⟩ hb ⟨_, hq⟩
      obtain ⟨b1, b2⟩ := (hmem r' i').1 hb
      obtain ⟨o', o1, o2⟩ := ownsEnt_iff.1 hq
      obtain ⟨rfl, rfl⟩ := hw.ownedOnce g r i o r' i' o' h1 b1 h2 b2 h3 h4 o1 o2
      rfl
    · rw [if_neg hs]
      rw [List.map_congr_left (g := fun _ => 0)]
      · simp
      · rintro ⟨r, i⟩ hb
        obtain ⟨b1, b2⟩ := (hmem r i).1 hb
        rw [if_neg]
        rintro ⟨q, _⟩
        exact hs ((hw.stays r i g b1 b2).1 q)
  · -- the modified entities, by their global numbers
    let F : Nat × Nat → List (Nat × Nat) := fun a =>
      (allMods (rank a.1).mods2prods (mds a.1) ((rank a.1).mesh.dim + 1)).filter (fun x =>
        decide (rep a.1 x.1 x.2 = a.2) && ownsMod (rank a.1).mesh (mds a.1) x)
    have hF : ∀ r i d m, r < n → ((d, m) ∈ F (r, i) ↔ IsMod (rank r).mods2prods (mds r) d m ∧ rep r d m = i ∧
        ownsMod (rank r).mesh (mds r) (d, m) = true) := by
      intro r i d m hr
      show (d, m) ∈ List.filter _ _ ↔ _
      rw [List.mem_filter, mem_allMods (hw.input r hr)]
      simp
    have hB : (A.flatMap (fun a => (F a).map (fun x => (x.1, gid a.1 x.1 x.2)))).Perm
        (c.mods.filter (fun x => c.rep x = g)) := by
      rw [List.perm_ext_iff_of_nodup _ (hc.once.filter _)]
      · rintro ⟨d, k⟩
        rw [List.mem_filter, List.mem_flatMap]
        constructor
        · rintro ⟨⟨r, i⟩, ha, hx⟩
          obtain ⟨⟨d', m⟩, hy, e⟩ := List.mem_map.1 hx
          obtain ⟨rfl, rfl⟩ := Prod.mk.inj e
          obtain ⟨a1, a2⟩ := (hmem r i).1 ha
          obtain ⟨f1, f2, f3⟩ := (hF r i d' m a1).1 hy
          obtain ⟨m1, m2, _⟩ := hw.mods r d' m a1 f1
          refine ⟨m1, decide_eq_true ?_⟩
          rw [f2, a2] at m2
          exact (Option.some.inj m2).symm
        · rintro ⟨hx, hrep⟩
          have hrep : c.rep (d, k) = g := of_decide_eq_true hrep
          obtain ⟨r, m, md, o, h1, h2, h3, h4, h5, h6⟩ := hw.modOwned (d, k) hx
          obtain ⟨_, m2, _⟩ := hw.mods r d m h1 h2
          have h3 : gid r d m = k := h3
          rw [h3, hrep] at m2
          refine ⟨(r, rep r d m), (hmem _ _).2 ⟨h1, m2⟩, List.mem_map.2 ⟨(d, m), ?_, by rw [← h3]⟩⟩
          exact (hF r _ d m h1).2 ⟨h2, rfl, ownsMod_iff.2 ⟨md, o, h4, h5, h6⟩⟩
      · rw [List.nodup_flatMap]
        constructor
        · rintro ⟨r, i⟩ ha
          obtain ⟨a1, a2⟩ := (hmem r i).1 ha
          refine List.Nodup.map_on ?_ ((allMods_nodup _).filter _)
          rintro ⟨d, m⟩ hx ⟨d', m'⟩ hy e
          obtain ⟨rfl, e2⟩ := Prod.mk.inj e
          obtain ⟨f1, _⟩ := (hF r i d m a1).1 hx
          obtain ⟨f1', _⟩ := (hF r i d m' a1).1 hy
          rw [hw.modsDistinct r d m m' a1 f1 f1' e2]
        · refine List.Pairwise.imp_of_mem ?_ hA
          rintro ⟨r, i⟩ ⟨r', i'⟩ ha ha' hne x hx hx'
          obtain ⟨a1, a2⟩ := (hmem r i).1 ha
          obtain ⟨a1', a2'⟩ := (hmem r' i').1 ha'
          obtain ⟨⟨d, m⟩, hy, rfl⟩ := List.mem_map.1 hx
          obtain ⟨⟨d', m'⟩, hy', e⟩ := List.mem_map.1 hx'
          obtain ⟨rfl, e2⟩ := Prod.mk.inj e
          obtain ⟨f1, f2, f3⟩ := (hF r i d' m a1).1 hy
          obtain ⟨f1', f2', f3'⟩ := (hF r' i' d' m' a1').1 hy'
          obtain ⟨md, o, q1, q2, q3⟩ := ownsMod_iff.1 f3
          obtain ⟨md', o', q1', q2', q3'⟩ := ownsMod_iff.1 f3'
          obtain rfl := hw.modOwnedOnce r m md o r' m' md' o' d' a1 a1' f1 f1' e2.symm q1 q2 q3 q1' q2' q3'
          obtain rfl := hw.modsDistinct r d' m m' a1 f1 f1' e2.symm
          exact hne (by rw [← f2, ← f2'])
    unfold Change.represented
    rw [← (hB.map c.nprods).sum_eq]
    rw [sum_flat]
    congr 1
    apply List.map_congr_left
    rintro ⟨r, i⟩ ha
    obtain ⟨a1, a2⟩ := (hmem r i).1 ha
    show ((F (r, i)).map _).sum = _
    rw [List.map_map]
    congr 1
    apply List.map_congr_left
    rintro ⟨d, m⟩ hx
    exact prodLen_eq hw a1 ((hF r i d m a1).1 hx).1

end

/-- Sums of the counts on the ranks before. -/
theorem rescan_sum (f : Nat → Nat) (size : Nat → Nat) (p x : Nat) :
    ((List.range p).map (fun q => ((List.range (size q)).map (fun y => f (globalOf size q y))).sum)).sum +
      ((List.range x).map (fun y => f (globalOf size p y))).sum = ((List.range (globalOf size p x)).map f).sum := by
  have hadd : ∀ a b : Nat, ((List.range (a + b)).map f).sum = ((List.range a).map f).sum + ((List.range b).map (fun y => f (a + y))).sum := by
    intro a b
    rw [List.range_add, List.map_append, List.sum_append, List.map_map]
    rfl
  have h0 : ∀ p, ((List.range p).map (fun q => ((List.range (size q)).map (fun y => f (globalOf size q y))).sum)).sum =
      ((List.range (((List.range p).map size).sum)).map f).sum := by
    intro p
    induction p with
    | zero => rfl
    | succ p ih =>
      rw [List.range_succ, List.map_append, List.sum_append, ih, List.map_append, List.sum_append]
      simp only [List.map_cons, List.map_nil, List.sum_cons, List.sum_nil, Nat.add_zero]
      rw [hadd]
      rfl
  rw [h0]
  show _ = ((List.range (((List.range p).map size).sum + x)).map f).sum
  rw [hadd]
  rfl

theorem counts_below (c : Change) (g : Nat) :
    ((List.range g).map (fun g => (if c.stays g then 1 else 0) + c.represented g)).sum = c.below g := by
  induction g with
  | zero => unfold Change.below; simp
  | succ g ih => rw [List.range_succ, List.map_append, List.sum_append, ih, below_succ]; simp

end OmegaH
