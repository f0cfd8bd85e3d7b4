import Verif.Spec.Classify
import Verif.Props.C56World
/-!
# The loop over the entities around one
-/
namespace OmegaH
open Spec

theorem mem_snoc {c h x : Int × Int} {L : List (Int × Int)} : x ∈ c :: (L ++ [h]) ↔ x ∈ c :: L ∨ x = h := by
  simp only [List.mem_cons, List.mem_append, List.not_mem_nil, or_false]
  tauto

theorem atDim_snoc (L : List (Int × Int)) (h : Int × Int) (m : Int) :
    atDim (L ++ [h]) m = atDim L m + if h.1 = m then 1 else 0 := by
  unfold atDim
  rw [List.filter_append, List.length_append]
  by_cases hm : h.1 = m <;> simp [hm]

theorem atDim_zero {L : List (Int × Int)} {m : Int} (h : ∀ x ∈ L, x.1 ≠ m) : atDim L m = 0 := by
  unfold atDim
  rw [List.length_eq_zero_iff, List.filter_eq_nil_iff]
  intro x hx
  simp [h x hx]

/-- At dimension `m` nothing is mixed, or that does not matter. -/
def CleanAt (relaxed : Bool) (c : Int × Int) (L : List (Int × Int)) (m : Int) : Prop :=
  relaxed = true ∨ ¬ ((m, -1) ∈ L ∧ ∃ i, i ≠ -1 ∧ (m, i) ∈ c :: L)

theorem cleanAt_snoc {relaxed : Bool} {c h : Int × Int} {L : List (Int × Int)} {m : Int} (hc : CleanAt relaxed c (L ++ [h]) m) :
    CleanAt relaxed c L m := by
  rcases hc with hc | hc
  · exact Or.inl hc
  · refine Or.inr ?_
    rintro ⟨h1, i, h2, h3⟩
    exact hc ⟨List.mem_append_left _ h1, i, h2, mem_snoc.2 (Or.inl h3)⟩

theorem proj_inv (relaxed : Bool) (c : Int × Int) (L : List (Int × Int)) :
    ∃ m, LowestDim c L m ∧
      ((∃ i, L.foldl (projStep relaxed) ⟨c.1, c.2, 0⟩ = ⟨m, i, (atDim L m : Nat)⟩ ∧ (CleanAt relaxed c L m → AgreedId c L m i)) ∨
       (L.foldl (projStep relaxed) ⟨c.1, c.2, 0⟩ = ⟨m - 1, -1, 0⟩ ∧ (∃ j, (m, j) ∈ L) ∧
        (CleanAt relaxed c L m → ¬ ∃ i, AgreedId c L m i))) := by
  induction L using List.reverseRecOn with
  | nil =>
    refine ⟨c.1, ⟨⟨c, List.mem_cons_self .., rfl⟩, ?_⟩, Or.inl ⟨c.2, rfl, fun _ => ⟨?_, Or.inr (List.mem_cons_self ..)⟩⟩⟩
    · intro x hx
      rw [List.mem_singleton.1 hx]
    · intro j hj
      have := List.mem_singleton.1 hj
      exact Or.inr (by rw [← this])
  | append_singleton L h ih =>
    obtain ⟨m, ⟨⟨x0, hx0, hx0m⟩, hlow⟩, hst⟩ := ih
    rw [List.foldl_append, List.foldl_cons, List.foldl_nil]
    rcases lt_trichotomy h.1 m with hlt | heq | hgt
    · -- a lower dimension
      have hlow' : LowestDim c (L ++ [h]) h.1 := by
        refine ⟨⟨h, mem_snoc.2 (Or.inr rfl), rfl⟩, ?_⟩
        intro x hx
        rcases mem_snoc.1 hx with hx | rfl
        · exact (hlt.trans_le (hlow x hx)).le
        · exact le_refl _
      have hcount : atDim (L ++ [h]) h.1 = 1 := by
        rw [atDim_snoc, if_pos rfl, atDim_zero]
        intro x hx hxm
        have := hlow x (List.mem_cons_of_mem _ hx)
        omega
      have hag : AgreedId c (L ++ [h]) h.1 h.2 := by
        refine ⟨?_, Or.inr (mem_snoc.2 (Or.inr rfl))⟩
        intro j hj
        rcases mem_snoc.1 hj with hj | hj
        · have := hlow _ hj
          have : m ≤ h.1 := this
          omega
        · exact Or.inr (by rw [← hj])
      refine ⟨h.1, hlow', Or.inl ⟨h.2, ?_, fun _ => hag⟩⟩
      rw [hcount]
      rcases hst with ⟨i, hi, _⟩ | ⟨hi, _⟩
      · rw [hi]
        unfold projStep
        rw [if_pos hlt]; rfl
      · rw [hi]
        unfold projStep
        by_cases h1 : h.1 < m - 1
        · rw [if_pos h1]; rfl
        · have h2 : h.1 = m - 1 := by omega
          dsimp only
          rw [if_neg h1, if_pos h2]
          by_cases h3 : h.2 = -1
          · rw [if_neg (by simp [h3])]
            simp [h2, h3]
          · rw [if_pos ⟨h3, Or.inr h3⟩, if_pos rfl]
            simp [h2]
    · -- the same dimension
      subst heq
      refine ⟨h.1, ⟨⟨h, mem_snoc.2 (Or.inr rfl), rfl⟩, ?_⟩, ?_⟩
      · intro x hx
        rcases mem_snoc.1 hx with hx | rfl
        · exact hlow x hx
        · exact le_refl _
      have hcount : ((atDim (L ++ [h]) h.1 : Nat) : Int) = (atDim L h.1 : Nat) + 1 := by
        rw [atDim_snoc, if_pos rfl]; rfl
      rcases hst with ⟨i, hi, hag⟩ | ⟨hi, ⟨j, hj⟩, hag⟩
      · rw [hi, hcount]
        unfold projStep
        dsimp only
        rw [if_neg (lt_irrefl _), if_pos rfl]
        by_cases hc : h.2 ≠ i ∧ (relaxed = false ∨ h.2 ≠ -1)
        · rw [if_pos hc]
          by_cases hi1 : i = -1
          · rw [if_pos hi1]
            refine Or.inl ⟨h.2, rfl, ?_⟩
            intro hcl
            obtain ⟨a1, _⟩ := hag (cleanAt_snoc hcl)
            refine ⟨?_, Or.inr (mem_snoc.2 (Or.inr rfl))⟩
            intro j hj
            rcases mem_snoc.1 hj with hj | hj
            · rcases a1 j hj with h1 | h1
              · exact Or.inl h1
              · exact Or.inl (h1.trans hi1)
            · exact Or.inr (by rw [← hj])
          · rw [if_neg hi1]
            refine Or.inr ⟨rfl, ⟨h.2, List.mem_append_right _ (List.mem_singleton.2 rfl)⟩, ?_⟩
            rintro hcl ⟨i', b1, _⟩
            obtain ⟨_, a2⟩ := hag (cleanAt_snoc hcl)
            have hmem : (h.1, i) ∈ c :: L := a2.resolve_left hi1
            have hii : i = i' := (b1 i (mem_snoc.2 (Or.inl hmem))).resolve_left hi1
            rcases b1 h.2 (mem_snoc.2 (Or.inr rfl)) with h1 | h1
            · rcases hc.2 with hr | hr
              · rcases hcl with hcl | hcl
                · rw [hr] at hcl; exact absurd hcl (by decide)
                · refine hcl ⟨List.mem_append_right _ (List.mem_singleton.2 ?_), i, hi1, mem_snoc.2 (Or.inl hmem)⟩
                  rw [← h1]
              · exact hr h1
            · exact hc.1 (h1.trans hii.symm)
        · rw [if_neg hc]
          refine Or.inl ⟨i, rfl, ?_⟩
          intro hcl
          obtain ⟨a1, a2⟩ := hag (cleanAt_snoc hcl)
          refine ⟨?_, a2.imp id (fun hm => mem_snoc.2 (Or.inl hm))⟩
          intro j hj
          rcases mem_snoc.1 hj with hj | hj
          · exact a1 j hj
          · have hj2 : j = h.2 := by rw [← hj]
            by_cases h1 : h.2 = i
            · exact Or.inr (hj2.trans h1)
            · refine Or.inl (hj2.trans ?_)
              by_contra h2
              exact hc ⟨h1, Or.inr h2⟩
      · rw [hi]
        unfold projStep
        dsimp only
        rw [if_neg (by omega), if_neg (by omega)]
        refine Or.inr ⟨rfl, ⟨j, List.mem_append_left _ hj⟩, ?_⟩
        rintro hcl ⟨i, b1, b2⟩
        refine hag (cleanAt_snoc hcl) ?_
        by_cases hmem : (h.1, i) ∈ c :: L
        · exact ⟨i, fun j hj => b1 j (mem_snoc.2 (Or.inl hj)), Or.inr hmem⟩
        · refine ⟨-1, ?_, Or.inl rfl⟩
          intro j hj
          rcases b1 j (mem_snoc.2 (Or.inl hj)) with h1 | h1
          · exact Or.inl h1
          · rw [h1] at hj; exact absurd hj hmem
    · -- a higher dimension
      have hag' : ∀ i, AgreedId c (L ++ [h]) m i ↔ AgreedId c L m i := by
        intro i
        have hm : ∀ j, (m, j) ∈ c :: (L ++ [h]) ↔ (m, j) ∈ c :: L := by
          intro j
          rw [mem_snoc]
          constructor
          · rintro (h1 | h1)
            · exact h1
            · have : h.1 = m := by rw [← h1]
              omega
          · exact Or.inl
        unfold AgreedId
        simp only [hm]
      refine ⟨m, ⟨⟨x0, mem_snoc.2 (Or.inl hx0), hx0m⟩, ?_⟩, ?_⟩
      · intro x hx
        rcases mem_snoc.1 hx with hx | rfl
        · exact hlow x hx
        · exact hgt.le
      have hcount : atDim (L ++ [h]) m = atDim L m := by
        rw [atDim_snoc, if_neg (by omega)]; rfl
      rw [hcount]
      rcases hst with ⟨i, hi, hag⟩ | ⟨hi, ⟨j, hj⟩, hag⟩
      · refine Or.inl ⟨i, ?_, fun hcl => (hag' i).2 (hag (cleanAt_snoc hcl))⟩
        rw [hi]
        unfold projStep
        dsimp only
        rw [if_neg (by omega), if_neg (by omega)]
      · refine Or.inr ⟨?_, ⟨j, List.mem_append_left _ hj⟩, ?_⟩
        · rw [hi]
          unfold projStep
          dsimp only
          rw [if_neg (by omega), if_neg (by omega)]
        · rintro hcl ⟨i, hi'⟩
          exact hag (cleanAt_snoc hcl) ⟨i, (hag' i).1 hi'⟩

theorem lowestDim_unique {c : Int × Int} {L : List (Int × Int)} {m m' : Int} (h : LowestDim c L m) (h' : LowestDim c L m') : m = m' := by
  obtain ⟨⟨x, hx, rfl⟩, h2⟩ := h
  obtain ⟨⟨y, hy, rfl⟩, h4⟩ := h'
  exact le_antisymm (h2 y hy) (h4 x hx)

theorem wrap_small {x : Int} (h0 : 0 ≤ x) (h1 : x ≤ 3) : wrapSigned 8 x = x := by
  obtain rfl | rfl | rfl | rfl : x = 0 ∨ x = 1 ∨ x = 2 ∨ x = 3 := by omega
  all_goals decide

/-- The class found for one entity. -/
theorem projEnd_spec (relaxed : Bool) (d : Nat) (c : Int × Int) (L : List (Int × Int)) (hd : d + 1 ≤ 3) (hc : (d : Int) ≤ c.1 ∧ c.1 ≤ 3)
    (hL : ∀ x ∈ L, ((d + 1 : Nat) : Int) ≤ x.1) (x : Int × Int)
    (hx : x = projEnd d (L.foldl (projStep relaxed) ⟨c.1, c.2, 0⟩)) :
    (d : Int) ≤ x.1 ∧ x.1 ≤ c.1 ∧ (∀ y ∈ L, x.1 ≤ y.1) ∧ (relaxed = true ∨ ¬ Mixed c L → Derived d c L x) := by
  obtain ⟨m, hm, hst⟩ := proj_inv relaxed c L
  have hclean : relaxed = true ∨ ¬ Mixed c L → CleanAt relaxed c L m := by
    rintro (h | h)
    · exact Or.inl h
    · refine Or.inr ?_
      rintro ⟨h1, i, h2, h3⟩
      exact h ⟨m, i, hm, h1, h2, h3⟩
  have hmc : m ≤ c.1 := hm.2 c (List.mem_cons_self ..)
  have hmL : ∀ y ∈ L, m ≤ y.1 := fun y hy => hm.2 y (List.mem_cons_of_mem _ hy)
  have hdm : (d : Int) ≤ m := by
    obtain ⟨⟨y, hy, rfl⟩, _⟩ := hm
    rcases List.mem_cons.1 hy with rfl | hy
    · exact hc.1
    · have := hL y hy; omega
  have hwd : wrapSigned 8 (d : Int) = d := wrap_small (by omega) (by omega)
  have hend : ∀ (b : Prop), x = ((d : Int), -1) → (d : Int) ≤ x.1 ∧ x.1 ≤ c.1 ∧ (∀ y ∈ L, x.1 ≤ y.1) := by
    rintro _ rfl
    exact ⟨le_refl _, hc.1, fun y hy => hdm.trans (hmL y hy)⟩
  rcases hst with ⟨i, hi, hag⟩ | ⟨hi, ⟨j, hj⟩, hag⟩
  · rw [hi] at hx
    unfold projEnd at hx
    dsimp only at hx
    by_cases hreg : RegularIn d L m
    · have hcond : ¬ ((((atDim L m : Nat) : Int) ≠ 2 ∧ m = d + 1) ∨ (((atDim L m : Nat) : Int) < 2 ∧ m > d + 1)) := by
        rintro (⟨h1, h2⟩ | ⟨h1, h2⟩)
        · exact h1 (by exact_mod_cast hreg.1 h2)
        · have := hreg.2 h2; omega
      rw [if_neg hcond, wrap_small (by omega) (by omega)] at hx
      subst hx
      refine ⟨hdm, hmc, hmL, ?_⟩
      intro h
      exact ⟨m, hm, Or.inl ⟨i, hag (hclean h), hreg, rfl⟩⟩
    · have hcond : (((atDim L m : Nat) : Int) ≠ 2 ∧ m = d + 1) ∨ (((atDim L m : Nat) : Int) < 2 ∧ m > d + 1) := by
        by_contra hcond
        refine hreg ⟨?_, ?_⟩
        · intro h
          by_contra h2
          exact hcond (Or.inl ⟨by exact_mod_cast h2, h⟩)
        · intro h
          by_contra h2
          exact hcond (Or.inr ⟨by omega, h⟩)
      rw [if_pos hcond, hwd] at hx
      obtain ⟨e1, e2, e3⟩ := hend True hx
      exact ⟨e1, e2, e3, fun _ => ⟨m, hm, Or.inr ⟨fun ⟨_, _, h⟩ => hreg h, hx⟩⟩⟩
  · have hdm' : ((d + 1 : Nat) : Int) ≤ m := hL _ hj
    rw [hi] at hx
    unfold projEnd at hx
    dsimp only at hx
    have hx' : x = ((d : Int), -1) := by
      rw [hx]
      by_cases h1 : m - 1 = d
      · rw [if_neg (by omega), h1, hwd]
      · rw [if_pos (by omega), hwd]
    obtain ⟨e1, e2, e3⟩ := hend True hx'
    exact ⟨e1, e2, e3, fun h => ⟨m, hm, Or.inr ⟨fun ⟨i, h1, _⟩ => hag (hclean h) ⟨i, h1⟩, hx'⟩⟩⟩

end OmegaH
