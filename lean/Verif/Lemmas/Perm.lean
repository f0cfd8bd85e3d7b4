import Batteries.Data.List.Perm
import Mathlib.Data.List.Nodup
import Verif.Spec.Map

/-! Pigeonhole facts about injective index maps. -/

namespace OmegaH
open Spec

theorem Spec.Injective.nodup {p : List Nat} (hi : Injective p) : p.Nodup := by
  rw [List.nodup_iff_getElem?_ne_getElem?]
  intro i j hij hj e
  have h1 := List.getElem?_eq_getElem hj
  exact absurd (hi i j _ (e.trans h1) h1) (by omega)

theorem Spec.injective_of_nodup {p : List Nat} (h : p.Nodup) : Injective p := by
  intro i j b hi hj
  have h1 := (List.getElem?_eq_some_iff.1 hi)
  have h2 := (List.getElem?_eq_some_iff.1 hj)
  obtain ⟨h1a, h1b⟩ := h1
  obtain ⟨h2a, h2b⟩ := h2
  exact (List.Nodup.getElem_inj_iff h).1 (h1b.trans h2b.symm)

theorem isPermutation_perm {p : List Nat} {n : Nat} (h : IsPermutation p n) :
    p.Perm (List.range n) := by
  obtain ⟨hl, hr, hi⟩ := h
  have hsub : p.Subperm (List.range n) :=
    List.subperm_of_subset hi.nodup (fun x hx => List.mem_range.2 (hr x hx))
  exact hsub.perm_of_length_le (by simp [hl])

theorem isPermutation_of_perm {p : List Nat} {n : Nat} (h : p.Perm (List.range n)) :
    IsPermutation p n := by
  refine ⟨by simpa using h.length_eq, ?_, ?_⟩
  · intro b hb
    exact List.mem_range.1 (h.mem_iff.1 hb)
  · exact injective_of_nodup (h.nodup_iff.2 List.nodup_range)

theorem isPermutation_surj {p : List Nat} {n : Nat} (h : IsPermutation p n) (b : Nat)
    (hb : b < n) : InImage p b :=
  List.mem_iff_getElem?.1 ((isPermutation_perm h).mem_iff.2 (List.mem_range.2 hb))

/-- An injective map into a range of the same size hits everything; sizes are monotone. -/
theorem injective_length_le {p : List Nat} {n : Nat} (hr : InRange p n) (hi : Injective p) :
    p.length ≤ n := by
  have hsub : p.Subperm (List.range n) :=
    List.subperm_of_subset hi.nodup (fun x hx => List.mem_range.2 (hr x hx))
  simpa using hsub.length_le

end OmegaH
