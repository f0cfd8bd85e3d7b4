import Verif.Props.C01
import Verif.Spec.Map

/-! Helper lemmas: entries of `offset_scan` as sums of prefixes. -/

namespace OmegaH
open Spec

theorem offsetScan_int_getElem? (a : List Int) : ∀ k, k ≤ a.length →
    (offsetScan a)[k]? = some ((a.take k).sum) := by
  have h := C01_offset_scan_exact (by simp) a
  intro k
  induction k with
  | zero => intro _; rw [h.2.1]; simp
  | succ k ih =>
    intro hk
    have hx := List.getElem?_eq_getElem (show k < a.length by omega)
    rw [h.2.2 k _ _ hx (ih (by omega)), List.take_add_one, hx]
    simp only [Option.toList_some, List.sum_append, List.sum_cons, List.sum_nil, Int.add_zero]

theorem offsetScan_nat_getElem? (a : List Nat) : ∀ k, k ≤ a.length →
    (offsetScan a)[k]? = some ((a.take k).sum) := by
  have h := C01_offset_scan_exact (by simp) a
  intro k
  induction k with
  | zero => intro _; rw [h.2.1]; simp
  | succ k ih =>
    intro hk
    have hx := List.getElem?_eq_getElem (show k < a.length by omega)
    rw [h.2.2 k _ _ hx (ih (by omega)), List.take_add_one, hx]
    simp only [Option.toList_some, List.sum_append, List.sum_cons, List.sum_nil, Nat.add_zero]

theorem offsetScan_length {α : Type} [Add α] [OfNat α 0] (a : List α) :
    (offsetScan a).length = a.length + 1 := by
  simp [offsetScan, inclusiveScan_length]

theorem offsetScan_int_getLast? (a : List Int) : (offsetScan a).getLast? = some a.sum := by
  rw [List.getLast?_eq_getElem?, offsetScan_length, Nat.add_sub_cancel,
    offsetScan_int_getElem? a _ (Nat.le_refl _), List.take_length]

theorem offsetScan_nat_getLast? (a : List Nat) : (offsetScan a).getLast? = some a.sum := by
  rw [List.getLast?_eq_getElem?, offsetScan_length, Nat.add_sub_cancel,
    offsetScan_nat_getElem? a _ (Nat.le_refl _), List.take_length]

theorem offsetScan_isFan (a : List Nat) : IsFan (offsetScan a) := by
  have h := C01_offset_scan_exact (by simp) a
  refine ⟨h.2.1, ?_⟩
  intro i lo hi h1 h2
  have hl := (List.getElem?_eq_some_iff.1 h2).1
  rw [offsetScan_length] at hl
  have hx := List.getElem?_eq_getElem (show i < a.length by omega)
  rw [h.2.2 i _ _ hx h1] at h2
  have := Option.some.inj h2; omega

end OmegaH
