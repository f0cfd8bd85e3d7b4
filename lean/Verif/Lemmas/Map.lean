import Verif.Model.Map
import Verif.Lemmas.Mem
import Verif.Lemmas.Scan

/-! Helper lemmas about the copying kernels. -/

namespace OmegaH

theorem copyRow_spec {α : Type} (src : List α) (w b a : Nat) (h : (b + 1) * w ≤ src.length) :
    ∃ ws, copyRow src w b a = some ws ∧
      ∀ p v, (p, v) ∈ ws ↔ ∃ j, j < w ∧ p = a * w + j ∧ src[b * w + j]? = some v := by
  have hin : ∀ j, j < w → b * w + j < src.length := by
    intro j hj; rw [Nat.add_mul] at h; omega
  obtain ⟨ws, h1, h2, h3⟩ := mapM_range_spec w
    (fun j => (src[b * w + j]?).map (fun v => (a * w + j, v))) (by
      intro j hj; simp [hin j hj])
  refine ⟨ws, h1, ?_⟩
  intro p v
  rw [List.mem_iff_getElem?]
  constructor
  · rintro ⟨j, hj⟩
    have hjw : j < w := by
      have := (List.getElem?_eq_some_iff.1 hj).1; omega
    rw [h3 j hjw, List.getElem?_eq_getElem (hin j hjw)] at hj
    simp only [Option.map_some, Option.some.injEq, Prod.mk.injEq] at hj
    exact ⟨j, hjw, hj.1.symm, by rw [List.getElem?_eq_getElem (hin j hjw), hj.2]⟩
  · rintro ⟨j, hj, rfl, hv⟩
    exact ⟨j, by rw [h3 j hj, hv]; rfl⟩

theorem row_unique {a b i j w : Nat} (hi : i < w) (hj : j < w) (h : a * w + i = b * w + j) :
    a = b ∧ i = j := by
  have h1 : (a * w + i) / w = a := by
    rw [Nat.mul_comm, Nat.mul_add_div (by omega), Nat.div_eq_of_lt hi]; omega
  have h2 : (b * w + j) / w = b := by
    rw [Nat.mul_comm, Nat.mul_add_div (by omega), Nat.div_eq_of_lt hj]; omega
  have : a = b := by rw [← h1, ← h2, h]
  subst this; omega

theorem row_lt {a n i w : Nat} (ha : a < n) (hi : i < w) : a * w + i < n * w := by
  have : (a + 1) * w ≤ n * w := Nat.mul_le_mul_right _ ha
  rw [Nat.add_mul] at this; omega

theorem row_cover {p n w : Nat} (hp : p < n * w) : ∃ a j, a < n ∧ j < w ∧ p = a * w + j := by
  have hw : 0 < w := by
    rcases Nat.eq_zero_or_pos w with h | h
    · subst h; simp at hp
    · exact h
  refine ⟨p / w, p % w, ?_, Nat.mod_lt _ hw, ?_⟩
  · exact (Nat.div_lt_iff_lt_mul hw).2 hp
  · rw [Nat.mul_comm]; exact (Nat.div_add_mod p w).symm

end OmegaH
