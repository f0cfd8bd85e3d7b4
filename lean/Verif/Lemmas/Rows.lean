import Verif.Model.Adj
import Verif.Lemmas.Mem
import Verif.Lemmas.Map
import Verif.Spec.Align
import Verif.Spec.Map

/-! # Arrays made of rows -/

namespace OmegaH

open Spec

/-- A loop whose iteration `i` writes only entry `i`. -/
theorem parEach {α : Type} (s : Sched) (n : Nat) (G : Nat → Option α)
    (h : ∀ i, i < n → (G i).isSome) :
    ∃ out, (parScatter s n (fun i => (G i).map (fun v => [(i, v)])) (Mem.alloc n)).bind
        Mem.toArray? = some out ∧ out.length = n ∧ ∀ i, i < n → out[i]? = G i := by
  refine parScatter_buildR s n n _ (fun i p v => p = i ∧ G i = some v) G ?_ ?_ ?_
  · intro i hi
    obtain ⟨v, hv⟩ := Option.isSome_iff_exists.1 (h i hi)
    refine ⟨[(i, v)], by rw [hv]; rfl, ?_⟩
    intro p x
    rw [List.mem_singleton, Prod.mk.injEq, hv, Option.some.injEq]
    exact ⟨fun e => ⟨e.1, e.2.symm⟩, fun e => ⟨e.1, e.2.symm⟩⟩
  · rintro i hi p v ⟨rfl, e⟩; exact ⟨hi, e⟩
  · intro p hp
    obtain ⟨v, hv⟩ := Option.isSome_iff_exists.1 (h p hp)
    exact ⟨p, hp, v, rfl, hv⟩

theorem row_length {α : Type} {data : List α} {w n i : Nat} (hl : data.length = n * w) (hi : i < n) :
    (row data w i).length = w := by
  unfold row
  rw [List.length_take, List.length_drop]
  have : (i + 1) * w ≤ n * w := Nat.mul_le_mul_right _ hi
  rw [Nat.add_mul, Nat.one_mul] at this
  omega

theorem row_get {α : Type} (data : List α) {w j : Nat} (i : Nat) (hj : j < w) :
    (row data w i)[j]? = entry data w i j := by
  unfold row entry
  rw [List.getElem?_take, if_pos hj, List.getElem?_drop]

theorem row_ext {α : Type} {a b : List α} {w i j : Nat}
    (h : ∀ k, k < w → entry a w i k = entry b w j k) : row a w i = row b w j := by
  apply List.ext_getElem?
  intro k
  by_cases hk : k < w
  · rw [row_get a i hk, row_get b j hk, h k hk]
  · unfold row
    rw [List.getElem?_take, if_neg hk, List.getElem?_take, if_neg hk]

theorem rowAt_eq {α : Type} {data : List α} {w n i : Nat} (hl : data.length = n * w) (hi : i < n) :
    rowAt data w i = some (row data w i) := by
  unfold rowAt row
  rw [if_pos (by rw [hl]; exact Nat.mul_le_mul_right _ hi)]

theorem divide_no_rem {N n w : Nat} (hw : 0 < w) (h : N = n * w) : divideNoRemainder N w = some n := by
  unfold divideNoRemainder
  rw [if_neg (by omega), if_pos (by rw [h]; exact Nat.mul_mod_left _ _), h, Nat.mul_div_cancel _ hw]

/-- Two arrays of `n` rows agree when their rows do. -/
theorem rows_eq {α : Type} {a b : List α} {n w : Nat} (ha : a.length = n * w) (hb : b.length = n * w)
    (h : ∀ i, i < n → row a w i = row b w i) : a = b := by
  apply List.ext_getElem?
  intro p
  by_cases hp : p < n * w
  · obtain ⟨i, j, hi, hj, rfl⟩ := row_cover hp
    have := congrArg (fun l : List α => l[j]?) (h i hi)
    simp only [row_get a i hj, row_get b i hj] at this
    exact this
  · rw [List.getElem?_eq_none (by omega), List.getElem?_eq_none (by omega)]

/-- A loop each of whose iterations `i` writes a block of `k` rows of width `w`. -/
theorem parBlocks {α : Type} (s : Sched) (n k w : Nat) (W : Nat → Option (List (Nat × α)))
    (A : Nat → Nat → List α)
    (hA : ∀ i u, i < n → u < k → (A i u).length = w)
    (hW : ∀ i, i < n → ∃ ws, W i = some ws ∧ ∀ p v, (p, v) ∈ ws ↔
      ∃ u j, u < k ∧ j < w ∧ p = (i * k + u) * w + j ∧ (A i u)[j]? = some v) :
    ∃ out, (parScatter s n W (Mem.alloc (n * k * w))).bind Mem.toArray? = some out ∧
      out.length = n * k * w ∧ ∀ i u, i < n → u < k → row out w (i * k + u) = A i u := by
  obtain ⟨out, o1, o2, o3⟩ := parScatter_buildR s n (n * k * w) W
    (fun i p v => ∃ u j, u < k ∧ j < w ∧ p = (i * k + u) * w + j ∧ (A i u)[j]? = some v)
    (fun p => (A (p / w / k) (p / w % k))[p % w]?) hW
    (by
      rintro i hi p v ⟨u, j, hu, hj, rfl, h⟩
      have hw : 0 < w := by omega
      have hk : 0 < k := by omega
      refine ⟨row_lt (row_lt hi hu) hj, ?_⟩
      have a1 : ((i * k + u) * w + j) / w = i * k + u := by
        rw [Nat.mul_comm, Nat.mul_add_div hw, Nat.div_eq_of_lt hj]; omega
      have a2 : ((i * k + u) * w + j) % w = j := by rw [Nat.mul_comm, Nat.mul_add_mod, Nat.mod_eq_of_lt hj]
      have a3 : (i * k + u) / k = i := by
        rw [Nat.mul_comm, Nat.mul_add_div hk, Nat.div_eq_of_lt hu]; omega
      have a4 : (i * k + u) % k = u := by rw [Nat.mul_comm, Nat.mul_add_mod, Nat.mod_eq_of_lt hu]
      rw [a1, a2, a3, a4]; exact h)
    (by
      intro p hp
      obtain ⟨q, j, hq, hj, rfl⟩ := row_cover hp
      obtain ⟨i, u, hi, hu, rfl⟩ := row_cover hq
      exact ⟨i, hi, _, u, j, hu, hj, rfl, List.getElem?_eq_getElem (by rw [hA i u hi hu]; exact hj)⟩)
  refine ⟨out, o1, o2, ?_⟩
  intro i u hi hu
  apply List.ext_getElem?
  intro j
  by_cases hj : j < w
  · have hw : 0 < w := by omega
    have hk : 0 < k := by omega
    have a1 : ((i * k + u) * w + j) / w = i * k + u := by
      rw [Nat.mul_comm, Nat.mul_add_div hw, Nat.div_eq_of_lt hj]; omega
    have a2 : ((i * k + u) * w + j) % w = j := by rw [Nat.mul_comm, Nat.mul_add_mod, Nat.mod_eq_of_lt hj]
    have a3 : (i * k + u) / k = i := by
      rw [Nat.mul_comm, Nat.mul_add_div hk, Nat.div_eq_of_lt hu]; omega
    have a4 : (i * k + u) % k = u := by rw [Nat.mul_comm, Nat.mul_add_mod, Nat.mod_eq_of_lt hu]
    rw [row_get _ _ hj]
    unfold entry
    rw [o3 _ (row_lt (row_lt hi hu) hj), a1, a2, a3, a4]
  · have h0 : (A i u)[j]? = none := List.getElem?_eq_none (by rw [hA i u hi hu]; omega)
    rw [h0]
    unfold row
    rw [List.getElem?_take, if_neg hj]

end OmegaH
