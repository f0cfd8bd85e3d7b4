import Verif.Model.ArrayOps

/-! # C47 — coalescing arrays (refuted) -/

namespace OmegaH

/-- `coalesce` concatenates nothing for a nonempty argument: computing the offsets reads beyond the
end of the list of arrays, whatever the arrays are. The English claim is false of the code. -/
theorem C47_coalesce_refuted {α : Type} (s : Sched) (arrays : List (List α)) (h : arrays ≠ []) :
    coalesce s arrays = none := by
  have hlen : arrays.length ≠ 0 := by simpa using h
  have : coalesceOffsets arrays = none := by
    unfold coalesceOffsets
    obtain ⟨k, hk⟩ : ∃ k, arrays.length = k + 1 := ⟨arrays.length - 1, by omega⟩
    rw [hk, List.range_succ, List.foldl_append]
    simp only [List.foldl_cons, List.foldl_nil]
    have : arrays[k + 1]? = none := List.getElem?_eq_none (by omega)
    rw [this]
    cases List.foldl _ (some [0]) (List.range k) <;> rfl
  unfold coalesce
  rw [if_neg (by simpa using h), this]
  rfl

/-- What remains true of `coalesce`: no arrays give the empty array. -/
theorem C47_coalesce_partial {α : Type} (s : Sched) : coalesce s ([] : List (List α)) = some [] := rfl

example : coalesce .serial [[1, 2], [3]] = (none : Option (List Int)) := by decide

end OmegaH
