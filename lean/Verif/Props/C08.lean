import Verif.Props.C07

/-! # C08 — suggested slices tile the global range exactly -/

namespace OmegaH
open Spec

/-- The slice of rank `r` starts right after the shares of the ranks before it and has the length
`linear_partition_size` gives that rank. -/
theorem C08_slices_agree_with_partition (total p r : Nat) (hp : 0 < p) (hp' : p < 2 ^ 31)
    (hsz : total / p + 1 < 2 ^ 31) (_hr : r < p) :
    ∃ size : Nat → Nat, Balanced size total p ∧
      (∀ q : Nat, q < p → linearPartitionSize total p q = some (size q : Int)) ∧
      suggestSlices total p r =
        some ((globalOf size r 0 : Int), (globalOf size r (size r) : Int)) := by
  refine ⟨linSize total p, ?_, fun q _ => linearPartitionSize_eq total p q hp hp' hsz, ?_⟩
  · obtain ⟨size, b, hs⟩ := C07_partition_sizes total p hp hp' hsz
    refine ⟨?_, ?_⟩
    · rw [linSize_prefix]
      have := Nat.div_add_mod total p
      have := Nat.mod_lt total hp
      omega
    · intro r r' _ _; unfold linSize; split <;> split <;> omega
  · unfold suggestSlices
    simp only [cdiv_nat total p hp, cmod_nat total p hp, Option.bind_eq_bind, Option.bind_some]
    unfold globalOf
    rw [linSize_prefix]
    unfold linSize
    generalize total / p = q
    generalize total % p = m
    by_cases h : r < m
    · rw [if_pos (by exact_mod_cast h), if_pos h, Nat.min_eq_left (by omega)]
      simp only [Option.pure_def, Option.some.injEq, Prod.mk.injEq]
      push_cast
      rw [Int.mul_comm (q : Int) r]
      omega
    · rw [if_neg (by exact_mod_cast h), if_neg h, Nat.min_eq_right (by omega)]
      simp only [Option.pure_def, Option.some.injEq, Prod.mk.injEq]
      push_cast
      rw [Int.mul_comm (q : Int) r]
      omega

/-- The slices tile `[0,total)`: the first begins at 0, each begins where the previous one ends, the
last ends at the total, and lengths differ by at most one. No bound on the sizes is needed. -/
theorem C08_slices_tile (total p : Nat) (hp : 0 < p) :
    ∃ b e : Nat → Int,
      (∀ r : Nat, r < p → suggestSlices total p r = some (b r, e r)) ∧
      b 0 = 0 ∧ (∀ r, r + 1 < p → e r = b (r + 1)) ∧ e (p - 1) = total ∧
      (∀ r, r < p → b r ≤ e r) ∧
      ∀ r r', r < p → r' < p → e r - b r ≤ e r' - b r' + 1 := by
  have hm := Nat.mod_lt total hp
  have hdm := Nat.div_add_mod total p
  refine ⟨fun r => (r * (total / p) + min r (total % p) : Nat),
    fun r => ((r + 1) * (total / p) + min (r + 1) (total % p) : Nat), ?_, ?_, ?_, ?_, ?_, ?_⟩
  · intro r hr
    unfold suggestSlices
    simp only [cdiv_nat total p hp, cmod_nat total p hp, Option.bind_eq_bind, Option.bind_some]
    generalize total / p = q
    generalize total % p = m
    rw [Nat.add_mul, Nat.one_mul]
    by_cases h : r < m
    · rw [if_pos (by exact_mod_cast h), Nat.min_eq_left (by omega), Nat.min_eq_left (by omega)]
      simp only [Option.pure_def, Option.some.injEq, Prod.mk.injEq]
      push_cast
      rw [Int.mul_comm (q : Int) r]
      omega
    · rw [if_neg (by exact_mod_cast h), Nat.min_eq_right (by omega), Nat.min_eq_right (by omega)]
      simp only [Option.pure_def, Option.some.injEq, Prod.mk.injEq]
      push_cast
      rw [Int.mul_comm (q : Int) r]
      omega
  · simp
  · intro r _; rfl
  · simp only
    rw [show p - 1 + 1 = p by omega]
    generalize hx : p * (total / p) = x at *
    omega
  · intro r _
    simp only
    generalize total / p = q
    generalize total % p = m
    rw [Nat.add_mul, Nat.one_mul]
    omega
  · intro r r' _ _
    simp only
    generalize total / p = q
    generalize total % p = m
    rw [Nat.add_mul, Nat.one_mul, Nat.add_mul, Nat.one_mul]
    omega

/-! Non-vacuity: ten items on four ranks. -/
example : [0, 1, 2, 3].map (suggestSlices 10 4) =
    [some (0, 3), some (3, 6), some (6, 8), some (8, 10)] := by decide +kernel

end OmegaH
