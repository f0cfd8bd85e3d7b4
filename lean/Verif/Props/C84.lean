import Verif.Model.Laplace
import Mathlib.Algebra.Order.Field.Basic
import Mathlib.Algebra.Order.Field.Rat
import Mathlib.Data.Nat.Cast.Basic
import Mathlib.Data.Nat.Cast.Order.Ring
import Mathlib.Tactic.Linarith
import Mathlib.Tactic.Ring
import Mathlib.Data.Fin.VecNotation

namespace OmegaH

section
variable {K : Type} [Field K] {n : Nat}

omit [Field K] in
theorem mapM_some (f : Fin n → Option K) (g : Fin n → K) (h : ∀ v, f v = some (g v))
    (l : List (Fin n)) : l.mapM f = some (l.map g) := by
  induction l with
  | nil => rfl
  | cons a as ih => rw [List.mapM_cons, h a, ih]; rfl

theorem foldl_sum (l : List K) (s : K) : l.foldl (fun s x => s + x * 1) s = s + l.sum := by
  induction l generalizing s with
  | nil => rw [List.foldl_nil, List.sum_nil, add_zero]
  | cons a as ih => rw [List.foldl_cons, ih, List.sum_cons]; ring

theorem foldl_count (l : List (Fin n)) (s : K) :
    l.foldl (fun s _ => s + 1) s = s + (l.length : K) := by
  induction l generalizing s with
  | nil => rw [List.foldl_nil, List.length_nil, Nat.cast_zero, add_zero]
  | cons a as ih => rw [List.foldl_cons, ih, List.length_cons, Nat.cast_add, Nat.cast_one]; ring

theorem starAverage_some (f : Fin n → Option K) (g : Fin n → K) (h : ∀ v, f v = some (g v))
    (l : List (Fin n)) (hl : l ≠ []) :
    starAverage f l = some ((l.map g).sum / (l.length : K)) := by
  unfold starAverage
  rw [mapM_some f g h l, Option.bind_some, if_neg fun e => hl (List.length_eq_zero_iff.1 e),
    foldl_sum, foldl_count, zero_add, zero_add]

omit [Field K] in
theorem closeSpec (close : K → K → Bool) (a b : Fin n → Option K)
    (h : statesClose close a b = true) (v : Fin n) :
    ∃ x y, a v = some x ∧ b v = some y ∧ close x y = true := by
  have := List.all_eq_true.1 h v (List.mem_finRange v)
  cases ha : a v with
  | none => rw [ha] at this; cases hb : b v <;> rw [hb] at this <;> cases this
  | some x =>
    cases hb : b v with
    | none => rw [ha, hb] at this; cases this
    | some y => rw [ha, hb] at this; exact ⟨x, y, rfl, rfl, this⟩

theorem round_nbrs (star : Fin n → List (Fin n)) (interior : Fin n → Bool) (initial : Fin n → K)
    (state : Fin n → Option K) (v : Fin n) (hi : interior v = true) (x : K)
    (h : laplaceRound star interior initial state v = some x) : star v ≠ [] := by
  intro e
  unfold laplaceRound starAverage at h
  rw [if_pos hi, e] at h
  cases h

/-- What holds of a state and is kept by every round holds of the result, which is a round of a
state close to it. -/
theorem loop_spec (close : K → K → Bool) (star : Fin n → List (Fin n)) (interior : Fin n → Bool)
    (initial : Fin n → K) (P : (Fin n → Option K) → Prop)
    (hP : ∀ s, P s → P (laplaceRound star interior initial s)) (out : Fin n → Option K) :
    ∀ rounds s, P s → laplaceLoop close star interior initial rounds s = some out →
      ∃ s', P s' ∧ out = laplaceRound star interior initial s' ∧ statesClose close s' out = true := by
  intro rounds
  induction rounds with
  | zero => intro s _ h; cases h
  | succ r ih =>
    intro s hs h
    rw [laplaceLoop] at h
    split at h
    · rename_i hc
      cases h
      exact ⟨s, hs, rfl, hc⟩
    · exact ih _ (hP s hs) h

/-- If the averaging ends, the values on the boundary are those given, and every other value is the
average of numbers at its neighbours each of which is close to the result there. -/
theorem C84_harmonic (close : K → K → Bool) (star : Fin n → List (Fin n)) (interior : Fin n → Bool)
    (initial : Fin n → K) (rounds : Nat) (out : Fin n → Option K)
    (h : solveLaplacian close star interior initial rounds = some out) :
    ∃ res before : Fin n → K, (∀ v, out v = some (res v)) ∧
      (∀ v, close (before v) (res v) = true) ∧
      ∀ v, (interior v = false → res v = initial v) ∧
        (interior v = true → star v ≠ [] ∧
          res v = ((star v).map before).sum / ((star v).length : K)) := by
  obtain ⟨s, _, e, hc⟩ := loop_spec close star interior initial (fun _ => True)
    (fun _ _ => trivial) out rounds _ trivial h
  have hx := closeSpec close s out hc
  choose before res h1 h2 h3 using hx
  refine ⟨res, before, h2, h3, fun v => ⟨fun hi => ?_, fun hi => ?_⟩⟩
  · have := h2 v
    rw [e, laplaceRound, hi] at this
    exact (Option.some.inj this).symm
  · have hv := h2 v
    rw [e] at hv
    have hne := round_nbrs star interior initial s v hi _ hv
    refine ⟨hne, ?_⟩
    rw [laplaceRound, if_pos hi, starAverage_some s before h1 _ hne] at hv
    exact (Option.some.inj hv).symm

/-- As long as there is a vertex off the boundary without neighbours, the averaging does not end. -/
theorem C84_isolated (close : K → K → Bool) (star : Fin n → List (Fin n)) (interior : Fin n → Bool)
    (initial : Fin n → K) (rounds : Nat) (v : Fin n) (hi : interior v = true) (hs : star v = []) :
    solveLaplacian close star interior initial rounds = none := by
  cases h : solveLaplacian close star interior initial rounds with
  | none => rfl
  | some out =>
    obtain ⟨_, _, _, _, h4⟩ := C84_harmonic close star interior initial rounds out h
    exact absurd hs ((h4 v).2 hi).1

/-- Values that are the average of their neighbours everywhere off the boundary are given back after
one round. -/
theorem C84_fixed (close : K → K → Bool) (hcl : ∀ x, close x x = true)
    (star : Fin n → List (Fin n)) (interior : Fin n → Bool) (initial : Fin n → K) (rounds : Nat)
    (hr : 1 ≤ rounds) (hh : ∀ v, interior v = true → star v ≠ [] ∧
      initial v = ((star v).map initial).sum / ((star v).length : K)) :
    solveLaplacian close star interior initial rounds = some fun v => some (initial v) := by
  obtain ⟨r, rfl⟩ : ∃ r, rounds = r + 1 := ⟨rounds - 1, by omega⟩
  have e : (laplaceRound star interior initial fun v => some (initial v)) =
      fun v => some (initial v) := by
    funext v
    unfold laplaceRound
    by_cases hi : interior v = true
    · rw [if_pos hi, starAverage_some _ initial (fun _ => rfl) _ (hh v hi).1, ← (hh v hi).2]
    · rw [if_neg hi]
  unfold solveLaplacian
  rw [laplaceLoop, e]
  rw [if_pos]
  exact List.all_eq_true.2 fun v _ => hcl _
end

section
variable {K : Type} [Field K] [LinearOrder K] [IsStrictOrderedRing K] {n : Nat}

/-- No value of the result is below all values given or above all of them. -/
theorem C84_bounds (close : K → K → Bool) (star : Fin n → List (Fin n)) (interior : Fin n → Bool)
    (initial : Fin n → K) (rounds : Nat) (out : Fin n → Option K)
    (h : solveLaplacian close star interior initial rounds = some out) (lo hi : K)
    (hb : ∀ v, lo ≤ initial v ∧ initial v ≤ hi) :
    ∀ v, ∃ x, out v = some x ∧ lo ≤ x ∧ x ≤ hi := by
  obtain ⟨res, _, hres, _, hstr⟩ := C84_harmonic close star interior initial rounds out h
  have hstar : ∀ v, interior v = true → star v ≠ [] := fun v hi' => ((hstr v).2 hi').1
  have hsum : ∀ (g : Fin n → K), (∀ v, lo ≤ g v ∧ g v ≤ hi) → ∀ l : List (Fin n),
      lo * (l.length : K) ≤ (l.map g).sum ∧ (l.map g).sum ≤ hi * (l.length : K) := by
    intro g hg l
    induction l with
    | nil => rw [List.map_nil, List.sum_nil, List.length_nil, Nat.cast_zero, mul_zero, mul_zero]
             exact ⟨le_refl _, le_refl _⟩
    | cons a as ih =>
      rw [List.map_cons, List.sum_cons, List.length_cons, Nat.cast_add, Nat.cast_one, mul_add,
        mul_add, mul_one, mul_one]
      exact ⟨by linarith [(hg a).1, ih.1], by linarith [(hg a).2, ih.2]⟩
  have hP : ∀ s : Fin n → Option K, (∀ v, ∃ x, s v = some x ∧ lo ≤ x ∧ x ≤ hi) →
      ∀ v, ∃ x, laplaceRound star interior initial s v = some x ∧ lo ≤ x ∧ x ≤ hi := by
    intro s hs v
    choose g hg using hs
    unfold laplaceRound
    by_cases hin : interior v = true
    · rw [if_pos hin, starAverage_some s g (fun v => (hg v).1) _ (hstar v hin)]
      have hpos : (0 : K) < ((star v).length : K) :=
        Nat.cast_pos.2 (List.length_pos_iff.2 (hstar v hin))
      obtain ⟨a, b⟩ := hsum g (fun v => (hg v).2) (star v)
      exact ⟨_, rfl, (le_div_iff₀ hpos).2 a, (div_le_iff₀ hpos).2 b⟩
    · rw [if_neg hin]
      exact ⟨_, rfl, hb v⟩
  obtain ⟨s, hs, e, _⟩ := loop_spec close star interior initial
    (fun s => ∀ v, ∃ x, s v = some x ∧ lo ≤ x ∧ x ≤ hi) hP out rounds _
    (fun v => ⟨_, rfl, hb v⟩) h
  rw [e]
  exact hP s hs
end

/-! ### The hypotheses are met -/

/-- A chain of three vertices, the middle one off the boundary. -/
def chainStar : Fin 3 → List (Fin 3) := ![[1], [0, 2], [1]]
def chainInterior : Fin 3 → Bool := ![false, true, false]
def chainInitial : Fin 3 → ℚ := ![0, 7, 10]
def closeTenth (a b : ℚ) : Bool := decide (a - b ≤ 1 / 10) && decide (b - a ≤ 1 / 10)

example : (solveLaplacian closeTenth chainStar chainInterior chainInitial 5).map
    (fun out => [out 0, out 1, out 2]) = some [some 0, some 5, some 10] := by decide +kernel
example : (solveLaplacian closeTenth chainStar chainInterior chainInitial 1).isNone = true := by
  decide +kernel
example : ∀ v, chainInterior v = true → chainStar v ≠ [] ∧
    (![0, 5, 10] : Fin 3 → ℚ) v = ((chainStar v).map ![0, 5, 10]).sum / ((chainStar v).length : ℚ) := by
  decide +kernel
example : ∀ v, (0 : ℚ) ≤ chainInitial v ∧ chainInitial v ≤ 10 := by decide +kernel

end OmegaH
