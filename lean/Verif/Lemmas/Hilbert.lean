import Verif.Model.Hilbert
import Verif.Spec.Hilbert
import Mathlib.Data.List.Induction
import Mathlib.Tactic.Ring
/-!
# Lemmas about the Hilbert transform
-/
namespace OmegaH
open Spec

/-! ## Loop bounds -/

/-- The powers of two `2, 4, …, 2^(b-1)`. -/
def pows (b : Nat) : List Nat := (List.range' 1 (b - 1)).map (2 ^ ·)

theorem qs_tables : ∀ b : Nat, b < 65 → 1 ≤ b →
    ((shl64 2 ((b : Int) - 1)).bind (fun N => qsUp N 65 2) = some (pows b)) ∧
    ((shl64 1 ((b : Int) - 1)).bind (fun M => qsDown 65 M) = some (pows b).reverse) := by
  decide +kernel

/-! ## Reversible loops -/

/-- `f` is a total self-inverse operation on the states satisfying `I`. -/
def Invol {σ ι : Type} (I : σ → Prop) (f : σ → ι → Option σ) (L : List ι) : Prop :=
  ∀ x i, i ∈ L → I x → ∃ y, f x i = some y ∧ I y ∧ f y i = some x

theorem foldlM_reverse {σ ι : Type} {I : σ → Prop} {f : σ → ι → Option σ} :
    ∀ (L : List ι), Invol I f L → ∀ x, I x →
      ∃ y, L.foldlM f x = some y ∧ I y ∧ L.reverse.foldlM f y = some x := by
  intro L
  induction L with
  | nil => intro _ x hx; exact ⟨x, rfl, hx, rfl⟩
  | cons a L ih =>
    intro h x hx
    obtain ⟨y, e1, e2, e3⟩ := h x a (by simp) hx
    obtain ⟨z, g1, g2, g3⟩ := ih (fun x i hi hx => h x i (by simp [hi]) hx) y e2
    refine ⟨z, ?_, g2, ?_⟩
    · rw [List.foldlM_cons, e1]; exact g1
    · rw [List.reverse_cons, List.foldlM_append, g3]
      simp [e3]

theorem xor_xor_cancel (a b : Nat) : a ^^^ b ^^^ b = a := by
  rw [Nat.xor_assoc, Nat.xor_self, Nat.xor_zero]

theorem set_set_eq {α : Type} (X : List α) (i : Nat) (a b : α) (h : X[i]? = some a) :
    (X.set i b).set i a = X := by
  rw [List.set_set]
  apply List.ext_getElem?
  intro j
  rw [List.getElem?_set]
  split
  · rename_i hj
    subst hj
    split
    · exact h.symm
    · rename_i hl
      rw [List.getElem?_eq_none (by omega)] at h
      exact absurd h (by simp)
  · rfl

theorem and_pow_eq (x k : Nat) : (x &&& 2 ^ k ≠ 0) ↔ x.testBit k = true := by
  constructor
  · intro h
    obtain ⟨j, hj⟩ := Nat.exists_testBit_of_ne_zero h
    rw [Nat.testBit_and, Nat.testBit_two_pow, Bool.and_eq_true, decide_eq_true_eq] at hj
    obtain ⟨h1, rfl⟩ := hj
    exact h1
  · intro h h0
    have := congrArg (fun y => y.testBit k) h0
    simp [Nat.testBit_and, h] at this

theorem cell_set {n b : Nat} {X : List Nat} (h : Cell n b X) {v : Nat} (hv : v < 2 ^ b) (i : Nat) :
    Cell n b (X.set i v) := by
  refine ⟨by simpa using h.1, ?_⟩
  intro x hx
  rcases List.mem_or_eq_of_mem_set hx with h' | rfl
  · exact h.2 x h'
  · exact hv

theorem hilbertStep_invol (n b : Nat) (L : List (Nat × Nat))
    (hL : ∀ q ∈ L, ∃ k, q.1 = 2 ^ k ∧ k < b ∧ q.2 < n) : Invol (Cell n b) hilbertStep L := by
  intro X q hq hX
  obtain ⟨k, hk, hkb, hi⟩ := hL q hq
  obtain ⟨Q, i⟩ := q
  simp only at hk hi
  subst hk
  have hlen := hX.1
  have e0 := List.getElem?_eq_getElem (l := X) (i := 0) (by omega)
  have hi' : i < X.length := by omega
  have ei := List.getElem?_eq_getElem hi'
  have hx0 := hX.2 _ (List.mem_of_getElem? e0)
  have hxi := hX.2 _ (List.mem_of_getElem? ei)
  generalize X[0] = x0 at *
  generalize X[i] = xi at *
  have hP : 2 ^ k - 1 < 2 ^ b := by
    have := Nat.pow_lt_pow_right (a := 2) (by omega) hkb
    omega
  unfold hilbertStep
  simp only [e0, ei, Option.bind_some]
  by_cases hb : xi &&& 2 ^ k ≠ 0
  · rw [if_pos hb]
    refine ⟨_, rfl, cell_set hX (Nat.xor_lt_two_pow hx0 hP) 0, ?_⟩
    have g0 : (X.set 0 (x0 ^^^ (2 ^ k - 1)))[0]? = some (x0 ^^^ (2 ^ k - 1)) := by
      rw [List.getElem?_set_self (by omega)]
    rw [g0, Option.bind_some]
    by_cases h0 : i = 0
    · subst h0
      have hxx : x0 = xi := Option.some.inj (e0.symm.trans ei)
      subst hxx
      rw [g0, Option.bind_some, if_pos, xor_xor_cancel, set_set_eq _ _ _ _ e0]
      rw [and_pow_eq] at hb ⊢
      rw [Nat.testBit_xor, hb, Nat.testBit_two_pow_sub_one]
      simp
    · rw [List.getElem?_set_ne (by omega), ei, Option.bind_some, if_pos hb, xor_xor_cancel,
        set_set_eq _ _ _ _ e0]
  · rw [if_neg hb]
    by_cases h0 : i = 0
    · subst h0
      have hxx : x0 = xi := Option.some.inj (e0.symm.trans ei)
      subst hxx
      have hid : X.set 0 x0 = X := by
        have := set_set_eq X 0 x0 x0 e0
        rwa [List.set_set] at this
      simp only [Nat.xor_self, Nat.zero_and, Nat.xor_zero, hid, e0, Option.bind_some]
      refine ⟨X, rfl, hX, ?_⟩
      simp only [e0, Option.bind_some, if_neg hb, Nat.xor_self, Nat.zero_and, Nat.xor_zero, hid]
    · have ht : (x0 ^^^ xi) &&& (2 ^ k - 1) < 2 ^ b := Nat.and_lt_two_pow _ hP
      have htk : ((x0 ^^^ xi) &&& (2 ^ k - 1)).testBit k = false := by
        rw [Nat.testBit_and, Nat.testBit_two_pow_sub_one]; simp
      generalize htt : (x0 ^^^ xi) &&& (2 ^ k - 1) = t at *
      have gi : (X.set 0 (x0 ^^^ t))[i]? = some xi := by rw [List.getElem?_set_ne (by omega), ei]
      rw [gi, Option.bind_some]
      refine ⟨_, rfl, cell_set (cell_set hX (Nat.xor_lt_two_pow hx0 ht) 0) (Nat.xor_lt_two_pow hxi ht) i, ?_⟩
      have a0 : ((X.set 0 (x0 ^^^ t)).set i (xi ^^^ t))[0]? = some (x0 ^^^ t) := by
        rw [List.getElem?_set_ne h0, List.getElem?_set_self (by omega)]
      have a1 : ((X.set 0 (x0 ^^^ t)).set i (xi ^^^ t))[i]? = some (xi ^^^ t) := by
        rw [List.getElem?_set_self (by simpa using hi')]
      have a2 : (x0 ^^^ t) ^^^ (xi ^^^ t) = x0 ^^^ xi := by
        rw [Nat.xor_comm xi t, Nat.xor_assoc, ← Nat.xor_assoc t t xi, Nat.xor_self, Nat.zero_xor]
      rw [a0, Option.bind_some, a1, Option.bind_some, if_neg, a2, htt, xor_xor_cancel]
      · have a3 : (((X.set 0 (x0 ^^^ t)).set i (xi ^^^ t)).set 0 x0)[i]? = some (xi ^^^ t) := by
          rw [List.getElem?_set_ne (by omega), a1]
        rw [a3, Option.bind_some, xor_xor_cancel]
        congr 1
        rw [List.set_comm _ _ (by omega), List.set_set, List.set_comm _ _ (by omega),
          set_set_eq _ _ _ _ e0]
        have := set_set_eq X i xi xi ei
        rwa [List.set_set] at this
      · rw [and_pow_eq] at hb ⊢
        rw [Nat.testBit_xor, htk]
        simpa using hb

theorem xorPrev_invol (n b : Nat) (L : List Nat) (hL : ∀ i ∈ L, 0 < i ∧ i < n) :
    Invol (Cell n b) xorPrev L := by
  intro X i hi hX
  obtain ⟨h0, h1⟩ := hL i hi
  have hi' : i < X.length := by rw [hX.1]; exact h1
  have hp' : i - 1 < X.length := by omega
  have ei := List.getElem?_eq_getElem hi'
  have ep := List.getElem?_eq_getElem hp'
  have hxi := hX.2 _ (List.mem_of_getElem? ei)
  have hxp := hX.2 _ (List.mem_of_getElem? ep)
  generalize X[i] = xi at *
  generalize X[i - 1] = xp at *
  unfold xorPrev
  simp only [if_neg (show i ≠ 0 by omega), ei, ep, Option.bind_some]
  refine ⟨_, rfl, cell_set hX (Nat.xor_lt_two_pow hxi hxp) i, ?_⟩
  rw [List.getElem?_set_self hi', Option.bind_some, List.getElem?_set_ne (by omega), ep,
    Option.bind_some, xor_xor_cancel, set_set_eq _ _ _ _ ei]

/-! ## Gray code -/

/-- Xor `t` into the first `j` entries. -/
def xorFirst (j t : Nat) (X : List Nat) : List Nat := X.mapIdx (fun i x => if i < j then x ^^^ t else x)

theorem xorFirst_get (j t : Nat) (X : List Nat) (i : Nat) :
    (xorFirst j t X)[i]? = X[i]?.map (fun x => if i < j then x ^^^ t else x) := by
  unfold xorFirst; rw [List.getElem?_mapIdx]

theorem xorFirst_length (j t : Nat) (X : List Nat) : (xorFirst j t X).length = X.length := by
  simp [xorFirst]

theorem xorFirst_cell {n b j t : Nat} {X : List Nat} (h : Cell n b X) (ht : t < 2 ^ b) :
    Cell n b (xorFirst j t X) := by
  refine ⟨by rw [xorFirst_length, h.1], ?_⟩
  intro x hx
  obtain ⟨i, hi⟩ := List.mem_iff_getElem?.1 hx
  rw [xorFirst_get] at hi
  obtain ⟨y, hy, rfl⟩ := Option.map_eq_some_iff.1 hi
  have := h.2 y (List.mem_of_getElem? hy)
  split
  · exact Nat.xor_lt_two_pow this ht
  · exact this

theorem xorFirst_twice (j t : Nat) (X : List Nat) : xorFirst j t (xorFirst j t X) = X := by
  apply List.ext_getElem?
  intro i
  rw [xorFirst_get, xorFirst_get, Option.map_map]
  cases X[i]? with
  | none => rfl
  | some x =>
    simp only [Option.map_some, Function.comp]
    split
    · rw [xor_xor_cancel]
    · rfl

theorem xorFirst_all (t : Nat) (X : List Nat) : xorFirst X.length t X = X.map (fun x => x ^^^ t) := by
  apply List.ext_getElem?
  intro i
  rw [xorFirst_get, List.getElem?_map]
  by_cases h : i < X.length
  · simp [h]
  · rw [List.getElem?_eq_none (by omega)]; rfl

theorem xorFirst_one (t x : Nat) (X : List Nat) (h : X[0]? = some x) :
    xorFirst 1 t X = X.set 0 (x ^^^ t) := by
  apply List.ext_getElem?
  intro i
  have hl := (List.getElem?_eq_some_iff.1 h).1
  rw [xorFirst_get, List.getElem?_set]
  by_cases h0 : i = 0
  · subst h0
    rw [h]; simp [hl]
  · rw [if_neg (by omega)]
    cases X[i]? with
    | none => rfl
    | some y => simp [h0]

theorem xorPrev_xorFirst (t j : Nat) (hj : 0 < j) (X Y : List Nat) (h : xorPrev X j = some Y) :
    xorPrev (xorFirst (j + 1) t X) j = some (xorFirst j t Y) := by
  unfold xorPrev at h ⊢
  rw [if_neg (by omega)] at h ⊢
  cases h1 : X[j]? with
  | none => simp [h1] at h
  | some x =>
    cases h2 : X[j - 1]? with
    | none => simp [h1, h2] at h
    | some y =>
      simp only [h1, h2, Option.bind_some, Option.some.injEq] at h
      subst h
      simp only [xorFirst_get, h1, h2, Option.map_some, Option.bind_some,
        if_pos (show j < j + 1 by omega), if_pos (show j - 1 < j + 1 by omega), Option.some.injEq]
      have e : x ^^^ t ^^^ (y ^^^ t) = x ^^^ y := by
        rw [Nat.xor_comm y t, Nat.xor_assoc, ← Nat.xor_assoc t t y, Nat.xor_self, Nat.zero_xor]
      rw [e]
      have hl := (List.getElem?_eq_some_iff.1 h1).1
      apply List.ext_getElem?
      intro i
      rw [List.getElem?_set, xorFirst_get, xorFirst_get, List.getElem?_set, xorFirst_length]
      by_cases hij : j = i
      · subst hij
        simp [hl]
      · rw [if_neg hij, if_neg hij]
        have : (i < j + 1) = (i < j) := by simp only [eq_iff_iff]; omega
        simp only [this]

/-- Undoing the prefix sums after all entries were changed by `t` leaves `t` in entry 0 only. -/
theorem undo_prefix_xorFirst (t : Nat) : ∀ (m : Nat) (X Y : List Nat),
    (List.range' 1 m).reverse.foldlM xorPrev X = some Y →
    (List.range' 1 m).reverse.foldlM xorPrev (xorFirst (m + 1) t X) = some (xorFirst 1 t Y) := by
  intro m
  induction m with
  | zero => intro X Y h; simp at h; subst h; rfl
  | succ m ih =>
    intro X Y h
    rw [List.range'_1_concat, List.reverse_append] at h ⊢
    simp only [List.reverse_cons, List.reverse_nil, List.nil_append, List.singleton_append,
      List.foldlM_cons] at h ⊢
    cases hx : xorPrev X (1 + m) with
    | none => rw [hx] at h; exact absurd h (by simp)
    | some Z =>
      rw [hx] at h
      have := xorPrev_xorFirst t (1 + m) (by omega) X Z hx
      rw [show m + 1 + 1 = 1 + m + 1 by omega, this]
      rw [show 1 + m = m + 1 by omega]
      exact ih Z Y h

theorem grayT_append (z : Nat) (q : Nat) (L : List Nat) (t0 : Nat) :
    L.foldl (fun t q => if z &&& q ≠ 0 then t ^^^ (q - 1) else t) (t0 ^^^ q) =
    L.foldl (fun t q => if z &&& q ≠ 0 then t ^^^ (q - 1) else t) t0 ^^^ q := by
  induction L generalizing t0 with
  | nil => rfl
  | cons a L ih =>
    simp only [List.foldl_cons]
    split
    · rw [Nat.xor_assoc, Nat.xor_comm q, ← Nat.xor_assoc, ih]
    · rw [ih]

theorem grayT_succ (z b : Nat) (hb : 0 < b) :
    grayT z (pows (b + 1)).reverse =
      grayT z (pows b).reverse ^^^ (if z.testBit b then 2 ^ b - 1 else 0) := by
  have : (pows (b + 1)).reverse = 2 ^ b :: (pows b).reverse := by
    unfold pows
    rw [show b + 1 - 1 = (b - 1) + 1 by omega, List.range'_1_concat, List.map_append, List.reverse_append]
    simp only [List.map_cons, List.map_nil, List.reverse_cons, List.reverse_nil, List.nil_append,
      List.singleton_append]
    rw [show 1 + (b - 1) = b by omega]
  rw [this]
  unfold grayT
  rw [List.foldl_cons]
  by_cases h : z.testBit b
  · rw [if_pos ((and_pow_eq z b).2 h), if_pos h, grayT_append]
  · rw [if_neg (fun h' => h ((and_pow_eq z b).1 h')), if_neg h, Nat.xor_zero]

/-- Bit `j` of the Gray correction, by recursion from above. -/
theorem grayT_bit (z : Nat) : ∀ (b : Nat), 0 < b → ∀ j,
    (grayT z (pows b).reverse).testBit j =
      ((z.testBit (j + 1) && decide (j + 1 < b)) ^^ (grayT z (pows b).reverse).testBit (j + 1)) ∧
    (b ≤ j + 1 → (grayT z (pows b).reverse).testBit j = false) := by
  intro b hb
  induction b with
  | zero => omega
  | succ b ih =>
    intro j
    by_cases h0 : b = 0
    · subst h0
      have : grayT z (pows 1).reverse = 0 := rfl
      rw [this]; simp
    · have ih0 := fun j => ih (by omega) j
      have hbit : ∀ j, (if z.testBit b then 2 ^ b - 1 else 0).testBit j =
          (z.testBit b && decide (j < b)) := by
        intro j
        cases z.testBit b
        · simp
        · simp [Nat.testBit_two_pow_sub_one]
      rw [grayT_succ z b (by omega)]
      simp only [Nat.testBit_xor, hbit]
      constructor
      · rw [(ih0 j).1]
        rcases Nat.lt_trichotomy (j + 1) b with h | h | h
        · simp [h, show j < b by omega, show j + 1 < b + 1 by omega]
        · subst h
          simp
          rw [Bool.xor_comm]
        · simp [show ¬ j < b by omega, show ¬ j + 1 < b by omega, show ¬ (j + 1 < b + 1) by omega]
      · intro h
        rw [(ih0 j).2 (by omega)]
        simp [show ¬ j < b by omega]

theorem grayT_lt (z b : Nat) (hb : 0 < b) : grayT z (pows b).reverse < 2 ^ b := by
  apply Nat.lt_pow_two_of_testBit
  intro i hi
  exact ((grayT_bit z b hb i).2 (by omega))

theorem half_testBit (x j : Nat) : (x / 2).testBit j = x.testBit (j + 1) := by
  rw [Nat.testBit_succ]

/-- The decoder's `t` equals the encoder's. -/
theorem gray_decode (z b : Nat) (hb : 0 < b) (hz : z < 2 ^ b) :
    (z ^^^ grayT z (pows b).reverse) / 2 = grayT z (pows b).reverse := by
  apply Nat.eq_of_testBit_eq
  intro j
  rw [half_testBit, Nat.testBit_xor, (grayT_bit z b hb j).1]
  by_cases h : j + 1 < b
  · simp [h]
  · have : z.testBit (j + 1) = false := Nat.testBit_lt_two_pow
      (Nat.lt_of_lt_of_le hz (Nat.pow_le_pow_right (by omega) (by omega)))
    simp [h, this]

/-- The encoder's `t` equals the decoder's. -/
theorem gray_encode (y b : Nat) (hb : 0 < b) (hy : y < 2 ^ b) :
    grayT (y ^^^ y / 2) (pows b).reverse = y / 2 := by
  have hz : y ^^^ y / 2 < 2 ^ b := Nat.xor_lt_two_pow hy (by omega)
  apply Nat.eq_of_testBit_eq
  -- both vanish above `b` and satisfy the same recursion downwards
  have key : ∀ d j, j + d = b → (grayT (y ^^^ y / 2) (pows b).reverse).testBit j = (y / 2).testBit j := by
    intro d
    induction d with
    | zero =>
      intro j hj
      rw [(grayT_bit _ b hb j).2 (by omega), half_testBit]
      symm
      exact Nat.testBit_lt_two_pow (Nat.lt_of_lt_of_le hy (Nat.pow_le_pow_right (by omega) (by omega)))
    | succ d ih =>
      intro j hj
      rw [(grayT_bit _ b hb j).1, ih (j + 1) (by omega)]
      simp only [half_testBit, Nat.testBit_xor]
      by_cases h : j + 1 < b
      · simp [h]
      · have e1 : y.testBit (j + 1) = false := Nat.testBit_lt_two_pow
          (Nat.lt_of_lt_of_le hy (Nat.pow_le_pow_right (by omega) (by omega)))
        have e2 : y.testBit (j + 1 + 1) = false := Nat.testBit_lt_two_pow
          (Nat.lt_of_lt_of_le hy (Nat.pow_le_pow_right (by omega) (by omega)))
        rw [e1, e2]; simp
  intro j
  by_cases h : j ≤ b
  · exact key (b - j) j (by omega)
  · rw [(grayT_bit _ b hb j).2 (by omega), half_testBit]
    symm
    exact Nat.testBit_lt_two_pow (Nat.lt_of_lt_of_le hy (Nat.pow_le_pow_right (by omega) (by omega)))

end OmegaH
