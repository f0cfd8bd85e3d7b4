import Verif.Lemmas.Hilbert
/-!
# C15 — the Hilbert ordering is a bijection between grid cells and keys
-/
namespace OmegaH
open Spec

theorem pows_mem {b q : Nat} (h : q ∈ pows b) : ∃ k, q = 2 ^ k ∧ k < b := by
  unfold pows at h
  obtain ⟨k, hk, rfl⟩ := List.mem_map.1 h
  have := List.mem_range'_1.1 hk
  exact ⟨k, rfl, by omega⟩

theorem flatMap_pairs_reverse (qs : List Nat) (n : Nat) :
    (qs.reverse.flatMap (fun q => (List.range n).map (fun i => (q, i)))).reverse =
      qs.flatMap (fun q => (List.range n).reverse.map (fun i => (q, i))) := by
  induction qs with
  | nil => rfl
  | cons q qs ih =>
    rw [List.reverse_cons, List.flatMap_append, List.reverse_append, ih]
    simp

theorem steps_ok (n b : Nat) (qs : List Nat) (h : ∀ q ∈ qs, ∃ k, q = 2 ^ k ∧ k < b) :
    ∀ q ∈ qs.flatMap (fun q => (List.range n).map (fun i => (q, i))),
      ∃ k, q.1 = 2 ^ k ∧ k < b ∧ q.2 < n := by
  intro q hq
  obtain ⟨a, ha, hm⟩ := List.mem_flatMap.1 hq
  obtain ⟨i, hi, rfl⟩ := List.mem_map.1 hm
  obtain ⟨k, e, hk⟩ := h a ha
  exact ⟨k, e, hk, List.mem_range.1 hi⟩

theorem range_ok (n : Nat) : ∀ i ∈ List.range' 1 (n - 1), 0 < i ∧ i < n := by
  intro i hi
  have := List.mem_range'_1.1 hi
  omega

theorem last_get {n b : Nat} (hn : 0 < n) {X : List Nat} (hX : Cell n b X) :
    ∃ z, X[n - 1]? = some z ∧ z < 2 ^ b := by
  have : n - 1 < X.length := by rw [hX.1]; omega
  have e := List.getElem?_eq_getElem this
  exact ⟨_, e, hX.2 _ (List.mem_of_getElem? e)⟩

/-- Converting a cell to Hilbert form and back gives the cell. -/
theorem C15_axes_to_transpose_and_back (n b : Nat) (hn : 0 < n) (hb : 1 ≤ b) (hb' : b ≤ 64)
    (X : List Nat) (hX : Cell n b X) :
    ∃ Y, axesToTranspose X b = some Y ∧ Cell n b Y ∧ transposeToAxes Y b = some X := by
  obtain ⟨q1, q2⟩ := qs_tables b (by omega) hb
  obtain ⟨N, n1, n2⟩ := Option.bind_eq_some_iff.1 q1
  obtain ⟨M, m1, m2⟩ := Option.bind_eq_some_iff.1 q2
  have hpw : ∀ q ∈ (pows b).reverse, ∃ k, q = 2 ^ k ∧ k < b := fun q hq =>
    pows_mem (List.mem_reverse.1 hq)
  obtain ⟨A, a1, a2, a3⟩ := foldlM_reverse _
    (hilbertStep_invol n b _ (steps_ok n b _ hpw)) X hX
  obtain ⟨B, b1, b2, b3⟩ := foldlM_reverse _ (xorPrev_invol n b _ (range_ok n)) A a2
  obtain ⟨z, z1, z2⟩ := last_get hn b2
  have hlenB : B.length = n := b2.1
  have hY : axesToTranspose X b = some (xorFirst n (grayT z (pows b).reverse) B) := by
    unfold axesToTranspose
    simp only [Option.bind_eq_bind, hX.1, m1, m2, Option.bind_some, a1, b1, if_pos hn, z1]
    rw [← hlenB, xorFirst_all]; rfl
  have hCY := xorFirst_cell (j := n) b2 (grayT_lt z b (by omega))
  refine ⟨_, hY, hCY, ?_⟩
  have hlast : (xorFirst n (grayT z (pows b).reverse) B)[n - 1]? =
      some (z ^^^ grayT z (pows b).reverse) := by
    rw [xorFirst_get, z1, Option.map_some, if_pos (by omega)]
  have hund := undo_prefix_xorFirst (grayT z (pows b).reverse) (n - 1) B A b3
  rw [show n - 1 + 1 = n by omega] at hund
  unfold transposeToAxes
  have hA0 : 0 < A.length := by rw [a2.1]; exact hn
  have e0 := List.getElem?_eq_getElem hA0
  simp only [Option.bind_eq_bind, hCY.1, n1, n2, Option.bind_some, if_pos hn, hlast,
    gray_decode z b (by omega) z2, hund]
  rw [xorFirst_get, e0, Option.map_some, if_pos (by omega), Option.bind_some, xor_xor_cancel,
    xorFirst_one _ _ _ e0, set_set_eq _ _ _ _ e0, ← flatMap_pairs_reverse, a3]

/-- Converting a Hilbert form to a cell and back gives the Hilbert form. -/
theorem C15_transpose_to_axes_and_back (n b : Nat) (hn : 0 < n) (hb : 1 ≤ b) (hb' : b ≤ 64)
    (Y : List Nat) (hY : Cell n b Y) :
    ∃ X, transposeToAxes Y b = some X ∧ Cell n b X ∧ axesToTranspose X b = some Y := by
  obtain ⟨q1, q2⟩ := qs_tables b (by omega) hb
  obtain ⟨N, n1, n2⟩ := Option.bind_eq_some_iff.1 q1
  obtain ⟨M, m1, m2⟩ := Option.bind_eq_some_iff.1 q2
  have hpw : ∀ q ∈ (pows b).reverse, ∃ k, q = 2 ^ k ∧ k < b := fun q hq =>
    pows_mem (List.mem_reverse.1 hq)
  obtain ⟨y, y1, y2⟩ := last_get hn hY
  have hrev : ∀ i ∈ (List.range' 1 (n - 1)).reverse, 0 < i ∧ i < n := fun i hi =>
    range_ok n i (List.mem_reverse.1 hi)
  have hC := xorFirst_cell (j := n) (t := y / 2) hY (by omega)
  obtain ⟨B, b1, b2, b3⟩ := foldlM_reverse _ (xorPrev_invol n b _ hrev) Y hY
  have hund := undo_prefix_xorFirst (y / 2) (n - 1) Y B b1
  rw [show n - 1 + 1 = n by omega] at hund
  obtain ⟨B', c1, c2, c3⟩ := foldlM_reverse _ (xorPrev_invol n b _ hrev) _ hC
  rw [hund] at c1
  obtain rfl := Option.some.inj c1
  rw [List.reverse_reverse] at c3
  obtain ⟨X, x1, x2, x3⟩ := foldlM_reverse _ (hilbertStep_invol n b _ (by
    intro q hq
    exact steps_ok n b _ hpw q (List.mem_reverse.1 hq))) _ c2
  rw [List.reverse_reverse] at x3
  have hB0 : 0 < B.length := by rw [b2.1]; exact hn
  have e0 := List.getElem?_eq_getElem hB0
  refine ⟨X, ?_, x2, ?_⟩
  · unfold transposeToAxes
    simp only [Option.bind_eq_bind, hY.1, n1, n2, Option.bind_some, if_pos hn, y1, b1, e0]
    rw [← xorFirst_one _ _ _ e0, ← flatMap_pairs_reverse, x1]
  · unfold axesToTranspose
    have hlast : (xorFirst n (y / 2) Y)[n - 1]? = some (y ^^^ y / 2) := by
      rw [xorFirst_get, y1, Option.map_some, if_pos (by omega)]
    simp only [Option.bind_eq_bind, x2.1, m1, m2, Option.bind_some, x3, c3, if_pos hn, hlast,
      gray_encode y b (by omega) y2]
    have := xorFirst_all (y / 2) (xorFirst n (y / 2) Y)
    rw [hC.1] at this
    rw [← this, xorFirst_twice]; rfl

/-! ## Untransposing -/

/-- Bit `i` (from the top) of the Hilbert integer in transposed form. -/
def Spec.transposedBit (b : Nat) (X : List Nat) (i : Nat) : Option Bool :=
  X[i % X.length]?.map (fun x => x.testBit (b - 1 - i / X.length))

/-- Bit `i` (from the top) of the number whose `b`-bit digits are listed. -/
def Spec.digitBit (b : Nat) (Y : List Nat) (i : Nat) : Option Bool :=
  Y[i / b]?.map (fun y => y.testBit (b - 1 - i % b))

theorem untranspose_fold (X : List Nat) (b n : Nat) (hn : 0 < n) (hb : 0 < b) (hX : X.length = n) :
    ∀ m, m ≤ b * n → ∃ out, (List.range m).foldlM (untransposeStep X b n) (List.replicate n 0) = some out ∧
      out.length = n ∧ ∀ q o, out[q]? = some o → ∀ r, o.testBit r =
        (decide (r < b) && decide (q * b + (b - 1 - r) < m) &&
          (X[(q * b + (b - 1 - r)) % n]?.getD 0).testBit (b - 1 - (q * b + (b - 1 - r)) / n)) := by
  intro m
  induction m with
  | zero =>
    intro _
    refine ⟨List.replicate n 0, rfl, by simp, ?_⟩
    intro q o ho r
    rw [List.getElem?_replicate] at ho
    split at ho
    · obtain rfl := Option.some.inj ho
      simp
    · exact absurd ho (by simp)
  | succ m ih =>
    intro hm
    obtain ⟨out, o1, o2, o3⟩ := ih (by omega)
    have hmod : m % n < X.length := by rw [hX]; exact Nat.mod_lt _ hn
    have hdivlt : m / b < out.length := by
      rw [o2]; exact Nat.div_lt_of_lt_mul (by omega)
    have ex := List.getElem?_eq_getElem hmod
    have eo := List.getElem?_eq_getElem hdivlt
    rw [List.range_succ, List.foldlM_append, o1]
    simp only [Option.bind_eq_bind, Option.bind_some, List.foldlM_cons, List.foldlM_nil,
      untransposeStep, ex, eo, Option.pure_def]
    refine ⟨_, rfl, by simpa using o2, ?_⟩
    intro q o ho r
    generalize hx : X[m % n] = x at *
    generalize ho' : out[m / b] = oo at *
    have hbitval : ∀ r, (((x >>> (b - 1 - m / n)) &&& 1) * 2 ^ (b - 1 - m % b)).testBit r =
        (decide (r = b - 1 - m % b) && x.testBit (b - 1 - m / n)) := by
      intro r
      have h1 : (x >>> (b - 1 - m / n)) &&& 1 = (x.testBit (b - 1 - m / n)).toNat := by
        rw [Nat.and_one_is_mod, Nat.shiftRight_eq_div_pow, ← Nat.toNat_testBit]
      rw [h1]
      cases x.testBit (b - 1 - m / n)
      · simp
      · simp [Nat.testBit_two_pow, eq_comm]
    have hmb := Nat.div_add_mod m b
    have hmlt := Nat.mod_lt m hb
    by_cases hq : m / b = q
    · subst hq
      rw [List.getElem?_set_self hdivlt] at ho
      obtain rfl := Option.some.inj ho
      rw [Nat.testBit_or, o3 _ _ eo r, hbitval]
      have hcomm : m / b * b = b * (m / b) := Nat.mul_comm _ _
      by_cases hr : r < b
      · by_cases hrm : r = b - 1 - m % b
        · have hidx : m / b * b + (b - 1 - r) = m := by omega
          rw [hidx, ex]
          simp only [hr, ← hrm]
          simp
        · have h1 : (m / b * b + (b - 1 - r) < m + 1) = (m / b * b + (b - 1 - r) < m) := by
            simp only [eq_iff_iff]; omega
          simp [hrm, h1]
      · have : r ≠ b - 1 - m % b := by omega
        simp [hr, this]
    · rw [List.getElem?_set_ne hq] at ho
      rw [o3 q o ho r]
      by_cases hr : r < b
      · have hidx : q * b + (b - 1 - r) ≠ m := by
          intro h
          apply hq
          rw [← h, Nat.mul_comm, Nat.mul_add_div hb, Nat.div_eq_of_lt (by omega)]; omega
        have h1 : (q * b + (b - 1 - r) < m + 1) = (q * b + (b - 1 - r) < m) := by
          simp only [eq_iff_iff]; omega
        simp [h1]
      · simp [hr]

/-- `untranspose` moves bit `i` of the transposed Hilbert integer to bit `i` of the digit list. -/
theorem C15_untranspose (n b : Nat) (hn : 0 < n) (hb : 0 < b) (X : List Nat) (hX : Cell n b X) :
    ∃ Y, untranspose X b = some Y ∧ Cell n b Y ∧
      ∀ i, i < b * n → (digitBit b Y i).isSome ∧ digitBit b Y i = transposedBit b X i := by
  obtain ⟨Y, y1, y2, y3⟩ := untranspose_fold X b n hn hb hX.1 (b * n) (by omega)
  refine ⟨Y, ?_, ⟨y2, ?_⟩, ?_⟩
  · unfold untranspose; rw [hX.1, y1]
  · intro y hy
    obtain ⟨q, hq⟩ := List.mem_iff_getElem?.1 hy
    apply Nat.lt_pow_two_of_testBit
    intro r hr
    rw [y3 q y hq r]
    simp [show ¬ r < b by omega]
  · intro i hi
    have hq : i / b < Y.length := by rw [y2]; exact Nat.div_lt_of_lt_mul (by omega)
    have eq' := List.getElem?_eq_getElem hq
    have hmod : i % n < X.length := by rw [hX.1]; exact Nat.mod_lt _ hn
    have ex := List.getElem?_eq_getElem hmod
    unfold digitBit transposedBit
    rw [hX.1, eq', ex]
    refine ⟨rfl, ?_⟩
    simp only [Option.map_some]
    have hib := Nat.div_add_mod i b
    have hilt := Nat.mod_lt i hb
    have hcomm : i / b * b = b * (i / b) := Nat.mul_comm _ _
    have hidx : i / b * b + (b - 1 - (b - 1 - i % b)) = i := by omega
    rw [y3 _ _ eq', hidx, ex]
    simp [show b - 1 - i % b < b by omega, hi]

/-! ## Digit lists and their values -/

theorem keyValue_concat (b : Nat) (ds : List Nat) (d : Nat) :
    keyValue b (ds ++ [d]) = keyValue b ds * 2 ^ b + d := by
  unfold keyValue; rw [List.foldl_append]; rfl

theorem cell_concat {n b : Nat} {ds : List Nat} {d : Nat} :
    Cell (n + 1) b (ds ++ [d]) ↔ Cell n b ds ∧ d < 2 ^ b := by
  unfold Cell
  simp only [List.length_append, List.length_singleton, List.mem_append, List.mem_singleton]
  constructor
  · rintro ⟨h1, h2⟩
    exact ⟨⟨by omega, fun x hx => h2 x (Or.inl hx)⟩, h2 d (Or.inr rfl)⟩
  · rintro ⟨⟨h1, h2⟩, h3⟩
    refine ⟨by omega, ?_⟩
    rintro x (hx | rfl)
    · exact h2 x hx
    · exact h3

theorem keyValue_spec (b : Nat) : ∀ n,
    (∀ ds, Cell n b ds → keyValue b ds < 2 ^ (b * n)) ∧
    (∀ v, v < 2 ^ (b * n) → ∃ ds, Cell n b ds ∧ keyValue b ds = v) ∧
    (∀ ds ds', Cell n b ds → Cell n b ds' → keyValue b ds = keyValue b ds' → ds = ds') := by
  intro n
  have hpos : 0 < 2 ^ b := Nat.two_pow_pos b
  induction n with
  | zero =>
    refine ⟨?_, ?_, ?_⟩
    · intro ds h; obtain rfl := List.eq_nil_of_length_eq_zero h.1; simp [keyValue]
    · intro v hv; exact ⟨[], ⟨rfl, by simp⟩, by simp at hv; simp [keyValue, hv]⟩
    · intro ds ds' h h' _
      rw [List.eq_nil_of_length_eq_zero h.1, List.eq_nil_of_length_eq_zero h'.1]
  | succ n ih =>
    have split : ∀ ds, Cell (n + 1) b ds → ∃ es d, ds = es ++ [d] := by
      intro ds h
      have hne : ds ≠ [] := by intro h0; rw [h0] at h; exact absurd h.1 (by simp)
      exact ⟨_, _, (List.dropLast_concat_getLast hne).symm⟩
    have hp : 2 ^ (b * (n + 1)) = 2 ^ (b * n) * 2 ^ b := by rw [← Nat.pow_add]; rfl
    refine ⟨?_, ?_, ?_⟩
    · intro ds h
      obtain ⟨es, d, rfl⟩ := split ds h
      obtain ⟨h1, h2⟩ := cell_concat.1 h
      rw [keyValue_concat, hp]
      have := ih.1 es h1
      have := Nat.mul_le_mul_right (2 ^ b) (show keyValue b es + 1 ≤ 2 ^ (b * n) by omega)
      rw [Nat.add_mul] at this
      omega
    · intro v hv
      obtain ⟨es, h1, h2⟩ := ih.2.1 (v / 2 ^ b) (by
        rw [hp, Nat.mul_comm] at hv
        exact Nat.div_lt_of_lt_mul hv)
      refine ⟨es ++ [v % 2 ^ b], cell_concat.2 ⟨h1, Nat.mod_lt _ hpos⟩, ?_⟩
      rw [keyValue_concat, h2, Nat.mul_comm]
      exact Nat.div_add_mod v (2 ^ b)
    · intro ds ds' h h' e
      obtain ⟨es, d, rfl⟩ := split ds h
      obtain ⟨es', d', rfl⟩ := split ds' h'
      obtain ⟨h1, h2⟩ := cell_concat.1 h
      obtain ⟨h1', h2'⟩ := cell_concat.1 h'
      rw [keyValue_concat, keyValue_concat] at e
      have e1 : (keyValue b es * 2 ^ b + d) / 2 ^ b = (keyValue b es' * 2 ^ b + d') / 2 ^ b := by rw [e]
      rw [Nat.mul_comm, Nat.mul_add_div hpos, Nat.div_eq_of_lt h2, Nat.mul_comm (keyValue b es'),
        Nat.mul_add_div hpos, Nat.div_eq_of_lt h2', Nat.add_zero, Nat.add_zero] at e1
      rw [e1] at e
      rw [ih.2.2 es es' h1 h1' e1, show d = d' by omega]

theorem foldl_key (b : Nat) (ds : List Nat) (a : Nat) :
    ds.foldl (fun acc d => acc * 2 ^ b + d) a = a * 2 ^ (b * ds.length) + keyValue b ds := by
  unfold keyValue
  induction ds generalizing a with
  | nil => simp
  | cons d ds ih =>
    rw [List.foldl_cons, ih, List.foldl_cons, ih (0 * 2 ^ b + d), List.length_cons, Nat.mul_add,
      Nat.pow_add, Nat.mul_one]
    generalize 2 ^ (b * ds.length) = p
    generalize 2 ^ b = q
    ring

/-- Comparing keys entry by entry, as the sort does, is comparing their values. -/
theorem C15_lex_is_value_order (b : Nat) : ∀ (n : Nat) (ds ds' : List Nat), Cell n b ds → Cell n b ds' →
    (lexLt ds ds' ↔ keyValue b ds < keyValue b ds') := by
  intro n
  induction n with
  | zero =>
    intro ds ds' h h'
    rw [List.eq_nil_of_length_eq_zero h.1, List.eq_nil_of_length_eq_zero h'.1]
    simp [lexLt]
  | succ n ih =>
    intro ds ds' h h'
    match ds, ds', h, h' with
    | [], _, h, _ => exact absurd h.1 (by simp)
    | _ :: _, [], _, h' => exact absurd h'.1 (by simp)
    | d :: ds, d' :: ds', h, h' =>
      have hc : Cell n b ds := ⟨by have := h.1; simp at this; exact this, fun x hx => h.2 x (by simp [hx])⟩
      have hc' : Cell n b ds' := ⟨by have := h'.1; simp at this; exact this, fun x hx => h'.2 x (by simp [hx])⟩
      have l1 := (keyValue_spec b n).1 ds hc
      have l2 := (keyValue_spec b n).1 ds' hc'
      have e1 : keyValue b (d :: ds) = d * 2 ^ (b * n) + keyValue b ds := by
        have := foldl_key b ds (0 * 2 ^ b + d)
        rw [hc.1] at this
        simpa [keyValue] using this
      have e2 : keyValue b (d' :: ds') = d' * 2 ^ (b * n) + keyValue b ds' := by
        have := foldl_key b ds' (0 * 2 ^ b + d')
        rw [hc'.1] at this
        simpa [keyValue] using this
      rw [e1, e2]
      unfold lexLt
      rw [ih ds ds' hc hc']
      generalize 2 ^ (b * n) = p at *
      rcases Nat.lt_trichotomy d d' with hd | hd | hd
      · have := Nat.mul_le_mul_right p (show d + 1 ≤ d' by omega)
        rw [Nat.add_mul] at this
        constructor
        · intro _; omega
        · intro _; exact Or.inl hd
      · subst hd; constructor
        · rintro (h | h)
          · omega
          · have := h.2; omega
        · intro h; exact Or.inr ⟨rfl, by omega⟩
      · have := Nat.mul_le_mul_right p (show d' + 1 ≤ d by omega)
        rw [Nat.add_mul] at this
        constructor
        · rintro (h | h) <;> omega
        · intro _; omega

/-! ## The key of a cell -/

/-- The number with the listed bits. -/
def ofBitFn (f : Nat → Bool) : Nat → Nat
  | 0 => 0
  | b + 1 => ofBitFn f b ||| (if f b then 2 ^ b else 0)

theorem ofBitFn_testBit (f : Nat → Bool) (b r : Nat) :
    (ofBitFn f b).testBit r = (decide (r < b) && f r) := by
  induction b with
  | zero => simp [ofBitFn]
  | succ b ih =>
    unfold ofBitFn
    rw [Nat.testBit_or, ih]
    have : (if f b = true then 2 ^ b else 0).testBit r = (f b && decide (b = r)) := by
      cases f b
      · simp
      · simp [Nat.testBit_two_pow]
    rw [this]
    rcases Nat.lt_trichotomy r b with h | h | h
    · simp [h, show r < b + 1 by omega, show b ≠ r by omega]
    · subst h; simp
    · simp [show ¬ r < b by omega, show ¬ r < b + 1 by omega, show b ≠ r by omega]

theorem untranspose_inj (n b : Nat) (hn : 0 < n) (hb : 0 < b) (X X' Y : List Nat) (hX : Cell n b X)
    (hX' : Cell n b X') (h : untranspose X b = some Y) (h' : untranspose X' b = some Y) : X = X' := by
  obtain ⟨Z, z1, z2, z3⟩ := C15_untranspose n b hn hb X hX
  obtain ⟨Z', z1', z2', z3'⟩ := C15_untranspose n b hn hb X' hX'
  obtain rfl := Option.some.inj (z1.symm.trans h)
  obtain rfl := Option.some.inj (z1'.symm.trans h')
  apply List.ext_getElem (by rw [hX.1, hX'.1])
  intro c hc hc'
  rw [hX.1] at hc
  apply Nat.eq_of_testBit_eq
  intro r
  by_cases hr : r < b
  · have hi : (b - 1 - r) * n + c < b * n := by
      have := Nat.mul_le_mul_right n (show b - 1 - r + 1 ≤ b by omega)
      rw [Nat.add_mul] at this
      omega
    have e1 : ((b - 1 - r) * n + c) % n = c := by
      rw [Nat.mul_comm, Nat.mul_add_mod, Nat.mod_eq_of_lt hc]
    have e2 : ((b - 1 - r) * n + c) / n = b - 1 - r := by
      rw [Nat.mul_comm, Nat.mul_add_div hn, Nat.div_eq_of_lt hc]; rfl
    have := (z3 _ hi).2.symm.trans (z3' _ hi).2
    unfold transposedBit at this
    rw [hX.1, hX'.1, e1, e2, List.getElem?_eq_getElem (by rw [hX.1]; exact hc),
      List.getElem?_eq_getElem (by rw [hX'.1]; exact hc)] at this
    simp only [Option.map_some, Option.some.injEq] at this
    rwa [show b - 1 - (b - 1 - r) = r by omega] at this
  · rw [Nat.testBit_lt_two_pow (Nat.lt_of_lt_of_le (hX.2 _ (List.getElem_mem _))
      (Nat.pow_le_pow_right (by omega) (by omega))), Nat.testBit_lt_two_pow (Nat.lt_of_lt_of_le
      (hX'.2 _ (List.getElem_mem _)) (Nat.pow_le_pow_right (by omega) (by omega)))]

theorem untranspose_surj (n b : Nat) (hn : 0 < n) (hb : 0 < b) (Y : List Nat) (hY : Cell n b Y) :
    ∃ X, Cell n b X ∧ untranspose X b = some Y := by
  -- the transposed form, read off the digits
  let g : Nat → Nat → Bool := fun c r => (Y[((b - 1 - r) * n + c) / b]?.getD 0).testBit
    (b - 1 - ((b - 1 - r) * n + c) % b)
  let X : List Nat := (List.range n).map (fun c => ofBitFn (g c) b)
  have hX : Cell n b X := by
    refine ⟨by simp [X], ?_⟩
    intro x hx
    obtain ⟨c, _, rfl⟩ := List.mem_map.1 hx
    apply Nat.lt_pow_two_of_testBit
    intro r hr
    rw [ofBitFn_testBit]
    simp [show ¬ r < b by omega]
  obtain ⟨Z, z1, z2, z3⟩ := C15_untranspose n b hn hb X hX
  refine ⟨X, hX, ?_⟩
  rw [z1]
  congr 1
  apply List.ext_getElem (by rw [z2.1, hY.1])
  intro q hq hq'
  rw [z2.1] at hq
  apply Nat.eq_of_testBit_eq
  intro r
  by_cases hr : r < b
  · have hi : q * b + (b - 1 - r) < b * n := by
      have := Nat.mul_le_mul_right b (show q + 1 ≤ n by omega)
      rw [Nat.add_mul, Nat.mul_comm n b] at this
      omega
    have e1 : (q * b + (b - 1 - r)) / b = q := by
      rw [Nat.mul_comm, Nat.mul_add_div hb, Nat.div_eq_of_lt (by omega)]; rfl
    have e2 : (q * b + (b - 1 - r)) % b = b - 1 - r := by
      rw [Nat.mul_comm, Nat.mul_add_mod, Nat.mod_eq_of_lt (by omega)]
    have h := (z3 _ hi).2
    unfold digitBit transposedBit at h
    rw [e1, e2, hX.1, List.getElem?_eq_getElem (by rw [z2.1]; exact hq)] at h
    generalize hii : q * b + (b - 1 - r) = i at *
    have hm : i % n < n := Nat.mod_lt _ hn
    have hxe : X[i % n]? = some (ofBitFn (g (i % n)) b) := by
      simp only [X, List.getElem?_map, List.getElem?_range hm, Option.map_some]
    rw [hxe] at h
    simp only [Option.map_some, Option.some.injEq] at h
    rw [show b - 1 - (b - 1 - r) = r by omega] at h
    rw [h, ofBitFn_testBit]
    have hdn : i / n < b := Nat.div_lt_of_lt_mul (by rw [Nat.mul_comm]; exact hi)
    have hback : (b - 1 - (b - 1 - i / n)) * n + i % n = i := by
      have : b - 1 - (b - 1 - i / n) = i / n := by
        generalize i / n = m at hdn ⊢
        omega
      rw [this, Nat.mul_comm]
      exact Nat.div_add_mod i n
    have hlt : b - 1 - i / n < b := by
      generalize i / n = m at hdn ⊢
      omega
    simp only [g, hback, e1, e2]
    rw [List.getElem?_eq_getElem hq']
    simp [hlt, show b - 1 - (b - 1 - r) = r by omega]
  · rw [Nat.testBit_lt_two_pow (Nat.lt_of_lt_of_le (z2.2 _ (List.getElem_mem _))
      (Nat.pow_le_pow_right (by omega) (by omega))), Nat.testBit_lt_two_pow (Nat.lt_of_lt_of_le
      (hY.2 _ (List.getElem_mem _)) (Nat.pow_le_pow_right (by omega) (by omega)))]

theorem fromGrid_eq (n b : Nat) (hb' : b < 64) (X : List Nat) (hX : Cell n b X) :
    hilbertFromGrid X b = (axesToTranspose X b).bind (fun Z => untranspose Z b) := by
  unfold hilbertFromGrid shl64
  have hlt : 2 ^ b < 2 ^ 64 := Nat.pow_lt_pow_right (by omega) hb'
  rw [if_pos (by omega)]
  have hmap : X.map (fun x => if x ≥ 2 ^ b then 2 ^ b - 1 else x) = X := by
    conv => rhs; rw [← List.map_id X]
    apply List.map_congr_left
    intro x hx
    rw [if_neg (by have := hX.2 x hx; omega)]; rfl
  simp only [Option.bind_eq_bind, Option.bind_some, Int.toNat_natCast, Nat.one_mul,
    Nat.mod_eq_of_lt hlt, hmap]

/-- The key of a cell: the position along the curve given by `from_spatial`'s integers is a
one-to-one correspondence between the grid cells and `0 … 2^(b*n) - 1`. -/
theorem C15_key_bijection (n b : Nat) (hn : 0 < n) (hb : 1 ≤ b) (hb' : b < 64) :
    (∀ X, Cell n b X → ∃ k, hilbertFromGrid X b = some k ∧ Cell n b k ∧ keyValue b k < 2 ^ (b * n)) ∧
    (∀ X X' k k', Cell n b X → Cell n b X' → hilbertFromGrid X b = some k →
      hilbertFromGrid X' b = some k' → keyValue b k = keyValue b k' → X = X') ∧
    (∀ v, v < 2 ^ (b * n) → ∃ X k, Cell n b X ∧ hilbertFromGrid X b = some k ∧ keyValue b k = v) := by
  have fwd : ∀ X, Cell n b X → ∃ Z k, axesToTranspose X b = some Z ∧ Cell n b Z ∧
      transposeToAxes Z b = some X ∧ untranspose Z b = some k ∧ Cell n b k ∧
      hilbertFromGrid X b = some k := by
    intro X hX
    obtain ⟨Z, z1, z2, z3⟩ := C15_axes_to_transpose_and_back n b hn hb (by omega) X hX
    obtain ⟨k, k1, k2, _⟩ := C15_untranspose n b hn (by omega) Z z2
    exact ⟨Z, k, z1, z2, z3, k1, k2, by rw [fromGrid_eq n b hb' X hX, z1, Option.bind_some, k1]⟩
  refine ⟨?_, ?_, ?_⟩
  · intro X hX
    obtain ⟨Z, k, _, _, _, _, k2, k3⟩ := fwd X hX
    exact ⟨k, k3, k2, (keyValue_spec b n).1 k k2⟩
  · intro X X' k k' hX hX' hk hk' hv
    obtain ⟨Z, l, z1, z2, z3, l1, l2, l3⟩ := fwd X hX
    obtain ⟨Z', l', z1', z2', z3', l1', l2', l3'⟩ := fwd X' hX'
    obtain rfl := Option.some.inj (hk.symm.trans l3)
    obtain rfl := Option.some.inj (hk'.symm.trans l3')
    obtain rfl := (keyValue_spec b n).2.2 k k' l2 l2' hv
    obtain rfl := untranspose_inj n b hn (by omega) Z Z' k z2 z2' l1 l1'
    exact Option.some.inj (z3.symm.trans z3')
  · intro v hv
    obtain ⟨k, k1, k2⟩ := (keyValue_spec b n).2.1 v hv
    obtain ⟨Z, z1, z2⟩ := untranspose_surj n b hn (by omega) k k1
    obtain ⟨X, x1, x2, x3⟩ := C15_transpose_to_axes_and_back n b hn hb (by omega) Z z1
    exact ⟨X, k, x2, by rw [fromGrid_eq n b hb' X x2, x3, Option.bind_some, z2], k2⟩

/-- Distinct cells never tie: of two different cells one key comes strictly first in the order the
sort uses. -/
theorem C15_no_ties (n b : Nat) (hn : 0 < n) (hb : 1 ≤ b) (hb' : b < 64) (X X' k k' : List Nat)
    (hX : Cell n b X) (hX' : Cell n b X') (hk : hilbertFromGrid X b = some k)
    (hk' : hilbertFromGrid X' b = some k') (hne : X ≠ X') : lexLt k k' ∨ lexLt k' k := by
  obtain ⟨h1, h2, _⟩ := C15_key_bijection n b hn hb hb'
  obtain ⟨l, l1, l2, _⟩ := h1 X hX
  obtain ⟨l', l1', l2', _⟩ := h1 X' hX'
  obtain rfl := Option.some.inj (hk.symm.trans l1)
  obtain rfl := Option.some.inj (hk'.symm.trans l1')
  rw [C15_lex_is_value_order b n k k' l2 l2', C15_lex_is_value_order b n k' k l2' l2]
  have : keyValue b k ≠ keyValue b k' := fun h => hne (h2 X X' k k' hX hX' hk hk' h)
  omega

/-- Coordinates past the end of the grid are moved to its last cell, so every input gets a key. -/
theorem C15_clamped (n b : Nat) (hn : 0 < n) (hb : 1 ≤ b) (hb' : b < 64) (X : List Nat)
    (hX : X.length = n) :
    ∃ k, hilbertFromGrid X b = some k ∧ Cell n b k ∧
      hilbertFromGrid (X.map (fun x => min x (2 ^ b - 1))) b = some k := by
  have hpos : 0 < 2 ^ b := Nat.two_pow_pos b
  have hlt : 2 ^ b < 2 ^ 64 := Nat.pow_lt_pow_right (by omega) hb'
  have hc : Cell n b (X.map (fun x => min x (2 ^ b - 1))) := by
    refine ⟨by simpa using hX, ?_⟩
    intro x hx
    obtain ⟨y, _, rfl⟩ := List.mem_map.1 hx
    omega
  obtain ⟨k, k1, k2, _⟩ := (C15_key_bijection n b hn hb hb').1 _ hc
  refine ⟨k, ?_, k2, k1⟩
  rw [← k1, fromGrid_eq n b hb' _ hc]
  unfold hilbertFromGrid shl64
  rw [if_pos (by omega)]
  simp only [Option.bind_eq_bind, Option.bind_some, Int.toNat_natCast, Nat.one_mul,
    Nat.mod_eq_of_lt hlt]
  have hmap : X.map (fun x => if x ≥ 2 ^ b then 2 ^ b - 1 else x) = X.map (fun x => min x (2 ^ b - 1)) := by
    apply List.map_congr_left
    intro x _
    split <;> omega
  rw [hmap]

/-! Non-vacuity: a 3-dimensional cell at depth 5 and the first few cells of the 2D curve. -/
example : Cell 3 5 [5, 10, 20] ∧ axesToTranspose [5, 10, 20] 5 = some [10, 14, 27] ∧
    transposeToAxes [10, 14, 27] 5 = some [5, 10, 20] ∧ hilbertFromGrid [5, 10, 20] 5 = some [7, 21, 25] := by
  refine ⟨⟨rfl, by simp⟩, by decide +kernel, by decide +kernel, by decide +kernel⟩

example : ([[0, 0], [0, 1], [1, 1], [1, 0]].map (fun X => (hilbertFromGrid X 1).map (keyValue 1))) =
    [some 0, some 1, some 2, some 3] := by decide +kernel

end OmegaH
