import Verif.Lemmas.Int128
import Verif.Props.C43

/-! # C13 — the reproducible sum is independent of order and partition -/

namespace OmegaH

open Spec

/-! ## Int128 arithmetic -/

/-- Addition is exact whenever the operands and the result have magnitude at most 2^126. -/
theorem C13_add_exact_partial (a b : I128) (ha : Valid a) (hb : Valid b)
    (h1 : -2 ^ 126 ≤ value a) (h2 : value a ≤ 2 ^ 126)
    (h3 : -2 ^ 126 ≤ value b) (h4 : value b ≤ 2 ^ 126)
    (h5 : value a + value b ≤ 2 ^ 126) :
    ∃ c, a.add b = some c ∧ Valid c ∧ value c = value a + value b := by
  refine add_exact a b ha hb ?_ ?_ ?_ <;> unfold Valid value at * <;> omega

/-- The full claim "exact whenever the exact result is representable" is false: the sum of the high
words overflows (undefined behaviour) although the carry would bring the result back into range. -/
theorem C13_add_refuted : ∃ a b : I128, Valid a ∧ Valid b ∧
    -2 ^ 127 ≤ value a + value b ∧ value a + value b < 2 ^ 127 ∧ a.add b = none :=
  ⟨⟨-2 ^ 63, 2 ^ 64 - 1⟩, ⟨-1, 2 ^ 64 - 1⟩, by unfold Valid; decide, by unfold Valid; decide,
    by decide, by decide, by decide⟩

/-- Subtraction is exact whenever the operands and the result have magnitude at most 2^126. -/
theorem C13_sub_exact_partial (a b : I128) (ha : Valid a) (hb : Valid b)
    (h1 : -2 ^ 126 ≤ value a) (h2 : value a ≤ 2 ^ 126)
    (h3 : -2 ^ 126 ≤ value b) (h4 : value b ≤ 2 ^ 126)
    (h5 : value a - value b ≤ 2 ^ 126) :
    ∃ c, a.sub b = some c ∧ Valid c ∧ value c = value a - value b := by
  refine sub_exact a b ha hb ?_ ?_ ?_ <;> unfold Valid value at * <;> omega

/-- Negation is exact for every value above -2^127 + 2^64. -/
theorem C13_neg_exact_partial (a : I128) (ha : Valid a) (h : -2 ^ 127 + 2 ^ 64 ≤ value a) :
    ∃ c, a.neg = some c ∧ Valid c ∧ value c = - value a := by
  refine neg_exact a ha ?_
  unfold Valid value at *
  omega

/-- … but undefined for the values just below, whose negation is representable. -/
theorem C13_neg_refuted : ∃ a : I128, Valid a ∧ -value a < 2 ^ 127 ∧ a.neg = none :=
  ⟨⟨-2 ^ 63, 1⟩, by unfold Valid; decide, by decide, by decide⟩

/-- Comparison agrees with the order of the integers; equality with equality. -/
theorem C13_compare_exact (a b : I128) (ha : Valid a) (hb : Valid b) :
    (a.lt b = true ↔ value a < value b) ∧ (a.beq b = true ↔ value a = value b) :=
  ⟨lt_iff a b ha hb, beq_iff a b ha hb⟩

/-- Shifting right by 1 … 63 is floor division; by 0 it is undefined. -/
theorem C13_shift_exact (x : I128) (hx : Valid x) :
    (∀ k, 1 ≤ k → k < 64 → ∃ c, x.shr k = some c ∧ Valid c ∧ value c = value x / 2 ^ k) ∧
    x.shr 0 = none :=
  ⟨fun k h1 h2 => shr_exact x hx k h1 h2, rfl⟩

/-! ## Conversion to double -/

theorem toDoubleLoop_spec (fuel : Nat) : ∀ (x : I128) (u : Int), Valid x → 0 ≤ x.high →
    x.high < 2 ^ fuel →
    ∃ j w, toDoubleLoop (fuel + 1) x u = some (w, u + (j : Nat)) ∧
      (w : Int) = value x / 2 ^ j ∧ w < 2 ^ 64 ∧ (j = 0 ∨ 2 ^ 63 ≤ w) := by
  induction fuel with
  | zero =>
    intro x u hx h0 h1
    have hh : x.high = 0 := by simp at h1; omega
    refine ⟨0, x.low, ?_, ?_, hx.2.2, Or.inl rfl⟩
    · simp [toDoubleLoop, hh]
    · simp [value, hh]
  | succ fuel ih =>
    intro x u hx h0 h1
    by_cases hh : x.high = 0
    · refine ⟨0, x.low, ?_, ?_, hx.2.2, Or.inl rfl⟩
      · simp [toDoubleLoop, hh]
      · simp [value, hh]
    · obtain ⟨c, c1, c2, c3⟩ := shr_exact x hx 1 (by omega) (by omega)
      have hc0 : c.high = x.high / 2 := by
        unfold I128.shr at c1
        simp at c1
        rw [← c1]
      obtain ⟨j, w, k1, k2, k3, k4⟩ := ih c (u + 1) c2 (by rw [hc0]; omega) (by
        rw [hc0, Int.ediv_lt_iff_lt_mul (by omega)]
        rw [Int.pow_succ] at h1
        exact h1)
      refine ⟨j + 1, w, ?_, ?_, k3, Or.inr ?_⟩
      · rw [toDoubleLoop, if_neg hh, c1]
        simp only [Option.bind_some]
        rw [k1]
        congr 2
        push_cast
        omega
      · rw [k2, c3, Int.ediv_ediv_of_nonneg (by decide)]
        congr 1
        rw [Int.pow_succ, Int.mul_comm]
        rfl
      · rcases k4 with k4 | k4
        · subst k4
          have h2 : value x ≥ 2 ^ 64 := by unfold value; omega
          rw [c3] at k2
          simp only [Int.pow_zero, Int.ediv_one] at k2
          have : (2 : Int) ^ 63 ≤ value x / 2 ^ 1 := by omega
          omega
        · exact k4

/-- `to_double` terminates and returns the sign of the integer with its leading bits: the magnitude
is divided by the power of two `2^j` that makes it fit 64 bits (none if it already fits), then
rounded to 53 bits. -/
theorem C13_to_double (x : I128) (hx : Valid x) (h : -2 ^ 127 + 2 ^ 64 ≤ value x) (u : Int) :
    ∃ (j w : Nat), x.toDouble u = some ⟨if value x < 0 then -(roundTo53 w : Int) else roundTo53 w, u + j⟩ ∧
      w = (value x).natAbs / 2 ^ j ∧ w < 2 ^ 64 ∧ (j = 0 ∨ 2 ^ 63 ≤ w) := by
  have e0 : value (I128.ofInt64 0) = 0 := value_ofInt64 0 (by omega) (by omega)
  have hlt := lt_iff x (I128.ofInt64 0) hx (ofInt64_valid 0)
  rw [e0] at hlt
  unfold I128.toDouble
  by_cases hneg : value x < 0
  · obtain ⟨c, c1, c2, c3⟩ := C13_neg_exact_partial x hx h
    have hch : 0 ≤ c.high := by unfold Valid value at *; omega
    obtain ⟨j, w, k1, k2, k3, k4⟩ := toDoubleLoop_spec 64 c u c2 hch (by unfold Valid at c2; omega)
    rw [if_pos (hlt.2 hneg), c1]
    simp only [Option.bind_eq_bind, Option.bind_some, k1]
    refine ⟨j, w, ?_, ?_, k3, k4⟩
    · rw [if_pos hneg, if_pos (hlt.2 hneg)]; rfl
    · rw [c3] at k2
      have : ((value x).natAbs : Int) = - value x := by omega
      rw [← this] at k2
      exact_mod_cast k2
  · have hn : ¬ (x.lt (I128.ofInt64 0) = true) := fun h => hneg (hlt.1 h)
    have hch : 0 ≤ x.high := by unfold Valid value at *; omega
    obtain ⟨j, w, k1, k2, k3, k4⟩ := toDoubleLoop_spec 64 x u hx hch (by unfold Valid at hx; omega)
    rw [if_neg hn]
    simp only [Option.bind_eq_bind, Option.bind_some, k1]
    refine ⟨j, w, ?_, ?_, k3, k4⟩
    · rw [if_neg hneg, if_neg hn]; rfl
    · have : ((value x).natAbs : Int) = value x := by omega
      rw [← this] at k2
      exact_mod_cast k2

/-- Rounding to 53 bits is within half a unit in the last place, and exact below 2^53. -/
theorem C13_round_error (n : Nat) :
    (n < 2 ^ 53 → roundTo53 n = n) ∧
    2 ^ 53 * (roundTo53 n : Int) ≤ (2 ^ 53 + 1) * n ∧
    (2 ^ 53 - 1) * (n : Int) ≤ 2 ^ 53 * (roundTo53 n : Int) := by
  unfold roundTo53
  by_cases h : n < 2 ^ 53
  · rw [if_pos h]; omega
  · rw [if_neg h]
    refine ⟨fun h' => absurd h' h, ?_⟩
    have hn0 : n ≠ 0 := by omega
    have hlog : 52 ≤ n.log2 := by
      have := (Nat.le_log2 hn0 (k := 53)).2 (by omega)
      omega
    have hle : 2 ^ n.log2 ≤ n := Nat.log2_self_le hn0
    have hsplit : 2 ^ n.log2 = 2 ^ (n.log2 - 52) * 2 ^ 52 := by
      rw [← Nat.pow_add]; congr 1; omega
    simp only
    generalize hK : 2 ^ (n.log2 - 52) = K at *
    have hKpos : 0 < K := by rw [← hK]; exact Nat.pow_pos (by omega)
    have hdm := Nat.div_add_mod n K
    have hr := Nat.mod_lt n hKpos
    rw [hsplit] at hle
    generalize n / K = q at *
    generalize hrr : n % K = r at *
    have hqe : q * K = K * q := Nat.mul_comm q K
    have hqe' : (q + 1) * K = K * q + K := by rw [Nat.add_mul, hqe]; omega
    split
    · rename_i hc
      rw [hqe']
      generalize K * q = kq at *
      constructor <;> omega
    · rename_i hc
      rw [hqe]
      generalize K * q = kq at *
      constructor <;> omega

/-- Integers below 2^53 in magnitude are converted exactly. -/
theorem C13_to_double_exact (x : I128) (hx : Valid x) (h1 : -2 ^ 53 < value x) (h2 : value x < 2 ^ 53)
    (u : Int) : x.toDouble u = some ⟨value x, u⟩ := by
  obtain ⟨j, w, k1, k2, k3, k4⟩ := C13_to_double x hx (by omega) u
  have hj : j = 0 := by
    rcases k4 with k4 | k4
    · exact k4
    · have : w ≤ (value x).natAbs := by rw [k2]; exact Nat.div_le_self _ _
      omega
  subst hj
  rw [Nat.pow_zero, Nat.div_one] at k2
  rw [k1, (C13_round_error w).1 (by omega)]
  congr 2
  · split <;> omega
  · simp

/-! ## Exponents -/

theorem below_iff (v : Dbl) (E : Int) (hm : v.m ≠ 0) : Below v E ↔ frexpExpo v ≤ E := by
  have hm' : v.m.natAbs ≠ 0 := by omega
  unfold Below frexpExpo
  constructor
  · rintro (h | ⟨h1, h2⟩)
    · exact absurd h hm
    · have : v.m.natAbs < 2 ^ (E - v.e).toNat := by exact_mod_cast h2
      have := (Nat.log2_lt hm').2 this
      omega
  · intro h
    refine Or.inr ⟨by omega, ?_⟩
    have : v.m.natAbs < 2 ^ (E - v.e).toNat := (Nat.log2_lt hm').1 (by omega)
    exact_mod_cast this

/-- At most one exponent is the largest one. -/
theorem isMaxExponent_unique {a : List Dbl} {E E' : Int} (h : IsMaxExponent a E)
    (h' : IsMaxExponent a E') : E = E' := by
  have key : ∀ {E E' : Int}, IsMaxExponent a E → IsMaxExponent a E' → E ≤ E' := by
    intro E E' h h'
    obtain ⟨v, hv, hnb⟩ := h.2
    have hm : v.m ≠ 0 := fun h0 => hnb (Or.inl h0)
    have h2 := (below_iff v E' hm).1 (h'.1 v hv)
    have h3 : ¬ frexpExpo v ≤ E - 1 := fun hle => hnb ((below_iff v _ hm).2 hle)
    omega
  have h1 := key h h'
  have h2 := key h' h
  omega

def expoOf (v : Dbl) : Int := if v.m = 0 then intMin else frexpExpo v

theorem expoOf_gt (v : Dbl) (hf : Finite v) (hm : v.m ≠ 0) : intMin < expoOf v ∧ -1074 < expoOf v := by
  unfold expoOf frexpExpo intMin Finite at *
  rw [if_neg hm]
  omega

theorem maxExponent_eq (t : Team) (a : List Dbl) :
    maxExponent t a = some ((a.map expoOf).foldl max intMin) := by
  unfold maxExponent
  by_cases h : a.length = 0
  · rw [if_pos h]
    have : a = [] := List.length_eq_zero_iff.1 h
    subst this; rfl
  · rw [if_neg h]
    cases a with
    | nil => simp at h
    | cons v0 l =>
      rw [reduceMax_eq t intMin intMin _ (fun i => expoOf (((v0 :: l)[i]?).getD v0)) _
        (Int.le_refl _) (by
          intro i hi
          rw [List.getElem?_eq_getElem hi]; rfl)]
      congr 2
      apply List.ext_getElem?
      intro i
      by_cases hi : i < (v0 :: l).length
      · rw [List.getElem?_map, List.getElem?_map, List.getElem?_range hi,
          List.getElem?_eq_getElem hi]
        simp [List.getElem?_eq_getElem hi]
      · rw [List.getElem?_eq_none (by simpa using hi), List.getElem?_eq_none (by simpa using hi)]

/-- For finite values that are not all zero `max_exponent` finds the exponent of the largest, on any
team of threads; if all are zero it returns the smallest `int`. -/
theorem C13_max_exponent (t : Team) (a : List Dbl) (hf : ∀ v ∈ a, Finite v) :
    ∃ E, maxExponent t a = some E ∧
      ((∃ v ∈ a, v.m ≠ 0) → IsMaxExponent a E) ∧ ((∀ v ∈ a, v.m = 0) → E = intMin) ∧
      (E = intMin → ∀ v ∈ a, v.m = 0) := by
  obtain ⟨h1, h2, h3⟩ := foldl_max_le (a.map expoOf) intMin
  refine ⟨_, maxExponent_eq t a, ?_⟩
  generalize (a.map expoOf).foldl max intMin = E at *
  have hup : ∀ v ∈ a, expoOf v ≤ E := fun v hv => h2 _ (List.mem_map.2 ⟨v, hv, rfl⟩)
  refine ⟨?_, ?_, ?_⟩
  · rintro ⟨v, hv, hm⟩
    have hgt := expoOf_gt v (hf v hv) hm
    have hEv := hup v hv
    refine ⟨?_, ?_⟩
    · intro w hw
      by_cases hw0 : w.m = 0
      · exact Or.inl hw0
      · rw [below_iff w E hw0]
        have := hup w hw
        unfold expoOf at this
        rwa [if_neg hw0] at this
    · rcases h3 with h3 | h3
      · omega
      · obtain ⟨w, hw, he⟩ := List.mem_map.1 h3
        have hw0 : w.m ≠ 0 := by
          intro h0
          unfold expoOf at he
          rw [if_pos h0] at he
          omega
        refine ⟨w, hw, ?_⟩
        rw [below_iff w _ hw0]
        unfold expoOf at he
        rw [if_neg hw0] at he
        omega
  · intro hz
    rcases h3 with h3 | h3
    · exact h3
    · obtain ⟨w, hw, he⟩ := List.mem_map.1 h3
      unfold expoOf at he
      rw [if_pos (hz w hw)] at he
      exact he.symm
  · intro hE v hv
    apply Classical.byContradiction
    intro hm
    have := (expoOf_gt v (hf v hv) hm).1
    have := hup v hv
    omega

/-! ## Fixed-point sums -/

theorem fromDouble_eq (v : Dbl) (u : Int) (hu : -1074 ≤ u) :
    fromDouble v u = (i64? (units v u)).map I128.ofInt64 := by
  unfold fromDouble units
  rw [if_neg (by omega)]
  simp only
  by_cases h : u ≤ v.e
  · rw [if_pos h, Int.min_eq_right h]
    simp
  · rw [if_neg h, Int.min_eq_left (by omega)]
    simp

theorem natAbs_units_le (v : Dbl) (u : Int) :
    (units v u).natAbs * 2 ^ (u - min v.e u).toNat ≤ v.m.natAbs * 2 ^ (v.e - min v.e u).toNat := by
  unfold units
  rw [Int.natAbs_tdiv, Int.natAbs_mul, Int.natAbs_pow, Int.natAbs_pow]
  exact Nat.div_mul_le_self _ _

/-- A value below 2^E has fewer than 2^52 units of 2^(E-52). -/
theorem units_lt (v : Dbl) (E : Int) (h : Below v E) : (units v (E - 52)).natAbs < 2 ^ 52 := by
  rcases h with h | ⟨h1, h2⟩
  · unfold units; rw [h]; simp
  · have h3 := natAbs_units_le v (E - 52)
    have h4 : v.m.natAbs < 2 ^ (E - v.e).toNat := by exact_mod_cast h2
    apply Classical.byContradiction
    intro hge
    have hge : 2 ^ 52 ≤ (units v (E - 52)).natAbs := by omega
    generalize hb : min v.e (E - 52) = b at *
    have hbE : b ≤ E - 52 := by omega
    have hbe : b ≤ v.e := by omega
    have h5 : 2 ^ 52 * 2 ^ (E - 52 - b).toNat ≤ v.m.natAbs * 2 ^ (v.e - b).toNat :=
      Nat.le_trans (Nat.mul_le_mul_right _ hge) h3
    have h6 : v.m.natAbs * 2 ^ (v.e - b).toNat < 2 ^ (E - v.e).toNat * 2 ^ (v.e - b).toNat :=
      Nat.mul_lt_mul_of_pos_right h4 (Nat.pow_pos (by omega))
    rw [← Nat.pow_add] at h5 h6
    have : 52 + (E - 52 - b).toNat = (E - v.e).toNat + (v.e - b).toNat := by omega
    rw [this] at h5
    omega

/-- A 128-bit number with value `v` that is a sum of `n` values of fewer than 2^52 units. -/
def Good (n : Nat) (v : Int) (o : Option I128) : Prop :=
  ∃ x, o = some x ∧ Valid x ∧ value x = v ∧ -(n * 2 ^ 52 : Int) ≤ v ∧ v ≤ n * 2 ^ 52

theorem good_add (n n' : Nat) (v v' : Int) (x y : Option I128) (h : Good n v x) (h' : Good n' v' y)
    (hN : n + n' ≤ 2 ^ 74) : Good (n + n') (v + v') (addLift x y) := by
  obtain ⟨x, rfl, h1, h2, h3, h4⟩ := h
  obtain ⟨y, rfl, k1, k2, k3, k4⟩ := h'
  obtain ⟨c, c1, c2, c3⟩ := C13_add_exact_partial x y h1 k1 (by omega) (by omega) (by omega)
    (by omega) (by omega)
  exact ⟨c, by simpa [addLift] using c1, c2, by omega, by omega, by omega⟩

theorem good_zero : Good 0 0 (some (I128.ofInt64 0)) :=
  ⟨_, rfl, ofInt64_valid 0, value_ofInt64 0 (by omega) (by omega), by omega, by omega⟩

theorem good_fromDouble (v : Dbl) (E : Int) (hE : -1022 ≤ E) (h : Below v E) :
    Good 1 (units v (E - 52)) (fromDouble v (E - 52)) := by
  have hu := units_lt v E h
  rw [fromDouble_eq v _ (by omega), i64?_some (by omega) (by omega)]
  exact ⟨_, rfl, ofInt64_valid _, value_ofInt64 _ (by omega) (by omega), by omega, by omega⟩

theorem int128Sum_good (t : Team) (a : List Dbl) (E : Int) (hE : -1022 ≤ E)
    (hb : ∀ v ∈ a, Below v E) (hn : a.length ≤ 2 ^ 74) :
    Good a.length ((a.map (fun v => units v (E - 52))).sum) (int128Sum t a (E - 52)) := by
  unfold int128Sum
  by_cases h : a.length = 0
  · rw [if_pos h]
    have : a = [] := List.length_eq_zero_iff.1 h
    subst this
    exact good_zero
  · rw [if_neg h]
    cases a with
    | nil => simp at h
    | cons v0 l =>
      let a := v0 :: l
      have hw : ∀ i, i < a.length → a[i]? = some ((a[i]?).getD v0) := by
        intro i hi; rw [List.getElem?_eq_getElem hi]; rfl
      obtain ⟨r, h1, h2⟩ := good_transformReduce Good addLift (2 ^ 74) good_add t
        (fun i => (a[i]?).map (fun v => fromDouble v (E - 52)))
        (fun i => fromDouble ((a[i]?).getD v0) (E - 52))
        (fun i => units ((a[i]?).getD v0) (E - 52)) a.length (some (I128.ofInt64 0)) good_zero
        (by
          intro i hi
          refine ⟨by rw [hw i hi]; rfl, good_fromDouble _ E hE (hb _ ?_)⟩
          exact List.mem_of_getElem? (hw i hi))
        hn
      show Good a.length _ (transformReduce t addLift _ _ (fun i => (a[i]?).map
        (fun v => fromDouble v (E - 52))) a.length).join
      rw [h1]
      have hmap : (List.range a.length).map (fun i => units ((a[i]?).getD v0) (E - 52)) =
          a.map (fun v => units v (E - 52)) := by
        rw [← map_getElem_range a (fun i => (a[i]?).getD v0) hw, List.map_map]
        congr 1
        · funext i
          simp only [Function.comp_def]
          congr 2
          rw [map_getElem_range a (fun i => (a[i]?).getD v0) hw]
        · rw [map_getElem_range a (fun i => (a[i]?).getD v0) hw]
      rw [hmap] at h2
      exact h2

/-- The fixed-point sum is exactly the sum of the unit counts, for every team of threads, and never
overflows for up to 2^74 values. -/
theorem C13_int128_sum (t : Team) (a : List Dbl) (E : Int) (hE : -1022 ≤ E)
    (hb : ∀ v ∈ a, Below v E) (hn : a.length ≤ 2 ^ 74) :
    ∃ x, int128Sum t a (E - 52) = some x ∧ Valid x ∧
      value x = (a.map (fun v => units v (E - 52))).sum := by
  obtain ⟨x, h1, h2, h3, _⟩ := int128Sum_good t a E hE hb hn
  exact ⟨x, h1, h2, h3⟩

/-- The result of `repro_sum` in terms of the exact integer sum of unit counts. -/
theorem C13_repro_sum (t : Team) (a : List Dbl) (E : Int) (hf : ∀ v ∈ a, Finite v)
    (hm : IsMaxExponent a E) (hE : -1022 ≤ E) (hn : a.length ≤ 2 ^ 74) :
    ∃ x, Valid x ∧ value x = (a.map (fun v => units v (E - 52))).sum ∧
      reproSum t a = x.toDouble (E - 52) := by
  obtain ⟨v, hv, hnb⟩ := hm.2
  have hv0 : v.m ≠ 0 := fun h => hnb (Or.inl h)
  obtain ⟨E', h1, h2, h3, h4⟩ := C13_max_exponent t a hf
  have hEE : E' = E := isMaxExponent_unique (h2 ⟨v, hv, hv0⟩) hm
  subst hEE
  obtain ⟨x, x1, x2, x3⟩ := C13_int128_sum t a E' hE hm.1 hn
  refine ⟨x, x2, x3, ?_⟩
  unfold reproSum
  rw [if_neg (by
    intro h0
    have : a = [] := List.length_eq_zero_iff.1 h0
    subst this; simp at hv), h1]
  simp only [Option.bind_some]
  rw [if_neg (fun h => hv0 (h4 h v hv))]
  show (int128Sum t a (E' - 52)).bind (fun x => x.toDouble (E' - 52)) = _
  rw [x1]
  rfl

/-- If every value is a whole number of units and the sum has at most 53 bits, the result is the
exact sum. -/
theorem C13_exact_when_representable (t : Team) (a : List Dbl) (E : Int) (hf : ∀ v ∈ a, Finite v)
    (hm : IsMaxExponent a E) (hE : -1022 ≤ E) (hn : a.length ≤ 2 ^ 74)
    (hu : ∀ v ∈ a, E - 52 ≤ v.e)
    (h1 : -2 ^ 53 < (a.map (fun v => multiple v (E - 52))).sum)
    (h2 : (a.map (fun v => multiple v (E - 52))).sum < 2 ^ 53) :
    reproSum t a = some ⟨(a.map (fun v => multiple v (E - 52))).sum, E - 52⟩ := by
  obtain ⟨x, x1, x2, x3⟩ := C13_repro_sum t a E hf hm hE hn
  have he : a.map (fun v => units v (E - 52)) = a.map (fun v => multiple v (E - 52)) := by
    apply List.map_congr_left
    intro v hv
    unfold units multiple
    rw [Int.min_eq_right (hu v hv)]
    simp
  rw [he] at x2
  rw [x3, C13_to_double_exact x x1 (by omega) (by omega), x2]

theorem units_error (v : Dbl) (u b : Int) (h1 : b ≤ u) (h2 : b ≤ v.e) :
    (units v u * 2 ^ (u - b).toNat - multiple v b).natAbs < 2 ^ (u - b).toNat := by
  unfold units multiple
  -- both scaled to the smaller exponent
  generalize hc : min v.e u = c at *
  have hcb : b ≤ c := by omega
  have e1 : (v.e - b).toNat = (v.e - c).toNat + (c - b).toNat := by omega
  have e2 : (u - b).toNat = (u - c).toNat + (c - b).toNat := by omega
  rw [e1, e2, Int.pow_add, Int.pow_add, Nat.pow_add]
  generalize hX : v.m * 2 ^ (v.e - c).toNat = X at *
  have hPp : 0 < 2 ^ (u - c).toNat := Nat.pow_pos (n := (u - c).toNat) (by omega : 0 < 2)
  have hBp : 0 < 2 ^ (c - b).toNat := Nat.pow_pos (n := (c - b).toNat) (by omega : 0 < 2)
  have hP : ((2 ^ (u - c).toNat : Nat) : Int) = 2 ^ (u - c).toNat := by push_cast; rfl
  have hB : ((2 ^ (c - b).toNat : Nat) : Int) = 2 ^ (c - b).toNat := by push_cast; rfl
  rw [← hP, ← hB, ← Int.mul_assoc v.m, hX]
  generalize 2 ^ (u - c).toNat = P at *
  generalize 2 ^ (c - b).toNat = B at *
  have hdiff : X.tdiv (P : Int) * (P * B : Int) - X * B = -(X.tmod P * B) := by
    have := Int.tdiv_mul_add_tmod X (P : Int)
    have h2 : X * B = (X.tdiv P * P + X.tmod P) * B := by rw [this]
    rw [h2, Int.add_mul, Int.mul_assoc]
    omega
  rw [hdiff, Int.natAbs_neg, Int.natAbs_mul, Int.natAbs_natCast]
  have hlt : (X.tmod (P : Int)).natAbs < P := by
    rw [Int.natAbs_tmod]
    simpa using Nat.mod_lt X.natAbs hPp
  exact Nat.mul_lt_mul_of_pos_right hlt hBp

/-- Accuracy: the sum of the unit counts differs from the exact sum of the values by at most one unit
per value. All quantities are written as multiples of `2^b`. -/
theorem C13_accuracy (a : List Dbl) (u b : Int) (h1 : b ≤ u) (h2 : ∀ v ∈ a, b ≤ v.e) :
    ((a.map (fun v => units v u)).sum * 2 ^ (u - b).toNat
      - (a.map (fun v => multiple v b)).sum).natAbs ≤ a.length * 2 ^ (u - b).toNat := by
  induction a with
  | nil => simp
  | cons v l ih =>
    have hv := units_error v u b h1 (h2 v (by simp))
    have := ih (fun w hw => h2 w (by simp [hw]))
    simp only [List.map_cons, List.sum_cons, List.length_cons]
    rw [Int.add_mul, Nat.add_mul]
    generalize (l.map (fun v => units v u)).sum * 2 ^ (u - b).toNat = A at *
    generalize (l.map (fun v => multiple v b)).sum = B at *
    generalize l.length * 2 ^ (u - b).toNat = C at *
    omega

/-! ## Independence of order and partition -/

theorem maxExponent_perm (t t' : Team) {a a' : List Dbl} (h : a.Perm a') :
    maxExponent t a = maxExponent t' a' := by
  rw [maxExponent_eq, maxExponent_eq]
  congr 1
  exact foldl_perm max Int.max_assoc Int.max_comm (h.map _) _

theorem sum_units_perm {a a' : List Dbl} (h : a.Perm a') (u : Int) :
    (a.map (fun v => units v u)).sum = (a'.map (fun v => units v u)).sum :=
  perm_sum_int (h.map _)

/-- With a unit below the smallest double, every nonempty sum is undefined. -/
theorem int128Sum_tiny (t : Team) (a : List Dbl) (u : Int) (hu : u < -1074) (ha : a ≠ []) :
    int128Sum t a u = none := by
  have hlen : a.length ≠ 0 := by simpa using ha
  unfold int128Sum
  rw [if_neg hlen]
  have hbot : ∀ v, fromDouble v u = none := by intro v; unfold fromDouble; rw [if_pos hu]
  -- `Bot n _ o`: a combination of n values, undefined as soon as n is positive
  let G : Nat → Int → Option I128 → Prop := fun n _ o => 0 < n → o = none
  have hop : ∀ n n' v v' x y, G n v x → G n' v' y → n + n' ≤ a.length →
      G (n + n') (v + v') (addLift x y) := by
    intro n n' v v' x y h h' _ hpos
    by_cases hn : 0 < n
    · rw [h hn]; rfl
    · rw [h' (by omega)]; cases x <;> rfl
  obtain ⟨r, h1, h2⟩ := good_transformReduce G addLift a.length hop t
    (fun i => (a[i]?).map (fun v => fromDouble v u)) (fun _ => none) (fun _ => 0) a.length
    (some (I128.ofInt64 0)) (fun h => absurd h (by omega))
    (by intro i hi; exact ⟨by simp [List.getElem?_eq_getElem hi, hbot], fun _ => rfl⟩)
    (Nat.le_refl _)
  rw [h1]
  show r = none
  exact h2 (by omega)

/-- The result does not depend on the order of the values nor on how they are divided among threads
and partial sums. -/
theorem C13_order_and_threads_irrelevant (t t' : Team) (a a' : List Dbl) (h : a.Perm a')
    (hf : ∀ v ∈ a, Finite v) (hn : a.length ≤ 2 ^ 74) : reproSum t a = reproSum t' a' := by
  have hf' : ∀ v ∈ a', Finite v := fun v hv => hf v (h.mem_iff.2 hv)
  by_cases hz : ∀ v ∈ a, v.m = 0
  · have key : ∀ (t : Team) (a : List Dbl), (∀ v ∈ a, Finite v) → (∀ v ∈ a, v.m = 0) →
        reproSum t a = some ⟨0, 0⟩ := by
      intro t a hf hz
      obtain ⟨E, h1, _, h3, _⟩ := C13_max_exponent t a hf
      unfold reproSum
      by_cases h0 : a.length = 0
      · rw [if_pos h0]
      · rw [if_neg h0, h1]
        simp only [Option.bind_some]
        rw [if_pos (h3 hz)]
    rw [key t a hf hz, key t' a' hf' (fun v hv => hz v (h.mem_iff.2 hv))]
  · obtain ⟨v, hv, hv0⟩ : ∃ v ∈ a, v.m ≠ 0 := by
      apply Classical.byContradiction
      intro hne
      apply hz
      intro v hv
      apply Classical.byContradiction
      intro h0
      exact hne ⟨v, hv, h0⟩
    obtain ⟨E, h1, h2, _, h4⟩ := C13_max_exponent t a hf
    have hm := h2 ⟨v, hv, hv0⟩
    have hm' : IsMaxExponent a' E :=
      ⟨fun w hw => hm.1 w (h.mem_iff.2 hw), by
        obtain ⟨w, hw, hnb⟩ := hm.2
        exact ⟨w, h.mem_iff.1 hw, hnb⟩⟩
    by_cases hE : -1022 ≤ E
    · obtain ⟨x, x1, x2, x3⟩ := C13_repro_sum t a E hf hm hE hn
      obtain ⟨y, y1, y2, y3⟩ := C13_repro_sum t' a' E hf' hm' hE (by rw [← h.length_eq]; exact hn)
      rw [x3, y3, value_unique x1 y1 (by rw [x2, y2, sum_units_perm h])]
    · have key : ∀ (t : Team) (a : List Dbl), maxExponent t a = some E → v ∈ a →
          reproSum t a = none := by
        intro t a h1 hv
        have hne : a ≠ [] := by rintro rfl; simp at hv
        unfold reproSum
        rw [if_neg (by simpa using hne), h1]
        simp only [Option.bind_some]
        rw [if_neg (fun hEm => hv0 (h4 hEm v (by assumption)))]
        rw [int128Sum_tiny t a (E - mantissaBits) (by unfold mantissaBits; omega) hne]
        rfl
      rw [key t a h1 hv, key t' a' (by rw [← maxExponent_perm t t' h]; exact h1) (h.mem_iff.1 hv)]

theorem mapM_some_map {α β : Type} (f : α → Option β) (g : α → β) (l : List α)
    (h : ∀ x ∈ l, f x = some (g x)) : l.mapM f = some (l.map g) := mapM_list_of f g l h

theorem foldl_max_flatten (lo : Int) (ls : List (List Int)) :
    ∀ a, lo ≤ a → (ls.map (fun l => l.foldl max lo)).foldl max a = ls.flatten.foldl max a := by
  induction ls with
  | nil => intro a _; rfl
  | cons l ls ih =>
    intro a ha
    have h1 : max a (l.foldl max lo) = l.foldl max a := by
      rw [← foldl_assoc_init max Int.max_assoc l a lo, Int.max_eq_left ha]
    rw [List.map_cons, List.foldl_cons, List.flatten_cons, List.foldl_append, h1]
    exact ih _ (Int.le_trans ha (foldl_max_le l a).1)

/-- Neither does it depend on how the values are distributed over ranks, nor on the order in which
MPI combines the contributions: the parallel sum equals the serial sum of the concatenation. -/
theorem C13_partition_irrelevant (rt rt' : RankTree) (t : Team) (parts : List (Team × List Dbl))
    (hne : parts ≠ []) (hf : ∀ p ∈ parts, ∀ v ∈ p.2, Finite v)
    (hn : (parts.map Prod.snd).flatten.length ≤ 2 ^ 74)
    (hsub : ∀ E, IsMaxExponent (parts.map Prod.snd).flatten E → -1022 ≤ E) :
    reproSumComm rt rt' parts = reproSum t (parts.map Prod.snd).flatten := by
  let all := (parts.map Prod.snd).flatten
  have hfa : ∀ v ∈ all, Finite v := by
    intro v hv
    obtain ⟨l, hl, hvl⟩ := List.mem_flatten.1 hv
    obtain ⟨p, hp, rfl⟩ := List.mem_map.1 hl
    exact hf p hp v hvl
  have hsubl : ∀ p ∈ parts, ∀ v ∈ p.2, v ∈ all := by
    intro p hp v hv
    exact List.mem_flatten.2 ⟨p.2, List.mem_map.2 ⟨p, hp, rfl⟩, hv⟩
  -- the exponents
  have hexp : parts.mapM (fun p => maxExponent p.1 p.2) =
      some (parts.map (fun p => (p.2.map expoOf).foldl max intMin)) :=
    mapM_list_of _ _ _ (fun p _ => maxExponent_eq p.1 p.2)
  have hmax : (fun x y : Int => if x < y then y else x) = max := by
    funext x y; exact max2_eq x y
  have hall : allreduce rt (fun x y : Int => if x < y then y else x)
      (parts.map (fun p => (p.2.map expoOf).foldl max intMin)) =
      some ((all.map expoOf).foldl max intMin) := by
    rw [hmax, allreduce_eq rt max intMin _ (by simpa using hne) Int.max_assoc Int.max_comm]
    · congr 1
      have := foldl_max_flatten intMin (parts.map (fun p => p.2.map expoOf)) intMin (Int.le_refl _)
      rw [List.map_map] at this
      have e : parts.map (fun p => (p.2.map expoOf).foldl max intMin) =
          parts.map ((fun l => l.foldl max intMin) ∘ fun p => p.2.map expoOf) := rfl
      rw [e, this]
      congr 1
      show _ = ((parts.map Prod.snd).flatten).map expoOf
      rw [List.map_flatten, List.map_map]
      rfl
    · intro x hx
      obtain ⟨p, hp, rfl⟩ := List.mem_map.1 hx
      exact Int.max_eq_right (foldl_max_le _ _).1
  obtain ⟨E, h1, h2, h3, h4⟩ := C13_max_exponent t all hfa
  have hEq : (all.map expoOf).foldl max intMin = E := by
    have := maxExponent_eq t all
    rw [h1] at this
    exact (Option.some.inj this).symm
  have hcomm : reproSumComm rt rt' parts = if E = intMin then some ⟨0, 0⟩ else
      (parts.mapM (fun p => int128Sum p.1 p.2 (E - mantissaBits))).bind (fun sums =>
        (allreduce rt' addLift (sums.map some)).bind (fun o => o.bind (fun sum =>
          sum.toDouble (E - mantissaBits)))) := by
    unfold reproSumComm
    rw [hexp]
    simp only [Option.bind_eq_bind, Option.bind_some]
    rw [hall]
    simp only [Option.bind_some, hEq]
    split <;> rfl
  rw [hcomm]
  by_cases hz : E = intMin
  · rw [if_pos hz]
    unfold reproSum
    by_cases h0 : all.length = 0
    · rw [if_pos h0]
    · rw [if_neg h0]
      show _ = (maxExponent t all).bind _
      rw [h1]
      simp only [Option.bind_some]
      rw [if_pos hz]
  · rw [if_neg hz]
    have hv : ∃ v ∈ all, v.m ≠ 0 := by
      apply Classical.byContradiction
      intro hne
      apply hz
      apply h3
      intro v hv
      apply Classical.byContradiction
      intro h0
      exact hne ⟨v, hv, h0⟩
    have hm := h2 hv
    have hE := hsub E hm
    obtain ⟨x, x1, x2, x3⟩ := C13_repro_sum t all E hfa hm hE hn
    rw [show reproSum t (parts.map Prod.snd).flatten = x.toDouble (E - 52) from x3]
    -- lengths and sums per rank
    have hlenle : ∀ p ∈ parts, p.2.length ≤ 2 ^ 74 := by
      intro p hp
      have : p.2.length ≤ all.length :=
        (List.sublist_flatten_of_mem (List.mem_map.2 ⟨p, hp, rfl⟩)).length_le
      exact Nat.le_trans this hn
    have hgood : ∀ p ∈ parts, Good p.2.length ((p.2.map (fun v => units v (E - 52))).sum)
        (int128Sum p.1 p.2 (E - 52)) := fun p hp =>
      int128Sum_good p.1 p.2 E hE (fun v hv => hm.1 v (hsubl p hp v hv)) (hlenle p hp)
    have hsums : ∃ sums, parts.mapM (fun p => int128Sum p.1 p.2 (E - 52)) = some sums ∧
        sums.map some = parts.map (fun p => int128Sum p.1 p.2 (E - 52)) := by
      clear hcomm hall hexp hmax hn hlenle hsubl hne hf
      clear hsub x3 x2 x1 x hm hv h1 h2 h3 h4 hEq hfa all
      induction parts with
      | nil => exact ⟨[], rfl, rfl⟩
      | cons p ps ih =>
        obtain ⟨sums, s1, s2⟩ := ih (fun q hq => hgood q (by simp [hq]))
        obtain ⟨y, y1, _⟩ := hgood p (by simp)
        refine ⟨y :: sums, ?_, ?_⟩
        · rw [List.mapM_cons, y1, s1]; rfl
        · rw [List.map_cons, List.map_cons, s2, y1]
    obtain ⟨sums, s1, s2⟩ := hsums
    have hmb : E - mantissaBits = E - 52 := rfl
    rw [hmb, s1]
    simp only [Option.bind_some]
    rw [s2]
    cases hparts : parts with
    | nil => exact absurd hparts hne
    | cons p0 ps0 =>
    rw [← hparts]
    let g : Nat → Team × List Dbl := fun i => (parts[i]?).getD p0
    have hg : ∀ i, i < parts.length → parts[i]? = some (g i) := by
      intro i hi; simp [g, hi]
    have hgm : (List.range parts.length).map g = parts := map_getElem_range parts g hg
    have hcsum : ((List.range parts.length).map (fun i => (g i).2.length)).sum = all.length := by
      have : (List.range parts.length).map (fun i => (g i).2.length) =
          ((List.range parts.length).map g).map (fun p => p.2.length) := by
        rw [List.map_map]; rfl
      rw [this, hgm]
      show _ = (parts.map Prod.snd).flatten.length
      rw [List.length_flatten, List.map_map]
      rfl
    have hzsum : ((List.range parts.length).map
        (fun i => ((g i).2.map (fun v => units v (E - 52))).sum)).sum =
        (all.map (fun v => units v (E - 52))).sum := by
      have : (List.range parts.length).map
          (fun i => ((g i).2.map (fun v => units v (E - 52))).sum) =
          ((List.range parts.length).map g).map
            (fun p => (p.2.map (fun v => units v (E - 52))).sum) := by
        rw [List.map_map]; rfl
      rw [this, hgm]
      show _ = (((parts.map Prod.snd).flatten).map (fun v => units v (E - 52))).sum
      generalize parts = ps
      induction ps with
      | nil => rfl
      | cons p ps ih =>
        simp only [List.map_cons, List.sum_cons, List.flatten_cons, List.map_append,
          List.sum_append, ih]
    obtain ⟨r, r1, r2⟩ := good_allreduce Good addLift (2 ^ 74) good_add rt'
      (parts.map (fun p => int128Sum p.1 p.2 (E - 52))) (by simpa using hne)
      (fun i => (g i).2.length) (fun i => ((g i).2.map (fun v => units v (E - 52))).sum)
      (by
        intro i hi
        rw [List.length_map] at hi
        refine ⟨int128Sum (g i).1 (g i).2 (E - 52), by rw [List.getElem?_map, hg i hi]; rfl, ?_⟩
        exact hgood (g i) (List.mem_of_getElem? (hg i hi)))
      (by rw [List.length_map, hcsum]; exact hn)
    rw [List.length_map, hzsum] at r2
    rw [r1]
    obtain ⟨y, rfl, y2, y3, _⟩ := r2
    simp only [Option.bind_some]
    rw [value_unique y2 x1 (by rw [y3, x2])]

/-- An array whose largest value is a very small subnormal number is not summed: the unit underflows
to zero and the conversion is undefined. -/
theorem C13_subnormal_refuted (t : Team) :
    Finite ⟨1, -1074⟩ ∧ reproSum t [⟨1, -1074⟩] = none := by
  refine ⟨by unfold Finite; decide, ?_⟩
  unfold reproSum
  rw [if_neg (by simp), maxExponent_eq]
  simp only [Option.bind_some]
  rw [if_neg (by decide), int128Sum_tiny t _ _ (by decide) (by simp)]
  rfl

/-! ## Non-vacuity -/

/-- 1.0, -0.5 and 3.0: the largest exponent is 2 and the sum is 3.5 = 7·2^49 · 2^-50. -/
example : ∃ E, IsMaxExponent [⟨1, 0⟩, ⟨-1, -1⟩, ⟨3, 0⟩] E ∧ -1022 ≤ E ∧
    reproSum .two [⟨1, 0⟩, ⟨-1, -1⟩, ⟨3, 0⟩] = some ⟨7 * 2 ^ 49, -50⟩ := by
  refine ⟨2, ⟨?_, ⟨3, 0⟩, by simp, ?_⟩, by omega, by decide +kernel⟩
  · intro v hv
    unfold Below
    simp at hv
    rcases hv with rfl | rfl | rfl <;> decide
  · unfold Below; decide

example : reproSumComm .left .left
    [(.two, [⟨1, 0⟩, ⟨-1, -1⟩]), (.serial, []), (.serial, [⟨3, 0⟩])] = some ⟨7 * 2 ^ 49, -50⟩ := by
  decide +kernel

end OmegaH
