import Verif.Spec.Int128
import Verif.Lemmas.Reduce

/-! # Lemmas on 128-bit integers -/

namespace OmegaH

open Spec

theorem i64?_some {x : Int} (h1 : -2 ^ 63 ≤ x) (h2 : x < 2 ^ 63) : i64? x = some x := by
  unfold i64?; rw [if_pos ⟨h1, h2⟩]

theorem i64?_none {x : Int} (h : x < -2 ^ 63 ∨ 2 ^ 63 ≤ x) : i64? x = none := by
  unfold i64?; rw [if_neg (by omega)]

theorem ofInt64_valid (v : Int) : Valid (I128.ofInt64 v) := by
  unfold Valid I128.ofInt64
  refine ⟨?_, ?_, ?_⟩
  · simp only; split <;> omega
  · simp only; split <;> omega
  · simp only; omega

theorem value_ofInt64 (v : Int) (h1 : -2 ^ 63 ≤ v) (h2 : v < 2 ^ 63) :
    value (I128.ofInt64 v) = v := by
  unfold value I128.ofInt64
  simp only
  by_cases h : v < 0
  · rw [if_pos h]; omega
  · rw [if_neg h]; omega

theorem value_unique {a b : I128} (ha : Valid a) (hb : Valid b) (h : value a = value b) : a = b := by
  obtain ⟨ah, al⟩ := a
  obtain ⟨bh, bl⟩ := b
  unfold Valid at ha hb
  unfold value at h
  simp only at ha hb h
  have h1 : ah = bh := by omega
  have h2 : al = bl := by omega
  rw [h1, h2]

theorem add_exact (a b : I128) (ha : Valid a) (hb : Valid b)
    (h1 : -2 ^ 63 ≤ a.high + b.high) (h2 : a.high + b.high < 2 ^ 63)
    (h4 : value a + value b < 2 ^ 127) :
    ∃ c, a.add b = some c ∧ Valid c ∧ value c = value a + value b := by
  obtain ⟨ah, al⟩ := a
  obtain ⟨bh, bl⟩ := b
  unfold Valid at ha hb
  unfold value at h4
  simp only at ha hb h1 h2 h4
  unfold I128.add
  simp only
  rw [i64?_some h1 h2]
  simp only [Option.bind_some]
  by_cases hc : (al + bl) % 2 ^ 64 < al
  · rw [if_pos hc, i64?_some (by omega) (by omega)]
    refine ⟨_, rfl, ?_, ?_⟩
    · unfold Valid; simp only; omega
    · unfold value; simp only; omega
  · rw [if_neg hc, i64?_some (by omega) (by omega)]
    refine ⟨_, rfl, ?_, ?_⟩
    · unfold Valid; simp only; omega
    · unfold value; simp only; omega

theorem sub_exact (a b : I128) (ha : Valid a) (hb : Valid b)
    (h1 : -2 ^ 63 ≤ a.high - b.high) (h2 : a.high - b.high < 2 ^ 63)
    (h3 : -2 ^ 127 ≤ value a - value b) :
    ∃ c, a.sub b = some c ∧ Valid c ∧ value c = value a - value b := by
  obtain ⟨ah, al⟩ := a
  obtain ⟨bh, bl⟩ := b
  unfold Valid at ha hb
  unfold value at h3
  simp only at ha hb h1 h2 h3
  unfold I128.sub
  simp only
  rw [i64?_some h1 h2]
  simp only [Option.bind_some]
  by_cases hc : (al + (2 ^ 64 - bl)) % 2 ^ 64 > al
  · rw [if_pos hc, i64?_some (by omega) (by omega)]
    refine ⟨_, rfl, ?_, ?_⟩
    · unfold Valid; simp only; omega
    · unfold value; simp only; omega
  · rw [if_neg hc, i64?_some (by omega) (by omega)]
    refine ⟨_, rfl, ?_, ?_⟩
    · unfold Valid; simp only; omega
    · unfold value; simp only; omega

theorem neg_exact (a : I128) (ha : Valid a) (h' : a.high ≠ -2 ^ 63) :
    ∃ c, a.neg = some c ∧ Valid c ∧ value c = - value a := by
  have e0 : value (I128.ofInt64 0) = 0 := value_ofInt64 0 (by omega) (by omega)
  obtain ⟨c, h1, h2, h3⟩ := sub_exact (I128.ofInt64 0) a (ofInt64_valid 0) ha
    (by unfold Valid at ha; simp [I128.ofInt64]; omega)
    (by unfold Valid at ha; simp [I128.ofInt64]; omega)
    (by unfold Valid at ha; rw [e0]; unfold value at *; omega)
  exact ⟨c, h1, h2, by rw [h3, e0]; omega⟩

theorem lt_iff (a b : I128) (ha : Valid a) (hb : Valid b) :
    a.lt b = true ↔ value a < value b := by
  obtain ⟨ah, al⟩ := a
  obtain ⟨bh, bl⟩ := b
  unfold Valid at ha hb
  unfold I128.lt value
  simp only at ha hb ⊢
  by_cases h : ah ≠ bh
  · rw [if_pos h]; simp only [decide_eq_true_eq]; omega
  · rw [if_neg h]; simp only [decide_eq_true_eq]; omega

theorem beq_iff (a b : I128) (ha : Valid a) (hb : Valid b) :
    a.beq b = true ↔ value a = value b := by
  constructor
  · intro h
    unfold I128.beq at h
    simp at h
    unfold value
    rw [h.1, h.2]
  · intro h
    rw [value_unique ha hb h]
    unfold I128.beq
    simp

theorem shr_exact (x : I128) (hx : Valid x) (k : Nat) (h1 : 1 ≤ k) (h2 : k < 64) :
    ∃ c, x.shr k = some c ∧ Valid c ∧ value c = value x / 2 ^ k := by
  obtain ⟨h, l⟩ := x
  unfold Valid at hx
  simp only at hx
  unfold I128.shr
  rw [if_pos ⟨h1, h2⟩]
  simp only
  -- P * Q = 2^64
  have hPQ : 2 ^ k * 2 ^ (64 - k) = 2 ^ 64 := by rw [← Nat.pow_add]; congr 1; omega
  have hP2 : 2 ≤ 2 ^ k := by
    have : 2 ^ 1 ≤ 2 ^ k := Nat.pow_le_pow_right (by omega) h1
    omega
  have hcast : ((2 ^ k : Nat) : Int) = 2 ^ k := by push_cast; rfl
  rw [← hcast]
  generalize hP : 2 ^ k = P at *
  generalize hQ : 2 ^ (64 - k) = Q at *
  have hQpos : 0 < Q := by rw [← hQ]; exact Nat.pow_pos (by omega)
  -- the two parts of the low word
  have e1 : (h % 2 ^ 64).toNat * Q % 2 ^ 64 = Q * ((h % 2 ^ 64).toNat % P) := by
    rw [← hPQ, Nat.mul_mod_mul_right, Nat.mul_comm]
  have hlow : l / P < Q := by
    rw [Nat.div_lt_iff_lt_mul (by omega), Nat.mul_comm, hPQ]; exact hx.2.2
  have e2 : (l / P) ||| (h % 2 ^ 64).toNat * Q % 2 ^ 64 = Q * ((h % 2 ^ 64).toNat % P) + l / P := by
    rw [e1, ← hQ] at *
    rw [Nat.two_pow_add_eq_or_of_lt (by rw [hQ]; exact hlow), Nat.or_comm]
  rw [e2]
  have e3 : ((((h % 2 ^ 64).toNat % P : Nat)) : Int) = h % P := by
    rw [Int.natCast_emod, Int.toNat_of_nonneg (by omega)]
    have : ((P : Int)) ∣ 2 ^ 64 := ⟨(Q : Int), by
      have := congrArg (fun n : Nat => (n : Int)) hPQ
      simp only [Int.natCast_mul] at this
      rw [this]; rfl⟩
    exact Int.emod_emod_of_dvd h this
  have hPQ' : (P : Int) * Q = 2 ^ 64 := by
    have := congrArg (fun n : Nat => (n : Int)) hPQ
    simp only [Int.natCast_mul] at this
    rw [this]; rfl
  have hdm := Int.mul_ediv_add_emod h (P : Int)
  have hr0 : 0 ≤ h % (P : Int) := Int.emod_nonneg _ (by omega)
  have hr1 : h % (P : Int) < P := Int.emod_lt_of_pos _ (by omega)
  refine ⟨_, rfl, ⟨?_, ?_, ?_⟩, ?_⟩
  · simp only
    have : -2 ^ 63 / (P : Int) ≤ h / P := Int.ediv_le_ediv (by omega) hx.1
    have h3 : -2 ^ 63 ≤ -2 ^ 63 / (P : Int) := by
      rw [Int.le_ediv_iff_mul_le (by omega)]
      omega
    omega
  · simp only
    have : h / (P : Int) ≤ h ∨ h / (P : Int) ≤ 0 := by
      by_cases h0 : 0 ≤ h
      · exact Or.inl (Int.ediv_le_self _ h0)
      · exact Or.inr (by
          have : h / (P : Int) < 0 := by
            rw [Int.ediv_lt_iff_lt_mul (by omega)]; omega
          omega)
    omega
  · simp only
    have h5 : Q * ((h % 2 ^ 64).toNat % P) + l / P < Q * P := by
      have : (h % 2 ^ 64).toNat % P + 1 ≤ P := Nat.mod_lt _ (by omega)
      have := Nat.mul_le_mul_left Q this
      rw [Nat.mul_add] at this
      omega
    rw [Nat.mul_comm Q P, hPQ] at h5
    exact h5
  · unfold value
    simp only
    rw [Int.natCast_add, Int.natCast_mul, e3, Int.natCast_ediv]
    have hv : h * 2 ^ 64 + (l : Int) = (l : Int) + P * (h * Q) := by
      rw [← hPQ']
      rw [show h * (P * Q : Int) = P * (h * Q) by rw [← Int.mul_assoc, Int.mul_comm h P, Int.mul_assoc]]
      omega
    rw [hv, Int.add_mul_ediv_left _ _ (by omega)]
    have e4 : h * (Q : Int) = h / P * 2 ^ 64 + Q * (h % P) := by
      conv => lhs; rw [← hdm]
      rw [Int.add_mul, ← hPQ']
      rw [show (P : Int) * (h / P) * Q = h / P * (P * Q) by
        rw [Int.mul_comm (P : Int) (h / P), Int.mul_assoc]]
      rw [Int.mul_comm (h % P)]
    rw [e4]
    omega

theorem perm_sum_int {l l' : List Int} (h : l.Perm l') : l.sum = l'.sum := by
  rw [List.sum_eq_foldl, List.sum_eq_foldl]
  exact foldl_perm (· + ·) Int.add_assoc Int.add_comm h 0

theorem perm_sum_nat {l l' : List Nat} (h : l.Perm l') : l.sum = l'.sum := by
  rw [List.sum_eq_foldl, List.sum_eq_foldl]
  exact foldl_perm (· + ·) Nat.add_assoc Nat.add_comm h 0

/-! ## Sums of bounded values by trees of additions -/

section trees

variable {β : Type} (G : Nat → Int → β → Prop) (op : β → β → β) (N : Nat)
  (hop : ∀ n n' v v' x y, G n v x → G n' v' y → n + n' ≤ N → G (n + n') (v + v') (op x y))
include hop

theorem good_foldl (l : List (Int × β)) (hl : ∀ p ∈ l, G 1 p.1 p.2) :
    ∀ (n : Nat) (v : Int) (x : β), G n v x → n + l.length ≤ N →
      G (n + l.length) (v + (l.map Prod.fst).sum) ((l.map Prod.snd).foldl op x) := by
  induction l with
  | nil => intro n v x h _; simpa using h
  | cons p l ih =>
    intro n v x h hN
    simp only [List.length_cons] at hN
    have h1 := hop n 1 v p.1 x p.2 h (hl p (by simp)) (by omega)
    have := ih (fun q hq => hl q (by simp [hq])) (n + 1) _ _ h1 (by omega)
    simp only [List.length_cons, List.map_cons, List.sum_cons, List.foldl_cons]
    rw [show n + (l.length + 1) = n + 1 + l.length by omega, ← Int.add_assoc]
    exact this

theorem good_tree (t : RTree (List Nat)) (f : Nat → Option β) (w : Nat → β) (z : Nat → Int)
    (e : β) (he : G 0 0 e)
    (hf : ∀ i ∈ t.leaves.flatten, f i = some (w i) ∧ G 1 (z i) (w i)) :
    t.leaves.flatten.length ≤ N →
    ∃ t', t.mapM? (fun its => (its.mapM f).map (fun vs => vs.foldl op e)) = some t' ∧
      G t.leaves.flatten.length ((t.leaves.flatten.map z).sum) (t'.reduce op) := by
  induction t with
  | leaf its =>
    intro hN
    simp only [RTree.leaves, List.flatten_cons, List.flatten_nil, List.append_nil] at *
    have h1 : its.mapM f = some (its.map w) := mapM_list_of f w its (fun x hx => (hf x hx).1)
    refine ⟨.leaf ((its.map w).foldl op e), by simp [RTree.mapM?, h1], ?_⟩
    have := good_foldl G op N hop (its.map (fun i => (z i, w i)))
      (by intro p hp; obtain ⟨i, hi, rfl⟩ := List.mem_map.1 hp; exact (hf i hi).2)
      0 0 e he (by simpa using hN)
    simpa [List.map_map, Function.comp_def, RTree.reduce] using this
  | node l r ihl ihr =>
    intro hN
    simp only [RTree.leaves, List.flatten_append, List.length_append] at hN
    obtain ⟨l', h1, h2⟩ := ihl (fun i hi => hf i (by simp [RTree.leaves]; left; simpa using hi))
      (by omega)
    obtain ⟨r', h3, h4⟩ := ihr (fun i hi => hf i (by simp [RTree.leaves]; right; simpa using hi))
      (by omega)
    refine ⟨.node l' r', by simp [RTree.mapM?, h1, h3], ?_⟩
    simp only [RTree.leaves, List.flatten_append, List.length_append, List.map_append,
      List.sum_append, RTree.reduce]
    exact hop _ _ _ _ _ _ h2 h4 hN

theorem good_transformReduce (t : Team) (f : Nat → Option β) (w : Nat → β) (z : Nat → Int) (n : Nat)
    (e : β) (he : G 0 0 e) (hf : ∀ i, i < n → f i = some (w i) ∧ G 1 (z i) (w i)) (hN : n ≤ N) :
    ∃ r, transformReduce t op e e f n = some r ∧ G n (((List.range n).map z).sum) r := by
  have hp := t.ok n
  have hlen : (t.tree n).leaves.flatten.length = n := by rw [hp.length_eq, List.length_range]
  obtain ⟨t', h1, h2⟩ := good_tree G op N hop (t.tree n) f w z e he
    (fun i hi => hf i (by simpa using hp.mem_iff.1 hi)) (by omega)
  refine ⟨op e (t'.reduce op), by unfold transformReduce; rw [h1]; rfl, ?_⟩
  have := hop 0 _ 0 _ _ _ he h2 (by omega)
  rw [hlen, Nat.zero_add, Int.zero_add] at this
  have hs : ((t.tree n).leaves.flatten.map z).sum = ((List.range n).map z).sum :=
    perm_sum_int (hp.map z)
  rwa [hs] at this

theorem good_rankTree (t : RTree Nat) (xs : List β) (c : Nat → Nat) (z : Nat → Int)
    (hx : ∀ i ∈ t.leaves, ∃ x, xs[i]? = some x ∧ G (c i) (z i) x) :
    (t.leaves.map c).sum ≤ N →
    ∃ t', t.mapM? (fun r => xs[r]?) = some t' ∧
      G ((t.leaves.map c).sum) ((t.leaves.map z).sum) (t'.reduce op) := by
  induction t with
  | leaf i =>
    intro _
    obtain ⟨x, h1, h2⟩ := hx i (by simp [RTree.leaves])
    exact ⟨.leaf x, by simp [RTree.mapM?, h1], by simpa [RTree.leaves, RTree.reduce] using h2⟩
  | node l r ihl ihr =>
    intro hN
    simp only [RTree.leaves, List.map_append, List.sum_append] at hN
    obtain ⟨l', h1, h2⟩ := ihl (fun i hi => hx i (by simp [RTree.leaves, hi])) (by omega)
    obtain ⟨r', h3, h4⟩ := ihr (fun i hi => hx i (by simp [RTree.leaves, hi])) (by omega)
    refine ⟨.node l' r', by simp [RTree.mapM?, h1, h3], ?_⟩
    simp only [RTree.leaves, List.map_append, List.sum_append, RTree.reduce]
    exact hop _ _ _ _ _ _ h2 h4 hN

theorem good_allreduce (t : RankTree) (xs : List β) (hne : xs ≠ []) (c : Nat → Nat) (z : Nat → Int)
    (hx : ∀ i, i < xs.length → ∃ x, xs[i]? = some x ∧ G (c i) (z i) x)
    (hN : ((List.range xs.length).map c).sum ≤ N) :
    ∃ r, allreduce t op xs = some r ∧
      G (((List.range xs.length).map c).sum) (((List.range xs.length).map z).sum) r := by
  have hp := t.ok xs.length (List.length_pos_iff.2 hne)
  have hsc := perm_sum_nat (hp.map c)
  have hsz := perm_sum_int (hp.map z)
  obtain ⟨t', h1, h2⟩ := good_rankTree G op N hop (t.tree xs.length) xs c z
    (fun i hi => hx i (by simpa using hp.mem_iff.1 hi)) (by rw [hsc]; exact hN)
  refine ⟨t'.reduce op, by unfold allreduce; rw [h1]; rfl, ?_⟩
  rwa [hsc, hsz] at h2

end trees

end OmegaH
