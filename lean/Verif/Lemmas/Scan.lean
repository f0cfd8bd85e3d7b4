import Verif.Model.Scan
import Verif.Lemmas.Mem

/-! Helper lemmas about scans. -/

namespace OmegaH

variable {α : Type}

/-- fold of a nonempty list -/
def fold1 (op : α → α → α) : List α → Option α
  | [] => none
  | x :: xs => some (xs.foldl op x)

theorem foldl_assoc (op : α → α → α) (hop : ∀ a b c, op (op a b) c = op a (op b c))
    (a b : α) (l : List α) : l.foldl op (op a b) = op a (l.foldl op b) := by
  induction l generalizing b with
  | nil => rfl
  | cons x xs ih => simp only [List.foldl_cons]; rw [hop, ih]

theorem fold1_append (op : α → α → α) (hop : ∀ a b c, op (op a b) c = op a (op b c))
    (l₁ l₂ : List α) (a b : α) (h₁ : fold1 op l₁ = some a) (h₂ : fold1 op l₂ = some b) :
    fold1 op (l₁ ++ l₂) = some (op a b) := by
  cases l₁ with
  | nil => simp [fold1] at h₁
  | cons x xs =>
    cases l₂ with
    | nil => simp [fold1] at h₂
    | cons y ys =>
      simp only [fold1, Option.some.injEq] at h₁ h₂
      simp only [fold1, List.cons_append, List.foldl_append, List.foldl_cons, h₁]
      rw [foldl_assoc op hop, h₂]

theorem fold1_isSome {op : α → α → α} {l : List α} (h : l ≠ []) : ∃ a, fold1 op l = some a := by
  cases l with
  | nil => exact absurd rfl h
  | cons x xs => exact ⟨_, rfl⟩

theorem scanFrom_length (op : α → α → α) (v : α) (l : List α) : (scanFrom op v l).length = l.length := by
  induction l generalizing v with
  | nil => rfl
  | cons x xs ih => simp [scanFrom, ih]

theorem scanFrom_getElem? (op : α → α → α) (v : α) (l : List α) (i : Nat) (h : i < l.length) :
    (scanFrom op v l)[i]? = some ((l.take (i + 1)).foldl op v) := by
  induction l generalizing v i with
  | nil => simp at h
  | cons x xs ih =>
    cases i with
    | zero => simp [scanFrom]
    | succ i =>
      simp only [scanFrom, List.getElem?_cons_succ, List.take_succ_cons, List.foldl_cons]
      rw [ih _ _ (by simpa using h)]

theorem inclusiveScan_length (op : α → α → α) (l : List α) : (inclusiveScan op l).length = l.length := by
  cases l with
  | nil => rfl
  | cons x xs => simp [inclusiveScan, scanFrom_length]

theorem inclusiveScan_getElem? (op : α → α → α) (l : List α) (i : Nat) (h : i < l.length) :
    (inclusiveScan op l)[i]? = fold1 op (l.take (i + 1)) := by
  cases l with
  | nil => simp at h
  | cons x xs =>
    cases i with
    | zero => simp [inclusiveScan, fold1]
    | succ i =>
      simp only [inclusiveScan, List.getElem?_cons_succ, List.take_succ_cons, fold1]
      exact scanFrom_getElem? op x xs i (by simpa using h)

/-! ### chunk arithmetic -/

theorem chunkEnd_eq (n T t : Nat) : chunkEnd n T t = chunkBegin n T (t + 1) := by
  unfold chunkEnd chunkBegin
  simp only
  generalize n / T = q
  generalize n % T = r
  have e1 : q * (t + 1) = q * t + q := by rw [Nat.mul_add, Nat.mul_one]
  have e2 : (q + 1) * (t + 1) = q * t + q + t + 1 := by
    rw [Nat.add_mul, e1]; omega
  have e3 : (q + 1) * t = q * t + t := by rw [Nat.add_mul]; omega
  rw [e1, e2, e3]
  split <;> split <;> (try split) <;> omega

theorem chunkBegin_zero (n T : Nat) : chunkBegin n T 0 = 0 := by
  unfold chunkBegin; simp

theorem chunkBegin_last (n T : Nat) (hT : 0 < T) : chunkBegin n T T = n := by
  unfold chunkBegin
  have := Nat.mod_lt n hT
  have h2 := Nat.div_add_mod n T
  have h3 : n / T * T = T * (n / T) := Nat.mul_comm _ _
  simp only
  split <;> omega

theorem chunkBegin_mono (n T : Nat) {s t : Nat} (h : s ≤ t) : chunkBegin n T s ≤ chunkBegin n T t := by
  induction t with
  | zero => have : s = 0 := by omega
            subst this; exact Nat.le_refl _
  | succ t ih =>
    rcases Nat.lt_or_eq_of_le h with h' | h'
    · refine Nat.le_trans (ih (by omega)) ?_
      rw [← chunkEnd_eq]; unfold chunkEnd; simp only; generalize n / T = q; split <;> omega
    · subst h'; exact Nat.le_refl _

/-- Nonempty chunks form an initial segment of the threads. -/
theorem chunk_nonempty_prefix (n T : Nat) {s t : Nat} (hst : s ≤ t)
    (h : chunkBegin n T t < chunkEnd n T t) : chunkBegin n T s < chunkEnd n T s := by
  unfold chunkEnd at *
  simp only at *
  generalize n / T = q at *
  generalize n % T = r at *
  generalize chunkBegin n T t = b at *
  generalize chunkBegin n T s = b' at *
  split at h <;> split <;> omega

/-- Every index belongs to a chunk. -/
theorem chunk_cover (n T : Nat) (hT : 0 < T) (i : Nat) (hi : i < n) :
    ∃ t, t < T ∧ chunkBegin n T t ≤ i ∧ i < chunkEnd n T t := by
  have key : ∀ k, k ≤ T → i < chunkBegin n T k →
      ∃ t, t < k ∧ chunkBegin n T t ≤ i ∧ i < chunkEnd n T t := by
    intro k
    induction k with
    | zero => intro _ h; rw [chunkBegin_zero] at h; omega
    | succ k ih =>
      intro hk h
      by_cases hb : i < chunkBegin n T k
      · obtain ⟨t, ht, h1, h2⟩ := ih (by omega) hb
        exact ⟨t, by omega, h1, h2⟩
      · exact ⟨k, by omega, by omega, by rw [chunkEnd_eq]; exact h⟩
  exact key T (Nat.le_refl _) (by rw [chunkBegin_last n T hT]; exact hi)

theorem readRange_eq (l : List α) (b e : Nat) (h : e ≤ l.length) :
    readRange l b e = some ((l.drop b).take (e - b)) := by simp [readRange, h]

theorem take_append_slice (l : List α) (b e : Nat) (h : b ≤ e) :
    l.take b ++ (l.drop b).take (e - b) = l.take e := by
  have : e = b + (e - b) := by omega
  conv => rhs; rw [this, List.take_add]

/-- The slice of a chunk has a head and the total written in pass 1. -/
theorem scanPass1_eq (op : α → α → α) (l : List α) (T t : Nat) (hT : 0 < T) (ht : t < T) :
    scanPass1 op l T t =
      some (if chunkBegin l.length T t < chunkEnd l.length T t then
        (match fold1 op ((l.drop (chunkBegin l.length T t)).take
            (chunkEnd l.length T t - chunkBegin l.length T t)) with
          | some v => [(t, v)] | none => []) else []) := by
  unfold scanPass1
  simp only
  have he : chunkEnd l.length T t ≤ l.length := by
    rw [chunkEnd_eq]
    refine Nat.le_trans (chunkBegin_mono _ _ (show t + 1 ≤ T from ht)) ?_
    rw [chunkBegin_last _ _ hT]; exact Nat.le_refl _
  split
  · rename_i hlt
    rw [readRange_eq _ _ _ he]
    have hne : ((l.drop (chunkBegin l.length T t)).take
            (chunkEnd l.length T t - chunkBegin l.length T t)) ≠ [] := by
      intro h0
      have := congrArg List.length h0
      simp at this; omega
    revert hne
    cases ((l.drop (chunkBegin l.length T t)).take
            (chunkEnd l.length T t - chunkBegin l.length T t)) with
    | nil => intro h; exact absurd rfl h
    | cons x xs => intro _; simp [fold1]
  · rfl

theorem chunkEnd_le (n T t : Nat) (hT : 0 < T) (ht : t < T) : chunkEnd n T t ≤ n := by
  rw [chunkEnd_eq]
  refine Nat.le_trans (chunkBegin_mono _ _ (show t + 1 ≤ T from ht)) ?_
  rw [chunkBegin_last _ _ hT]; exact Nat.le_refl _

/-- total of chunk `t` -/
def chunkTotal (op : α → α → α) (l : List α) (T t : Nat) : Option α :=
  fold1 op ((l.drop (chunkBegin l.length T t)).take
    (chunkEnd l.length T t - chunkBegin l.length T t))

theorem slice_ne_nil (l : List α) {b e : Nat} (h : b < e) (he : e ≤ l.length) :
    (l.drop b).take (e - b) ≠ [] := by
  intro h0
  have := congrArg List.length h0
  simp at this; omega

theorem take_ne_nil {l : List α} {i : Nat} (hi : 0 < i) (hl : i ≤ l.length) : l.take i ≠ [] := by
  intro h0
  have := congrArg List.length h0
  rw [List.length_take, List.length_nil] at this; omega

/-- Combining the totals of the chunks before `t` gives the total of the prefix. -/
theorem fold1_totals (op : α → α → α) (hop : ∀ a b c, op (op a b) c = op a (op b c))
    (l : List α) (T : Nat) (hT : 0 < T) (f : Nat → α) (t : Nat) (ht : t < T)
    (hf : ∀ i, i ≤ t → chunkTotal op l T i = some (f i))
    (hne : chunkBegin l.length T t < chunkEnd l.length T t) :
    fold1 op ((List.range (t + 1)).map f) = fold1 op (l.take (chunkEnd l.length T t)) := by
  induction t with
  | zero =>
    have h0 := hf 0 (Nat.le_refl _)
    unfold chunkTotal at h0
    rw [chunkBegin_zero] at h0
    simp only [List.drop_zero, Nat.sub_zero] at h0
    rw [h0]; rfl
  | succ t ih =>
    have hprev := chunk_nonempty_prefix _ T (Nat.le_succ t) hne
    have ih' := ih (by omega) (fun i hi => hf i (by omega)) hprev
    rw [List.range_succ, List.map_append]
    obtain ⟨a, ha⟩ := fold1_isSome (op := op) (l := l.take (chunkEnd l.length T t))
      (take_ne_nil (by omega) (chunkEnd_le _ _ _ hT (by omega)))
    rw [fold1_append op hop _ _ a (f (t + 1)) (by rw [ih', ha]) (by simp [fold1])]
    rw [← take_append_slice l (chunkBegin l.length T (t + 1)) (chunkEnd l.length T (t + 1))
      (Nat.le_of_lt hne)]
    rw [fold1_append op hop _ _ a (f (t + 1)) _ (hf (t + 1) (Nat.le_refl _))]
    rw [← chunkEnd_eq, ha]

/-- Writes of the second pass of a nonempty chunk. -/
theorem scanPass2_mem (op : α → α → α) (hop : ∀ a b c, op (op a b) c = op a (op b c))
    (l : List α) (T t : Nat) (hT : 0 < T) (ht : t < T) (sums : Mem α) (f : Nat → α)
    (hne : chunkBegin l.length T t < chunkEnd l.length T t)
    (hf : ∀ i, i < t → chunkTotal op l T i = some (f i))
    (hs : ∀ i, i < t → sums[i]? = some (some (f i))) :
    ∃ ws, scanPass2 op l sums T t = some ws ∧
      (∀ p, (∃ v, (p, v) ∈ ws) ↔ chunkBegin l.length T t ≤ p ∧ p < chunkEnd l.length T t) ∧
      (∀ p v, (p, v) ∈ ws → fold1 op (l.take (p + 1)) = some v) := by
  have hle := chunkEnd_le l.length T t hT ht
  generalize hb : chunkBegin l.length T t = b at *
  generalize he : chunkEnd l.length T t = e at *
  have hsl := slice_ne_nil l hne hle
  have hlen : ((l.drop b).take (e - b)).length = e - b := by simp; omega
  have htk := take_append_slice l b e (Nat.le_of_lt hne)
  -- general statement about the scan of the chunk
  have gen : ∀ (x : α) (xs : List α) (start : α), (l.drop b).take (e - b) = x :: xs →
      fold1 op (l.take (b + 1)) = some start →
      (∀ p, (∃ v, (p, v) ∈ ((start :: scanFrom op start xs).zipIdx b).map (fun p => (p.2, p.1)))
        ↔ b ≤ p ∧ p < e) ∧
      (∀ p v, (p, v) ∈ ((start :: scanFrom op start xs).zipIdx b).map (fun p => (p.2, p.1)) →
        fold1 op (l.take (p + 1)) = some v) := by
    intro x xs start hxs hstart
    have hxl : xs.length + 1 = e - b := by rw [← hlen, hxs]; rfl
    have hmem : ∀ p v, (p, v) ∈ ((start :: scanFrom op start xs).zipIdx b).map (fun p => (p.2, p.1))
        ↔ b ≤ p ∧ (start :: scanFrom op start xs)[p - b]? = some v := by
      intro p v
      rw [List.mem_map]
      constructor
      · rintro ⟨⟨v', p'⟩, hm, heq⟩
        obtain ⟨rfl, rfl⟩ := Prod.mk.inj heq
        exact List.mem_zipIdx_iff_le_and_getElem?_sub.1 hm
      · intro h
        exact ⟨(v, p), List.mem_zipIdx_iff_le_and_getElem?_sub.2 h, rfl⟩
    have hlen2 : (start :: scanFrom op start xs).length = e - b := by
      simp [scanFrom_length, hxl]
    constructor
    · intro p
      constructor
      · rintro ⟨v, hv⟩
        obtain ⟨h1, h2⟩ := (hmem p v).1 hv
        have := (List.getElem?_eq_some_iff.1 h2).1
        omega
      · rintro ⟨h1, h2⟩
        refine ⟨(start :: scanFrom op start xs)[p - b]'(by omega), (hmem _ _).2 ⟨h1, ?_⟩⟩
        exact List.getElem?_eq_getElem _
    · intro p v hv
      obtain ⟨h1, h2⟩ := (hmem p v).1 hv
      obtain ⟨k, rfl⟩ : ∃ k, p = b + k := ⟨p - b, by omega⟩
      rw [Nat.add_sub_cancel_left] at h2
      cases k with
      | zero =>
        simp only [List.getElem?_cons_zero, Option.some.injEq] at h2
        subst h2; exact hstart
      | succ k =>
        rw [List.getElem?_cons_succ] at h2
        have hk : k < xs.length := by
          have := (List.getElem?_eq_some_iff.1 h2).1
          rwa [scanFrom_length] at this
        rw [scanFrom_getElem? op start xs k hk] at h2
        have hdrop : l.drop b = (x :: xs) ++ l.drop e := by
          rw [← hxs]
          have : l.drop e = (l.drop b).drop (e - b) := by
            rw [List.drop_drop]; congr 1; omega
          rw [this, List.take_append_drop]
        have htake : l.take (b + (k + 1) + 1) = l.take (b + 1) ++ xs.take (k + 1) := by
          rw [show b + (k + 1) + 1 = b + (k + 2) by omega, List.take_add (i := b),
            List.take_add (i := b) (j := 1), hdrop, List.append_assoc]
          congr 1
          simp only [List.cons_append, List.take_succ_cons, List.take_zero, List.nil_append]
          rw [List.take_append_of_le_length (by omega)]
        rw [htake]
        have hnil : l.take (b + 1) ≠ [] := take_ne_nil (by omega) (by omega)
        revert hstart
        cases hl : l.take (b + 1) with
        | nil => exact absurd hl hnil
        | cons y ys =>
          intro hstart
          simp only [fold1, Option.some.injEq] at hstart
          simp only [fold1, List.cons_append, List.foldl_append, hstart]
          exact h2
  unfold scanPass2
  simp only [hb, he, if_pos hne, readRange_eq l b e hle]
  revert gen hsl
  cases hxs : (l.drop b).take (e - b) with
  | nil => intro h; exact absurd rfl h
  | cons x xs =>
    intro _ gen
    have hx : l.take (b + 1) = l.take b ++ [x] := by
      rw [List.take_add]
      congr 1
      have h1 : ((l.drop b).take (e - b)).take 1 = [x] := by rw [hxs]; rfl
      rw [List.take_take] at h1
      rw [← h1]; congr 1; omega
    by_cases ht0 : t = 0
    · subst ht0
      have hb0 : b = 0 := by rw [← hb, chunkBegin_zero]
      subst hb0
      have := gen x xs x rfl (by rw [hx]; simp [fold1])
      exact ⟨_, by simp [scanStart], this.1, this.2⟩
    · obtain ⟨t, rfl⟩ : ∃ t', t = t' + 1 := ⟨t - 1, by omega⟩
      have hmm : (List.range (t + 1)).mapM (fun i => (sums[i]?).join)
          = some ((List.range (t + 1)).map f) := by
        apply mapM_range_some
        intro i hi
        rw [hs i hi]; rfl
      have hprev := chunk_nonempty_prefix l.length T (Nat.le_succ t) (by rw [hb, he]; exact hne)
      have htot := fold1_totals op hop l T hT f t (by omega) (fun i hi => hf i (by omega)) hprev
      rw [chunkEnd_eq, hb] at htot
      simp only [scanStart, if_neg ht0, hmm]
      revert htot
      cases hm : (List.range (t + 1)).map f with
      | nil => simp at hm
      | cons s0 ss =>
        intro htot
        have hst : fold1 op (l.take (b + 1)) = some (op (ss.foldl op s0) x) := by
          rw [hx]
          exact fold1_append op hop _ _ _ _ (by rw [← htot]; rfl) (by simp [fold1])
        have := gen x xs _ rfl hst
        exact ⟨_, by simp, this.1, this.2⟩

theorem ompInclusiveScan_eq (s1 s2 : Sched) (T : Nat) (hT : 0 < T) (hT' : T ≤ maxNumThreads)
    (op : α → α → α) (hop : ∀ a b c, op (op a b) c = op a (op b c)) (l : List α) :
    ompInclusiveScan s1 s2 T op l = some (inclusiveScan op l) := by
  unfold ompInclusiveScan
  by_cases h0 : l.length = 0
  · have : l = [] := List.length_eq_zero_iff.1 h0
    subst this; rfl
  rw [if_neg h0]
  obtain ⟨x0, hx0⟩ : ∃ x0, l[0]? = some x0 := ⟨l[0]'(by omega), List.getElem?_eq_getElem _⟩
  -- first pass
  let f : Nat → α := fun t => (chunkTotal op l T t).getD x0
  have hftot : ∀ t, t < T → chunkBegin l.length T t < chunkEnd l.length T t →
      chunkTotal op l T t = some (f t) := by
    intro t ht hne
    obtain ⟨a, ha⟩ := fold1_isSome (op := op) (slice_ne_nil l hne (chunkEnd_le _ _ _ hT ht))
    have ha' : chunkTotal op l T t = some a := ha
    simp only [f, ha', Option.getD_some]
  obtain ⟨sums, hs1, hs2, hs3, _⟩ := parScatter_spec s1 T (scanPass1 op l T)
    (fun t => if chunkBegin l.length T t < chunkEnd l.length T t then [(t, f t)] else []) f
    (Mem.alloc maxNumThreads)
    (by
      intro t ht
      rw [scanPass1_eq op l T t hT ht]
      by_cases hne : chunkBegin l.length T t < chunkEnd l.length T t
      · have := hftot t ht hne
        unfold chunkTotal at this
        simp only [if_pos hne, this]
      · simp only [if_neg hne])
    (by
      intro t ht p v hp
      split at hp
      · simp only [List.mem_singleton, Prod.mk.injEq] at hp
        obtain ⟨rfl, rfl⟩ := hp
        refine ⟨?_, rfl⟩
        simp [Mem.alloc]; omega
      · simp at hp)
  rw [hs1]
  simp only [Option.bind_eq_bind, Option.bind_some]
  -- second pass
  have hsum : ∀ t, t < T → chunkBegin l.length T t < chunkEnd l.length T t →
      sums[t]? = some (some (f t)) := by
    intro t ht hne
    exact hs3 t ht t (f t) (by simp [hne])
  let F : Nat → α := fun p => (fold1 op (l.take (p + 1))).getD x0
  have hex : ∀ t, ∃ ws, t < T → scanPass2 op l sums T t = some ws ∧
      (∀ p, (∃ v, (p, v) ∈ ws) ↔ chunkBegin l.length T t ≤ p ∧ p < chunkEnd l.length T t) ∧
      (∀ p v, (p, v) ∈ ws → fold1 op (l.take (p + 1)) = some v) := by
    intro t
    by_cases ht : t < T
    · by_cases hne : chunkBegin l.length T t < chunkEnd l.length T t
      · obtain ⟨ws, h⟩ := scanPass2_mem op hop l T t hT ht sums f hne
          (fun i hi => hftot i (by omega)
            (chunk_nonempty_prefix _ T (Nat.le_of_lt hi) hne))
          (fun i hi => hsum i (by omega)
            (chunk_nonempty_prefix _ T (Nat.le_of_lt hi) hne))
        exact ⟨ws, fun _ => h⟩
      · refine ⟨[], fun _ => ⟨?_, ?_, ?_⟩⟩
        · unfold scanPass2; simp only [if_neg hne]
        · intro p; simp; omega
        · intro p v hp; simp at hp
    · exact ⟨[], fun h => absurd h ht⟩
  obtain ⟨ws, hws⟩ := Classical.skolem.1 hex
  have := parScatter_full s2 T (scanPass2 op l sums T) ws F (Mem.alloc l.length)
    (fun t ht => (hws t ht).1)
    (by
      intro t ht p v hp
      have h1 := ((hws t ht).2.1 p).1 ⟨v, hp⟩
      have h2 := (hws t ht).2.2 p v hp
      have := chunkEnd_le l.length T t hT ht
      refine ⟨by simp [Mem.alloc]; omega, ?_⟩
      simp only [F, h2, Option.getD_some])
    (by
      intro p hp
      have hp' : p < l.length := by simpa [Mem.alloc] using hp
      obtain ⟨t, ht, h1, h2⟩ := chunk_cover l.length T hT p hp'
      obtain ⟨v, hv⟩ := ((hws t ht).2.1 p).2 ⟨h1, h2⟩
      exact ⟨t, ht, v, hv⟩)
  rw [this]
  simp only [Option.bind_some]
  rw [Mem.toArray?_ofList]
  congr 1
  apply List.ext_getElem?
  intro p
  by_cases hp : p < l.length
  · rw [inclusiveScan_getElem? op l p hp]
    obtain ⟨a, ha⟩ := fold1_isSome (op := op) (l := l.take (p + 1)) (take_ne_nil (by omega) hp)
    simp [Mem.alloc, hp, F, ha]
  · rw [List.getElem?_eq_none (by simp [Mem.alloc]; omega),
      List.getElem?_eq_none (by rw [inclusiveScan_length]; omega)]

end OmegaH
