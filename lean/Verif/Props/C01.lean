import Verif.Spec.Scan
import Verif.Lemmas.Scan

/-! # C01 — offset scans are exact prefix sums for every thread count -/

namespace OmegaH

/-- Two arrays satisfying the offsets specification for the same sizes are equal. -/
theorem Spec.IsOffsets.unique {α : Type} [Add α] [OfNat α 0] {a o o' : List α}
    (h : Spec.IsOffsets a o) (h' : Spec.IsOffsets a o') : o = o' := by
  obtain ⟨hl, h0, hs⟩ := h
  obtain ⟨hl', h0', hs'⟩ := h'
  apply List.ext_getElem?
  intro i
  induction i with
  | zero => rw [h0, h0']
  | succ i ih =>
    by_cases hi : i < a.length
    · obtain ⟨v, hv⟩ : ∃ v, o[i]? = some v := ⟨_, List.getElem?_eq_getElem (by omega)⟩
      have hx := List.getElem?_eq_getElem hi
      rw [hs i _ v hx hv, hs' i _ v hx (by rw [← ih, hv])]
    · rw [List.getElem?_eq_none (by omega), List.getElem?_eq_none (by omega)]

/-- `offset_scan` produces the offsets of its argument. -/
theorem C01_offset_scan_exact {α : Type} [Add α] [OfNat α 0]
    (zero_add : ∀ x : α, 0 + x = x) (a : List α) :
    Spec.IsOffsets a (offsetScan a) := by
  refine ⟨by simp [offsetScan, inclusiveScan_length], by simp [offsetScan], ?_⟩
  intro i x o hx ho
  have hi : i < a.length := (List.getElem?_eq_some_iff.1 hx).1
  have hxi : a[i]'hi = x := (List.getElem?_eq_some_iff.1 hx).2
  cases i with
  | zero =>
    simp only [offsetScan, List.getElem?_cons_zero, Option.some.injEq] at ho
    subst ho
    simp only [offsetScan, List.getElem?_cons_succ]
    rw [inclusiveScan_getElem? _ _ _ hi]
    cases a with
    | nil => simp at hi
    | cons y ys => simp_all [fold1]
  | succ i =>
    simp only [offsetScan, List.getElem?_cons_succ] at ho ⊢
    rw [inclusiveScan_getElem? _ _ _ (by omega)] at ho
    rw [inclusiveScan_getElem? _ _ _ hi]
    have : a.take (i + 1 + 1) = a.take (i + 1) ++ [x] := by
      rw [List.take_add_one, hx]; rfl
    rw [this]
    revert ho
    cases hl : a.take (i + 1) with
    | nil => simp [fold1]
    | cons y ys =>
      simp only [fold1, Option.some.injEq, List.cons_append, List.foldl_append, List.foldl_cons,
        List.foldl_nil]
      intro ho; rw [ho]

/-- The threaded scan gives the same array as the serial one, for every thread count that fits the
array of partial totals, for every order in which the threads perform their writes. -/
theorem C01_threaded_scan_eq_serial (s1 s2 : Sched) (T : Nat) (hT : 0 < T) (hT' : T ≤ 512)
    {α : Type} (op : α → α → α) (hop : ∀ a b c, op (op a b) c = op a (op b c)) (a : List α) :
    ompInclusiveScan s1 s2 T op a = some (inclusiveScan op a) :=
  ompInclusiveScan_eq s1 s2 T hT hT' op hop a

/-- `offset_scan` on `T` threads satisfies the same specification. -/
theorem C01_threaded_offset_scan_exact (s1 s2 : Sched) (T : Nat) (hT : 0 < T) (hT' : T ≤ 512)
    (a : List Int) :
    ∃ out, ompOffsetScan s1 s2 T a = some out ∧ Spec.IsOffsets a out := by
  refine ⟨offsetScan a, ?_, C01_offset_scan_exact (by simp) a⟩
  unfold ompOffsetScan
  rw [ompInclusiveScan_eq s1 s2 T hT hT' _ (fun a b c => Int.add_assoc a b c)]
  rfl

/-- With more than 512 threads and at least 513 items the partial totals are written beyond the end
of the 512-entry stack array: "for every thread count" is false of the code. -/
theorem C01_too_many_threads_refuted (s1 s2 : Sched) (T : Nat) (hT : 512 < T)
    {α : Type} (op : α → α → α) (a : List α) (ha : 512 < a.length) :
    ompInclusiveScan s1 s2 T op a = none := by
  have hb : chunkBegin a.length T 512 < chunkEnd a.length T 512 := by
    unfold chunkEnd
    simp only
    by_cases hq : a.length < T
    · have h1 : a.length / T = 0 := Nat.div_eq_of_lt hq
      have h2 : a.length % T = a.length := Nat.mod_eq_of_lt hq
      rw [h1, h2, if_neg (by omega)]; omega
    · have h1 : 0 < a.length / T := Nat.div_pos (by omega) (by omega)
      generalize a.length / T = q at *
      split <;> omega
  unfold ompInclusiveScan
  rw [if_neg (by omega)]
  have : parScatter s1 T (scanPass1 op a T) (Mem.alloc maxNumThreads) = none := by
    unfold parScatter
    have hex : ∀ t, ∃ ws, t < T → scanPass1 op a T t = some ws := by
      intro t
      by_cases ht : t < T
      · exact ⟨_, fun _ => scanPass1_eq op a T t (by omega) ht⟩
      · exact ⟨[], fun h => absurd h ht⟩
    obtain ⟨w, hw⟩ := Classical.skolem.1 hex
    rw [mapM_range_some T _ w hw]
    simp only [Option.bind_eq_bind, Option.bind_some]
    have hin : ∃ v, (512, v) ∈ s1.permute ((List.range T).map w).flatten := by
      have h512 := hw 512 hT
      rw [scanPass1_eq op a T 512 (by omega) hT, if_pos hb] at h512
      obtain ⟨v, hv⟩ := fold1_isSome (op := op)
        (slice_ne_nil a hb (chunkEnd_le _ _ _ (by omega) hT))
      rw [hv] at h512
      refine ⟨v, (s1.mem_permute _ _).2 (List.mem_flatten.2 ⟨w 512, ?_, ?_⟩)⟩
      · exact List.mem_map.2 ⟨512, List.mem_range.2 hT, rfl⟩
      · rw [← Option.some.inj h512]; simp
    have gen : ∀ (ws : List (Nat × α)) (m : Mem α), m.length = 512 → (∃ v, (512, v) ∈ ws) →
        m.writes ws = none := by
      intro ws
      induction ws with
      | nil => intro m _ h; simp at h
      | cons x ws ih =>
        intro m hm h
        obtain ⟨i, v⟩ := x
        unfold Mem.writes Mem.write
        by_cases hi : i < m.length
        · rw [if_pos hi]
          simp only [Option.bind_some]
          apply ih
          · simpa using hm
          · obtain ⟨u, hu⟩ := h
            rcases List.mem_cons.1 hu with h' | h'
            · have := (Prod.mk.inj h').1; omega
            · exact ⟨u, h'⟩
        · rw [if_neg hi]; rfl
    exact gen _ _ List.length_replicate hin
  rw [this]; rfl

theorem foldl_max_spec (l : List Int) (v : Int) :
    (l.foldl max v = v ∨ l.foldl max v ∈ l) ∧ v ≤ l.foldl max v ∧ ∀ x ∈ l, x ≤ l.foldl max v := by
  induction l generalizing v with
  | nil => simp
  | cons y ys ih =>
    obtain ⟨h1, h2, h3⟩ := ih (max v y)
    simp only [List.foldl_cons]
    refine ⟨?_, by omega, ?_⟩
    · rcases h1 with h1 | h1
      · rw [h1]
        by_cases h : v ≤ y
        · right; rw [Int.max_eq_right h]; simp
        · left; rw [Int.max_eq_left (by omega)]
      · right; simp [h1]
    · intro x hx
      rcases List.mem_cons.1 hx with rfl | hx
      · omega
      · exact h3 x hx

/-- `fill_right` replaces every entry by the maximum of the entries up to it. -/
theorem C01_fill_right (a : List Int) : Spec.IsRunningMax a (fillRight a) := by
  refine ⟨inclusiveScan_length _ _, ?_⟩
  intro i m hm
  have hi : i < a.length := by
    have := (List.getElem?_eq_some_iff.1 hm).1
    rwa [fillRight, inclusiveScan_length] at this
  rw [fillRight, inclusiveScan_getElem? _ _ _ hi] at hm
  have hmem : ∀ x, x ∈ a.take (i + 1) ↔ ∃ j, j ≤ i ∧ a[j]? = some x := by
    intro x
    rw [List.mem_iff_getElem?]
    constructor
    · rintro ⟨j, hj⟩
      rw [List.getElem?_take] at hj
      split at hj
      · exact ⟨j, by omega, hj⟩
      · simp at hj
    · rintro ⟨j, hj, hx⟩
      exact ⟨j, by rw [List.getElem?_take, if_pos (by omega)]; exact hx⟩
  cases hl : a.take (i + 1) with
  | nil => rw [hl] at hm; simp [fold1] at hm
  | cons y ys =>
    rw [hl] at hm
    simp only [fold1, Option.some.injEq] at hm
    obtain ⟨h1, h2, h3⟩ := foldl_max_spec ys y
    rw [hm] at h1 h2 h3
    constructor
    · rw [← hmem, hl]
      rcases h1 with h1 | h1
      · rw [h1]; simp
      · simp [h1]
    · intro j x hj hx
      have hx' := (hmem x).2 ⟨j, hj, hx⟩
      rw [hl] at hx'
      rcases List.mem_cons.1 hx' with rfl | hx'
      · exact h2
      · exact h3 x hx'

/-- `fill_right` on the threaded scan is the same. -/
theorem C01_threaded_fill_right (s1 s2 : Sched) (T : Nat) (hT : 0 < T) (hT' : T ≤ 512)
    (a : List Int) : ompInclusiveScan s1 s2 T max a = some (fillRight a) :=
  ompInclusiveScan_eq s1 s2 T hT hT' _ (fun a b c => Int.max_assoc a b c) a

/-! Non-vacuity: a 5-entry array on 3 threads (chunks 2,2,1), threads running in reverse order. -/
example : ompOffsetScan Sched.reversed Sched.serial 3 [3, 0, 4, 1, 1] = some [0, 3, 3, 7, 8, (9 : Int)] := by
  decide +kernel
example : ompInclusiveScan Sched.serial Sched.reversed 4 max [-1, 5, -1, -1, 7, (-1 : Int)]
    = some [-1, 5, 5, 5, 7, 7] := by decide +kernel
example : ∃ a : List Int, 512 < a.length := ⟨List.replicate 513 1, by rw [List.length_replicate]; omega⟩

end OmegaH
