import Verif.Spec.Compare
import Verif.Props.C21
import Verif.Props.C43
import Verif.Props.C39
import Verif.Props.C56World
import Verif.Lemmas.Bipart
import Mathlib.Algebra.Order.Ring.Rat
import Mathlib.Algebra.Field.Rat
import Mathlib.Tactic.NormNum
/-!
# C64: comparing two meshes
-/
namespace OmegaH
open Spec

/-! ## Data on the linear partition -/

/-- The values on rank `p` of the linear partition of `N` entities. -/
def dealt {α : Type} (N n w : Nat) (v : Nat → Nat → α) (p : Nat) : List α :=
  (List.range (linSize N n p * w)).map (fun i => v (globalOf (linSize N n) p (i / w)) (i % w))

theorem dealt_length {α : Type} (N n w : Nat) (v : Nat → Nat → α) (p : Nat) : (dealt N n w v p).length = linSize N n p * w := by
  simp [dealt]

theorem dealt_get {α : Type} {N n w : Nat} (v : Nat → Nat → α) {p x j : Nat} (hx : x < linSize N n p) (hj : j < w) :
    (dealt N n w v p)[x * w + j]? = some (v (globalOf (linSize N n) p x) j) := by
  have h : x * w + j < linSize N n p * w := by
    have := Nat.mul_le_mul_right w (show x + 1 ≤ linSize N n p from hx)
    rw [Nat.add_mul] at this
    omega
  have h1 : (x * w + j) / w = x := by
    rw [Nat.mul_comm, Nat.mul_add_div (by omega), Nat.div_eq_of_lt hj, Nat.add_zero]
  have h2 : (x * w + j) % w = j := by
    rw [Nat.mul_comm, Nat.mul_add_mod, Nat.mod_eq_of_lt hj]
  unfold dealt
  rw [List.getElem?_map, List.getElem?_range h]
  show some (v (globalOf (linSize N n) p ((x * w + j) / w)) ((x * w + j) % w)) = _
  rw [h1, h2]

theorem linear_data (s : Nat → Nat → Sched) {n N : Nat} (hn : 0 < n) (hn' : n < 2 ^ 31) (gl : Nat → List Nat)
    (hr : ∀ r, r < n → ∀ g ∈ gl r, g < N) (ha : ∀ g, g < N → ∃ r, r < n ∧ g ∈ gl r) (hsz : N / n + 1 < 2 ^ 31) :
    ∃ D, copiesToLinearOwners s (world n (fun r => (gl r).map Int.ofNat)) = some D ∧
      ∀ {α : Type} (s' : Nat → Nat → Sched) (w : Nat) (v : Nat → Nat → α) (data : List (List α)), 0 < w → HoldsData n gl w v data →
        reduceDataToOwners s' D w data = some (world n (dealt N n w v)) := by
  obtain ⟨dests, nroots, total, h1, h2, h3, _, _, h6, h7, h8, h9⟩ := linear_full s hn hn' gl hr hsz
  obtain ⟨b1, b2, _⟩ := C07_deal_bijection nroots total n h7
  have htot : total = N := by
    rcases Nat.eq_zero_or_pos N with h0 | h0
    · omega
    · obtain ⟨r, hr', hm⟩ := ha (N - 1) (by omega)
      obtain ⟨k, hk⟩ := List.mem_iff_getElem?.1 hm
      obtain ⟨p, x, _, e2, e3, e4⟩ := h9 r k _ hr' hk
      have := b1 p x e2 e3
      omega
  subst htot
  have hroots : ∀ p, p < n → nroots p = linSize total n p := by
    intro p hp
    have e1 := h8 p hp
    rw [linearPartitionSize_eq total n p hn hn' hsz] at e1
    have := Option.some.inj e1
    omega
  have hglob : ∀ p x, p < n → globalOf nroots p x = globalOf (linSize total n) p x := by
    intro p x hp
    unfold globalOf
    rw [List.map_congr_left (fun q hq => hroots q (by have := List.mem_range.1 hq; omega))]
  obtain ⟨D, hD⟩ := C20_new (fun r k => s r (k + 1)) h1
  refine ⟨D, by rw [h2, hD], ?_⟩
  rintro α s' w v _ hw ⟨loc, rfl, hl⟩
  obtain ⟨out, o1, o2⟩ := C21_reduce h1 hD s' (by
    intro p x hp hx
    obtain ⟨r, hr', hm⟩ := ha _ (b1 p x hp hx)
    obtain ⟨k, hk⟩ := List.mem_iff_getElem?.1 hm
    obtain ⟨p', x', e1, e2, e3, e4⟩ := h9 r k _ hr' hk
    obtain ⟨rfl, rfl⟩ := b2 _ _ _ _ hx e3 e4
    exact ⟨r, k, hr', e1⟩) w loc hw (by
    intro r hr'
    rw [(hl r hr').1, h3 r hr'])
  rw [o1]
  congr 1
  apply world_congr
  intro p hp
  obtain ⟨q1, q2⟩ := o2 p hp
  rw [hroots p hp] at q1 q2
  refine entries_ext q1 (dealt_length _ _ _ _ _) ?_
  intro x hx j hj
  obtain ⟨r, i, hr', hd, he⟩ := q2 x hx
  rw [he j hj]
  have hil : i < (gl r).length := by
    rw [← h3 r hr']
    exact (List.getElem?_eq_some_iff.1 (destOf_eq.1 hd).1).1
  obtain ⟨p', x', e1, e2, e3, e4⟩ := h9 r i _ hr' (List.getElem?_eq_getElem hil)
  rw [hd] at e1
  obtain ⟨rfl, rfl⟩ := Prod.mk.inj (Option.some.inj e1)
  rw [(hl r hr').2 i _ j (List.getElem?_eq_getElem hil) hj, e4, hglob p x hp]
  exact (dealt_get v hx hj).symm

theorem globalOf_onto {size : Nat → Nat} {n : Nat} : ∀ {g : Nat}, g < ((List.range n).map size).sum →
    ∃ p x, p < n ∧ x < size p ∧ g = globalOf size p x := by
  induction n with
  | zero => intro g h; simp at h
  | succ n ih =>
    intro g h
    rw [List.range_succ, List.map_append, List.sum_append] at h
    by_cases h' : g < ((List.range n).map size).sum
    · obtain ⟨p, x, h1, h2, h3⟩ := ih h'
      exact ⟨p, x, by omega, h2, h3⟩
    · refine ⟨n, g - ((List.range n).map size).sum, by omega, ?_, ?_⟩
      · simp at h
        omega
      · unfold globalOf
        omega

theorem dealt_all {α : Type} {N n w : Nat} (hn : 0 < n) (v u : Nat → Nat → α) (P : α → α → Prop) :
    (∀ p, p < n → ∀ (i : Nat) (x y : α), (dealt N n w v p)[i]? = some x → (dealt N n w u p)[i]? = some y → P x y) ↔
      ∀ g j, g < N → j < w → P (v g j) (u g j) := by
  have hbal : Balanced (linSize N n) N n := linSize_balanced N n hn
  obtain ⟨b1, b2, _⟩ := C07_deal_bijection (linSize N n) N n hbal
  constructor
  · intro h g j hg hj
    obtain ⟨p, x, hp, hx, rfl⟩ := globalOf_onto (by rw [hbal.1]; exact hg)
    exact h p hp _ _ _ (dealt_get v hx hj) (dealt_get u hx hj)
  · intro h p hp i x y hx hy
    have hi := (List.getElem?_eq_some_iff.1 hx).1
    rw [dealt_length] at hi
    unfold dealt at hx hy
    rw [List.getElem?_map, List.getElem?_range hi] at hx hy
    rw [← Option.some.inj hx, ← Option.some.inj hy]
    have hw : 0 < w := by
      rcases Nat.eq_zero_or_pos w with h0 | h0
      · subst h0; omega
      · exact h0
    exact h _ _ (b1 p _ hp (by rw [Nat.div_lt_iff_lt_mul hw]; exact hi)) (Nat.mod_lt _ hw)

/-! ## Comparing arrays -/

theorem reduceAnd_spec (rt : RankTree) {n : Nat} (hn : 0 < n) (f : Nat → Bool) :
    ∃ r, reduceAnd rt (world n f) = some r ∧ (r = true ↔ ∀ p, p < n → f p = true) := by
  have hop : ∀ x y : Int, (if y < x then y else x) = min x y := by
    intro x y
    split <;> omega
  have hfold : ∀ (l : List Bool) (b : Bool), (l.map b2i).foldl (fun x y : Int => if y < x then y else x) (b2i b) = b2i (b && l.all id) := by
    intro l
    induction l with
    | nil => intro b; simp
    | cons a l ih =>
      intro b
      rw [List.map_cons, List.foldl_cons, show (if b2i a < b2i b then b2i a else b2i b) = b2i (b && a) by cases a <;> cases b <;> decide, ih]
      simp [Bool.and_assoc]
  refine ⟨(world n f).all id, ?_, ?_⟩
  · unfold reduceAnd
    rw [allreduce_eq rt _ (1 : Int) _ ?_ ?_ ?_ ?_]
    · rw [show (1 : Int) = b2i true from rfl, hfold]
      cases (world n f).all id <;> rfl
    · intro h
      have := congrArg List.length h
      simp [world] at this
      omega
    · intro a b c
      simp only [hop]
      omega
    · intro a b
      simp only [hop]
      omega
    · intro x hx
      obtain ⟨b, _, rfl⟩ := List.mem_map.1 hx
      cases b <;> decide
  · simp [world]

theorem compareInts_spec (t : Nat → Team) (rt : RankTree) {n : Nat} (hn : 0 < n) (a b : Nat → List Int)
    (hl : ∀ p, p < n → (a p).length = (b p).length) :
    ∃ r, compareInts t rt (world n a) (world n b) = some r ∧
      (r = true ↔ ∀ p, p < n → ∀ (i : Nat) (x y : Int), (a p)[i]? = some x → (b p)[i]? = some y → x = y) := by
  unfold compareInts
  obtain ⟨out, o1, o2⟩ := onRanks_spec (n := n) a (fun r x => ((world n b)[r]?).bind (arraysEqual (t r) x))
    (fun p r => r = decide (a p = b p)) (by
    intro r hr
    rw [world_get _ hr, Option.bind_some]
    exact ⟨_, C43_arrays_equal (t r) _ _ (hl r hr), rfl⟩)
  rw [o1, Option.bind_some]
  obtain ⟨r, r1, r2⟩ := reduceAnd_spec rt hn out
  refine ⟨r, r1, r2.trans ?_⟩
  constructor
  · intro h p hp i x y hx hy
    have := h p hp
    rw [o2 p hp, decide_eq_true_eq] at this
    rw [this, hy] at hx
    exact (Option.some.inj hx).symm
  · intro h p hp
    rw [o2 p hp, decide_eq_true_eq]
    apply List.ext_getElem (hl p hp)
    intro i h1 h2
    exact h p hp i _ _ (List.getElem?_eq_getElem h1) (List.getElem?_eq_getElem h2)

section
variable {K : Type} [Field K] [LinearOrder K] [IsStrictOrderedRing K]

theorem getRealDiff_spec (o : VarCompareOpts K) (ht : 0 ≤ o.tolerance) (hf : 0 ≤ o.floor) (hk : o.kind ≠ .none) (x y : K) :
    ∃ d, getRealDiff o x y = some d ∧ 0 ≤ d ∧ (d ≤ o.tolerance ↔ Close o x y) := by
  unfold getRealDiff Close
  cases h : o.kind with
  | none => exact absurd h hk
  | absolute => exact ⟨|x - y|, by simp, abs_nonneg _, Iff.rfl⟩
  | relative =>
    rw [if_pos rfl]
    unfold relDiffWithFloor
    by_cases h1 : |x| ≤ o.floor ∧ |y| ≤ o.floor
    · rw [if_pos h1]
      exact ⟨0, rfl, le_refl _, ⟨fun _ => Or.inl h1, fun _ => ht⟩⟩
    · rw [if_neg h1]
      have h2 : 0 < max |x| |y| := by
        rcases le_or_gt |x| o.floor with h3 | h3
        · have h4 : o.floor < |y| := not_le.1 (fun h4 => h1 ⟨h3, h4⟩)
          exact lt_of_lt_of_le (lt_of_le_of_lt hf h4) (le_max_right _ _)
        · exact lt_of_lt_of_le (lt_of_le_of_lt hf h3) (le_max_left _ _)
      rw [if_neg h2.ne']
      refine ⟨_, rfl, div_nonneg (abs_nonneg _) h2.le, ?_⟩
      rw [div_le_iff₀ h2]
      exact ⟨Or.inr, fun h => h.resolve_left h1⟩

theorem areClose_spec (t : Team) (o : VarCompareOpts K) (ht : 0 ≤ o.tolerance) (hf : 0 ≤ o.floor) (hk : o.kind ≠ .none) (a b : List K)
    (hl : a.length = b.length) :
    ∃ r, areClose t o a b = some r ∧ (r = true ↔ ∀ (i : Nat) (x y : K), a[i]? = some x → b[i]? = some y → Close o x y) := by
  choose d d1 d2 d3 using getRealDiff_spec o ht hf hk
  unfold areClose
  rw [if_pos hl]
  have hw : ∀ i, ∃ r : Bool, i < a.length → ((a[i]?).bind (fun x => (b[i]?).bind (fun y => (getRealDiff o x y).map
      (fun d => decide (d ≤ o.tolerance)))) = some r) ∧ (r = true ↔ ∀ x y, a[i]? = some x → b[i]? = some y → Close o x y) := by
    intro i
    by_cases hi : i < a.length
    · have hi' : i < b.length := by omega
      refine ⟨decide (d a[i] b[i] ≤ o.tolerance), fun _ => ⟨?_, ?_⟩⟩
      · rw [List.getElem?_eq_getElem hi, List.getElem?_eq_getElem hi', Option.bind_some, Option.bind_some, d1, Option.map_some]
      · rw [List.getElem?_eq_getElem hi, List.getElem?_eq_getElem hi', decide_eq_true_eq, d3]
        constructor
        · rintro h x y hx hy
          rw [← Option.some.inj hx, ← Option.some.inj hy]
          exact h
        · intro h
          exact h _ _ rfl rfl
    · exact ⟨true, fun h => absurd h hi⟩
  choose w w1 using hw
  rw [transformReduce_eq t and true true _ w a.length Bool.and_assoc Bool.and_comm (by simp) (fun i hi => (w1 i hi).1)]
  refine ⟨_, rfl, ?_⟩
  rw [and_fold]
  simp only [List.mem_map, List.mem_range]
  constructor
  · intro h i x y hx hy
    have hi := (List.getElem?_eq_some_iff.1 hx).1
    exact ((w1 i hi).2).1 (h _ ⟨i, hi, rfl⟩) x y hx hy
  · rintro h _ ⟨i, hi, rfl⟩
    exact (w1 i hi).2.2 (fun x y hx hy => h i x y hx hy)

theorem worstDiff_spec (o : VarCompareOpts K) (ht : 0 ≤ o.tolerance) (hf : 0 ≤ o.floor) (hk : o.kind ≠ .none) (a b : List K)
    (hl : a.length = b.length) :
    ∃ w, worstDiff o a b = some w ∧ 0 ≤ w.2 ∧ (0 < w.2 → ∃ i : Nat, w.1 = i ∧ i < a.length) ∧
      ∀ (i : Nat) (x y : K), a[i]? = some x → b[i]? = some y → w.2 ≤ o.tolerance → Close o x y := by
  choose d d1 d2 d3 using getRealDiff_spec o ht hf hk
  unfold worstDiff
  obtain ⟨w, w1, w2, w3, w4⟩ := foldlM_range (fun (st : Int × K) (i : Nat) => (a[i]?).bind (fun x => (b[i]?).bind (fun y =>
      (getRealDiff o x y).map (fun d => if d > st.2 then ((i : Int), d) else st))))
    (fun k w => 0 ≤ w.2 ∧ (0 < w.2 → ∃ i : Nat, w.1 = i ∧ i < a.length) ∧
      ∀ (i : Nat) (x y : K), i < k → a[i]? = some x → b[i]? = some y → d x y ≤ w.2) a.length (-1, 0)
    ⟨le_refl _, fun h => absurd h (lt_irrefl _), by intro i x y h; omega⟩ (by
    rintro k hk' w ⟨i1, i2, i3⟩
    have hk2 : k < b.length := by omega
    rw [List.getElem?_eq_getElem hk', List.getElem?_eq_getElem hk2, Option.bind_some, Option.bind_some, d1, Option.map_some]
    refine ⟨_, rfl, ?_⟩
    have hlast : ∀ (i : Nat) (x y : K), i < k + 1 → a[i]? = some x → b[i]? = some y → d x y ≤ max w.2 (d a[k] b[k]) := by
      intro i x y hi hx hy
      rcases Nat.lt_succ_iff_lt_or_eq.1 hi with h | rfl
      · exact le_trans (i3 i x y h hx hy) (le_max_left _ _)
      · rw [List.getElem?_eq_getElem hk'] at hx
        rw [List.getElem?_eq_getElem hk2] at hy
        rw [← Option.some.inj hx, ← Option.some.inj hy]
        exact le_max_right _ _
    split
    · next h =>
      rw [max_eq_right (le_of_lt h)] at hlast
      exact ⟨d2 _ _, fun _ => ⟨k, rfl, hk'⟩, hlast⟩
    · next h =>
      rw [max_eq_left (not_lt.1 h)] at hlast
      exact ⟨i1, i2, hlast⟩)
  refine ⟨w, w1, w2, w3, ?_⟩
  intro i x y hx hy hle
  exact (d3 x y).1 (le_trans (w4 i x y (List.getElem?_eq_some_iff.1 hx).1 hx hy) hle)

theorem fold_max_of {α : Type} [LinearOrder α] (l : List α) : ∀ lo : α, lo ≤ l.foldl max lo ∧
    (∀ x ∈ l, x ≤ l.foldl max lo) ∧ (l.foldl max lo = lo ∨ l.foldl max lo ∈ l) := by
  induction l with
  | nil => intro lo; simp
  | cons a l ih =>
    intro lo
    obtain ⟨h1, h2, h3⟩ := ih (max lo a)
    rw [List.foldl_cons]
    refine ⟨le_trans (le_max_left _ _) h1, ?_, ?_⟩
    · intro x hx
      rcases List.mem_cons.1 hx with rfl | hx
      · exact le_trans (le_max_right _ _) h1
      · exact h2 x hx
    · rcases h3 with h3 | h3
      · rcases max_choice lo a with h | h
        · left; rw [h3, h]
        · right; rw [h3, h]; simp
      · right; exact List.mem_cons_of_mem _ h3

theorem fold_min_of {α : Type} [LinearOrder α] (l : List α) (hi : α) : l.foldl min hi ≤ hi ∧
    (∀ x ∈ l, l.foldl min hi ≤ x) ∧ (l.foldl min hi = hi ∨ l.foldl min hi ∈ l) :=
  fold_max_of (α := αᵒᵈ) l hi

theorem worstValues_spec (rt : Nat → RankTree) (o : VarCompareOpts K) (ht : 0 ≤ o.tolerance) (hf : 0 ≤ o.floor) (hk : o.kind ≠ .none)
    {n : Nat} (hn : 0 < n) (hn' : n < 2 ^ 31) (a b : Nat → List K) (hl : ∀ p, p < n → (a p).length = (b p).length)
    (hno : ¬ ∀ p, p < n → ∀ (i : Nat) (x y : K), (a p)[i]? = some x → (b p)[i]? = some y → Close o x y) :
    ∃ v, worstValues rt o (world n a) (world n b) = some v := by
  unfold worstValues
  have : Inhabited K := ⟨0⟩
  obtain ⟨W, o1, o2⟩ := onRanks_spec (n := n) a (fun r x => ((world n b)[r]?).bind (worstDiff o x))
    (fun p w => 0 ≤ w.2 ∧ (0 < w.2 → ∃ i : Nat, w.1 = i ∧ i < (a p).length) ∧
      ∀ (i : Nat) (x y : K), (a p)[i]? = some x → (b p)[i]? = some y → w.2 ≤ o.tolerance → Close o x y) (by
    intro r hr
    rw [world_get _ hr, Option.bind_some]
    exact worstDiff_spec o ht hf hk _ _ (hl r hr))
  have hne : ∀ {γ : Type} (l : List γ), l.length = n → l ≠ [] := by
    intro γ l h1 h2
    rw [h2] at h1
    simp at h1
    omega
  have hmax : (fun x y : K => if x < y then y else x) = max := by
    funext x y
    rw [max_def]
    split <;> split <;> first | rfl | (next h1 h2 => exact absurd (le_of_lt h1) h2) | (next h1 h2 => exact le_antisymm (h2) (not_lt.1 h1))
  have hmin : (fun x y : Int => if y < x then y else x) = min := by
    funext x y
    show (if y < x then y else x) = min x y
    split <;> omega
  rw [o1, Option.bind_some, hmax, hmin, world_map]
  rw [allreduce_eq (rt 0) max (0 : K) _ (hne _ (world_length _ _)) (fun _ _ _ => max_assoc _ _ _) (fun _ _ => max_comm _ _) (by
    intro x hx
    obtain ⟨p, hp, rfl⟩ := List.mem_map.1 hx
    exact max_eq_right (o2 p (List.mem_range.1 hp)).1), Option.bind_some]
  obtain ⟨m1, m2, m3⟩ := fold_max_of (world n (fun r => (W r).2)) 0
  generalize List.foldl max 0 (world n (fun r => (W r).2)) = most at m1 m2 m3
  have hpos : 0 < most := by
    by_contra hc
    apply hno
    intro p hp i x y hx hy
    refine (o2 p hp).2.2 i x y hx hy (le_trans ?_ (le_trans (not_lt.1 hc) ht))
    exact m2 _ (List.mem_map.2 ⟨p, List.mem_range.2 hp, rfl⟩)
  have hmem := m3.resolve_left hpos.ne'
  obtain ⟨q, hq, hq'⟩ := List.mem_map.1 hmem
  have hq := List.mem_range.1 hq
  have hzip : (world n W).zipIdx.map (fun p => if p.1.2 = most then (p.2 : Int) else 2147483647) =
      world n (fun r => if (W r).2 = most then (r : Int) else 2147483647) := by
    apply List.ext_getElem?
    intro i
    rw [List.getElem?_map, List.getElem?_zipIdx]
    by_cases hi : i < n
    · rw [world_get _ hi, world_get _ hi]
      simp
    · rw [List.getElem?_eq_none (by rw [world_length]; omega), List.getElem?_eq_none (by rw [world_length]; omega)]
      rfl
  rw [hzip]
  rw [allreduce_eq (rt 1) min (2147483647 : Int) _ (hne _ (world_length _ _)) (fun _ _ _ => min_assoc _ _ _) (fun _ _ => min_comm _ _) (by
    intro x hx
    obtain ⟨p, hp, rfl⟩ := List.mem_map.1 hx
    have := List.mem_range.1 hp
    show min (2147483647 : Int) (if (W p).2 = most then (p : Int) else 2147483647) = _
    split <;> omega), Option.bind_some]
  obtain ⟨k1, k2, k3⟩ := fold_min_of (world n (fun r => if (W r).2 = most then (r : Int) else 2147483647)) 2147483647
  generalize List.foldl min 2147483647 (world n (fun r => if (W r).2 = most then (r : Int) else 2147483647)) = best at k1 k2 k3
  have hle := k2 (q : Int) (List.mem_map.2 ⟨q, List.mem_range.2 hq, by rw [if_pos hq']⟩)
  have hmem2 := k3.resolve_left (by omega)
  obtain ⟨p, hp, hp'⟩ := List.mem_map.1 hmem2
  have hp := List.mem_range.1 hp
  have hmost : (W p).2 = most := by
    by_contra hc
    rw [if_neg hc] at hp'
    omega
  rw [if_pos hmost] at hp'
  subst hp'
  obtain ⟨i, i1, i2⟩ := (o2 p hp).2.1 (by rw [hmost]; exact hpos)
  have i3 : i < (b p).length := by rw [← hl p hp]; exact i2
  rw [Int.toNat_natCast, world_get _ hp, Option.bind_some, world_get _ hp, world_get _ hp, Option.bind_some, i1, if_neg (by omega),
    Int.toNat_natCast, List.getElem?_eq_getElem i2, Option.bind_some, Option.bind_some, List.getElem?_eq_getElem i3]
  exact ⟨_, rfl⟩

theorem compareReals_spec (t : Nat → Team) (rt : Nat → RankTree) (verbose : Bool) (o : VarCompareOpts K) (ht : 0 ≤ o.tolerance)
    (hf : 0 ≤ o.floor) (hk : o.kind ≠ .none) {n : Nat} (hn : 0 < n) (hn' : n < 2 ^ 31) (a b : Nat → List K)
    (hl : ∀ p, p < n → (a p).length = (b p).length) :
    ∃ r, compareReals t rt verbose o (world n a) (world n b) = some r ∧
      (r = true ↔ ∀ p, p < n → ∀ (i : Nat) (x y : K), (a p)[i]? = some x → (b p)[i]? = some y → Close o x y) := by
  unfold compareReals
  obtain ⟨out, o1, o2⟩ := onRanks_spec (n := n) a (fun r x => ((world n b)[r]?).bind (areClose (t r) o x))
    (fun p r => r = true ↔ ∀ (i : Nat) (x y : K), (a p)[i]? = some x → (b p)[i]? = some y → Close o x y) (by
    intro r hr
    rw [world_get _ hr, Option.bind_some]
    exact areClose_spec (t r) o ht hf hk _ _ (hl r hr))
  rw [o1, Option.bind_some]
  obtain ⟨r, r1, r2⟩ := reduceAnd_spec (rt 0) hn out
  rw [r1, Option.bind_some]
  have hall : r = true ↔ ∀ p, p < n → ∀ (i : Nat) (x y : K), (a p)[i]? = some x → (b p)[i]? = some y → Close o x y :=
    r2.trans ⟨fun h p hp => (o2 p hp).1 (h p hp), fun h p hp => (o2 p hp).2 (h p hp)⟩
  cases r with
  | true => exact ⟨true, rfl, hall⟩
  | false =>
    refine ⟨false, ?_, hall⟩
    rw [if_neg (by simp)]
    split
    · obtain ⟨v, hv⟩ := worstValues_spec (fun k => rt (k + 1)) o ht hf hk hn hn' a b hl (fun h => by simpa using hall.2 h)
      rw [hv]
      rfl
    · rfl

/-! ## Comparing tags and connectivity -/

theorem compareTag_spec (s : Nat → Nat → Nat → Sched) (t : Nat → Team) (rt : Nat → RankTree) (verbose : Bool) (o : VarCompareOpts K)
    (ht : 0 ≤ o.tolerance) (hf : 0 ≤ o.floor) {n N : Nat} (hn : 0 < n) (hn' : n < 2 ^ 31) {gla glb : Nat → List Nat} {aD bD : List Dist}
    (hA : ∀ {α : Type} (s' : Nat → Nat → Sched) (w : Nat) (v : Nat → Nat → α) (data : List (List α)), 0 < w → HoldsData n gla w v data →
        reduceDataToOwners s' aD w data = some (world n (dealt N n w v)))
    (hB : ∀ {α : Type} (s' : Nat → Nat → Sched) (w : Nat) (v : Nat → Nat → α) (data : List (List α)), 0 < w → HoldsData n glb w v data →
        reduceDataToOwners s' bD w data = some (world n (dealt N n w v)))
    {Bt : List (PlainTag K)} {btags : List (CompareTag K)} (hb : List.Forall₂ (TagHolds n glb) Bt btags) (hnd : (Bt.map PlainTag.name).Nodup)
    {x : PlainTag K} {a : CompareTag K} (hx : TagHolds n gla x a)
    (hfit : ∀ y ∈ Bt, x.name = y.name → x.ncomps = y.ncomps ∧
      match x.values, y.values with
      | .ints n _, .ints m _ => n = m
      | .reals _, .reals _ => True
      | _, _ => False) :
    ∃ r, compareTag s t rt verbose o aD bD btags a = some r ∧ (r = true ↔ ∃ y ∈ Bt, y.name = x.name ∧ SameTag o N x y) := by
  have hfind : ∀ {Bt : List (PlainTag K)} {btags : List (CompareTag K)}, List.Forall₂ (TagHolds n glb) Bt btags →
      (btags.find? (fun b => b.name == a.name) = none ∧ ∀ y ∈ Bt, y.name ≠ x.name) ∨
      ∃ b y, btags.find? (fun b => b.name == a.name) = some b ∧ y ∈ Bt ∧ y.name = x.name ∧ TagHolds n glb y b := by
    intro Bt btags h
    induction h with
    | nil => left; simp
    | @cons y b Bt btags hyb _ ih =>
      by_cases hnm : y.name = x.name
      · right
        refine ⟨b, y, ?_, by simp, hnm, hyb⟩
        rw [List.find?_cons_of_pos]
        rw [hyb.1, hx.1, hnm]
        simp
      · have hbn : ¬ (b.name == a.name) = true := by
          rw [hyb.1, hx.1]
          simpa using hnm
        rw [List.find?_cons_of_neg (by simpa using hbn)]
        rcases ih with ⟨h1, h2⟩ | ⟨b', y', h1, h2, h3⟩
        · left
          refine ⟨h1, ?_⟩
          intro y' hy'
          rcases List.mem_cons.1 hy' with rfl | h
          · exact hnm
          · exact h2 y' h
        · right
          exact ⟨b', y', h1, List.mem_cons_of_mem _ h2, h3⟩
  unfold compareTag
  rcases hfind hb with ⟨h1, h2⟩ | ⟨b, y, h1, h2, h3, h4⟩
  · rw [h1]
    refine ⟨false, rfl, ?_⟩
    simp only [Bool.false_eq_true, false_iff]
    rintro ⟨y, hy, hn, _⟩
    exact h2 y hy hn
  · rw [h1]
    have huniq : (∃ y ∈ Bt, y.name = x.name ∧ SameTag o N x y) ↔ SameTag o N x y := by
      constructor
      · rintro ⟨y', y1, y2, y3⟩
        rwa [List.inj_on_of_nodup_map hnd y1 h2 (y2.trans h3.symm)] at y3
      · intro h
        exact ⟨y, h2, h3, h⟩
    obtain ⟨f1, f2⟩ := hfit y h2 h3.symm
    obtain ⟨x1, x2, x3, x4⟩ := hx
    obtain ⟨y1, y2, y3, y4⟩ := h4
    rw [x2]
    simp only [huniq]
    unfold SameTag
    cases hxv : x.values with
    | ints bx v =>
      cases hav : a.values with
      | reals _ => rw [hxv, hav] at x4; exact absurd x4 (by simp)
      | ints ba av =>
        rw [hxv, hav] at x4
        cases hyv : y.values with
        | reals _ => rw [hxv, hyv] at f2; exact absurd f2 (by simp)
        | ints by_ u =>
          rw [hxv, hyv] at f2
          cases hbv : b.values with
          | reals _ => rw [hyv, hbv] at y4; exact absurd y4 (by simp)
          | ints bb bv =>
            rw [hyv, hbv] at y4
            obtain ⟨x4, x5⟩ := x4
            obtain ⟨y4, y5⟩ := y4
            have f2 : bx = by_ := f2
            show ∃ r, (if ba = bb then _ else _) = some r ∧ _
            rw [if_pos (by omega)]
            by_cases hk : o.kind = .none
            · rw [if_pos hk]
              exact ⟨true, rfl, by simp [hk]⟩
            · rw [if_neg hk]
              unfold compareCopyData
              rw [hA _ _ v _ x3 x5, Option.bind_some, hB _ _ u _ x3 (by rw [f1]; exact y5), Option.bind_some]
              obtain ⟨r, r1, r2⟩ := compareInts_spec t (rt 0) hn (dealt N n x.ncomps v) (dealt N n x.ncomps u) (by
                intro p _; rw [dealt_length, dealt_length])
              refine ⟨r, r1, r2.trans ?_⟩
              rw [dealt_all hn v u (fun x y => x = y)]
              simp [hk]
    | reals v =>
      cases hav : a.values with
      | ints _ _ => rw [hxv, hav] at x4; exact absurd x4 (by simp)
      | reals av =>
        rw [hxv, hav] at x4
        cases hyv : y.values with
        | ints _ _ => rw [hxv, hyv] at f2; exact absurd f2 (by simp)
        | reals u =>
          cases hbv : b.values with
          | ints _ _ => rw [hyv, hbv] at y4; exact absurd y4 (by simp)
          | reals bv =>
            rw [hyv, hbv] at y4
            show ∃ r, (if o.kind = .none then _ else _) = some r ∧ _
            by_cases hk : o.kind = .none
            · rw [if_pos hk]
              exact ⟨true, rfl, by simp [Close, hk]⟩
            · rw [if_neg hk]
              unfold compareCopyData
              rw [hA _ _ v _ x3 x4, Option.bind_some, hB _ _ u _ x3 (by rw [f1]; exact y4), Option.bind_some]
              obtain ⟨r, r1, r2⟩ := compareReals_spec t rt verbose o ht hf hk hn hn' (dealt N n x.ncomps v) (dealt N n x.ncomps u) (by
                intro p _; rw [dealt_length, dealt_length])
              refine ⟨r, r1, r2.trans ?_⟩
              rw [dealt_all hn v u (Close o)]

omit [Field K] [LinearOrder K] [IsStrictOrderedRing K] in
theorem localConn_spec (s : Nat → Sched) {n : Nat} {gl : Nat → Nat → List Nat} {A : PlainMesh K} {M : CompareMesh K} (h : Stores n gl A M)
    {d low : Nat} (hd : d ≤ A.dim) (hlow : low < d) :
    ∃ ac, localConn s M d low = some ac ∧ 0 < (elementDegree A.family d low).toNat ∧
      HoldsData n (gl d) (elementDegree A.family d low).toNat (fun g j => (A.conn d low g j : Int)) ac := by
  obtain ⟨dn, d1, d2, d3⟩ := h.conn d low hd hlow
  unfold localConn
  rw [d1, h.globals low (by omega)]
  generalize hw : (elementDegree A.family d low).toNat = w at *
  have hw0 : 0 < w := by omega
  obtain ⟨out, o1, o2⟩ := onRanks_spec (n := n) dn
    (fun r h2l => ((world n (fun r => (gl low r).map Int.ofNat))[r]?).bind (fun g => unmap (s r) h2l g 1))
    (fun r out => out.length = (gl d r).length * w ∧ ∀ (i g j : Nat), (gl d r)[i]? = some g → j < w →
      entry out w i j = some (A.conn d low g j : Int)) (by
    intro r hr
    rw [world_get _ hr, Option.bind_some]
    obtain ⟨e1, e2⟩ := d3 r hr
    obtain ⟨out, o1, o2, o3⟩ := C05_unmap (s r) (dn r) ((gl low r).map Int.ofNat) 1 (gl low r).length (by simp) (by
      intro l hl
      obtain ⟨k, hk⟩ := List.mem_iff_getElem?.1 hl
      have hkl := (List.getElem?_eq_some_iff.1 hk).1
      rw [e1] at hkl
      have hki : k / w < (gl d r).length := (Nat.div_lt_iff_lt_mul hw0).2 hkl
      obtain ⟨l', l1, l2⟩ := e2 (k / w) _ (k % w) (List.getElem?_eq_getElem hki) (Nat.mod_lt _ hw0)
      rw [Nat.mul_comm, Nat.div_add_mod, hk] at l1
      rw [Option.some.inj l1]
      exact (List.getElem?_eq_some_iff.1 l2).1)
    refine ⟨out, o1, by rw [o2, e1, Nat.mul_one], ?_⟩
    intro i g j hi hj
    obtain ⟨l, l1, l2⟩ := e2 i g j hi hj
    have := o3 _ l 0 l1 (by omega)
    rw [entry_one, entry_one, List.getElem?_map, l2] at this
    exact this)
  exact ⟨_, o1, hw0, out, rfl, o2⟩

/-! ## Comparing meshes -/

omit [Field K] [LinearOrder K] [IsStrictOrderedRing K] in
theorem tags_mapM {P : PlainTag K → Prop} {R : PlainTag K → CompareTag K → Prop} (f : Nat → CompareTag K → Option Bool)
    {pl : List (PlainTag K)} {l : List (CompareTag K)} (h : List.Forall₂ R pl l)
    (hf : ∀ k x a, x ∈ pl → R x a → ∃ r, f k a = some r ∧ (r = true ↔ P x)) :
    ∀ k, ∃ oks, (l.zipIdx k).mapM (fun p => f p.2 p.1) = some oks ∧ (oks.all id = true ↔ ∀ x ∈ pl, P x) := by
  induction h with
  | nil => intro k; exact ⟨[], rfl, by simp⟩
  | @cons x a pl l hxa _ ih =>
    intro k
    obtain ⟨oks, h1, h2⟩ := ih (fun k x a hx => hf k x a (List.mem_cons_of_mem _ hx)) (k + 1)
    obtain ⟨r, r1, r2⟩ := hf k x a (by simp) hxa
    refine ⟨r :: oks, ?_, ?_⟩
    · rw [List.zipIdx_cons, List.mapM_cons, r1, h1]
      rfl
    · rw [List.all_cons, Bool.and_eq_true, h2]
      simp [r2]

omit [LinearOrder K] [IsStrictOrderedRing K] in
theorem tagOpts_eq {opts : Nat → List (String × VarCompareOpts K)} {o : Nat → String → VarCompareOpts K}
    (hnd : ∀ d, ((opts d).map Prod.fst).Nodup) (ho : ∀ d name, Options (opts d) name (o d name)) (d : Nat) (name : String) :
    tagOpts opts d name = o d name ∨ (tagOpts opts d name).kind = .none ∧ (o d name).kind = .none := by
  unfold tagOpts
  cases hf : (opts d).find? (fun p => p.1 == name) with
  | none =>
    right
    refine ⟨rfl, ?_⟩
    rcases ho d name with h | h
    · have := List.find?_eq_none.1 hf _ h
      simp at this
    · exact h.2
  | some p =>
    left
    have h1 := List.mem_of_find?_eq_some hf
    have h2 : p.1 = name := by simpa using List.find?_some hf
    rcases ho d name with h | h
    · have := List.inj_on_of_nodup_map (hnd d) h1 h h2
      rw [this]
    · exact absurd h2 (h.1 p h1)

theorem compareDims_spec (s : Nat → Nat → Nat → Nat → Nat → Sched) (t : Nat → Nat → Nat → Team) (rt : Nat → Nat → Nat → RankTree)
    (verbose full : Bool) {opts : Nat → List (String × VarCompareOpts K)} {o : Nat → String → VarCompareOpts K}
    (hnd : ∀ d, ((opts d).map Prod.fst).Nodup) (ho : ∀ d name, Options (opts d) name (o d name))
    (hpos : ∀ d, ∀ p ∈ opts d, 0 ≤ p.2.tolerance ∧ 0 ≤ p.2.floor)
    {n : Nat} (hn : 0 < n) (hn' : n < 2 ^ 31) {gla glb : Nat → Nat → List Nat} {A B : PlainMesh K} {a b : CompareMesh K}
    (hA : Stores n gla A a) (hB : Stores n glb B b) (hfit : TagsFit A B) (hfam : A.family = B.family) (hdim : A.dim = B.dim) :
    ∀ (ds : List Nat) (res : Comparison), (∀ d ∈ ds, d ≤ A.dim) → ∃ r, compareDims s t rt verbose full opts a b ds res = some r ∧
      (r = .diff ↔ res = .diff ∨ ∃ d ∈ ds, A.count d ≠ B.count d ∨ (Compared full A.dim d ∧ DiffersAt full o A B d)) ∧
      (r = .same ↔ res = .same ∧ ∀ d ∈ ds, A.count d = B.count d ∧ (Compared full A.dim d → ¬ DiffersAt full o A B d ∧
        ¬ ∃ y ∈ B.tags d, ¬ ∃ x ∈ A.tags d, x.name = y.name)) := by
  intro ds
  induction ds with
  | nil =>
    intro res _
    exact ⟨res, rfl, by simp, by simp⟩
  | cons d ds ih =>
    intro res hds
    have hd : d ≤ A.dim := hds d (by simp)
    have ih := fun res => ih res (fun d hd => hds d (by simp [hd]))
    unfold compareDims
    rw [hA.nglobal d hd, hB.nglobal d (by omega)]
    by_cases hc : A.count d = B.count d
    swap
    · rw [if_pos (by omega)]
      refine ⟨.diff, rfl, by simp [hc], ?_⟩
      simp [hc]
    rw [if_neg (by omega)]
    by_cases hskip : full = false ∧ 0 < d ∧ d < a.dim
    · rw [if_pos hskip]
      have hnc : ¬ Compared full A.dim d := by
        rw [hA.dim] at hskip
        rintro ⟨_, h | h | h⟩
        · rw [hskip.1] at h; cases h
        · omega
        · omega
      obtain ⟨r, r1, r2, r3⟩ := ih res
      refine ⟨r, r1, r2.trans ?_, r3.trans ?_⟩
      · simp [hc, hnc]
      · simp [hc, hnc]
    rw [if_neg hskip]
    have hcomp : Compared full A.dim d := by
      refine ⟨hd, ?_⟩
      rw [hA.dim] at hskip
      cases full with
      | true => exact Or.inl rfl
      | false =>
        right
        by_contra h
        exact hskip ⟨rfl, by omega, by omega⟩
    obtain ⟨aD, a1, a2⟩ := linear_data (s d 0 0) hn hn' (gla d) (fun r hr => hA.range d r hd hr) (fun g hg => hA.all d g hd hg) (hA.small d hd)
    obtain ⟨bD, b1, b2⟩ := linear_data (s d 0 1) hn hn' (glb d) (fun r hr => hB.range d r (by omega) hr) (fun g hg => hB.all d g (by omega) hg)
      (hB.small d (by omega))
    rw [hA.globals d hd, hB.globals d (by omega), a1, b1, Option.bind_some, Option.bind_some]
    rw [← hc] at b2
    have hconn : ∃ ok, (if 0 < d then (localConn (fun r => s d 1 0 r 0) a d (lowDim full d)).bind (fun ac =>
          (localConn (fun r => s d 1 1 r 0) b d (lowDim full d)).bind (fun bc =>
          compareCopyData (s d 2) (compareInts (t d 0) (rt d 0 0)) aD bD (elementDegree a.family d (lowDim full d)).toNat ac bc))
        else some true) = some ok ∧ (ok = true ↔ ¬ (0 < d ∧ ∃ g j, g < A.count d ∧
          j < (elementDegree A.family d (lowDim full d)).toNat ∧
          A.conn d (lowDim full d) g j ≠ B.conn d (lowDim full d) g j)) := by
      by_cases h0 : 0 < d
      · rw [if_pos h0, hA.family]
        have hlow : lowDim full d < d := by unfold lowDim; split <;> omega
        generalize lowDim full d = low at hlow
        obtain ⟨ac, c1, c2, c3⟩ := localConn_spec (fun r => s d 1 0 r 0) hA hd hlow
        obtain ⟨bc, e1, e2, e3⟩ := localConn_spec (fun r => s d 1 1 r 0) hB (by omega) hlow
        rw [← hfam] at e3
        rw [c1, e1, Option.bind_some, Option.bind_some]
        unfold compareCopyData
        rw [a2 _ _ _ _ c2 c3, b2 _ _ _ _ c2 e3, Option.bind_some, Option.bind_some]
        obtain ⟨r, r1, r2⟩ := compareInts_spec (t d 0) (rt d 0 0) hn
          (dealt (A.count d) n (elementDegree A.family d low).toNat (fun g j => (A.conn d low g j : Int)))
          (dealt (A.count d) n (elementDegree A.family d low).toNat (fun g j => (B.conn d low g j : Int))) (by
          intro p _; rw [dealt_length, dealt_length])
        refine ⟨r, r1, r2.trans ?_⟩
        rw [dealt_all hn _ _ (fun x y => x = y)]
        constructor
        · rintro h ⟨_, g, j, hg, hj, hne⟩
          exact hne (by have := h g j hg hj; omega)
        · intro h g j hg hj
          by_contra hne
          exact h ⟨h0, g, j, hg, hj, fun he => hne (by rw [he])⟩
      · rw [if_neg h0]
        exact ⟨true, rfl, by simp [h0]⟩
    obtain ⟨ok, ok1, ok2⟩ := hconn
    show ∃ r, (Option.bind (if 0 < d then (localConn (fun r => s d 1 0 r 0) a d (lowDim full d)).bind (fun ac =>
      (localConn (fun r => s d 1 1 r 0) b d (lowDim full d)).bind (fun bc =>
      compareCopyData (s d 2) (compareInts (t d 0) (rt d 0 0)) aD bD (elementDegree a.family d (lowDim full d)).toNat ac bc))
      else some true) _) = some r ∧ _
    rw [ok1, Option.bind_some]
    cases ok with
    | false =>
      rw [if_neg (by simp)]
      have hdiff : DiffersAt full o A B d := by
        left
        by_contra h
        simpa using ok2.2 h
      obtain ⟨r, r1, r2, r3⟩ := ih .diff
      refine ⟨r, r1, r2.trans ?_, r3.trans ?_⟩
      · simp [hcomp, hdiff]
      · simp [hcomp, hdiff]
    | true =>
      rw [if_pos rfl]
      have hnoconn := ok2.1 rfl
      obtain ⟨fa, fb, ff⟩ := hfit d
      obtain ⟨oks, k1, k2⟩ := tags_mapM (P := fun x => ∃ y ∈ B.tags d, y.name = x.name ∧ SameTag (o d x.name) (A.count d) x y)
        (fun k y => compareTag (s d (k + 3)) (t d (k + 1)) (rt d (k + 1)) verbose (tagOpts opts d y.name) aD bD (b.tags d) y)
        (hA.tags d hd) (by
        intro k x y hx hxy
        obtain ⟨p1, p2⟩ : 0 ≤ (tagOpts opts d y.name).tolerance ∧ 0 ≤ (tagOpts opts d y.name).floor := by
          unfold tagOpts
          cases hf : (opts d).find? (fun p => p.1 == y.name) with
          | none => exact ⟨le_refl _, le_refl _⟩
          | some p => exact hpos d p (List.mem_of_find?_eq_some hf)
        obtain ⟨r, r1, r2⟩ := compareTag_spec (s d (k + 3)) (t d (k + 1)) (rt d (k + 1)) verbose (tagOpts opts d y.name) p1 p2 hn hn' a2 b2
          (hB.tags d (by omega)) fb hxy (fun z hz hn => ff x hx z hz hn)
        refine ⟨r, r1, r2.trans ?_⟩
        rw [hxy.1]
        rcases tagOpts_eq hnd ho d x.name with h | ⟨h1, h2⟩
        · rw [h]
        · have : ∀ z, SameTag (tagOpts opts d x.name) (A.count d) x z ↔ SameTag (o d x.name) (A.count d) x z := by
            intro z
            unfold SameTag
            cases x.values <;> cases z.values <;> simp [h1, h2, Close]
          simp only [this]) 0
      rw [k1, Option.bind_some]
      have hdiff : DiffersAt full o A B d ↔ ¬ oks.all id = true := by
        rw [k2]
        unfold DiffersAt
        constructor
        · rintro (h | ⟨x, hx, h⟩) hall
          · exact hnoconn h
          · exact h (hall x hx)
        · intro h
          right
          by_contra hc
          exact h (fun x hx => by_contra fun hn => hc ⟨x, hx, hn⟩)
      have hnames : ∀ {gl : Nat → List Nat} {pl : List (PlainTag K)} {l : List (CompareTag K)}, List.Forall₂ (TagHolds n gl) pl l →
          l.map CompareTag.name = pl.map PlainTag.name := by
        intro gl pl l h
        induction h with
        | nil => rfl
        | cons h _ ih => rw [List.map_cons, List.map_cons, h.1, ih]
      have hextra : (b.tags d).any (fun x => (a.tags d).all (fun y => !(y.name == x.name))) = true ↔
          ∃ y ∈ B.tags d, ¬ ∃ x ∈ A.tags d, x.name = y.name := by
        have e1 : (b.tags d).any (fun x => (a.tags d).all (fun y => !(y.name == x.name))) =
            ((b.tags d).map CompareTag.name).any (fun nb => ((a.tags d).map CompareTag.name).all (fun na => !(na == nb))) := by
          simp [List.any_map, List.all_map, Function.comp_def]
        rw [e1, hnames (hA.tags d hd), hnames (hB.tags d (by omega))]
        simp
      generalize hex : (b.tags d).any (fun x => (a.tags d).all (fun y => !(y.name == x.name))) = extra at hextra
      obtain ⟨r, r1, r2, r3⟩ := ih (if extra = true ∧ (if oks.all id then res else .diff) = .same then .more else
        (if oks.all id then res else .diff))
      refine ⟨r, r1, r2.trans ?_, r3.trans ?_⟩
      · simp only [List.mem_cons, exists_eq_or_imp, hc, hcomp, hdiff, true_and, ne_eq, not_true, false_or]
        rw [← or_assoc]
        apply or_congr_left
        cases oks.all id <;> cases extra <;> cases res <;> simp
      · simp only [List.mem_cons, forall_eq_or_imp, hc, hcomp, hdiff, true_and, ← hextra, true_implies]
        rw [← and_assoc]
        apply and_congr_left
        intro _
        cases oks.all id <;> cases extra <;> cases res <;> simp

/-- Comparing two meshes, each distributed in any way: the result is a difference exactly if the meshes differ, and that they are the same
exactly if they do not differ and the second one does not have more tags. Missing: tags of the same name but of another type or number of
components, negative tolerances, see below. -/
theorem C64_compare_partial (s : Nat → Nat → Nat → Nat → Nat → Sched) (t : Nat → Nat → Nat → Team) (rt : Nat → Nat → Nat → RankTree)
    (verbose full : Bool) {opts : Nat → List (String × VarCompareOpts K)} {o : Nat → String → VarCompareOpts K}
    (hnd : ∀ d, ((opts d).map Prod.fst).Nodup) (ho : ∀ d name, Options (opts d) name (o d name))
    (hpos : ∀ d, ∀ p ∈ opts d, 0 ≤ p.2.tolerance ∧ 0 ≤ p.2.floor)
    {n : Nat} (hn : 0 < n) (hn' : n < 2 ^ 31) {gla glb : Nat → Nat → List Nat} {A B : PlainMesh K} {a b : CompareMesh K}
    (hA : Stores n gla A a) (hB : Stores n glb B b) (hfit : TagsFit A B) :
    ∃ r, compareMeshes s t rt verbose full opts a b = some r ∧ (r = .diff ↔ Differ full o A B) ∧
      (r = .same ↔ ¬ Differ full o A B ∧ ¬ HasMore full A B) := by
  unfold compareMeshes
  rw [hA.family, hB.family, hA.dim, hB.dim]
  by_cases hfam : A.family = B.family
  swap
  · rw [if_pos hfam]
    exact ⟨.diff, rfl, by simp [Differ, hfam], by simp [Differ, hfam]⟩
  rw [if_neg (by simpa using hfam)]
  by_cases hdim : A.dim = B.dim
  swap
  · rw [if_pos hdim]
    exact ⟨.diff, rfl, by simp [Differ, hdim], by simp [Differ, hdim]⟩
  rw [if_neg (by simpa using hdim)]
  obtain ⟨r, r1, r2, r3⟩ := compareDims_spec s t rt verbose full hnd ho hpos hn hn' hA hB hfit hfam hdim (List.range (A.dim + 1)) .same (by
    intro d hd
    have := List.mem_range.1 hd
    omega)
  have hdiff : r = .diff ↔ Differ full o A B := by
    rw [r2]
    unfold Differ
    constructor
    · rintro (h | ⟨d, hd, h | h⟩)
      · cases h
      · exact Or.inr (Or.inr (Or.inl ⟨d, by have := List.mem_range.1 hd; omega, h⟩))
      · exact Or.inr (Or.inr (Or.inr ⟨d, h⟩))
    · rintro (h | h | ⟨d, hd, h⟩ | ⟨d, h1, h2⟩)
      · exact absurd hfam h
      · exact absurd hdim h
      · exact Or.inr ⟨d, List.mem_range.2 (by omega), Or.inl h⟩
      · exact Or.inr ⟨d, List.mem_range.2 (by have := h1.1; omega), Or.inr ⟨h1, h2⟩⟩
  refine ⟨r, r1, hdiff, ?_⟩
  rw [r3]
  constructor
  · rintro ⟨_, h⟩
    refine ⟨?_, ?_⟩
    · rw [← hdiff, r3.2 ⟨rfl, h⟩]
      simp
    · rintro ⟨d, h1, h2⟩
      exact ((h d (List.mem_range.2 (by have := h1.1; omega))).2 h1).2 h2
  · rintro ⟨h1, h2⟩
    refine ⟨rfl, ?_⟩
    intro d hd
    have hd := List.mem_range.1 hd
    refine ⟨?_, ?_⟩
    · by_contra hc
      exact h1 (Or.inr (Or.inr (Or.inl ⟨d, by omega, hc⟩)))
    · intro hcomp
      exact ⟨fun h => h1 (Or.inr (Or.inr (Or.inr ⟨d, hcomp, h⟩))), fun h => h2 ⟨d, hcomp, h⟩⟩

theorem close_self {o : VarCompareOpts K} (ht : o.kind = .none ∨ 0 ≤ o.tolerance) (x : K) : Close o x x := by
  unfold Close
  cases h : o.kind with
  | none => trivial
  | absolute =>
    have := ht.resolve_left (by simp [h])
    simpa using this
  | relative =>
    have := ht.resolve_left (by simp [h])
    right
    simpa using mul_nonneg this (le_trans (abs_nonneg x) (le_refl _))

omit [IsStrictOrderedRing K] in
theorem options_pos {opts : Nat → List (String × VarCompareOpts K)} {o : Nat → String → VarCompareOpts K}
    (ho : ∀ d name, Options (opts d) name (o d name)) (hpos : ∀ d, ∀ p ∈ opts d, 0 ≤ p.2.tolerance ∧ 0 ≤ p.2.floor) (d : Nat) (name : String) :
    (o d name).kind = .none ∨ 0 ≤ (o d name).tolerance := by
  rcases ho d name with h | h
  · exact Or.inr (hpos d _ h).1
  · exact Or.inl h.2

/-- Two distributions of the same mesh are the same, whatever the options. -/
theorem C64_distribution_partial (s : Nat → Nat → Nat → Nat → Nat → Sched) (t : Nat → Nat → Nat → Team) (rt : Nat → Nat → Nat → RankTree)
    (verbose full : Bool) {opts : Nat → List (String × VarCompareOpts K)} {o : Nat → String → VarCompareOpts K}
    (hnd : ∀ d, ((opts d).map Prod.fst).Nodup) (ho : ∀ d name, Options (opts d) name (o d name))
    (hpos : ∀ d, ∀ p ∈ opts d, 0 ≤ p.2.tolerance ∧ 0 ≤ p.2.floor)
    {n : Nat} (hn : 0 < n) (hn' : n < 2 ^ 31) {gla glb : Nat → Nat → List Nat} {A : PlainMesh K} {a b : CompareMesh K}
    (hA : Stores n gla A a) (hB : Stores n glb A b) (hnames : ∀ d, ((A.tags d).map PlainTag.name).Nodup) :
    compareMeshes s t rt verbose full opts a b = some .same := by
  obtain ⟨r, r1, _, r3⟩ := C64_compare_partial s t rt verbose full hnd ho hpos hn hn' hA hB (by
    intro d
    refine ⟨hnames d, hnames d, ?_⟩
    intro x hx y hy hxy
    have := List.inj_on_of_nodup_map (hnames d) hx hy hxy
    subst this
    refine ⟨rfl, ?_⟩
    cases x.values <;> trivial)
  rw [r1, r3.2]
  refine ⟨?_, ?_⟩
  · rintro (h | h | ⟨d, _, h⟩ | ⟨d, _, ⟨_, g, j, _, _, h⟩ | ⟨x, hx, h⟩⟩)
    · exact h rfl
    · exact h rfl
    · exact h rfl
    · exact h rfl
    · refine h ⟨x, hx, rfl, ?_⟩
      unfold SameTag
      cases x.values with
      | ints _ v => exact Or.inr (fun _ _ _ _ => rfl)
      | reals v => exact fun g j _ _ => close_self (options_pos ho hpos d x.name) _
  · rintro ⟨d, _, y, hy, h⟩
    exact h ⟨y, hy, rfl⟩

omit [IsStrictOrderedRing K] in
theorem close_symm {o : VarCompareOpts K} {x y : K} (h : Close o x y) : Close o y x := by
  unfold Close at *
  cases hk : o.kind with
  | none => trivial
  | absolute =>
    rw [hk] at h
    show |y - x| ≤ _
    rw [abs_sub_comm]
    exact h
  | relative =>
    rw [hk] at h
    show _ ∨ |x - y| ≤ _ * max |y| |x|
    rw [abs_sub_comm, max_comm]
    exact h.imp_left And.symm

/-- The order does not matter for being the same, and a mesh that has more is different from the other one. -/
theorem C64_order_partial (s s' : Nat → Nat → Nat → Nat → Nat → Sched) (t t' : Nat → Nat → Nat → Team) (rt rt' : Nat → Nat → Nat → RankTree)
    (verbose verbose' full : Bool) {opts : Nat → List (String × VarCompareOpts K)} {o : Nat → String → VarCompareOpts K}
    (hnd : ∀ d, ((opts d).map Prod.fst).Nodup) (ho : ∀ d name, Options (opts d) name (o d name))
    (hpos : ∀ d, ∀ p ∈ opts d, 0 ≤ p.2.tolerance ∧ 0 ≤ p.2.floor)
    {n : Nat} (hn : 0 < n) (hn' : n < 2 ^ 31) {gla glb : Nat → Nat → List Nat} {A B : PlainMesh K} {a b : CompareMesh K}
    (hA : Stores n gla A a) (hB : Stores n glb B b) (hfit : TagsFit A B) :
    (compareMeshes s t rt verbose full opts a b = some .same → compareMeshes s' t' rt' verbose' full opts b a = some .same) ∧
    (compareMeshes s t rt verbose full opts a b = some .more → compareMeshes s' t' rt' verbose' full opts b a = some .diff) := by
  have hfit' : TagsFit B A := by
    intro d
    obtain ⟨h1, h2, h3⟩ := hfit d
    refine ⟨h2, h1, ?_⟩
    intro x hx y hy hxy
    obtain ⟨e1, e2⟩ := h3 y hy x hx hxy.symm
    refine ⟨e1.symm, ?_⟩
    revert e2
    cases x.values <;> cases y.values <;> simp +contextual
  obtain ⟨r, r1, r2, r3⟩ := C64_compare_partial s t rt verbose full hnd ho hpos hn hn' hA hB hfit
  obtain ⟨q, q1, q2, q3⟩ := C64_compare_partial s' t' rt' verbose' full hnd ho hpos hn hn' hB hA hfit'
  rw [r1, q1]
  refine ⟨?_, ?_⟩
  · intro h
    obtain ⟨h1, h2⟩ := r3.1 (Option.some.inj h)
    rw [q3.2]
    have hf : A.family = B.family := by_contra fun hc => h1 (Or.inl hc)
    have hd : A.dim = B.dim := by_contra fun hc => h1 (Or.inr (Or.inl hc))
    have hcount : ∀ d, d ≤ A.dim → A.count d = B.count d := fun d hd => by_contra fun hc => h1 (Or.inr (Or.inr (Or.inl ⟨d, hd, hc⟩)))
    have hno : ∀ d, Compared full A.dim d → ¬ DiffersAt full o A B d := fun d hd hc => h1 (Or.inr (Or.inr (Or.inr ⟨d, hd, hc⟩)))
    refine ⟨?_, ?_⟩
    · rintro (h | h | ⟨d, hd', h⟩ | ⟨d, hd', ⟨h0, g, j, hg, hj, h⟩ | ⟨y, hy, h⟩⟩)
      · exact h hf.symm
      · exact h hd.symm
      · exact h (hcount d (by omega)).symm
      · rw [← hd] at hd'
        rw [← hcount d hd'.1] at hg
        rw [← hf] at hj
        exact hno d hd' (Or.inl ⟨h0, g, j, hg, hj, fun e => h e.symm⟩)
      · rw [← hd] at hd'
        by_cases hx : ∃ x ∈ A.tags d, x.name = y.name
        · obtain ⟨x, hx, hxy⟩ := hx
          refine h ⟨x, hx, hxy, ?_⟩
          have := hno d hd'
          have hs : ∃ z ∈ B.tags d, z.name = x.name ∧ SameTag (o d x.name) (A.count d) x z := by
            by_contra hc
            exact this (Or.inr ⟨x, hx, hc⟩)
          obtain ⟨z, hz, hzx, hs⟩ := hs
          have := List.inj_on_of_nodup_map (hfit d).2.1 hz hy (hzx.trans hxy)
          subst this
          rw [← hcount d hd'.1]
          rw [hxy] at hs
          have hc := ((hfit d).2.2 x hx z hz hxy).1
          unfold SameTag at hs ⊢
          rw [← hc]
          revert hs
          cases x.values with
          | ints _ v =>
            cases z.values with
            | ints _ u => exact fun hs => hs.imp_right (fun hs g j hg hj => (hs g j hg hj).symm)
            | reals u => exact fun hs => hs
          | reals v =>
            cases z.values with
            | ints _ u => exact fun hs => hs
            | reals u => exact fun hs g j hg hj => close_symm (hs g j hg hj)
        · exact h2 ⟨d, hd', y, hy, hx⟩
    · rintro ⟨d, hd', x, hx, h⟩
      rw [← hd] at hd'
      refine hno d hd' (Or.inr ⟨x, hx, ?_⟩)
      rintro ⟨y, hy, hyx, _⟩
      exact h ⟨y, hy, hyx⟩
  · intro h
    have h := Option.some.inj h
    rw [q2.2]
    have h1 : ¬ Differ full o A B := fun hc => by rw [r2.2 hc] at h; cases h
    have h2 : HasMore full A B := by
      by_contra hc
      rw [r3.2 ⟨h1, hc⟩] at h
      cases h
    have hd : A.dim = B.dim := by_contra fun hc => h1 (Or.inr (Or.inl hc))
    obtain ⟨d, hd', y, hy, hx⟩ := h2
    rw [hd] at hd'
    refine Or.inr (Or.inr (Or.inr ⟨d, hd', Or.inr ⟨y, hy, ?_⟩⟩))
    rintro ⟨x, hx', hxy, _⟩
    exact hx ⟨x, hx', hxy⟩

end

/-! ## Meshes to be compared -/

/-- Two edges in a row with a number on every vertex. -/
def lineMesh (u : Nat → ℚ) : PlainMesh ℚ :=
  ⟨.simplex, 1, fun d => if d = 0 then 3 else if d = 1 then 2 else 0, fun _ _ g j => g + j,
    fun d => if d = 0 then [⟨"u", 1, .reals (fun g _ => u g)⟩] else []⟩

/-- The same on two ranks. -/
def lineRanks (gl : Nat → Nat → List Nat) (dn : Nat → List Nat) (u : Nat → ℚ) : CompareMesh ℚ :=
  ⟨.simplex, 1, fun d => if d = 0 then 3 else if d = 1 then 2 else 0, fun d => world 2 (fun r => (gl d r).map Int.ofNat),
    fun _ _ => world 2 dn, fun d => if d = 0 then [⟨"u", 1, .reals (world 2 (fun r => (gl 0 r).map u))⟩] else []⟩

theorem lineRanks_stores (gl : Nat → Nat → List Nat) (dn : Nat → List Nat) (u : Nat → ℚ)
    (h1 : ∀ d, d < 2 → ∀ r, r < 2 → ∀ g ∈ gl d r, g < if d = 0 then 3 else if d = 1 then 2 else 0)
    (h2 : ∀ d, d < 2 → ∀ g, (g < if d = 0 then 3 else if d = 1 then 2 else 0) → ∃ r, r < 2 ∧ g ∈ gl d r)
    (h3 : ∀ r, r < 2 → (dn r).length = (gl 1 r).length * 2)
    (h4 : ∀ r, r < 2 → ∀ (i g j : Nat), (gl 1 r)[i]? = some g → j < 2 →
      ∃ l : Nat, (dn r)[i * 2 + j]? = some l ∧ (gl 0 r)[l]? = some (g + j)) :
    Stores 2 gl (lineMesh u) (lineRanks gl dn u) where
  family := rfl
  dim := rfl
  nglobal := by
    intro d hd
    have hd : d ≤ 1 := hd
    obtain rfl | rfl : d = 0 ∨ d = 1 := by omega
    · rfl
    · rfl
  globals := fun _ _ => rfl
  range := fun d r hd hr => h1 d (Nat.lt_succ_of_le hd) r hr
  all := fun d g hd hg => h2 d (Nat.lt_succ_of_le hd) g hg
  small := by
    intro d hd
    have hd : d ≤ 1 := hd
    obtain rfl | rfl : d = 0 ∨ d = 1 := by omega
    · show 3 / 2 + 1 < 2 ^ 31
      decide
    · show 2 / 2 + 1 < 2 ^ 31
      decide
  conn := by
    intro d low hd hlow
    have hd : d ≤ 1 := hd
    obtain ⟨rfl, rfl⟩ : d = 1 ∧ low = 0 := by omega
    exact ⟨dn, rfl, (by decide : 0 < elementDegree .simplex 1 0), fun r hr => ⟨h3 r hr, h4 r hr⟩⟩
  tags := by
    intro d hd
    have hd : d ≤ 1 := hd
    obtain rfl | rfl : d = 0 ∨ d = 1 := by omega
    · refine List.Forall₂.cons ⟨rfl, rfl, Nat.one_pos, _, rfl, ?_⟩ List.Forall₂.nil
      intro r _
      refine ⟨by simp, ?_⟩
      intro i g j hi hj
      obtain rfl : j = 0 := by
        have hj : j < 1 := hj
        omega
      show entry ((gl 0 r).map u) 1 i 0 = _
      rw [entry_one, List.getElem?_map, hi]
      rfl
    · exact List.Forall₂.nil

/-- Every rank has an edge. -/
def lineGl (d r : Nat) : List Nat := if d = 0 then (if r = 0 then [0, 1] else [1, 2]) else [r]

/-- The edges are exchanged, and rank 0 numbers its vertices in the other order. -/
def lineGl' (d r : Nat) : List Nat := if d = 0 then (if r = 0 then [2, 1] else [0, 1]) else [1 - r]

theorem line_stores (u : Nat → ℚ) : Stores 2 lineGl (lineMesh u) (lineRanks lineGl (fun _ => [0, 1]) u) := by
  refine lineRanks_stores _ _ u (by decide) ?_ (by decide) ?_
  · intro d hd g hg
    obtain rfl | rfl : d = 0 ∨ d = 1 := by omega
    · have hg : g < 3 := hg
      obtain rfl | rfl | rfl : g = 0 ∨ g = 1 ∨ g = 2 := by omega
      · exact ⟨0, by decide⟩
      · exact ⟨0, by decide⟩
      · exact ⟨1, by decide⟩
    · have hg : g < 2 := hg
      exact ⟨g, hg, by simp [lineGl]⟩
  · intro r hr i g j hi hj
    have hi' : i < 1 := (List.getElem?_eq_some_iff.1 hi).1
    obtain rfl : i = 0 := by omega
    obtain rfl : r = g := Option.some.inj hi
    obtain hr' | hr' : r = 0 ∨ r = 1 := by omega
    all_goals subst hr'
    all_goals obtain hj' | hj' : j = 0 ∨ j = 1 := by omega
    all_goals subst hj'
    · exact ⟨0, rfl, rfl⟩
    · exact ⟨1, rfl, rfl⟩
    · exact ⟨0, rfl, rfl⟩
    · exact ⟨1, rfl, rfl⟩

theorem line_stores' (u : Nat → ℚ) : Stores 2 lineGl' (lineMesh u) (lineRanks lineGl' (fun r => [1 - r, r]) u) := by
  refine lineRanks_stores _ _ u (by decide) ?_ (by decide) ?_
  · intro d hd g hg
    obtain rfl | rfl : d = 0 ∨ d = 1 := by omega
    · have hg : g < 3 := hg
      obtain rfl | rfl | rfl : g = 0 ∨ g = 1 ∨ g = 2 := by omega
      · exact ⟨1, by decide⟩
      · exact ⟨0, by decide⟩
      · exact ⟨0, by decide⟩
    · have hg : g < 2 := hg
      exact ⟨1 - g, by omega, by simp [lineGl']; omega⟩
  · intro r hr i g j hi hj
    have hi' : i < 1 := (List.getElem?_eq_some_iff.1 hi).1
    obtain rfl : i = 0 := by omega
    obtain rfl : 1 - r = g := Option.some.inj hi
    obtain hr' | hr' : r = 0 ∨ r = 1 := by omega
    all_goals subst hr'
    all_goals obtain hj' | hj' : j = 0 ∨ j = 1 := by omega
    all_goals subst hj'
    · exact ⟨1, rfl, rfl⟩
    · exact ⟨0, rfl, rfl⟩
    · exact ⟨0, rfl, rfl⟩
    · exact ⟨1, rfl, rfl⟩

theorem line_fits (u v : Nat → ℚ) : TagsFit (lineMesh u) (lineMesh v) := by
  intro d
  by_cases h : d = 0
  · subst h
    refine ⟨by simp [lineMesh], by simp [lineMesh], ?_⟩
    intro x hx y hy _
    obtain rfl := List.mem_singleton.1 hx
    obtain rfl := List.mem_singleton.1 hy
    exact ⟨rfl, trivial⟩
  · have : ∀ w, (lineMesh w).tags d = [] := fun w => if_neg h
    rw [this, this]
    exact ⟨by simp, by simp, by simp⟩

/-- Vertex values may differ by one tenth. -/
def lineOpts (d : Nat) : List (String × VarCompareOpts ℚ) := if d = 0 then [("u", ⟨.absolute, 1 / 10, 0⟩)] else []

theorem lineOpts_ok : (∀ d, ((lineOpts d).map Prod.fst).Nodup) ∧
    (∀ d name, Options (lineOpts d) name (if d = 0 ∧ name = "u" then ⟨.absolute, 1 / 10, 0⟩ else ⟨.none, 0, 0⟩)) ∧
    ∀ d, ∀ p ∈ lineOpts d, 0 ≤ p.2.tolerance ∧ 0 ≤ p.2.floor := by
  refine ⟨?_, ?_, ?_⟩
  · intro d
    unfold lineOpts
    split <;> simp
  · intro d name
    unfold lineOpts Options
    by_cases h : d = 0
    · by_cases h' : name = "u"
      · simp [h, h']
      · right
        simp [h, h', Ne.symm h']
    · simp [h]
  · intro d p hp
    unfold lineOpts at hp
    split at hp
    · obtain rfl := List.mem_singleton.1 hp
      norm_num
    · simp at hp

example : ∃ r, compareMeshes (fun _ _ _ _ _ => Sched.reversed) (fun _ _ _ => Team.serial) (fun _ _ _ => RankTree.left) true true lineOpts
    (lineRanks lineGl (fun _ => [0, 1]) (fun g => g)) (lineRanks lineGl' (fun r => [1 - r, r]) (fun g => g + 1 / 5)) = some r ∧
      (r = .diff ↔ Differ true (fun d name => if d = 0 ∧ name = "u" then ⟨.absolute, 1 / 10, 0⟩ else ⟨.none, 0, 0⟩)
        (lineMesh (fun g => g)) (lineMesh (fun g => g + 1 / 5))) :=
  (C64_compare_partial _ _ _ true true lineOpts_ok.1 lineOpts_ok.2.1 lineOpts_ok.2.2 (by decide) (by decide) (line_stores _) (line_stores' _)
    (line_fits _ _)).imp (fun _ h => ⟨h.1, h.2.1⟩)

example : compareMeshes (fun _ _ _ _ _ => Sched.serial) (fun _ _ _ => Team.serial) (fun _ _ _ => RankTree.left) true true lineOpts
    (lineRanks lineGl (fun _ => [0, 1]) (fun g => g)) (lineRanks lineGl' (fun r => [1 - r, r]) (fun g => g + 1 / 5)) = some .diff := by
  decide +kernel

example : compareMeshes (fun _ _ _ _ _ => Sched.serial) (fun _ _ _ => Team.serial) (fun _ _ _ => RankTree.left) true true lineOpts
    (lineRanks lineGl (fun _ => [0, 1]) (fun g => g)) (lineRanks lineGl' (fun r => [1 - r, r]) (fun g => g + 1 / 20)) = some .same := by
  decide +kernel

example (u : Nat → ℚ) : compareMeshes (fun _ _ _ _ _ => Sched.reversed) (fun _ _ _ => Team.serial) (fun _ _ _ => RankTree.left) true false
    lineOpts (lineRanks lineGl (fun _ => [0, 1]) u) (lineRanks lineGl' (fun r => [1 - r, r]) u) = some .same :=
  C64_distribution_partial _ _ _ true false lineOpts_ok.1 lineOpts_ok.2.1 lineOpts_ok.2.2 (by decide) (by decide) (line_stores u)
    (line_stores' u) (by
    intro d
    exact (line_fits u u d).1)

example (u v : Nat → ℚ) (h : compareMeshes (fun _ _ _ _ _ => Sched.reversed) (fun _ _ _ => Team.serial) (fun _ _ _ => RankTree.left) true
      false lineOpts (lineRanks lineGl (fun _ => [0, 1]) u) (lineRanks lineGl' (fun r => [1 - r, r]) v) = some .same) :
    compareMeshes (fun _ _ _ _ _ => Sched.serial) (fun _ _ _ => Team.serial) (fun _ _ _ => RankTree.left) false
      false lineOpts (lineRanks lineGl' (fun r => [1 - r, r]) v) (lineRanks lineGl (fun _ => [0, 1]) u) = some .same :=
  (C64_order_partial _ _ _ _ _ _ true false false lineOpts_ok.1 lineOpts_ok.2.1 lineOpts_ok.2.2 (by decide) (by decide) (line_stores u)
    (line_stores' v) (line_fits u v)).1 h

/-! ## What does not hold -/

/-- A vertex with a tag. -/
def pointMesh (w : Nat) (v : Values ℚ) : PlainMesh ℚ :=
  ⟨.simplex, 0, fun _ => 1, fun _ _ _ _ => 0, fun _ => [⟨"u", w, v⟩]⟩

/-- The same on one rank. -/
def pointRanks (w : Nat) (v : TagValues ℚ) : CompareMesh ℚ :=
  ⟨.simplex, 0, fun _ => 1, fun _ => [[0]], fun _ _ => [], fun _ => [⟨"u", w, v⟩]⟩

theorem pointRanks_stores (w : Nat) (v : Values ℚ) (v' : TagValues ℚ) (h : TagHolds 1 (fun _ => [0]) ⟨"u", w, v⟩ ⟨"u", w, v'⟩) :
    Stores 1 (fun _ _ => [0]) (pointMesh w v) (pointRanks w v') where
  family := rfl
  dim := rfl
  nglobal := fun _ _ => rfl
  globals := fun _ _ => rfl
  range := by
    intro d r _ _ g hg
    rw [List.mem_singleton.1 hg]
    exact Nat.one_pos
  all := by
    intro d g _ hg
    have hg : g < 1 := hg
    obtain rfl : g = 0 := by omega
    exact ⟨0, by decide, by simp⟩
  small := by
    intro d _
    show 1 / 1 + 1 < 2 ^ 31
    decide
  conn := by
    intro d low hd hlow
    have hd : d ≤ 0 := hd
    omega
  tags := fun d _ => List.Forall₂.cons h List.Forall₂.nil

theorem holds_point {α : Type} (w : Nat) (v : Nat → Nat → α) : HoldsData 1 (fun _ => [0]) w v [(List.range w).map (v 0)] := by
  refine ⟨fun _ => (List.range w).map (v 0), rfl, ?_⟩
  intro r _
  refine ⟨by simp, ?_⟩
  intro i g j hi hj
  have hi' : i < 1 := (List.getElem?_eq_some_iff.1 hi).1
  obtain rfl : i = 0 := by omega
  obtain rfl : 0 = g := Option.some.inj hi
  unfold entry
  rw [Nat.zero_mul, Nat.zero_add, List.getElem?_map, List.getElem?_range hj]
  rfl

/-- A tag that has another type in the second mesh ends the program instead of counting as a difference, even if the tag is not to be
compared. -/
theorem C64_types_refuted : ∃ (A B : PlainMesh ℚ) (a b : CompareMesh ℚ), Stores 1 (fun _ _ => [0]) A a ∧ Stores 1 (fun _ _ => [0]) B b ∧
    Differ true (fun _ _ => ⟨.none, 0, 0⟩) A B ∧
    compareMeshes (fun _ _ _ _ _ => Sched.serial) (fun _ _ _ => Team.serial) (fun _ _ _ => RankTree.left) true true (fun _ => []) a b = none := by
  refine ⟨pointMesh 1 (.ints 32 (fun _ _ => 0)), pointMesh 1 (.reals (fun _ _ => 0)), pointRanks 1 (.ints 32 [[0]]), pointRanks 1 (.reals [[0]]),
    pointRanks_stores 1 _ _ ⟨rfl, rfl, Nat.one_pos, rfl, holds_point 1 _⟩, pointRanks_stores 1 _ _ ⟨rfl, rfl, Nat.one_pos, holds_point 1 _⟩, ?_, by decide +kernel⟩
  refine Or.inr (Or.inr (Or.inr ⟨0, ⟨Nat.zero_le _, Or.inl rfl⟩, Or.inr ⟨_, List.mem_singleton.2 rfl, ?_⟩⟩))
  rintro ⟨y, hy, _, h⟩
  obtain rfl := List.mem_singleton.1 hy
  exact h

/-- So does a tag that has another number of components. -/
theorem C64_components_refuted : ∃ (A B : PlainMesh ℚ) (a b : CompareMesh ℚ), Stores 1 (fun _ _ => [0]) A a ∧ Stores 1 (fun _ _ => [0]) B b ∧
    compareMeshes (fun _ _ _ _ _ => Sched.serial) (fun _ _ _ => Team.serial) (fun _ _ _ => RankTree.left) true true
      (fun _ => [("u", ⟨.relative, 0, 0⟩)]) a b = none :=
  ⟨pointMesh 1 (.reals (fun _ _ => 0)), pointMesh 2 (.reals (fun _ _ => 0)), pointRanks 1 (.reals [[0]]), pointRanks 2 (.reals [[0, 0]]),
    pointRanks_stores 1 _ _ ⟨rfl, rfl, Nat.one_pos, holds_point 1 _⟩, pointRanks_stores 2 _ _ ⟨rfl, rfl, Nat.two_pos, holds_point 2 _⟩, by decide +kernel⟩

/-- With a negative tolerance nothing is close to itself, and looking for the largest difference reads out of range. -/
theorem C64_tolerance_refuted : ∃ (A : PlainMesh ℚ) (a : CompareMesh ℚ), Stores 1 (fun _ _ => [0]) A a ∧
    compareMeshes (fun _ _ _ _ _ => Sched.serial) (fun _ _ _ => Team.serial) (fun _ _ _ => RankTree.left) false true
      (fun _ => [("u", ⟨.absolute, -1, 0⟩)]) a a = some .diff ∧
    compareMeshes (fun _ _ _ _ _ => Sched.serial) (fun _ _ _ => Team.serial) (fun _ _ _ => RankTree.left) true true
      (fun _ => [("u", ⟨.absolute, -1, 0⟩)]) a a = none :=
  ⟨pointMesh 1 (.reals (fun _ _ => 0)), pointRanks 1 (.reals [[0]]), pointRanks_stores 1 _ _ ⟨rfl, rfl, Nat.one_pos, holds_point 1 _⟩,
    by decide +kernel, by decide +kernel⟩

end OmegaH
