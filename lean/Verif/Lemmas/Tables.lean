import Verif.Spec.Table
import Verif.Model.Conserve
import Verif.Lemmas.Fan
import Verif.Lemmas.Offsets
import Verif.Props.C03
import Verif.Props.C05
import Verif.Props.C06
import Verif.Props.C43
import Verif.Props.C37
/-!
# Array operations on arrays and graphs given by their rows
-/
namespace OmegaH
open Spec

section
variable {β K : Type}

theorem tableOf_length (l : List β) (w : Nat) (F : β → Nat → K) : (tableOf l w F).length = l.length * w := by
  unfold tableOf
  induction l with
  | nil => simp
  | cons b l ih => rw [List.flatMap_cons, List.length_append, ih]; simp [Nat.add_mul, Nat.add_comm]

theorem tableOf_entry (l : List β) (w : Nat) (F : β → Nat → K) (i j : Nat) (hj : j < w) :
    entry (tableOf l w F) w i j = (l[i]?).map (fun b => F b j) := by
  unfold tableOf entry
  induction l generalizing i with
  | nil => simp
  | cons b l ih =>
    rw [List.flatMap_cons]
    cases i with
    | zero =>
      rw [Nat.zero_mul, Nat.zero_add, List.getElem?_append_left (by simpa using hj)]
      simp [hj]
    | succ i =>
      rw [List.getElem?_append_right (by simp [Nat.add_mul]; omega), List.getElem?_cons_succ, ← ih i]
      congr 1
      simp [Nat.add_mul]; omega

theorem eq_tableOf {l : List β} {w : Nat} {F : β → Nat → K} {a : List K} (h1 : a.length = l.length * w)
    (h2 : ∀ i j b, l[i]? = some b → j < w → entry a w i j = some (F b j)) : a = tableOf l w F := by
  refine eq_of_entries h1 (tableOf_length l w F) ?_
  intro i j hi hj
  rw [tableOf_entry l w F i j hj, h2 i j l[i] (List.getElem?_eq_getElem hi) hj, List.getElem?_eq_getElem hi]
  rfl

theorem tableOf_congr {l : List β} {w : Nat} {F G : β → Nat → K} (h : ∀ b ∈ l, ∀ j, j < w → F b j = G b j) :
    tableOf l w F = tableOf l w G := by
  unfold tableOf
  rw [List.flatMap_congr]
  intro b hb
  apply List.map_congr_left
  intro j hj
  exact h b hb j (List.mem_range.1 hj)

theorem tableOf_map {γ : Type} (l : List γ) (g : γ → β) (w : Nat) (F : β → Nat → K) :
    tableOf (l.map g) w F = tableOf l w (fun c => F (g c)) := by
  unfold tableOf
  rw [List.flatMap_map]

theorem tableOf_one (l : List β) (F : β → Nat → K) : tableOf l 1 F = l.map (fun b => F b 0) := by
  unfold tableOf
  induction l with
  | nil => rfl
  | cons b l ih => rw [List.flatMap_cons, ih]; simp

theorem unmap_table (s : Sched) (l : List Nat) (n w : Nat) (D : Nat → Nat → K) (h : ∀ b ∈ l, b < n) :
    unmap s l (tableOf (List.range n) w D) w = some (tableOf l w D) := by
  obtain ⟨out, o1, o2, o3⟩ := C05_unmap s l (tableOf (List.range n) w D) w n (by simp [tableOf_length]) h
  rw [o1]
  congr 1
  refine eq_tableOf o2 ?_
  intro i j b hb hj
  rw [o3 i b j hb hj, tableOf_entry _ _ _ _ _ hj, List.getElem?_range (h b (List.mem_of_getElem? hb))]
  rfl

theorem unmap_ones (s : Sched) (l : List Nat) (n : Nat) (D : Nat → K) (h : ∀ b ∈ l, b < n) :
    unmap s l ((List.range n).map D) 1 = some (l.map D) := by
  have := unmap_table s l n 1 (fun b _ => D b) h
  rw [tableOf_one, tableOf_one] at this
  exact this

end

section
variable {κ : Type}

theorem edgesOn_snd (keys : List κ) (R : κ → List Nat) : (edgesOn keys R).map Prod.snd = keys.flatMap R := by
  unfold edgesOn
  rw [List.map_flatMap]
  congr 1
  funext k
  rw [List.map_map]
  exact List.map_id _

theorem edgesOn_length (keys : List κ) (R : κ → List Nat) : (edgesOn keys R).length = (keys.flatMap R).length := by
  rw [← edgesOn_snd, List.length_map]

/-- The blocks of a list of blocks. -/
theorem flatMap_segment {β : Type} (keys : List κ) (B : κ → List β) (a : Nat) (k : κ) (h : keys[a]? = some k) :
    ((keys.flatMap B).drop (((keys.map (fun k => (B k).length)).take a).sum)).take (B k).length = B k := by
  induction keys generalizing a with
  | nil => simp at h
  | cons k' keys ih =>
    cases a with
    | zero =>
      obtain rfl : k' = k := by simpa using h
      simp
    | succ a =>
      rw [List.getElem?_cons_succ] at h
      have := ih a h
      rw [List.flatMap_cons, List.map_cons, List.take_succ_cons, List.sum_cons, List.drop_append]
      rw [List.drop_of_length_le (by omega), List.nil_append, Nat.add_sub_cancel_left]
      exact this

theorem graphOn_offset (keys : List κ) (R : κ → List Nat) (a : Nat) (h : a ≤ keys.length) :
    (graphOn keys R).a2ab[a]? = some (((keys.map (fun k => (R k).length)).take a).sum) := by
  unfold graphOn
  exact offsetScan_nat_getElem? _ a (by simpa using h)

theorem graphOn_offset_succ (keys : List κ) (R : κ → List Nat) (a : Nat) (k : κ) (h : keys[a]? = some k) :
    (graphOn keys R).a2ab[a + 1]? = some (((keys.map (fun k => (R k).length)).take a).sum + (R k).length) := by
  have := (List.getElem?_eq_some_iff.1 h).1
  rw [graphOn_offset keys R (a + 1) this, List.take_add_one, List.getElem?_map, h]
  simp

theorem graphOn_fan (keys : List κ) (R : κ → List Nat) : IsFan (graphOn keys R).a2ab := offsetScan_isFan _

theorem graphOn_offsets_length (keys : List κ) (R : κ → List Nat) : (graphOn keys R).a2ab.length = keys.length + 1 := by
  unfold graphOn
  rw [offsetScan_length, List.length_map]

theorem graphOn_last (keys : List κ) (R : κ → List Nat) : (graphOn keys R).a2ab.getLast? = some (keys.flatMap R).length := by
  unfold graphOn
  rw [offsetScan_nat_getLast?, List.length_flatMap]

end

section
variable {κ K : Type}

theorem fanReduce_table {T VT : Type} (s : Sched) (f : Functor T VT) (keys : List κ) (R : κ → List Nat) (w : Nat)
    (G : κ × Nat → Nat → T) :
    fanReduce s f (graphOn keys R).a2ab (tableOf (edgesOn keys R) w G) w
      = some (tableOf keys w (fun k j => f.down (((R k).map (fun e => G (k, e) j)).foldl (fun r x => f.join r (f.up x)) f.init))) := by
  obtain ⟨out, o1, o2, o3⟩ := C06_fan_reduce s f (graphOn keys R).a2ab (tableOf (edgesOn keys R) w G) w
    (keys.flatMap R).length (graphOn_fan keys R) (graphOn_last keys R) (by rw [tableOf_length, edgesOn_length])
  rw [o1]
  congr 1
  refine eq_tableOf (by rw [o2, graphOn_offsets_length]; rfl) ?_
  intro i j k hk hj
  have hi := (List.getElem?_eq_some_iff.1 hk).1
  rw [(o3 i _ _ j (graphOn_offset keys R i (by omega)) (graphOn_offset_succ keys R i k hk) hj).2]
  have hv : fanValues (tableOf (edgesOn keys R) w G) w ((keys.map (fun k => (R k).length)).take i).sum
      (((keys.map (fun k => (R k).length)).take i).sum + (R k).length) j = (R k).map (fun e => G (k, e) j) := by
    unfold fanValues
    rw [Nat.add_sub_cancel_left]
    have h1 : ∀ b, entry (tableOf (edgesOn keys R) w G) w b j = ((edgesOn keys R)[b]?).map (fun p => G p j) :=
      fun b => tableOf_entry _ _ _ _ _ hj
    simp only [h1]
    have h2 : ∀ (M : List (κ × Nat)) (o m : Nat), (List.range' o m).filterMap (fun b => (M[b]?).map (fun p => G p j))
        = ((M.drop o).take m).map (fun p => G p j) := by
      intro M o m
      induction m generalizing o with
      | zero => simp
      | succ m ih =>
        rw [List.range'_succ]
        by_cases ho : o < M.length
        · rw [List.filterMap_cons_some (b := G M[o] j) (by simp [List.getElem?_eq_getElem ho]), ih, List.drop_eq_getElem_cons ho,
            List.take_succ_cons, List.map_cons]
        · rw [List.filterMap_cons_none (by simp [List.getElem?_eq_none (Nat.le_of_not_lt ho)]), ih,
            List.drop_of_length_le (by omega), List.drop_of_length_le (by omega)]
          simp
    rw [h2]
    have h3 := flatMap_segment keys (fun k => (R k).map (fun e => (k, e))) i k hk
    simp only [List.length_map] at h3
    rw [show edgesOn keys R = keys.flatMap (fun k => (R k).map (fun e => (k, e))) from rfl, h3, List.map_map]
    rfl
  rw [hv]

theorem expand_table (s : Sched) (keys : List κ) (R : κ → List Nat) (w : Nat) (D : κ → Nat → K) :
    expand s (tableOf keys w D) (graphOn keys R).a2ab w = some (tableOf (edgesOn keys R) w (fun p => D p.1)) := by
  obtain ⟨out, o1, o2, o3⟩ := C05_expand s (tableOf keys w D) (graphOn keys R).a2ab w (keys.flatMap R).length
    (graphOn_fan keys R) (graphOn_last keys R) (by rw [tableOf_length, graphOn_offsets_length]; rfl)
  rw [o1]
  congr 1
  refine eq_tableOf (by rw [o2, edgesOn_length]) ?_
  intro b j p hp hj
  have hbl : b < (keys.flatMap R).length := by
    have := (List.getElem?_eq_some_iff.1 hp).1
    rw [edgesOn_length] at this; exact this
  obtain ⟨nb, l1, l2⟩ := fan_last (graphOn_fan keys R)
  rw [graphOn_last] at l1
  obtain rfl := Option.some.inj l1
  obtain ⟨a, lo, hi, q1, q2, q3, q4⟩ := inFan_cover (graphOn_fan keys R) l2 hbl
  have ha' : a < keys.length := by
    have := (List.getElem?_eq_some_iff.1 q2).1
    rw [graphOn_offsets_length] at this; omega
  have hk := List.getElem?_eq_getElem ha'
  rw [o3 a b j ⟨lo, hi, q1, q2, q3, q4⟩ hj, tableOf_entry _ _ _ _ _ hj, hk]
  rw [graphOn_offset keys R a (by omega)] at q1
  rw [graphOn_offset_succ keys R a _ hk] at q2
  obtain rfl := Option.some.inj q1
  obtain rfl := Option.some.inj q2
  have h3 := flatMap_segment keys (fun k => (R k).map (fun e => (k, e))) a _ hk
  simp only [List.length_map] at h3
  have h4 := congrArg (fun l => l[b - ((keys.map (fun k => (R k).length)).take a).sum]?) h3
  rw [List.getElem?_take, if_pos (by omega), List.getElem?_drop, Nat.add_sub_cancel' q3] at h4
  rw [show edgesOn keys R = keys.flatMap (fun k => (R k).map (fun e => (k, e))) from rfl, h4, List.getElem?_map] at hp
  obtain ⟨e, _, rfl⟩ := Option.map_eq_some_iff.1 hp
  rfl

end

section
variable {β K : Type} [Field K] [DecidableEq K]

omit [DecidableEq K] in
theorem sum_table {κ : Type} (s : Sched) (keys : List κ) (R : κ → List Nat) (w : Nat) (G : κ × Nat → Nat → K) :
    fanReduce s sumFunctorK (graphOn keys R).a2ab (tableOf (edgesOn keys R) w G) w
      = some (tableOf keys w (fun k j => ((R k).map (fun e => G (k, e) j)).sum)) := by
  rw [fanReduce_table]
  congr 1
  apply tableOf_congr
  intro k _ j _
  show List.foldl (· + ·) 0 _ = _
  rw [List.sum_eq_foldl]

omit [DecidableEq K] in
theorem rowEach_table {α γ δ : Type} (s : Sched) (f : α → γ → Option δ) (g : α → γ → δ) (l : List β) (w : Nat) (F : β → Nat → α) (Z : β → γ)
    (h : ∀ b ∈ l, ∀ j, j < w → f (F b j) (Z b) = some (g (F b j) (Z b))) :
    rowEach s f (tableOf l w F) (l.map Z) w = some (tableOf l w (fun b j => g (F b j) (Z b))) := by
  obtain ⟨c, c1, c2, c3, c4⟩ := rowEach_spec s f g (tableOf l w F) (l.map Z) w (by rw [tableOf_length, List.length_map]) (by
    intro i j x y hj hx hy
    have e := tableOf_entry l w F i j hj
    unfold entry at e
    rw [e] at hx
    rw [List.getElem?_map] at hy
    obtain ⟨b, hb, rfl⟩ := Option.map_eq_some_iff.1 hx
    rw [hb] at hy
    obtain rfl := Option.some.inj hy
    exact h b (List.mem_of_getElem? hb) j hj)
  rw [c1]
  congr 1
  refine eq_tableOf (by rw [c3, tableOf_length]) ?_
  intro i j b hb hj
  have e := tableOf_entry l w F i j hj
  unfold entry at e ⊢
  rw [hb] at e
  exact c4 i j _ _ hj e (by rw [List.getElem?_map, hb]; rfl)

theorem divide_width {N n w : Nat} (hn : n ≠ 0) (h : N = n * w) : divideNoRemainder N n = some w :=
  divide_no_rem (Nat.pos_of_ne_zero hn) (by rw [h, Nat.mul_comm])

omit [DecidableEq K] in
theorem multiply_table (s : Sched) (l : List β) (w : Nat) (F : β → Nat → K) (Z : β → K) :
    multiplyEachK s (tableOf l w F) (l.map Z) = some (tableOf l w (fun b j => F b j * Z b)) := by
  unfold multiplyEachK
  by_cases h : l = []
  · subst h; simp [tableOf]
  · have hl : (l.map Z).length ≠ 0 := by simpa using h
    rw [if_neg hl, divide_width hl (by rw [tableOf_length, List.length_map])]
    exact rowEach_table s _ (fun x y => x * y) l w F Z (fun _ _ _ _ => rfl)

theorem divide_table (s : Sched) (l : List β) (w : Nat) (F : β → Nat → K) (Z : β → K)
    (h0 : ∀ b ∈ l, Z b = 0 → ∀ j, j < w → F b j = 0) :
    divideMaybeZeroK s (tableOf l w F) (l.map Z) = some (tableOf l w (fun b j => F b j / Z b)) := by
  unfold divideMaybeZeroK
  by_cases h : l = []
  · subst h; simp [tableOf]
  · have hl : (l.map Z).length ≠ 0 := by simpa using h
    rw [if_neg hl, divide_width hl (by rw [tableOf_length, List.length_map])]
    refine rowEach_table s _ (fun x y => x / y) l w F Z ?_
    intro b hb j hj
    by_cases hz : Z b = 0
    · rw [if_neg (by simpa using hz), if_pos (h0 b hb hz j hj), h0 b hb hz j hj, zero_div]
    · rw [if_pos hz]

omit [DecidableEq K] in
theorem subtract_table (s : Sched) (l : List β) (w : Nat) (F G : β → Nat → K) :
    zipEach s (fun x y => some (x - y)) (tableOf l w F) (tableOf l w G) = some (tableOf l w (fun b j => F b j - G b j)) := by
  rw [zipEach_eq s _ (fun x y => x - y) _ _ (by rw [tableOf_length, tableOf_length]) (fun _ _ _ _ _ => rfl)]
  congr 1
  refine eq_tableOf (by rw [List.length_zipWith, tableOf_length, tableOf_length, Nat.min_self]) ?_
  intro i j b hb hj
  have e1 := tableOf_entry l w F i j hj
  have e2 := tableOf_entry l w G i j hj
  unfold entry at e1 e2 ⊢
  rw [List.getElem?_zipWith, e1, e2, hb]
  rfl

omit [DecidableEq K] in
/-- Adding rows at distinct places. -/
theorem addInto_table (s : Sched) (M : List (β × Nat)) (w n : Nat) (A : β × Nat → Nat → K) (E : Nat → Nat → K)
    (hn : (M.map Prod.snd).Nodup) (hr : ∀ p ∈ M, p.2 < n) :
    addInto s (tableOf M w A) (M.map Prod.snd) (tableOf (List.range n) w E) w
      = some (tableOf (List.range n) w (fun e j => E e j + ((M.filter (fun p => decide (p.2 = e))).map (fun p => A p j)).sum)) := by
  have hE : ∀ e j, e < n → j < w → (tableOf (List.range n) w E)[e * w + j]? = some (E e j) := by
    intro e j he hj
    have := tableOf_entry (List.range n) w E e j hj
    unfold entry at this
    rw [this, List.getElem?_range he]; rfl
  have hA : ∀ (a j : Nat) p, M[a]? = some p → j < w → (tableOf M w A)[a * w + j]? = some (A p j) := by
    intro a j p hp hj
    have := tableOf_entry M w A a j hj
    unfold entry at this
    rw [this, hp]; rfl
  have hone : ∀ (a : Nat) p, M[a]? = some p → M.filter (fun q => decide (q.2 = p.2)) = [p] := by
    intro a p hp
    clear hA hE hr
    induction M generalizing a with
    | nil => simp at hp
    | cons q M ih =>
      rw [List.map_cons, List.nodup_cons] at hn
      cases a with
      | zero =>
        obtain rfl : q = p := by simpa using hp
        rw [List.filter_cons_of_pos (by simp)]
        congr 1
        rw [List.filter_eq_nil_iff]
        intro x hx hxe
        have hxe' : x.2 = q.2 := by simpa using hxe
        exact hn.1 (hxe' ▸ List.mem_map_of_mem hx)
      | succ a =>
        rw [List.getElem?_cons_succ] at hp
        have hmem := List.mem_of_getElem? hp
        rw [List.filter_cons_of_neg, ih hn.2 a hp]
        intro hxe
        have hxe' : q.2 = p.2 := by simpa using hxe
        exact hn.1 (hxe' ▸ List.mem_map_of_mem hmem)
  unfold addInto
  rw [if_neg (by simp [tableOf_length]), if_neg (by simpa using hn)]
  obtain ⟨out, o1, o2, o3, o4⟩ := parScatter_ontoR s (M.map Prod.snd).length (fun a => do
      let b ← (M.map Prod.snd)[a]?
      (List.range w).mapM (fun j => do
        let x ← (tableOf (List.range n) w E)[b * w + j]?
        let y ← (tableOf M w A)[a * w + j]?
        pure (b * w + j, x + y)))
    (fun a p v => ∃ q j, M[a]? = some q ∧ j < w ∧ p = q.2 * w + j ∧ v = E q.2 j + A q j)
    (fun p => (tableOf (List.range n) w (fun e j => E e j + ((M.filter (fun p => decide (p.2 = e))).map (fun p => A p j)).sum))[p]?)
    (tableOf (List.range n) w E) (by
      intro a ha
      have ha' : a < M.length := by simpa using ha
      have hq := List.getElem?_eq_getElem ha'
      obtain ⟨ws, w1, w2, w3, w4⟩ := mapM_list_spec (List.range w) (fun j => do
        let x ← (tableOf (List.range n) w E)[(M[a]).2 * w + j]?
        let y ← (tableOf M w A)[a * w + j]?
        pure ((M[a]).2 * w + j, x + y)) (by
          intro j hj
          rw [hE _ j (hr _ (List.getElem_mem ha')) (List.mem_range.1 hj), hA a j _ hq (List.mem_range.1 hj)]; rfl)
      refine ⟨ws, by rw [List.getElem?_map, hq]; exact w1, ?_⟩
      intro p v
      rw [w3]
      constructor
      · rintro ⟨j, hj, h⟩
        rw [hE _ j (hr _ (List.getElem_mem ha')) (List.mem_range.1 hj), hA a j _ hq (List.mem_range.1 hj)] at h
        simp only [Option.bind_eq_bind, Option.bind_some, Option.pure_def, Option.some.injEq, Prod.mk.injEq] at h
        exact ⟨_, j, hq, List.mem_range.1 hj, h.1.symm, h.2.symm⟩
      · rintro ⟨q, j, h1, hj, rfl, rfl⟩
        rw [hq] at h1
        obtain rfl := Option.some.inj h1
        refine ⟨j, List.mem_range.2 hj, ?_⟩
        rw [hE _ j (hr _ (List.getElem_mem ha')) hj, hA a j _ hq hj]; rfl) (by
      rintro a ha p v ⟨q, j, h1, hj, rfl, rfl⟩
      have hq := hr q (List.mem_of_getElem? h1)
      refine ⟨by rw [tableOf_length, List.length_range]; exact row_lt hq hj, ?_⟩
      have := tableOf_entry (List.range n) w (fun e j => E e j + ((M.filter (fun p => decide (p.2 = e))).map (fun p => A p j)).sum) q.2 j hj
      unfold entry at this
      rw [this, List.getElem?_range hq, Option.map_some, hone a q h1]
      simp)
  rw [o1]
  congr 1
  refine eq_tableOf (by rw [o2, tableOf_length]) ?_
  intro i j e he hj
  obtain ⟨hi, rfl⟩ : i < n ∧ i = e := by
    have := (List.getElem?_eq_some_iff.1 he); simpa using this
  unfold entry
  by_cases hm : ∃ (a : Nat) (q : β × Nat), M[a]? = some q ∧ q.2 = i
  · obtain ⟨a, q, h1, rfl⟩ := hm
    have hal : a < (M.map Prod.snd).length := by simpa using (List.getElem?_eq_some_iff.1 h1).1
    rw [o3 a hal (q.2 * w + j) _ ⟨q, j, h1, hj, rfl, rfl⟩, hone a q h1]
    simp
  · rw [o4 (i * w + j) (by
      rintro a ha v ⟨q, j', h1, hj', h2, _⟩
      exact hm ⟨a, q, h1, (row_unique hj hj' h2).1.symm⟩), hE i j hi hj]
    rw [List.filter_eq_nil_iff.2 (by
      intro q hq hqe
      obtain ⟨a, ha, hh⟩ := List.getElem_of_mem hq
      exact hm ⟨a, q, by rw [List.getElem?_eq_getElem ha, hh], by simpa using hqe⟩)]
    simp


omit [DecidableEq K] in
/-- Copying rows to distinct places of an array of zeros. -/
theorem mapInto_table (s : Sched) (M : List (β × Nat)) (w n : Nat) (A : β × Nat → Nat → K)
    (hn : (M.map Prod.snd).Nodup) (hr : ∀ p ∈ M, p.2 < n) :
    (mapInto s (tableOf M w A) (M.map Prod.snd) (Mem.filled (n * w) 0) w).bind Mem.toArray?
      = some (tableOf (List.range n) w (fun e j => ((M.filter (fun p => decide (p.2 = e))).map (fun p => A p j)).sum)) := by
  have hone : ∀ (a : Nat) p, M[a]? = some p → M.filter (fun q => decide (q.2 = p.2)) = [p] := by
    intro a p hp
    clear hr
    induction M generalizing a with
    | nil => simp at hp
    | cons q M ih =>
      rw [List.map_cons, List.nodup_cons] at hn
      cases a with
      | zero =>
        obtain rfl : q = p := by simpa using hp
        rw [List.filter_cons_of_pos (by simp)]
        congr 1
        rw [List.filter_eq_nil_iff]
        intro x hx hxe
        have hxe' : x.2 = q.2 := by simpa using hxe
        exact hn.1 (hxe' ▸ List.mem_map_of_mem hx)
      | succ a =>
        rw [List.getElem?_cons_succ] at hp
        have hmem := List.mem_of_getElem? hp
        rw [List.filter_cons_of_neg, ih hn.2 a hp]
        intro hxe
        have hxe' : q.2 = p.2 := by simpa using hxe
        exact hn.1 (hxe' ▸ List.mem_map_of_mem hmem)
  have hinj : Injective (M.map Prod.snd) := by
    intro i j b hi hj
    have h1 := (List.getElem?_eq_some_iff.1 hi)
    have h2 := (List.getElem?_eq_some_iff.1 hj)
    obtain ⟨l1, e1⟩ := h1
    obtain ⟨l2, e2⟩ := h2
    exact (List.Nodup.getElem_inj_iff hn).1 (e1.trans e2.symm)
  have hmem : ∀ (b : Nat), b ∈ M.map Prod.snd → b < n := by
    intro b hb
    obtain ⟨p, hp, rfl⟩ := List.mem_map.1 hb
    exact hr p hp
  obtain ⟨out, o1, o2, o3, o4, o5⟩ := C05_map_into s (tableOf M w A) (M.map Prod.snd) (Mem.filled (n * w) (0 : K)) w n
    (by rw [tableOf_length, List.length_map]) (by simp [Mem.filled]) hmem hinj
  rw [o1]
  have hlen : out.length = n * w := by rw [o2]; simp [Mem.filled]
  have key : out = (tableOf (List.range n) w (fun e j => ((M.filter (fun p => decide (p.2 = e))).map (fun p => A p j)).sum)).map some := by
    refine eq_of_entries (w := w) (n := n) hlen (by rw [List.length_map, tableOf_length, List.length_range]) ?_
    intro e j he hj
    have ht := tableOf_entry (List.range n) w (fun e j => ((M.filter (fun p => decide (p.2 = e))).map (fun p => A p j)).sum) e j hj
    rw [List.getElem?_range he] at ht
    have ht' : entry ((tableOf (List.range n) w (fun e j => ((M.filter (fun p => decide (p.2 = e))).map (fun p => A p j)).sum)).map some) w e j
        = some (some ((M.filter (fun p => decide (p.2 = e))).map (fun p => A p j)).sum) := by
      unfold entry at ht ⊢
      rw [List.getElem?_map, ht]; rfl
    rw [ht']
    by_cases hm : InImage (M.map Prod.snd) e
    · obtain ⟨a, ha⟩ := hm
      rw [o3 a e j ha hj]
      rw [List.getElem?_map] at ha
      obtain ⟨q, hq, rfl⟩ := Option.map_eq_some_iff.1 ha
      rw [tableOf_entry _ _ _ _ _ hj, hq, hone a q hq]
      simp
    · rw [o4 e j hm hj]
      rw [List.filter_eq_nil_iff.2 (by
        intro q hq hqe
        obtain ⟨a, ha, hh⟩ := List.getElem_of_mem hq
        exact hm ⟨a, by rw [List.getElem?_map, List.getElem?_eq_getElem ha, hh]; simpa using hqe⟩)]
      unfold entry Mem.filled
      rw [List.getElem?_replicate, if_pos (row_lt he hj)]
      simp
  rw [key]
  exact Mem.toArray?_map_some _

end

section
variable {κ : Type}

/-- Lists of natural numbers read as integers. -/
theorem offsetScan_cast (l : List Nat) : toIndices? (offsetScan (l.map Int.ofNat)) = some (offsetScan l) := by
  have h : offsetScan (l.map Int.ofNat) = (offsetScan l).map (fun n : Nat => (n : Int)) := by
    apply List.ext_getElem?
    intro k
    by_cases hk : k ≤ l.length
    · rw [offsetScan_int_getElem? _ k (by simpa using hk), List.getElem?_map, offsetScan_nat_getElem? l k hk, ← List.map_take]
      simp only [Option.map_some]
      congr 1
      generalize l.take k = m
      induction m with
      | nil => rfl
      | cons x m ih => rw [List.map_cons, List.sum_cons, List.sum_cons, ih]; simp
    · rw [List.getElem?_eq_none (by rw [offsetScan_length, List.length_map]; omega),
        List.getElem?_eq_none (by rw [List.length_map, offsetScan_length]; omega)]
  rw [h, toIndices?_natCast]

theorem unmapGraph_on (s : Nat → Sched) (l : List Nat) (n : Nat) (R : Nat → List Nat) (hl : ∀ k ∈ l, k < n) :
    unmapGraph s l (graphOn (List.range n) R) = some (graphOn l R) := by
  unfold unmapGraph
  have h1 : getDegrees (s 0) (graphOn (List.range n) R).a2ab = some ((List.range n).map (fun k => ((R k).length : Int))) := by
    show getDegrees (s 0) (offsetScan _) = _
    rw [C06_degrees_of_offsets, List.map_map]; rfl
  have h2 := unmap_ones (s 1) l n (fun k => ((R k).length : Int)) hl
  have h3 : toIndices? (offsetScan (l.map (fun k => ((R k).length : Int)))) = some (graphOn l R).a2ab := by
    have := offsetScan_cast (l.map (fun k => (R k).length))
    rw [List.map_map] at this
    exact this
  have hlast := graphOn_last l R
  have hB : ∀ i, blockOff (fun a => (l[a]?).elim [] R) i = ((l.map (fun k => (R k).length)).take i).sum := by
    intro i
    induction i with
    | zero => simp [blockOff]
    | succ i ih =>
      rw [blockOff_succ, ih, List.take_add_one, List.getElem?_map]
      cases l[i]? <;> simp
  have hcat : (List.range l.length).flatMap (fun a => (l[a]?).elim [] R) = l.flatMap R := by
    clear hB hlast h3 h2 h1 hl
    induction l with
    | nil => rfl
    | cons k l ih =>
      rw [List.length_cons, List.range_succ_eq_map, List.flatMap_cons, List.flatMap_map, List.flatMap_cons, ← ih]
      simp
  have h4 := parConcat (s 2) l.length (fun a => (l[a]?).elim [] R) (fun a => do
    let b ← l[a]?
    let bc ← (graphOn (List.range n) R).a2ab[b]?
    let lo ← (graphOn l R).a2ab[a]?
    let hi ← (graphOn l R).a2ab[a + 1]?
    let m ← (List.range (hi - lo)).mapM (fun k => (graphOn (List.range n) R).ab2b[bc + k]?)
    pure (blockWrites lo m)) (by
      intro a ha
      have hk := List.getElem?_eq_getElem ha
      have hkn := hl _ (List.getElem_mem ha)
      rw [hk, Option.elim_some]
      have g1 := graphOn_offset (List.range n) R l[a] (by rw [List.length_range]; omega)
      have g2 := graphOn_offset l R a (by omega)
      have g3 := graphOn_offset_succ l R a _ hk
      have hseg := flatMap_segment (List.range n) R l[a] l[a] (List.getElem?_range hkn)
      simp only [bind, Option.bind_some, g1, g2, g3, Nat.add_sub_cancel_left]
      have hm : (List.range (R l[a]).length).mapM (fun k =>
          (graphOn (List.range n) R).ab2b[(((List.range n).map (fun k => (R k).length)).take l[a]).sum + k]?) = some (R l[a]) := by
        obtain ⟨out, q1, q2, _, q4⟩ := mapM_list_spec (List.range (R l[a]).length) (fun k =>
          (graphOn (List.range n) R).ab2b[(((List.range n).map (fun k => (R k).length)).take l[a]).sum + k]?) (by
            intro k hk
            have hk' := List.mem_range.1 hk
            have h := congrArg (fun m : List Nat => m[k]?) hseg
            rw [List.getElem?_take, if_pos hk', List.getElem?_drop] at h
            rw [show (graphOn (List.range n) R).ab2b = (List.range n).flatMap R from rfl, h, List.getElem?_eq_getElem hk']; rfl)
        rw [q1]
        congr 1
        apply List.ext_getElem?
        intro k
        by_cases hk' : k < (R l[a]).length
        · rw [q4 k k (List.getElem?_range hk')]
          have h := congrArg (fun m : List Nat => m[k]?) hseg
          rw [List.getElem?_take, if_pos hk', List.getElem?_drop] at h
          exact h
        · rw [List.getElem?_eq_none (by rw [q2, List.length_range]; omega), List.getElem?_eq_none (by omega)]
      rw [hm, hB a]
      rfl)
  rw [hcat, hB l.length] at h4
  have hsum : ((l.map (fun k => (R k).length)).take l.length).sum = (l.flatMap R).length := by
    rw [List.take_of_length_le (by simp), List.length_flatMap]
  rw [hsum] at h4
  simp only [bind] at h4 ⊢
  rw [h1]
  simp only [Option.bind_some, h2, h3, hlast]
  rw [h4]
  rfl

theorem sum_flags {α : Type} (l : List α) (q : α → Bool) :
    (l.map (fun x => b2i (q x))).sum = ((l.filter q).length : Int) := by
  induction l with
  | nil => rfl
  | cons x l ih =>
    rw [List.map_cons, List.sum_cons, ih]
    cases h : q x <;> simp [h, b2i]; omega

theorem isMarks_flags {α : Type} (l : List α) (q : α → Bool) : IsMarks (l.map (fun x => b2i (q x))) := by
  intro m hm
  obtain ⟨x, _, rfl⟩ := List.mem_map.1 hm
  cases q x <;> simp [b2i]

theorem markedList_get {α : Type} (l : List α) (q : α → Bool) :
    (markedList (l.map (fun x => b2i (q x)))).filterMap (fun i => l[i]?) = l.filter q := by
  unfold markedList
  rw [List.length_map]
  induction l with
  | nil => rfl
  | cons x l ih =>
    rw [List.length_cons, List.range_succ_eq_map, List.filter_cons, List.filter_map]
    have h2 : ((fun i => decide (((x :: l).map (fun x => b2i (q x)))[i]? = some 1)) ∘ Nat.succ)
        = (fun i => decide ((l.map (fun x => b2i (q x)))[i]? = some 1)) := by
      funext i; simp
    rw [h2]
    cases h : q x
    · rw [if_neg (by simp [h, b2i]), List.filterMap_map, List.filter_cons_of_neg (by simp [h]), ← ih]
      rfl
    · rw [if_pos (by simp [h, b2i]), List.filterMap_cons_some (b := x) (by simp), List.filterMap_map, List.filter_cons_of_pos h, ← ih]
      rfl

theorem collectMarked_flags {α : Type} (s : Sched) (l : List α) (q : α → Bool) :
    collectMarked s (l.map (fun x => b2i (q x))) = some (markedList (l.map (fun x => b2i (q x)))) := by
  obtain ⟨out, o1, o2⟩ := C03_collect_marked s _ (isMarks_flags l q)
  rw [o1, isCollected_unique o2 (markedList_collected _)]

theorem markedList_lt (marks : List Int) : ∀ i ∈ markedList marks, i < marks.length := by
  intro i hi
  exact List.mem_range.1 (List.mem_filter.1 hi).1

theorem filterMap_map_get {α β : Type} (l : List α) (f : α → β) (is : List Nat) :
    is.filterMap (fun i => (l.map f)[i]?) = (is.filterMap (fun i => l[i]?)).map f := by
  rw [List.map_filterMap]
  congr 1
  funext i
  rw [List.getElem?_map]

/-- Reading an array at places within it. -/
theorem unmap_get {α : Type} (s : Sched) (is : List Nat) (l : List α) (h : ∀ i ∈ is, i < l.length) :
    unmap s is l 1 = some (is.filterMap (fun i => l[i]?)) := by
  obtain ⟨out, o1, o2, o3⟩ := C05_unmap s is l 1 l.length (by simp) h
  rw [o1]
  congr 1
  have hm : is.map (fun i => l[i]?) = out.map some := by
    apply List.ext_getElem?
    intro a
    rw [List.getElem?_map, List.getElem?_map]
    by_cases ha : a < is.length
    · have hb := List.getElem?_eq_getElem ha
      have := o3 a _ 0 hb (by omega)
      unfold entry at this
      rw [Nat.mul_one, Nat.mul_one, Nat.add_zero, Nat.add_zero] at this
      rw [hb, this]
      have hl := h _ (List.getElem_mem ha)
      rw [List.getElem?_eq_getElem hl]
      simp [List.getElem?_eq_getElem hl]
    · rw [List.getElem?_eq_none (Nat.le_of_not_lt ha), List.getElem?_eq_none (by rw [o2]; omega)]
      rfl
  have h2 : is.filterMap (fun i => l[i]?) = (is.map (fun i => l[i]?)).filterMap id := by
    rw [List.filterMap_map]; rfl
  rw [h2, hm, List.filterMap_map]
  show out = out.filterMap some
  rw [List.filterMap_some]

/-- Keeping some edges of a graph with at most 127 edges at each node. -/
theorem filterGraphEdges_on (s : Nat → Sched) (keys : List κ) (R : κ → List Nat) (q : κ × Nat → Bool)
    (h : ∀ k ∈ keys, (R k).length ≤ 127) :
    filterGraphEdges s (graphOn keys R) ((edgesOn keys R).map (fun p => b2i (q p)))
      = some (graphOn keys (fun k => (R k).filter (fun e => q (k, e)))) := by
  have h1 : fanReduce (s 0) (sumFunctor 8) (graphOn keys R).a2ab ((edgesOn keys R).map (fun p => b2i (q p))) 1
      = some (keys.map (fun k => (((R k).filter (fun e => q (k, e))).length : Int))) := by
    have := fanReduce_table (s 0) (sumFunctor 8) keys R 1 (fun p _ => b2i (q p))
    rw [tableOf_one, tableOf_one] at this
    rw [this]
    congr 1
    apply List.map_congr_left
    intro k hk
    show wrapSigned 8 (List.foldl (fun r x => r + x) 0 _) = _
    rw [foldl_add_sum, Int.zero_add, sum_flags (R k) (fun e => q (k, e))]
    have hle := Nat.le_trans (List.length_filter_le (fun e => q (k, e)) (R k)) (h k hk)
    exact wrapSigned_id (by omega) (by omega) (by omega)
  have h2 : toIndices? (offsetScan (keys.map (fun k => (((R k).filter (fun e => q (k, e))).length : Int))))
      = some (graphOn keys (fun k => (R k).filter (fun e => q (k, e)))).a2ab := by
    have := offsetScan_cast (keys.map (fun k => ((R k).filter (fun e => q (k, e))).length))
    rw [List.map_map] at this
    exact this
  have h3 := collectMarked_flags (s 1) (edgesOn keys R) q
  have h4 : unmap (s 2) (markedList ((edgesOn keys R).map (fun p => b2i (q p)))) (graphOn keys R).ab2b 1
      = some (keys.flatMap (fun k => (R k).filter (fun e => q (k, e)))) := by
    rw [unmap_get]
    · congr 1
      show List.filterMap (fun i => (keys.flatMap R)[i]?) _ = _
      rw [← edgesOn_snd, filterMap_map_get, markedList_get]
      unfold edgesOn
      rw [List.filter_flatMap, List.map_flatMap]
      congr 1
      funext k
      rw [List.filter_map, List.map_map]
      exact List.map_id _
    · intro i hi
      have := markedList_lt _ i hi
      rw [List.length_map, edgesOn_length] at this
      exact this
  unfold filterGraphEdges
  simp only [bind]
  rw [h1]
  simp only [Option.bind_some, h2, h3]
  rw [h4]
  rfl

end

end OmegaH
