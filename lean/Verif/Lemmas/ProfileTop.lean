import Verif.Lemmas.ProfilePrint
/-!
# The table of top functions
-/
namespace OmegaH
open Spec

variable {K : Type}

theorem splitNames_message : ∀ (xs : List PName) (fuel : Nat), (∀ x ∈ xs, 0 ∉ x) → (xs.flatMap (fun x => x ++ [0])).length ≤ fuel →
    splitNames fuel (xs.flatMap (fun x => x ++ [0])) = some xs := by
  intro xs
  induction xs with
  | nil => intro fuel _ _; cases fuel <;> rfl
  | cons x xs ih =>
    intro fuel hx hf
    rw [List.flatMap_cons] at hf ⊢
    have hget : charsGet ((x ++ [0]) ++ xs.flatMap (fun x => x ++ [0])) 0 = some x :=
      charsGet_append (by have := charsGet_new (c := []) (hx x List.mem_cons_self); simpa using this)
    have hdrop : ((x ++ [0]) ++ xs.flatMap (fun x => x ++ [0])).drop (x.length + 1) = xs.flatMap (fun x => x ++ [0]) :=
      List.drop_left' (by simp)
    have hlen : (xs.flatMap (fun x => x ++ [0])).length + (x.length + 1) ≤ fuel := by
      rw [List.length_append] at hf; simp at hf ⊢; omega
    generalize hl : (x ++ [0]) ++ xs.flatMap (fun x => x ++ [0]) = l at hget hdrop
    cases l with
    | nil => simp at hl
    | cons c cs =>
      cases fuel with
      | zero => omega
      | succ fuel =>
        show (charsGet (c :: cs) 0).bind _ = _
        rw [hget, Option.bind_some, hdrop, ih fuel (fun y hy => hx y (List.mem_cons_of_mem _ hy)) (by omega)]
        rfl

/-- What a row becomes when a value is added. -/
def rowAdd [Add K] [Min K] [Max K] (r : TopRow K) (e : PName × K) : TopRow K :=
  if r.name = e.1 then ⟨r.name, r.ave + e.2, Min.min r.min e.2, Max.max r.max e.2⟩ else r

theorem rowAdd_name [Add K] [Min K] [Max K] (r : TopRow K) (e : PName × K) : (rowAdd r e).name = r.name := by
  unfold rowAdd; split <;> rfl

theorem rowAdd_fold_name [Add K] [Min K] [Max K] (es : List (PName × K)) : ∀ r : TopRow K, (es.foldl rowAdd r).name = r.name := by
  induction es with
  | nil => intro r; rfl
  | cons e es ih => intro r; rw [List.foldl_cons, ih, rowAdd_name]

theorem topAdd_eq [Add K] [Min K] [Max K] (m : List (TopRow K)) (e : PName × K) :
    topAdd m e = if e.1 ∈ m.map TopRow.name then some (m.map (fun r => rowAdd r e)) else none := by
  unfold topAdd
  have : (m.any (fun r => decide (r.name = e.1))) = true ↔ e.1 ∈ m.map TopRow.name := by
    rw [List.any_eq_true, List.mem_map]
    simp
  by_cases h : e.1 ∈ m.map TopRow.name
  · rw [if_pos (this.2 h), if_pos h]; rfl
  · rw [if_neg (fun hh => h (this.1 hh)), if_neg h]

theorem topAdd_fold [Add K] [Min K] [Max K] : ∀ (es : List (PName × K)) (m : List (TopRow K)),
    es.foldlM topAdd m = if ∀ e ∈ es, e.1 ∈ m.map TopRow.name then some (m.map (fun r => es.foldl rowAdd r)) else none := by
  intro es
  induction es with
  | nil => intro m; rw [if_pos (fun e he => absurd he (by simp))]; simp
  | cons e es ih =>
    intro m
    have hnames : (m.map (fun r => rowAdd r e)).map TopRow.name = m.map TopRow.name := by
      rw [List.map_map]
      exact List.map_congr_left (fun r _ => rowAdd_name r e)
    rw [List.foldlM_cons, topAdd_eq]
    by_cases h1 : e.1 ∈ m.map TopRow.name
    · rw [if_pos h1]
      show List.foldlM topAdd _ es = _
      rw [ih, hnames]
      by_cases h2 : ∀ e ∈ es, e.1 ∈ m.map TopRow.name
      · rw [if_pos h2, if_pos (fun e' he' => (List.mem_cons.1 he').elim (fun h => h ▸ h1) (h2 e')), List.map_map]
        rfl
      · rw [if_neg h2, if_neg (fun h => h2 (fun e' he' => h e' (List.mem_cons_of_mem _ he')))]
    · rw [if_neg h1, if_neg (fun h => h1 (h e List.mem_cons_self))]
      rfl

/-- The entries of a message. -/
def topEntries (m : List (TopRow K)) : List (PName × K) := m.map (fun r => (r.name, r.ave))

theorem topReceive_eq [Add K] [Min K] [Max K] (m o : List (TopRow K)) (ho : ∀ r ∈ o, 0 ∉ r.name) :
    topReceive m (topMessage o) = (topEntries o).foldlM topAdd m := by
  unfold topReceive topMessage
  have h1 : o.flatMap (fun r => r.name ++ [0]) = (o.map TopRow.name).flatMap (fun x => x ++ [0]) := by
    rw [List.flatMap_map]
  dsimp only
  rw [h1, splitNames_message _ _ (by
    intro x hx
    obtain ⟨r, hr, rfl⟩ := List.mem_map.1 hx
    exact ho r hr) (Nat.le_refl _), Option.bind_some, if_pos (by simp)]
  congr 1
  unfold topEntries
  clear h1 ho
  induction o with
  | nil => rfl
  | cons r o ih => simp only [List.map_cons, List.zip_cons_cons, ih]

theorem topReceive_fold [Add K] [Min K] [Max K] : ∀ (others : List (List (TopRow K))) (m : List (TopRow K)),
    (∀ o ∈ others, ∀ r ∈ o, 0 ∉ r.name) →
    (others.map topMessage).foldlM topReceive m = (others.flatMap topEntries).foldlM topAdd m := by
  intro others
  induction others with
  | nil => intro m _; rfl
  | cons o others ih =>
    intro m ho
    rw [List.map_cons, List.foldlM_cons, List.flatMap_cons, List.foldlM_append, topReceive_eq m o (ho o List.mem_cons_self)]
    congr 1
    funext m'
    exact ih m' (fun o' h' => ho o' (List.mem_cons_of_mem _ h'))

/-- The values that are added to a row. -/
def valuesOf (es : List (PName × K)) (x : PName) : List K := (es.filter (fun e => decide (e.1 = x))).map Prod.snd

theorem rowAdd_fold [AddCommMonoid K] [LinearOrder K] : ∀ (es : List (PName × K)) (r : TopRow K),
    (es.foldl rowAdd r).ave = r.ave + (valuesOf es r.name).sum ∧
    ((es.foldl rowAdd r).min = r.min ∨ (es.foldl rowAdd r).min ∈ valuesOf es r.name) ∧
    (es.foldl rowAdd r).min ≤ r.min ∧ (∀ v ∈ valuesOf es r.name, (es.foldl rowAdd r).min ≤ v) ∧
    ((es.foldl rowAdd r).max = r.max ∨ (es.foldl rowAdd r).max ∈ valuesOf es r.name) ∧
    r.max ≤ (es.foldl rowAdd r).max ∧ (∀ v ∈ valuesOf es r.name, v ≤ (es.foldl rowAdd r).max) := by
  intro es
  induction es with
  | nil => intro r; simp [valuesOf]
  | cons e es ih =>
    intro r
    rw [List.foldl_cons]
    obtain ⟨a1, a2, a3, a4, a5, a6, a7⟩ := ih (rowAdd r e)
    rw [rowAdd_name] at a1 a2 a4 a5 a7
    by_cases h : r.name = e.1
    · have hr : rowAdd r e = ⟨r.name, r.ave + e.2, Min.min r.min e.2, Max.max r.max e.2⟩ := by unfold rowAdd; rw [if_pos h]
      have hv : valuesOf (e :: es) r.name = e.2 :: valuesOf es r.name := by
        unfold valuesOf; rw [List.filter_cons, if_pos (by simpa using h.symm)]; rfl
      rw [hv]
      rw [hr] at a1 a2 a3 a4 a5 a6 a7 ⊢
      dsimp only at a1 a2 a3 a4 a5 a6 a7
      refine ⟨by rw [a1, List.sum_cons, add_assoc], ?_, le_trans a3 (min_le_left _ _), ?_, ?_, le_trans (le_max_left _ _) a6, ?_⟩
      · rcases a2 with a2 | a2
        · rw [a2]
          rcases le_total r.min e.2 with h1 | h1
          · exact .inl (min_eq_left h1)
          · exact .inr (by rw [min_eq_right h1]; exact List.mem_cons_self)
        · exact .inr (List.mem_cons_of_mem _ a2)
      · intro v hv
        rcases List.mem_cons.1 hv with rfl | hv
        · exact le_trans a3 (min_le_right _ _)
        · exact a4 v hv
      · rcases a5 with a5 | a5
        · rw [a5]
          rcases le_total r.max e.2 with h1 | h1
          · exact .inr (by rw [max_eq_right h1]; exact List.mem_cons_self)
          · exact .inl (max_eq_left h1)
        · exact .inr (List.mem_cons_of_mem _ a5)
      · intro v hv
        rcases List.mem_cons.1 hv with rfl | hv
        · exact le_trans (le_max_right _ _) a6
        · exact a7 v hv
    · have hr : rowAdd r e = r := by unfold rowAdd; rw [if_neg h]
      have hv : valuesOf (e :: es) r.name = valuesOf es r.name := by
        unfold valuesOf; rw [List.filter_cons, if_neg (by simpa using fun hh => h hh.symm)]
      rw [hv]
      rw [hr] at a1 a2 a3 a4 a5 a6 a7 ⊢
      exact ⟨a1, a2, a3, a4, a5, a6, a7⟩

/-- The roots of a tree as rows. -/
theorem PHistory.WF.topGatherOf {h : PHistory K} (hw : h.WF) {name : Nat → List Nat} {time : Nat → K}
    (hn : ∀ i, i < h.frames.length → h.name i = some (name i)) (ht : ∀ i, i < h.frames.length → h.time i = some (time i)) :
    h.topGather = some ((h.kids none).map (fun i => ⟨name i, time i, time i, time i⟩)) := by
  have key : ∀ (l done : List Nat), h.kids none = done ++ l →
      l.foldlM (fun m i => (h.name i).bind (fun x => (h.time i).map (fun t => topSet m x t)))
        (done.map (fun i => (⟨name i, time i, time i, time i⟩ : TopRow K))) =
      some ((done ++ l).map (fun i => ⟨name i, time i, time i, time i⟩)) := by
    intro l
    induction l with
    | nil => intro done _; rw [List.append_nil]; rfl
    | cons i l ih =>
      intro done hk
      have hik : i ∈ h.kids none := by rw [hk]; simp
      have hi := PHistory.kids_lt hik
      have hnot : ((done.map (fun i => (⟨name i, time i, time i, time i⟩ : TopRow K))).any (fun r => decide (r.name = name i))) = false := by
        rw [List.any_eq_false]
        intro r hr
        obtain ⟨j, hj, rfl⟩ := List.mem_map.1 hr
        rw [decide_eq_true_iff]
        intro he
        have hjk : j ∈ h.kids none := by rw [hk]; exact List.mem_append_left _ hj
        have := hw.distinct none j i (name i) hjk hik (by rw [hn j (PHistory.kids_lt hjk)]; exact congrArg some he) (hn i hi)
        subst this
        have hs := h.kids_sorted none
        rw [hk, List.pairwise_append] at hs
        have := hs.2.2 j hj j List.mem_cons_self
        omega
      rw [List.foldlM_cons, hn i hi, Option.bind_some, ht i hi, Option.map_some]
      show List.foldlM _ (topSet _ _ _) l = _
      unfold topSet
      rw [hnot]
      have := ih (done ++ [i]) (by rw [hk]; simp)
      rw [List.map_append] at this
      rw [if_neg (by simp)]
      refine Eq.trans this ?_
      simp
  unfold PHistory.topGather
  rw [hw.childrenOf none (fun q hq => by cases hq), Option.bind_some]
  have := key (h.kids none) [] rfl
  simpa using this

end OmegaH
