import Verif.Spec.Marks
import Verif.Lemmas.Map
import Verif.Lemmas.Perm
import Verif.Lemmas.Offsets

/-! # C03 — mark, collect and inject primitives are mutually inverse -/

namespace OmegaH
open Spec

/-- The marked indices in ascending order (proof helper). -/
def markedList (marks : List Int) : List Nat :=
  (List.range marks.length).filter (fun i => decide (marks[i]? = some 1))

theorem markedList_collected (marks : List Int) : IsCollected marks (markedList marks) := by
  constructor
  · exact List.Pairwise.filter _ List.pairwise_lt_range
  · intro i
    simp only [markedList, List.mem_filter, List.mem_range, decide_eq_true_eq, Marked]
    constructor
    · exact fun h => h.2
    · exact fun h => ⟨(List.getElem?_eq_some_iff.1 h).1, h⟩

/-- Two ascending lists with the same members are equal: the collected list is unique. -/
theorem isCollected_unique {marks : List Int} {x y : List Nat} (hx : IsCollected marks x)
    (hy : IsCollected marks y) : x = y := by
  have hnx : x.Nodup := hx.1.imp (fun h => Nat.ne_of_lt h)
  have hny : y.Nodup := hy.1.imp (fun h => Nat.ne_of_lt h)
  have hp : x.Perm y := (List.perm_ext_iff_of_nodup hnx hny).2 (fun i => by rw [hx.2, hy.2])
  exact hp.eq_of_pairwise (fun a b _ _ h1 h2 => absurd h1 (by omega)) hx.1 hy.1

theorem take_sum_eq_count (marks : List Int) (hm : IsMarks marks) : ∀ k, k ≤ marks.length →
    (marks.take k).sum =
      (((List.range k).filter (fun i => decide (marks[i]? = some 1))).length : Int) := by
  intro k
  induction k with
  | zero => simp
  | succ k ih =>
    intro hk
    have hx := List.getElem?_eq_getElem (show k < marks.length by omega)
    rw [List.take_add_one, hx, List.range_succ, List.filter_append, List.length_append]
    simp only [Option.toList_some, List.sum_append, List.sum_cons, List.sum_nil,
      List.filter_cons, List.filter_nil, hx]
    rw [ih (by omega)]
    rcases hm _ (List.getElem_mem (show k < marks.length by omega)) with h | h <;> rw [h] <;> simp

theorem markedList_split (marks : List Int) (i : Nat) (hi : marks[i]? = some 1) :
    (markedList marks)[((List.range i).filter (fun i => decide (marks[i]? = some 1))).length]? =
      some i := by
  have hl := (List.getElem?_eq_some_iff.1 hi).1
  unfold markedList
  obtain ⟨k, hk⟩ : ∃ k, marks.length = i + (k + 1) := ⟨marks.length - i - 1, by omega⟩
  rw [hk, List.range_eq_range', ← List.range'_append_1, List.filter_append,
    ← List.range_eq_range', List.getElem?_append_right (Nat.le_refl _), Nat.sub_self]
  rw [Nat.zero_add, List.range'_succ, List.filter_cons, if_pos (by simp [hi])]
  rfl

/-- `collect_marked` lists exactly the marked indices once each, in ascending order. -/
theorem C03_collect_marked (s : Sched) (marks : List Int) (hm : IsMarks marks) :
    ∃ out, collectMarked s marks = some out ∧ IsCollected marks out := by
  have hsum : marks.sum = ((markedList marks).length : Int) := by
    have := take_sum_eq_count marks hm marks.length (Nat.le_refl _)
    rw [List.take_length] at this; exact this
  obtain ⟨out, h1, h2, h3⟩ := parScatter_buildR s marks.length (markedList marks).length
    (collectKernel marks (offsetScan marks))
    (fun i p v => marks[i]? = some 1 ∧ v = i ∧
      p = ((List.range i).filter (fun i => decide (marks[i]? = some 1))).length)
    (fun p => (markedList marks)[p]?)
    (by
      intro i hi
      have e1 := List.getElem?_eq_getElem hi
      have e2 := offsetScan_int_getElem? marks i (by omega)
      rw [take_sum_eq_count marks hm i (by omega)] at e2
      unfold collectKernel
      rw [e1, e2]
      simp only
      rcases hm _ (List.getElem_mem hi) with h | h
      · rw [if_pos h]
        refine ⟨_, rfl, ?_⟩
        intro p v; rw [h]; simp
      · rw [if_neg (by rw [h]; decide), if_pos (by omega)]
        refine ⟨_, rfl, ?_⟩
        intro p v
        simp only [List.mem_singleton, Prod.mk.injEq, h, Int.toNat_natCast, true_and]
        exact ⟨fun ⟨a, b⟩ => ⟨b, a⟩, fun ⟨a, b⟩ => ⟨b, a⟩⟩)
    (by
      rintro i hi p v ⟨h, rfl, rfl⟩
      have := markedList_split marks v h
      exact ⟨(List.getElem?_eq_some_iff.1 this).1, this⟩)
    (by
      intro p hp
      have hmem := List.getElem_mem hp
      have hmk := ((markedList_collected marks).2 _).1 hmem
      refine ⟨(markedList marks)[p], (List.getElem?_eq_some_iff.1 hmk).1, _, hmk, rfl, ?_⟩
      have hsp := markedList_split marks _ hmk
      have hnd : (markedList marks).Nodup :=
        (markedList_collected marks).1.imp (fun h => Nat.ne_of_lt h)
      exact injective_of_nodup hnd _ _ _ (List.getElem?_eq_getElem hp) hsp)
  have : out = markedList marks := by
    apply List.ext_getElem?
    intro p
    by_cases hp : p < (markedList marks).length
    · exact h3 p hp
    · rw [List.getElem?_eq_none (by omega), List.getElem?_eq_none (by omega)]
  refine ⟨out, ?_, this ▸ markedList_collected marks⟩
  unfold collectMarked
  simp only
  rw [offsetScan_int_getLast?, hsum]
  simp only
  rw [if_pos (by omega), Int.toNat_natCast]
  exact h1

/-- An entry other than 0 and 1 breaks `collect_marked`: with a mark of 2 part of the result is never
written. -/
theorem C03_collect_marked_nonbinary_refuted :
    ∃ marks : List Int, (∀ m ∈ marks, 0 ≤ m) ∧ ∀ s, collectMarked s marks = none := by
  refine ⟨[2], by decide, ?_⟩
  intro s
  have hp : s.permute [(0, 0)] = [((0 : Nat), (0 : Nat))] := by
    simpa using s.permute_perm [((0 : Nat), (0 : Nat))]
  show (parScatter s 1 (collectKernel [2] [0, 2]) (Mem.alloc 2)).bind Mem.toArray? = none
  have : (List.range 1).mapM (collectKernel [2] [0, 2]) = some [[(0, 0)]] := by decide +kernel
  unfold parScatter
  rw [this]
  simp only [Option.bind_eq_bind, Option.bind_some, List.flatten_cons, List.flatten_nil,
    List.append_nil]
  rw [hp]; decide +kernel

/-- `mark_image` marks exactly the image of the map. -/
theorem C03_mark_image (s : Sched) (a2b : List Nat) (nb : Nat) (hr : InRange a2b nb) :
    ∃ out, markImage s a2b nb = some out ∧ out.length = nb ∧ IsMarks out ∧
      ∀ b, Marked out b ↔ InImage a2b b := by
  obtain ⟨out, h1, h2, h3, h4⟩ := parScatter_ontoR s a2b.length
    (fun a => (a2b[a]?).map (fun b => [(b, (1 : Int))])) (fun a p v => a2b[a]? = some p ∧ v = 1)
    (fun _ => some 1) (List.replicate nb 0)
    (by
      intro i hi
      rw [List.getElem?_eq_getElem hi]
      refine ⟨_, rfl, ?_⟩
      intro p v
      simp only [List.mem_singleton, Prod.mk.injEq, Option.some.injEq]
      constructor <;> rintro ⟨a, b⟩ <;> exact ⟨a.symm, b⟩)
    (by
      rintro i hi p v ⟨hp, rfl⟩
      exact ⟨by simpa using hr p (List.mem_of_getElem? hp), rfl⟩)
  rw [List.length_replicate] at h2
  have key : ∀ b, b < nb → (InImage a2b b ∧ out[b]? = some 1) ∨ (¬ InImage a2b b ∧ out[b]? = some 0) := by
    intro b hb
    by_cases him : InImage a2b b
    · obtain ⟨a, ha⟩ := him
      exact Or.inl ⟨⟨a, ha⟩, h3 a (List.getElem?_eq_some_iff.1 ha).1 b 1 ⟨ha, rfl⟩⟩
    · refine Or.inr ⟨him, ?_⟩
      rw [h4 b (fun a _ v h => him ⟨a, h.1⟩)]
      simp [hb]
  refine ⟨out, ?_, h2, ?_, ?_⟩
  · unfold markImage; rw [Mem.filled_eq]; exact h1
  · intro m hm
    obtain ⟨b, hb⟩ := List.mem_iff_getElem?.1 hm
    have hbl := (List.getElem?_eq_some_iff.1 hb).1
    rcases key b (by omega) with ⟨_, h⟩ | ⟨_, h⟩ <;> rw [h] at hb
    · exact Or.inr (Option.some.inj hb).symm
    · exact Or.inl (Option.some.inj hb).symm
  · intro b
    unfold Marked
    constructor
    · intro hb
      have hbl := (List.getElem?_eq_some_iff.1 hb).1
      rcases key b (by omega) with ⟨h, _⟩ | ⟨_, h⟩
      · exact h
      · rw [h] at hb; exact absurd hb (by decide)
    · rintro ⟨a, ha⟩
      exact h3 a (List.getElem?_eq_some_iff.1 ha).1 b 1 ⟨ha, rfl⟩

theorem marks_ext {x y : List Int} (hx : IsMarks x) (hy : IsMarks y) (hl : x.length = y.length)
    (h : ∀ i, Marked x i ↔ Marked y i) : x = y := by
  apply List.ext_getElem?
  intro i
  by_cases hi : i < x.length
  · have e1 := List.getElem?_eq_getElem hi
    have e2 := List.getElem?_eq_getElem (show i < y.length by omega)
    have h' := h i
    unfold Marked at h'
    rw [e1, e2] at h' ⊢
    rcases hx _ (List.getElem_mem hi) with a | a <;>
      rcases hy _ (List.getElem_mem (show i < y.length by omega)) with b | b <;>
      simp_all
  · rw [List.getElem?_eq_none (by omega), List.getElem?_eq_none (by omega)]

/-- Collecting the marked indices and marking them again gives the marks back. -/
theorem C03_mark_collect_round_trip (s t : Sched) (marks : List Int) (hm : IsMarks marks) :
    (collectMarked s marks).bind (fun l => markImage t l marks.length) = some marks := by
  obtain ⟨l, h1, h2, h3⟩ := C03_collect_marked s marks hm
  obtain ⟨out, o1, o2, o3, o4⟩ := C03_mark_image t l marks.length (by
    intro b hb
    exact (List.getElem?_eq_some_iff.1 ((h3 b).1 hb)).1)
  rw [h1]
  simp only [Option.bind_some]
  rw [o1]
  congr 1
  refine marks_ext o3 hm o2 ?_
  intro i
  rw [o4, ← h3, List.mem_iff_getElem?]; rfl

/-- `invert_injective_map` of an injective map: image entries get their position, others `-1`. -/
theorem C03_invert_injective_map (s : Sched) (a2b : List Nat) (nb : Nat) (hr : InRange a2b nb)
    (hinj : Injective a2b) :
    ∃ out, invertInjectiveMap s a2b nb = some out ∧ out.length = nb ∧
      (∀ (a b : Nat), a2b[a]? = some b → out[b]? = some (a : Int)) ∧
      (∀ b, b < nb → ¬ InImage a2b b → out[b]? = some (-1)) := by
  obtain ⟨out, h1, h2, h3, h4⟩ := parScatter_ontoR s a2b.length
    (fun a => (a2b[a]?).map (fun b => [(b, (a : Int))]))
    (fun a p v => a2b[a]? = some p ∧ v = (a : Int))
    (fun p => (a2b.findIdx? (· == p)).map Int.ofNat) (List.replicate nb (-1))
    (by
      intro i hi
      rw [List.getElem?_eq_getElem hi]
      refine ⟨_, rfl, ?_⟩
      intro p v
      simp only [List.mem_singleton, Prod.mk.injEq, Option.some.injEq]
      constructor <;> rintro ⟨a, b⟩ <;> exact ⟨a.symm, b⟩)
    (by
      rintro i hi p v ⟨hp, rfl⟩
      refine ⟨by simpa using hr p (List.mem_of_getElem? hp), ?_⟩
      have : a2b.findIdx? (· == p) = some i := by
        rw [List.findIdx?_eq_some_iff_getElem]
        refine ⟨hi, by rw [List.getElem?_eq_getElem hi] at hp; simpa using hp, ?_⟩
        intro j hj
        simp only [beq_iff_eq]
        intro e
        have := hinj j i p (by rw [List.getElem?_eq_getElem (by omega), e]) hp
        omega
      rw [this]; rfl)
  rw [List.length_replicate] at h2
  refine ⟨out, ?_, h2, ?_, ?_⟩
  · unfold invertInjectiveMap injectMap; rw [Mem.filled_eq]; exact h1
  · intro a b hb
    exact h3 a (List.getElem?_eq_some_iff.1 hb).1 b a ⟨hb, rfl⟩
  · intro b hb him
    rw [h4 b (fun a _ v h => him ⟨a, h.1⟩)]
    simp [hb]

/-- Inverting the collected list: marked indices get their position in it, all others `-1`. -/
theorem C03_collect_invert (s t : Sched) (marks : List Int) (hm : IsMarks marks) :
    ∃ l out, collectMarked s marks = some l ∧ invertInjectiveMap t l marks.length = some out ∧
      out.length = marks.length ∧
      (∀ i, Marked marks i → ∃ k : Nat, out[i]? = some (k : Int) ∧ l[k]? = some i) ∧
      (∀ i, i < marks.length → ¬ Marked marks i → out[i]? = some (-1)) := by
  obtain ⟨l, h1, h2, h3⟩ := C03_collect_marked s marks hm
  obtain ⟨out, o1, o2, o3, o4⟩ := C03_invert_injective_map t l marks.length (by
    intro b hb
    exact (List.getElem?_eq_some_iff.1 ((h3 b).1 hb)).1)
    (injective_of_nodup (h2.imp (fun h => Nat.ne_of_lt h)))
  refine ⟨l, out, h1, o1, o2, ?_, ?_⟩
  · intro i hi
    obtain ⟨k, hk⟩ := List.mem_iff_getElem?.1 ((h3 i).2 hi)
    exact ⟨k, o3 k i hk, hk⟩
  · intro i hi hn
    exact o4 i hi (fun ⟨a, ha⟩ => hn ((h3 i).1 (List.mem_of_getElem? ha)))

/-- `invert_marks` complements the marked set. -/
theorem C03_invert_marks (s : Sched) (marks : List Int) (hm : IsMarks marks) :
    ∃ out, invertMarks s marks = some out ∧ out.length = marks.length ∧ IsMarks out ∧
      ∀ i, i < marks.length → (Marked out i ↔ ¬ Marked marks i) := by
  obtain ⟨out, h1, h2, h3⟩ := parScatter_buildR s marks.length marks.length
    (fun i => (marks[i]?).map (fun m => [(i, if m = 0 then (1 : Int) else 0)]))
    (fun i p v => p = i ∧ (marks[i]?).map (fun m => if m = 0 then (1 : Int) else 0) = some v)
    (fun p => (marks[p]?).map (fun m => if m = 0 then (1 : Int) else 0))
    (by
      intro i hi
      rw [List.getElem?_eq_getElem hi]
      refine ⟨_, rfl, ?_⟩
      intro p v
      simp only [List.mem_singleton, Prod.mk.injEq, Option.map_some, Option.some.injEq]
      constructor <;> rintro ⟨a, b⟩ <;> exact ⟨a, b.symm⟩)
    (by rintro i hi p v ⟨rfl, h⟩; exact ⟨hi, h⟩)
    (by
      intro p hp
      exact ⟨p, hp, _, rfl, by rw [List.getElem?_eq_getElem hp]; rfl⟩)
  refine ⟨out, h1, h2, ?_, ?_⟩
  · intro m hmm
    obtain ⟨b, hb⟩ := List.mem_iff_getElem?.1 hmm
    have hbl := (List.getElem?_eq_some_iff.1 hb).1
    rw [h3 b (by omega), List.getElem?_eq_getElem (by omega)] at hb
    simp only [Option.map_some, Option.some.injEq] at hb
    split at hb <;> omega
  · intro i hi
    unfold Marked
    rw [h3 i hi, List.getElem?_eq_getElem hi]
    rcases hm _ (List.getElem_mem hi) with h | h <;> simp [h]

/-- `invert_marks` is an involution. -/
theorem C03_invert_marks_involution (s t : Sched) (marks : List Int) (hm : IsMarks marks) :
    (invertMarks s marks).bind (invertMarks t) = some marks := by
  obtain ⟨x, x1, x2, x3, x4⟩ := C03_invert_marks s marks hm
  obtain ⟨y, y1, y2, y3, y4⟩ := C03_invert_marks t x x3
  rw [x1]
  simp only [Option.bind_some]
  rw [y1]
  congr 1
  refine marks_ext y3 hm (by omega) ?_
  intro i
  by_cases hi : i < marks.length
  · rw [y4 i (by omega), x4 i hi]
    exact Classical.not_not
  · unfold Marked
    rw [List.getElem?_eq_none (by omega), List.getElem?_eq_none (by omega)]

/-! Non-vacuity. -/
example : IsMarks [0, 1, 1, 0, 1] := by unfold IsMarks; decide
example : collectMarked Sched.reversed [0, 1, 1, 0, 1] = some [1, 2, 4] := by decide +kernel
example : invertInjectiveMap Sched.reversed [1, 2, 4] 5 = some [-1, 0, 1, -1, 2] := by
  decide +kernel
example : markImage Sched.reversed [4, 1, 2, 1] 5 = some [0, 1, 1, 0, 1] := by decide +kernel
example : invertMarks Sched.reversed [0, 1, 1, 0, 1] = some [1, 0, 0, 1, 0] := by decide +kernel

end OmegaH
