import Verif.Model.Align
import Verif.Spec.Align
import Verif.Lemmas.Map

/-! # C09 — alignment codes act as the dihedral group -/

namespace OmegaH
open Spec

/-- Packing and unpacking a code is lossless. -/
theorem C09_unpack_pack (f : Bool) (r w : Nat) (hr : r < 4) (hw : w < 16) :
    ∃ c, makeCode f r w = some c ∧ 0 ≤ c ∧ c < 128 ∧ codeIsFlipped c = f ∧ codeRotation c = r ∧
      codeWhichDown c = w := by
  have : ∀ (f : Bool) (r : Fin 4) (w : Fin 16), ∃ c : Fin 128,
      makeCode f (r.val : Int) (w.val : Int) = some (c.val : Int) ∧
      codeIsFlipped (c.val : Int) = f ∧ codeRotation (c.val : Int) = r.val ∧
      codeWhichDown (c.val : Int) = w.val := by decide +kernel
  obtain ⟨c, h1, h2, h3, h4⟩ := this f ⟨r, hr⟩ ⟨w, hw⟩
  exact ⟨c.val, h1, by omega, by omega, h2, h3, h4⟩

/-- Every nonnegative eight-bit code is the packing of its three parts. -/
theorem C09_pack_unpack (c : Int) (h0 : 0 ≤ c) (h1 : c < 128) :
    makeCode (codeIsFlipped c) (codeRotation c) (codeWhichDown c) = some c ∧
    0 ≤ codeRotation c ∧ codeRotation c < 4 ∧ 0 ≤ codeWhichDown c ∧ codeWhichDown c < 16 := by
  have : ∀ c : Fin 128, makeCode (codeIsFlipped (c.val : Int)) (codeRotation (c.val : Int))
      (codeWhichDown (c.val : Int)) = some (c.val : Int) ∧
    0 ≤ codeRotation (c.val : Int) ∧ codeRotation (c.val : Int) < 4 ∧
    0 ≤ codeWhichDown (c.val : Int) ∧ codeWhichDown (c.val : Int) < 16 := by decide +kernel
  have := this ⟨c.toNat, by omega⟩
  simpa [Int.toNat_of_nonneg h0] using this

/-- Which_down fields beyond four bits do not survive packing into eight bits. -/
theorem C09_pack_overflow_refuted : makeCode false 0 16 = some (-128) := by decide +kernel

theorem codeRotation_range (c : Int) : 0 ≤ codeRotation c ∧ codeRotation c < 4 := by
  unfold codeRotation; omega

theorem rot_cases (c : Int) : codeRotation c = 0 ∨ codeRotation c = 1 ∨ codeRotation c = 2 ∨
    codeRotation c = 3 := by
  have := codeRotation_range c; omega

/-- Applying a code to a polygon of degree 2, 3 or 4 is: rotate, then flip. -/
theorem C09_align_is_rotate_then_flip {α : Type} (n : Nat) (hn : n = 2 ∨ n = 3 ∨ n = 4) (code : Int)
    (l : List α) (hl : l.length = n) :
    alignAdj n code l = some (align (codeIsFlipped code) (codeRotation code).toNat l) := by
  have hr := rot_cases code
  unfold alignAdj
  generalize codeRotation code = r at *
  generalize codeIsFlipped code = f at *
  rcases hn with rfl | rfl | rfl
  · match l, hl with
    | [a, b], _ =>
      rcases hr with rfl | rfl | rfl | rfl <;> cases f <;> rfl
  · match l, hl with
    | [a, b, c], _ =>
      rcases hr with rfl | rfl | rfl | rfl <;> cases f <;> rfl
  · match l, hl with
    | [a, b, c, d], _ =>
      rcases hr with rfl | rfl | rfl | rfl <;> cases f <;> rfl

/-- The index function tells where the array operation puts each vertex. -/
theorem C09_index_agrees {α : Type} (n : Nat) (hn : n = 2 ∨ n = 3 ∨ n = 4) (code : Int)
    (l : List α) (hl : l.length = n) (j : Nat) (hj : j < n) :
    0 ≤ alignVertIndex n j code ∧ alignVertIndex n j code < n ∧
    ∃ out, alignAdj n code l = some out ∧ out.length = n ∧
      out[(alignVertIndex n j code).toNat]? = l[j]? := by
  rw [C09_align_is_rotate_then_flip n hn code l hl]
  have hr := rot_cases code
  unfold alignVertIndex
  generalize codeRotation code = r at *
  generalize codeIsFlipped code = f at *
  rcases hn with rfl | rfl | rfl
  · match l, hl with
    | [a, b], _ =>
      have hj' : j = 0 ∨ j = 1 := by omega
      rcases hj' with rfl | rfl <;> rcases hr with rfl | rfl | rfl | rfl <;> cases f <;>
        exact ⟨by decide, by decide, _, rfl, rfl, rfl⟩
  · match l, hl with
    | [a, b, c], _ =>
      have hj' : j = 0 ∨ j = 1 ∨ j = 2 := by omega
      rcases hj' with rfl | rfl | rfl <;> rcases hr with rfl | rfl | rfl | rfl <;> cases f <;>
        exact ⟨by decide, by decide, _, rfl, rfl, rfl⟩
  · match l, hl with
    | [a, b, c, d], _ =>
      have hj' : j = 0 ∨ j = 1 ∨ j = 2 ∨ j = 3 := by omega
      rcases hj' with rfl | rfl | rfl | rfl <;> rcases hr with rfl | rfl | rfl | rfl <;> cases f <;>
        exact ⟨by decide, by decide, _, rfl, rfl, rfl⟩

/-- Side `i` of a polygon joins vertices `i` and `i+1`: the edge index function sends it to the side
joining the places of those two vertices. -/
theorem C09_edge_index_agrees (n : Nat) (hn : n = 3 ∨ n = 4) (code : Int) (i : Nat) (hi : i < n) :
    0 ≤ alignEdgeIndex n i code ∧ alignEdgeIndex n i code < n ∧
    let a := alignVertIndex n i code
    let b := alignVertIndex n (((i + 1) % n : Nat) : Int) code
    let e := alignEdgeIndex n i code
    (a = e ∧ b = (e + 1) % n) ∨ (b = e ∧ a = (e + 1) % n) := by
  have hr := rot_cases code
  unfold alignVertIndex alignEdgeIndex
  generalize codeRotation code = r at *
  generalize codeIsFlipped code = f at *
  rcases hn with rfl | rfl
  · have hi' : i = 0 ∨ i = 1 ∨ i = 2 := by omega
    rcases hi' with rfl | rfl | rfl <;> rcases hr with rfl | rfl | rfl | rfl <;> cases f <;>
      decide
  · have hi' : i = 0 ∨ i = 1 ∨ i = 2 ∨ i = 3 := by omega
    rcases hi' with rfl | rfl | rfl | rfl <;> rcases hr with rfl | rfl | rfl | rfl <;> cases f <;>
      decide

theorem align_length {α : Type} (f : Bool) (r : Nat) (l : List α) :
    (align f r l).length = l.length := by
  have h1 : ∀ r, (rotate r l).length = l.length := by
    intro r
    induction r with
    | zero => rfl
    | succ r ih =>
      show (rotateOnce (rotate r l)).length = _
      unfold rotateOnce
      cases h : (rotate r l).getLast? with
      | none => rw [List.getLast?_eq_none_iff.1 h] at ih; simpa using ih
      | some x =>
        have : rotate r l ≠ [] := by intro e; rw [e] at h; simp at h
        have := List.length_pos_iff.2 this
        simp; omega
  unfold align
  cases f
  · exact h1 r
  · simp only [if_true]
    cases h : rotate r l with
    | nil => have := h1 r; rw [h] at this; simpa [Spec.flip] using this
    | cons x t => have := h1 r; rw [h] at this; simpa [Spec.flip] using this

/-- Codes whose rotation is a rotation of an `n`-gon. -/
def GoodCode (n : Nat) (c : Int) : Prop := codeRotation c < n

instance (n : Nat) (c : Int) : Decidable (GoodCode n c) := by unfold GoodCode; infer_instance

/-- The compound of two codes acts as the first followed by the second (the template, degrees 2–4). -/
theorem C09_compound {α : Type} (n : Nat) (hn : n = 2 ∨ n = 3 ∨ n = 4) (c1 c2 : Int)
    (l : List α) (hl : l.length = n) :
    ∃ c, compoundAlignmentsT n c1 c2 = some c ∧ 0 ≤ c ∧ c < 8 ∧ GoodCode n c ∧
      alignAdj n c l = (alignAdj n c1 l).bind (alignAdj n c2) := by
  have e1 := C09_align_is_rotate_then_flip n hn c1 l hl
  have e2 := C09_align_is_rotate_then_flip n hn c2 _ ((align_length (codeIsFlipped c1) (codeRotation c1).toNat l).trans hl)
  rw [e1, Option.bind_some, e2]
  have hr1 := rot_cases c1
  have hr2 := rot_cases c2
  unfold compoundAlignmentsT alignVertIndex
  generalize codeRotation c1 = r1 at *
  generalize codeIsFlipped c1 = f1 at *
  generalize codeRotation c2 = r2 at *
  generalize codeIsFlipped c2 = f2 at *
  clear e1 e2
  rcases hn with rfl | rfl | rfl
  · match l, hl with
    | [a, b], _ =>
      rcases hr1 with rfl | rfl | rfl | rfl <;> rcases hr2 with rfl | rfl | rfl | rfl <;>
      cases f1 <;> cases f2 <;>
      exact ⟨_, rfl, by decide, by decide, by decide, rfl⟩
  · match l, hl with
    | [a, b, c], _ =>
      rcases hr1 with rfl | rfl | rfl | rfl <;> rcases hr2 with rfl | rfl | rfl | rfl <;>
      cases f1 <;> cases f2 <;>
      exact ⟨_, rfl, by decide, by decide, by decide, rfl⟩
  · match l, hl with
    | [a, b, c, d], _ =>
      rcases hr1 with rfl | rfl | rfl | rfl <;> rcases hr2 with rfl | rfl | rfl | rfl <;>
      cases f1 <;> cases f2 <;>
      exact ⟨_, rfl, by decide, by decide, by decide, rfl⟩

/-- The run-time dispatcher supports triangles and edges. -/
theorem C09_compound_dispatch (deg c1 c2 : Int) :
    (deg = 2 ∨ deg = 3 → compoundAlignments deg c1 c2 = compoundAlignmentsT deg c1 c2) ∧
    (deg ≠ 2 ∧ deg ≠ 3 → compoundAlignments deg c1 c2 = none) := by
  unfold compoundAlignments
  refine ⟨?_, ?_⟩
  · rintro (rfl | rfl) <;> simp
  · rintro ⟨h1, h2⟩; simp [h1, h2]

/-- Quadrilateral codes cannot be compounded at run time, although the template would be right. -/
theorem C09_compound_quads_refuted : compoundAlignments 4 0 0 = none ∧
    compoundAlignmentsT 4 0 0 = some 0 := by decide +kernel

/-- A code followed by its inverse restores the vertex order, and so does the inverse followed by
the code. -/
theorem C09_inverse {α : Type} (n : Nat) (hn : n = 2 ∨ n = 3 ∨ n = 4) (c : Int) (hc : GoodCode n c)
    (l : List α) (hl : l.length = n) :
    ∃ c', invertAlignment n c = some c' ∧ (alignAdj n c l).bind (alignAdj n c') = some l ∧
      (alignAdj n c' l).bind (alignAdj n c) = some l := by
  have hr := rot_cases c
  have hlen := fun f r => (align_length (α := α) f r l).trans hl
  -- the inverse code is known by its flag and rotation
  have key : ∃ c', invertAlignment n c = some c' ∧ codeIsFlipped c' = codeIsFlipped c ∧
      codeRotation c' = if codeIsFlipped c then codeRotation c
        else ((n - (codeRotation c)) % n : Int) := by
    unfold invertAlignment
    unfold GoodCode at hc
    by_cases hf : codeIsFlipped c
    · exact ⟨c, by simp [hf], rfl, by simp [hf]⟩
    · rw [if_neg hf]
      have hf' : codeIsFlipped c = false := by simpa using hf
      rw [hf']
      generalize codeRotation c = r at *
      rcases hn with rfl | rfl | rfl <;> rcases hr with rfl | rfl | rfl | rfl <;>
        first
        | (exfalso; revert hc; decide)
        | exact ⟨_, rfl, by decide, by decide⟩
  obtain ⟨c', k1, k2, k3⟩ := key
  refine ⟨c', k1, ?_⟩
  rw [C09_align_is_rotate_then_flip n hn c l hl, C09_align_is_rotate_then_flip n hn c' l hl,
    Option.bind_some, Option.bind_some, C09_align_is_rotate_then_flip n hn c' _ (hlen _ _),
    C09_align_is_rotate_then_flip n hn c _ (hlen _ _), k2, k3]
  unfold GoodCode at hc
  clear k1 k2 k3 hlen
  generalize codeRotation c = r at *
  generalize codeIsFlipped c = f at *
  rcases hn with rfl | rfl | rfl
  · match l, hl with
    | [x, y], _ =>
      rcases hr with rfl | rfl | rfl | rfl <;> cases f <;>
        first
        | (exfalso; revert hc; decide)
        | exact ⟨rfl, rfl⟩
  · match l, hl with
    | [x, y, z], _ =>
      rcases hr with rfl | rfl | rfl | rfl <;> cases f <;>
        first
        | (exfalso; revert hc; decide)
        | exact ⟨rfl, rfl⟩
  · match l, hl with
    | [x, y, z, w], _ =>
      rcases hr with rfl | rfl | rfl | rfl <;> cases f <;>
        first
        | (exfalso; revert hc; decide)
        | exact ⟨rfl, rfl⟩

/-- The hypothesis on the rotation is needed: rotation 3 of an edge has no inverse code. -/
theorem C09_inverse_bad_rotation_refuted : invertAlignment 2 6 = none := by decide +kernel

/-- `align_ev2v` applies each code to its own row, for every schedule. -/
theorem C09_align_ev2v {α : Type} (s : Sched) (n : Nat) (hn : n = 2 ∨ n = 3 ∨ n = 4)
    (ev2v : List α) (codes : List Int) (hl : ev2v.length = codes.length * n) :
    ∃ out, alignEv2v s n ev2v codes = some out ∧ out.length = ev2v.length ∧
      ∀ (e : Nat) (c : Int), codes[e]? = some c →
        row out n e = align (codeIsFlipped c) (codeRotation c).toNat (row ev2v n e) := by
  have hn0 : 0 < n := by omega
  have hrow : ∀ e, e < codes.length → (row ev2v n e).length = n := by
    intro e he
    unfold row
    rw [List.length_take, List.length_drop]
    have : (e + 1) * n ≤ codes.length * n := Nat.mul_le_mul_right _ he
    rw [Nat.add_mul, Nat.one_mul] at this
    omega
  let A : Nat → List α := fun e =>
    match codes[e]? with
    | some c => align (codeIsFlipped c) (codeRotation c).toNat (row ev2v n e)
    | none => []
  have hA : ∀ e, e < codes.length → (A e).length = n := by
    intro e he
    simp only [A, List.getElem?_eq_getElem he]
    rw [align_length]; exact hrow e he
  obtain ⟨out, o1, o2, o3⟩ := parScatter_buildR s codes.length ev2v.length
    (fun e => (codes[e]?).bind (fun code =>
          (alignAdj n code ((ev2v.drop (e * n)).take n)).map (fun row =>
            row.mapIdx (fun j v => (e * n + j, v)))))
    (fun e p v => ∃ j, j < n ∧ p = e * n + j ∧ (A e)[j]? = some v)
    (fun p => (A (p / n))[p % n]?)
    (by
      intro e he
      have e1 := List.getElem?_eq_getElem he
      refine ⟨(A e).mapIdx (fun j v => (e * n + j, v)), ?_, ?_⟩
      · simp only [A, e1, Option.bind_some]
        rw [show (ev2v.drop (e * n)).take n = row ev2v n e from rfl,
          C09_align_is_rotate_then_flip n hn _ _ (hrow e he)]
        rfl
      · intro p v
        simp only [List.mem_mapIdx, Prod.mk.injEq]
        constructor
        · rintro ⟨j, hj, h1, h2⟩
          exact ⟨j, by rw [← hA e he]; exact hj, h1.symm, by rw [List.getElem?_eq_getElem hj, h2]⟩
        · rintro ⟨j, hj, h1, h2⟩
          obtain ⟨hj', h2'⟩ := List.getElem?_eq_some_iff.1 h2
          exact ⟨j, hj', h1.symm, h2'⟩)
    (by
      rintro e he p v ⟨j, hj, rfl, h⟩
      refine ⟨by rw [hl]; exact row_lt he hj, ?_⟩
      have a1 : (e * n + j) / n = e := by
        rw [Nat.mul_comm, Nat.mul_add_div hn0, Nat.div_eq_of_lt hj]; omega
      have a2 : (e * n + j) % n = j := by rw [Nat.mul_comm, Nat.mul_add_mod, Nat.mod_eq_of_lt hj]
      rw [a1, a2]; exact h)
    (by
      intro p hp
      rw [hl] at hp
      obtain ⟨e, j, he, hj, rfl⟩ := row_cover hp
      exact ⟨e, he, _, j, hj, rfl, List.getElem?_eq_getElem (by rw [hA e he]; exact hj)⟩)
  refine ⟨out, ?_, o2, ?_⟩
  · unfold alignEv2v
    rw [if_pos hn, if_pos hl]
    exact o1
  · intro e c hc
    have he := (List.getElem?_eq_some_iff.1 hc).1
    have hAe : A e = align (codeIsFlipped c) (codeRotation c).toNat (row ev2v n e) := by
      simp only [A, hc]
    rw [← hAe]
    apply List.ext_getElem?
    intro j
    unfold row
    by_cases hj : j < n
    · rw [List.getElem?_take, if_pos hj, List.getElem?_drop, o3 _ (by rw [hl]; exact row_lt he hj)]
      have a1 : (e * n + j) / n = e := by
        rw [Nat.mul_comm, Nat.mul_add_div hn0, Nat.div_eq_of_lt hj]; omega
      have a2 : (e * n + j) % n = j := by rw [Nat.mul_comm, Nat.mul_add_mod, Nat.mod_eq_of_lt hj]
      rw [a1, a2]
    · rw [List.getElem?_take, if_neg hj, List.getElem?_eq_none (by rw [hA e he]; omega)]

/-- Alignment does not look at the which-down part of a code. -/
theorem C09_which_down_ignored {α : Type} (n : Nat) (f : Bool) (r w w' : Nat) (hr : r < 4)
    (hw : w < 16) (hw' : w' < 16) (l : List α) :
    ∃ c c', makeCode f r w = some c ∧ makeCode f r w' = some c' ∧
      alignAdj n c l = alignAdj n c' l ∧ ∀ i, alignVertIndex n i c = alignVertIndex n i c' := by
  obtain ⟨c, a1, _, _, a2, a3, _⟩ := C09_unpack_pack f r w hr hw
  obtain ⟨c', b1, _, _, b2, b3, _⟩ := C09_unpack_pack f r w' hr hw'
  refine ⟨c, c', a1, b1, ?_, ?_⟩
  · unfold alignAdj; rw [a2, a3, b2, b3]
  · intro i; unfold alignVertIndex; rw [a2, a3, b2, b3]

/-! Non-vacuity. -/
example : GoodCode 3 (5 : Int) := by decide
example : alignAdj 3 3 ["a", "b", "c"] = some ["c", "b", "a"] := by decide +kernel
example : compoundAlignments 3 3 2 = some 1 := by decide +kernel
example : alignEv2v Sched.reversed 3 [10, 11, 12, 20, 21, 22] [2, 1] =
    some [12, 10, 11, 20, 22, 21] := by decide +kernel

end OmegaH
