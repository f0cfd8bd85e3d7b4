import Verif.Spec.Expr
import Verif.Lemmas.Rows
import Verif.Lemmas.Blocks
import Verif.Props.C43

/-! # Lemmas about the evaluation of expressions: rows of arrays and small matrices -/

namespace OmegaH

open Spec

/-! ## Rows -/

/-- A kernel that stores rows stores them. -/
theorem rowKernel_spec {α : Type} (s : Sched) (n w : Nat) (F : Nat → Option (List α)) (A : Nat → List α)
    (h : ∀ i, i < n → F i = some (A i) ∧ (A i).length = w) :
    ∃ out, rowKernel s n w F = some out ∧ out.length = n * w ∧ ∀ i, i < n → row out w i = A i := by
  have := parBlocks s n 1 w (fun i => (F i).map (fun r => blockWrites (i * w) r)) (fun i _ => A i)
    (fun i u hi _ => (h i hi).2) (by
      intro i hi
      refine ⟨blockWrites (i * w) (A i), by rw [(h i hi).1]; rfl, ?_⟩
      intro p v
      rw [mem_blockWrites]
      constructor
      · rintro ⟨j, rfl, hj⟩
        have := (List.getElem?_eq_some_iff.1 hj).1
        rw [(h i hi).2] at this
        exact ⟨0, j, by omega, this, by simp, hj⟩
      · rintro ⟨u, j, hu, hj, rfl, hv⟩
        obtain rfl : u = 0 := by omega
        exact ⟨j, by simp, hv⟩)
  rw [Nat.mul_one] at this
  obtain ⟨out, o1, o2, o3⟩ := this
  refine ⟨out, o1, o2, fun i hi => ?_⟩
  have := o3 i 0 hi (by omega)
  simpa using this

theorem eachKernel_spec {α : Type} (s : Sched) (n : Nat) (F : Nat → Option α) (A : Nat → α)
    (h : ∀ i, i < n → F i = some (A i)) :
    ∃ out, eachKernel s n F = some out ∧ out.length = n ∧ ∀ i, i < n → out[i]? = some (A i) := by
  obtain ⟨out, o1, o2, o3⟩ := parEach s n F (fun i hi => by rw [h i hi]; rfl)
  exact ⟨out, o1, o2, fun i hi => by rw [o3 i hi, h i hi]⟩

theorem row_one {α : Type} {l : List α} {i : Nat} {x : α} (h : l[i]? = some x) : row l 1 i = [x] := by
  apply List.ext_getElem?
  intro j
  by_cases hj : j < 1
  · obtain rfl : j = 0 := by omega
    rw [row_get _ _ hj]
    unfold entry
    simpa using h
  · have : ([x] : List α)[j]? = none := List.getElem?_eq_none (by simp; omega)
    rw [this]
    unfold row
    rw [List.getElem?_take, if_neg hj]

theorem row_one' {α : Type} {l : List α} {i : Nat} {x : α} (h : row l 1 i = [x]) : l[i]? = some x := by
  have := row_get l (w := 1) i (show 0 < 1 by omega)
  rw [h] at this
  unfold entry at this
  simpa using this.symm

theorem row_map {α β : Type} (f : α → β) (l : List α) (w i : Nat) :
    row (l.map f) w i = (row l w i).map f := by
  unfold row
  rw [List.map_take, List.map_drop]

theorem row_zipWith {α β γ : Type} (f : α → β → γ) (a : List α) (b : List β) (w i : Nat) :
    row (List.zipWith f a b) w i = List.zipWith f (row a w i) (row b w i) := by
  unfold row
  rw [List.drop_zipWith, List.take_zipWith]

theorem row_rowwise {α β γ : Type} {g : α → β → γ} {w : Nat} {a : List α} {b : List β} {c : List γ}
    (h : Spec.Rowwise g w a b c) {i : Nat} {y : β} (hy : b[i]? = some y) :
    row c w i = (row a w i).map (fun x => g x y) := by
  obtain ⟨h1, h2, h3⟩ := h
  have hi := (List.getElem?_eq_some_iff.1 hy).1
  apply List.ext_getElem?
  intro j
  rw [List.getElem?_map]
  by_cases hj : j < w
  · rw [row_get c i hj, row_get a i hj]
    unfold entry
    have hlt : i * w + j < a.length := by rw [h1]; exact row_lt hi hj
    rw [h3 i j a[i * w + j] y hj (List.getElem?_eq_getElem hlt) hy, List.getElem?_eq_getElem hlt]
    rfl
  · unfold row
    rw [List.getElem?_take, if_neg hj, List.getElem?_take, if_neg hj]
    rfl

theorem repeatVector_spec {R : Type} (s : Sched) (n : Nat) (v : List R) :
    ∃ out, repeatVector s n v = .ok out ∧ out.length = n * v.length ∧
      ∀ i, i < n → row out v.length i = v := by
  obtain ⟨out, o1, o2, o3⟩ := rowKernel_spec s n v.length (fun _ => some v) (fun _ => v)
    (fun _ _ => ⟨rfl, rfl⟩)
  exact ⟨out, by unfold repeatVector; rw [o1]; rfl, o2, o3⟩

/-! ## Small matrices -/

/-- The dimensions of space. -/
def SmallDim (d : Nat) : Prop := d = 1 ∨ d = 2 ∨ d = 3

theorem templateDim_eq {d : Nat} (h : SmallDim d) : templateDim d = d := by
  rcases h with rfl | rfl | rfl <;> rfl

theorem list1 {α : Type} {l : List α} (h : l.length = 1) : ∃ a, l = [a] :=
  match l, h with
  | [a], _ => ⟨a, rfl⟩
theorem list2 {α : Type} {l : List α} (h : l.length = 2) : ∃ a b, l = [a, b] :=
  match l, h with
  | [a, b], _ => ⟨a, b, rfl⟩
theorem list3 {α : Type} {l : List α} (h : l.length = 3) : ∃ a b c, l = [a, b, c] :=
  match l, h with
  | [a, b, c], _ => ⟨a, b, c, rfl⟩
theorem list4 {α : Type} {l : List α} (h : l.length = 4) : ∃ a b c d, l = [a, b, c, d] :=
  match l, h with
  | [a, b, c, d], _ => ⟨a, b, c, d, rfl⟩
theorem list9 {α : Type} {l : List α} (h : l.length = 9) :
    ∃ a b c d e f g i j, l = [a, b, c, d, e, f, g, i, j] :=
  match l, h with
  | [a, b, c, d, e, f, g, i, j], _ => ⟨a, b, c, d, e, f, g, i, j, rfl⟩

section
variable {R : Type} (O : RealOps R)

theorem vecDot_spec {d : Nat} (hd : SmallDim d) {a b : List R} (ha : a.length = d) (hb : b.length = d) :
    ∃ x, vecDot O a b = .ok x ∧ dotOf O a b = some x := by
  rcases hd with rfl | rfl | rfl
  · obtain ⟨a0, rfl⟩ := list1 ha
    obtain ⟨b0, rfl⟩ := list1 hb
    exact ⟨_, rfl, rfl⟩
  · obtain ⟨a0, a1, rfl⟩ := list2 ha
    obtain ⟨b0, b1, rfl⟩ := list2 hb
    exact ⟨_, rfl, rfl⟩
  · obtain ⟨a0, a1, a2, rfl⟩ := list3 ha
    obtain ⟨b0, b1, b2, rfl⟩ := list3 hb
    exact ⟨_, rfl, rfl⟩

/-- `m` is the matrix with the components `c`, row after row. -/
def IsMatrix (d : Nat) (m : List (List R)) (c : List R) : Prop :=
  c.length = d * d ∧ vector2matrix d c = some m ∧ matrix2vector d m = some c ∧ m.length = d ∧
    ∀ x ∈ m, x.length = d

theorem isMatrix_of {d : Nat} (hd : SmallDim d) {c : List R} (hc : c.length = d * d) :
    ∃ m, IsMatrix d m c := by
  rcases hd with rfl | rfl | rfl
  · obtain ⟨a, rfl⟩ := list1 hc
    exact ⟨[[a]], rfl, rfl, rfl, rfl, by simp⟩
  · obtain ⟨a0, a1, a2, a3, rfl⟩ := list4 hc
    exact ⟨[[a0, a2], [a1, a3]], rfl, rfl, rfl, rfl, by simp⟩
  · obtain ⟨a0, a1, a2, a3, a4, a5, a6, a7, a8, rfl⟩ := list9 hc
    exact ⟨[[a0, a3, a6], [a1, a4, a7], [a2, a5, a8]], rfl, rfl, rfl, rfl, by simp⟩

theorem isMatrix_entry {d : Nat} (hd : SmallDim d) {m : List (List R)} {c : List R} (h : IsMatrix d m c)
    {i j : Nat} (hi : i < d) (hj : j < d) : c[i * d + j]? = matEntry m i j := by
  obtain ⟨h1, h2, _⟩ := h
  rcases hd with rfl | rfl | rfl
  · obtain ⟨a, rfl⟩ := list1 h1
    obtain rfl := Option.some.inj h2
    obtain rfl : i = 0 := by omega
    obtain rfl : j = 0 := by omega
    rfl
  · obtain ⟨a0, a1, a2, a3, rfl⟩ := list4 h1
    obtain rfl := Option.some.inj h2
    rcases (show i = 0 ∨ i = 1 by omega) with rfl | rfl <;>
      rcases (show j = 0 ∨ j = 1 by omega) with rfl | rfl <;> rfl
  · obtain ⟨a0, a1, a2, a3, a4, a5, a6, a7, a8, rfl⟩ := list9 h1
    obtain rfl := Option.some.inj h2
    rcases (show i = 0 ∨ i = 1 ∨ i = 2 by omega) with rfl | rfl | rfl <;>
      rcases (show j = 0 ∨ j = 1 ∨ j = 2 by omega) with rfl | rfl | rfl <;> rfl

theorem isMatrix_of_entries {d : Nat} (hd : SmallDim d) {m : List (List R)} {c : List R}
    (hc : c.length = d * d) (hm : m.length = d) (hm' : ∀ x ∈ m, x.length = d)
    (h : ∀ i j, i < d → j < d → c[i * d + j]? = matEntry m i j) : IsMatrix d m c := by
  obtain ⟨m', hm''⟩ := isMatrix_of hd hc
  have : m = m' := by
    apply List.ext_getElem?
    intro j
    by_cases hj : j < d
    · have e1 := List.getElem?_eq_getElem (show j < m.length by omega)
      have e2 := List.getElem?_eq_getElem (show j < m'.length by rw [hm''.2.2.2.1]; exact hj)
      rw [e1, e2]
      congr 1
      apply List.ext_getElem?
      intro i
      have l1 := hm' _ (List.getElem_mem (show j < m.length by omega))
      have l2 := hm''.2.2.2.2 _ (List.getElem_mem (show j < m'.length by rw [hm''.2.2.2.1]; exact hj))
      by_cases hi : i < d
      · have := (h i j hi hj).symm.trans (isMatrix_entry hd hm'' hi hj)
        unfold matEntry at this
        rw [e1, e2] at this
        exact this
      · rw [List.getElem?_eq_none (by omega), List.getElem?_eq_none (by omega)]
    · rw [List.getElem?_eq_none (by omega), List.getElem?_eq_none (by rw [hm''.2.2.2.1]; omega)]
  rw [this]
  exact hm''

theorem matVec_spec {d : Nat} (hd : SmallDim d) {m : List (List R)} {c v : List R} (h : IsMatrix d m c)
    (hv : v.length = d) :
    ∃ r, matVec O m v = .ok r ∧ (List.range d).mapM (fun i => dotOf O (matRow d c i) v) = some r ∧
      r.length = d := by
  obtain ⟨h1, h2, _⟩ := h
  rcases hd with rfl | rfl | rfl
  · obtain ⟨a, rfl⟩ := list1 h1
    obtain ⟨v0, rfl⟩ := list1 hv
    obtain rfl := Option.some.inj h2
    exact ⟨_, rfl, rfl, rfl⟩
  · obtain ⟨a0, a1, a2, a3, rfl⟩ := list4 h1
    obtain ⟨v0, v1, rfl⟩ := list2 hv
    obtain rfl := Option.some.inj h2
    exact ⟨_, rfl, rfl, rfl⟩
  · obtain ⟨a0, a1, a2, a3, a4, a5, a6, a7, a8, rfl⟩ := list9 h1
    obtain ⟨v0, v1, v2, rfl⟩ := list3 hv
    obtain rfl := Option.some.inj h2
    exact ⟨_, rfl, rfl, rfl⟩

theorem matMat_spec {d : Nat} (hd : SmallDim d) {m m' : List (List R)} {c c' : List R} (h : IsMatrix d m c)
    (h' : IsMatrix d m' c') :
    ∃ r rs, matMat O m m' = .ok r ∧ (List.range d).mapM (fun i => (List.range d).mapM (fun j =>
      dotOf O (matRow d c i) (matCol d c' j))) = some rs ∧ IsMatrix d r rs.flatten := by
  obtain ⟨h1, h2, _⟩ := h
  obtain ⟨h1', h2', _⟩ := h'
  rcases hd with rfl | rfl | rfl
  · obtain ⟨a, rfl⟩ := list1 h1
    obtain ⟨b, rfl⟩ := list1 h1'
    obtain rfl := Option.some.inj h2
    obtain rfl := Option.some.inj h2'
    exact ⟨_, _, rfl, rfl, rfl, rfl, rfl, rfl, by simp [vecScale]⟩
  · obtain ⟨a0, a1, a2, a3, rfl⟩ := list4 h1
    obtain ⟨b0, b1, b2, b3, rfl⟩ := list4 h1'
    obtain rfl := Option.some.inj h2
    obtain rfl := Option.some.inj h2'
    exact ⟨_, _, rfl, rfl, rfl, rfl, rfl, rfl, by simp [vecScale]⟩
  · obtain ⟨a0, a1, a2, a3, a4, a5, a6, a7, a8, rfl⟩ := list9 h1
    obtain ⟨b0, b1, b2, b3, b4, b5, b6, b7, b8, rfl⟩ := list9 h1'
    obtain rfl := Option.some.inj h2
    obtain rfl := Option.some.inj h2'
    exact ⟨_, _, rfl, rfl, rfl, rfl, rfl, rfl, by simp [vecScale]⟩

/-- Operations on the entries of a matrix. -/
theorem isMatrix_map {d : Nat} (hd : SmallDim d) {m : List (List R)} {c : List R} (h : IsMatrix d m c)
    (g : R → R) : IsMatrix d (m.map (fun x => x.map g)) (c.map g) := by
  obtain ⟨h1, h2, _⟩ := h
  rcases hd with rfl | rfl | rfl
  · obtain ⟨a, rfl⟩ := list1 h1
    obtain rfl := Option.some.inj h2
    exact ⟨rfl, rfl, rfl, rfl, by simp⟩
  · obtain ⟨a0, a1, a2, a3, rfl⟩ := list4 h1
    obtain rfl := Option.some.inj h2
    exact ⟨rfl, rfl, rfl, rfl, by simp⟩
  · obtain ⟨a0, a1, a2, a3, a4, a5, a6, a7, a8, rfl⟩ := list9 h1
    obtain rfl := Option.some.inj h2
    exact ⟨rfl, rfl, rfl, rfl, by simp⟩

theorem isMatrix_zip {d : Nat} (hd : SmallDim d) {m m' : List (List R)} {c c' : List R}
    (h : IsMatrix d m c) (h' : IsMatrix d m' c') (g : R → R → R) :
    IsMatrix d (List.zipWith (fun x y => List.zipWith g x y) m m') (List.zipWith g c c') := by
  obtain ⟨h1, h2, _⟩ := h
  obtain ⟨h1', h2', _⟩ := h'
  rcases hd with rfl | rfl | rfl
  · obtain ⟨a, rfl⟩ := list1 h1
    obtain ⟨b, rfl⟩ := list1 h1'
    obtain rfl := Option.some.inj h2
    obtain rfl := Option.some.inj h2'
    exact ⟨rfl, rfl, rfl, rfl, by simp⟩
  · obtain ⟨a0, a1, a2, a3, rfl⟩ := list4 h1
    obtain ⟨b0, b1, b2, b3, rfl⟩ := list4 h1'
    obtain rfl := Option.some.inj h2
    obtain rfl := Option.some.inj h2'
    exact ⟨rfl, rfl, rfl, rfl, by simp⟩
  · obtain ⟨a0, a1, a2, a3, a4, a5, a6, a7, a8, rfl⟩ := list9 h1
    obtain ⟨b0, b1, b2, b3, b4, b5, b6, b7, b8, rfl⟩ := list9 h1'
    obtain rfl := Option.some.inj h2
    obtain rfl := Option.some.inj h2'
    exact ⟨rfl, rfl, rfl, rfl, by simp⟩

theorem symm_spec {d : Nat} (hd : SmallDim d) {m : List (List R)} {c : List R} (h : IsMatrix d m c) :
    ∃ r, (symmCells d).mapM (fun e => matEntry m e.1 e.2) = some r ∧
      (symmCells d).mapM (fun e => c[e.1 * d + e.2]?) = some r ∧ r.length = (symmCells d).length := by
  obtain ⟨h1, h2, _⟩ := h
  rcases hd with rfl | rfl | rfl
  · obtain ⟨a, rfl⟩ := list1 h1
    obtain rfl := Option.some.inj h2
    exact ⟨_, rfl, rfl, rfl⟩
  · obtain ⟨a0, a1, a2, a3, rfl⟩ := list4 h1
    obtain rfl := Option.some.inj h2
    exact ⟨_, rfl, rfl, rfl⟩
  · obtain ⟨a0, a1, a2, a3, a4, a5, a6, a7, a8, rfl⟩ := list9 h1
    obtain rfl := Option.some.inj h2
    exact ⟨_, rfl, rfl, rfl⟩

theorem symmCells_length {d : Nat} (hd : SmallDim d) : (symmCells d).length = Shape.ncomps d .symm := by
  rcases hd with rfl | rfl | rfl <;> rfl

theorem IsMatrix.toMat {d : Nat} {m : List (List R)} {c : List R} (h : IsMatrix d m c) :
    (EVal.mat m).toMat d = .ok m := by
  exact if_pos ⟨h.2.2.2.1, by simpa using h.2.2.2.2⟩

theorem IsMatrix.isMat {d : Nat} {m : List (List R)} {c : List R} (h : IsMatrix d m c) :
    (EVal.mat m).isMat d = true := by
  have := h.2.2.2.2
  simp only [EVal.isMat, h.2.2.2.1, Bool.and_eq_true, beq_self_eq_true, List.all_eq_true, true_and, beq_iff_eq]
  exact this

theorem toVec_eq {d : Nat} {v : List R} (h : v.length = d) : (EVal.vec v).toVec d = .ok v := by
  exact if_pos h

end

end OmegaH
