import Verif.Lemmas.Mem
import Verif.Model.Blocks
/-!
# Loops writing consecutive blocks
-/
namespace OmegaH

theorem mem_blockWrites {α : Type} (off : Nat) (vals : List α) (p : Nat) (v : α) :
    (p, v) ∈ blockWrites off vals ↔ ∃ j, p = off + j ∧ vals[j]? = some v := by
  unfold blockWrites
  rw [List.mem_map]
  constructor
  · rintro ⟨⟨w, k⟩, h1, h2⟩
    simp only [Prod.mk.injEq] at h2
    obtain ⟨rfl, rfl⟩ := h2
    rw [List.mem_zipIdx_iff_le_and_getElem?_sub] at h1
    exact ⟨k - off, by omega, h1.2⟩
  · rintro ⟨j, rfl, h⟩
    refine ⟨(v, off + j), ?_, rfl⟩
    rw [List.mem_zipIdx_iff_le_and_getElem?_sub]
    exact ⟨Nat.le_add_right _ _, by simpa using h⟩

/-- Where block `i` starts. -/
def blockOff {α : Type} (B : Nat → List α) (i : Nat) : Nat := ((List.range i).map (fun k => (B k).length)).sum

theorem blockOff_succ {α : Type} (B : Nat → List α) (i : Nat) :
    blockOff B (i + 1) = blockOff B i + (B i).length := by
  unfold blockOff
  rw [List.range_succ, List.map_append, List.sum_append]
  simp

theorem blocks_length {α : Type} (B : Nat → List α) (n : Nat) :
    ((List.range n).flatMap B).length = blockOff B n := by
  rw [List.length_flatMap]; rfl

theorem blockOff_le {α : Type} (B : Nat → List α) {i j : Nat} (h : i ≤ j) : blockOff B i ≤ blockOff B j := by
  induction h with
  | refl => exact Nat.le_refl _
  | step _ ih => rw [blockOff_succ]; omega

theorem blocks_get {α : Type} (B : Nat → List α) {n i j : Nat} (hi : i < n) (hj : j < (B i).length) :
    ((List.range n).flatMap B)[blockOff B i + j]? = (B i)[j]? := by
  induction n with
  | zero => omega
  | succ n ih =>
    rw [List.range_succ, List.flatMap_append]
    rcases Nat.lt_or_ge i n with h | h
    · rw [List.getElem?_append_left, ih h]
      rw [blocks_length]
      have := blockOff_le B (show i + 1 ≤ n by omega)
      rw [blockOff_succ] at this
      omega
    · obtain rfl : i = n := by omega
      rw [List.getElem?_append_right (by rw [blocks_length]; omega), blocks_length]
      simp

theorem blocks_cover {α : Type} (B : Nat → List α) {n p : Nat} (hp : p < blockOff B n) :
    ∃ i j, i < n ∧ j < (B i).length ∧ p = blockOff B i + j := by
  induction n with
  | zero => simp [blockOff] at hp
  | succ n ih =>
    rcases Nat.lt_or_ge p (blockOff B n) with h | h
    · obtain ⟨i, j, h1, h2, h3⟩ := ih h
      exact ⟨i, j, by omega, h2, h3⟩
    · rw [blockOff_succ] at hp
      exact ⟨n, p - blockOff B n, by omega, by omega, by omega⟩

/-- Iteration `i` writes the block `B i`, and blocks follow each other: the result is the blocks in
order, under every schedule. -/
theorem parConcat {α : Type} (s : Sched) (n : Nat) (B : Nat → List α) (W : Nat → Option (List (Nat × α)))
    (hW : ∀ i, i < n → W i = some (blockWrites (blockOff B i) (B i))) :
    (parScatter s n W (Mem.alloc (blockOff B n))).bind Mem.toArray? = some ((List.range n).flatMap B) := by
  obtain ⟨out, o1, o2, o3⟩ := parScatter_buildR s n (blockOff B n) W
    (fun i p v => ∃ j, p = blockOff B i + j ∧ (B i)[j]? = some v)
    (fun p => ((List.range n).flatMap B)[p]?)
    (by
      intro i hi
      exact ⟨_, hW i hi, fun p v => mem_blockWrites _ _ _ _⟩)
    (by
      rintro i hi p v ⟨j, rfl, h⟩
      have hj := (List.getElem?_eq_some_iff.1 h).1
      refine ⟨?_, by rw [blocks_get B hi hj, h]⟩
      have := blockOff_le B (show i + 1 ≤ n by omega)
      rw [blockOff_succ] at this
      omega)
    (by
      intro p hp
      obtain ⟨i, j, h1, h2, h3⟩ := blocks_cover B hp
      exact ⟨i, h1, _, j, h3, List.getElem?_eq_getElem h2⟩)
  rw [o1]
  congr 1
  apply List.ext_getElem?
  intro p
  by_cases hp : p < blockOff B n
  · exact o3 p hp
  · rw [List.getElem?_eq_none (by omega), List.getElem?_eq_none (by rw [blocks_length]; omega)]

/-- The same when the array was filled before. -/
theorem parConcat_onto {α : Type} (s : Sched) (n : Nat) (B : Nat → List α) (base : List α)
    (W : Nat → Option (List (Nat × α))) (hb : base.length = blockOff B n)
    (hW : ∀ i, i < n → W i = some (blockWrites (blockOff B i) (B i))) :
    (parScatter s n W (Mem.ofList base)).bind Mem.toArray? = some ((List.range n).flatMap B) := by
  obtain ⟨out, o1, o2, o3, _⟩ := parScatter_ontoR s n W
    (fun i p v => ∃ j, p = blockOff B i + j ∧ (B i)[j]? = some v)
    (fun p => ((List.range n).flatMap B)[p]?) base
    (by
      intro i hi
      exact ⟨_, hW i hi, fun p v => mem_blockWrites _ _ _ _⟩)
    (by
      rintro i hi p v ⟨j, rfl, h⟩
      have hj := (List.getElem?_eq_some_iff.1 h).1
      refine ⟨?_, by rw [blocks_get B hi hj, h]⟩
      have := blockOff_le B (show i + 1 ≤ n by omega)
      rw [blockOff_succ] at this
      omega)
  rw [o1]
  congr 1
  apply List.ext_getElem?
  intro p
  by_cases hp : p < blockOff B n
  · obtain ⟨i, j, h1, h2, h3⟩ := blocks_cover B hp
    rw [o3 i h1 p _ ⟨j, h3, List.getElem?_eq_getElem h2⟩, h3, blocks_get B h1 h2,
      List.getElem?_eq_getElem h2]
  · rw [List.getElem?_eq_none (by omega), List.getElem?_eq_none (by rw [blocks_length]; omega)]

end OmegaH
