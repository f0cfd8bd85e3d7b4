import Mathlib.Algebra.Order.Ring.Rat
import Mathlib.Tactic.IntervalCases
import Verif.Props.C57Cavity
/-!
# C57: a triangle whose fields are carried over, and what is lost

The triangle has vertices 0, 1, 2 and edges 0 = (0, 1), 1 = (1, 2), 2 = (2, 0). Its edge 0 is split.
-/
namespace OmegaH
open OmegaH.Spec

/-- Integers as the array of a tag. -/
def intData (l : List Int) : List (FieldVal ℚ) := l.map .int

/-- Reals as the array of a tag. -/
def realData (l : List ℚ) : List (FieldVal ℚ) := l.map .real

/-- The triangle, with its classification, coordinates, a metric, lengths, a size, a density and a pointwise field. -/
def oneTriangle : FieldMesh ℚ where
  dim := 2
  tags
    | 0 => [⟨"class_id", .i32, 1, intData [10, 11, 12]⟩, ⟨"coordinates", .f64, 2, realData [0, 0, 2, 0, 0, 2]⟩, ⟨"metric", .f64, 1, realData [1, 1, 1]⟩]
    | 1 => [⟨"class_id", .i32, 1, intData [20, 21, 22]⟩, ⟨"length", .f64, 1, realData [2, 3, 2]⟩]
    | 2 => [⟨"class_id", .i32, 1, intData [30]⟩, ⟨"size", .f64, 1, realData [2]⟩, ⟨"rho", .f64, 1, realData [7]⟩, ⟨"p", .f64, 2, realData [8, 9]⟩,
        ⟨"note", .i8, 1, intData [5]⟩]
    | _ => []
  edgeVerts := [0, 1, 1, 2, 2, 0]
  edgeOffsets _ := [0, 1, 2, 3]
  edgeEnts d := if d = 1 then [0, 1, 2] else [0, 0, 0]

def oneTriangleCounts (d : Nat) : Nat := if d = 2 then 1 else 3

def oneTriangleOpts : XferOpts := fun n => if n = "rho" then some .density else if n = "p" then some .pointwise else none

def oneTriangleMaps (d : Nat) : XferMaps :=
  if d = 0 then ⟨4, [0, 1, 2], [0, 1, 2], [3]⟩ else if d = 1 then ⟨5, [1, 2], [0, 1], [2, 3, 4]⟩ else ⟨2, [], [], [0, 1]⟩

def oneTriangleProds (d : Nat) : List Nat := if d = 0 then [0, 1] else if d = 1 then [0, 3] else [0, 2]

def oneTriangleNear (e d : Nat) : List Nat := if d = 1 then [e] else [0]

theorem oneTriangle_fields : ∀ d, d ≤ 2 → FieldsOk (oneTriangleCounts d) (oneTriangle.tags d) := by
  intro d hd
  interval_cases d <;> exact ⟨by decide, by decide, by decide, by decide, by simp [oneTriangle, intData, realData]⟩

/-- The hypotheses of `C57_refine_partial` about the split hold for the triangle, on each dimension. -/
theorem oneTriangle_split : ∀ d, d ≤ 2 → SplitInput oneTriangle oneTriangleCounts d [0] (oneTriangleProds d) (oneTriangleMaps d) oneTriangleNear := by
  intro d hd
  have hr : ∀ k : Nat, k ≤ 1 → k = 0 ∨ k = 1 := by omega
  refine ⟨oneTriangle_fields, ?_, ?_, ?_, ?_, ?_, ?_⟩
  · interval_cases d <;> exact ⟨by decide, by unfold InRange; decide, by decide⟩
  · intro e he
    rw [List.mem_singleton] at he
    subst he
    exact ⟨0, 1, rfl, rfl, by decide, by decide⟩
  · intro e _
    rfl
  · intro d' e h1 h2 he
    rw [List.mem_singleton] at he
    subst he
    have h2' : d' ≤ 2 := h2
    refine ⟨⟨0, 1, rfl, rfl, by omega, ?_, ?_⟩, ?_⟩
    · interval_cases d' <;> decide
    · interval_cases d' <;> decide
    · interval_cases d' <;> decide
  · refine ⟨by interval_cases d <;> rfl, ?_⟩
    intro k hk
    rcases hr k hk with rfl | rfl <;> interval_cases d <;> rfl
  · interval_cases d <;> rfl

/-- Shapes for the triangle: every new edge has length 1, every element size 1 and quality 1, and nothing is conserved. -/
def oneTriangleShapes : XferShapes ℚ where
  midMetric _ := some [1]
  length l := some (l.map (fun _ => 1))
  size l := some (l.map (fun _ => 1))
  quality l := some (l.map (fun _ => 1))
  conserve := some

/-- The other hypotheses hold too, so `C57_refine_partial` applies on each dimension of the triangle. -/
example (s : Nat → Sched) (d : Nat) (hd : d ≤ 2) :
    ∃ t', transferRefine s oneTriangle oneTriangleOpts oneTriangleShapes d [0] (oneTriangleProds d) (oneTriangleMaps d) [] = some t' ∧
      NewTags ((oneTriangle.tags d).map MeshField.name) t' := by
  obtain ⟨t', h1, h2, _⟩ := C57_refine_partial s (oneTriangle_split d hd) hd (by decide) (opts := oneTriangleOpts) (g := oneTriangleShapes)
    (L := fun _ => 1) (S := fun _ => 1) (Q := fun _ => 1) (fun _ _ _ => rfl) (fun _ _ _ => rfl) (fun _ _ _ => rfl)
    (by
      intro f hf hm r hr
      refine ⟨[1], rfl, ?_⟩
      rcases hm with ⟨_, hk, hn⟩
      simp only [oneTriangle, List.mem_cons, List.not_mem_nil, or_false] at hf
      rcases hf with rfl | rfl | rfl
      · simp at hk
      · simp [oneTriangle] at hn
      · rfl)
    (by
      intro f hf _
      simp only [oneTriangle, List.mem_cons, List.not_mem_nil, or_false] at hf
      rcases hf with rfl | rfl | rfl <;> decide)
    (by
      intro _ f hf hn
      simp only [oneTriangle, List.mem_cons, List.not_mem_nil, or_false] at hf
      rcases hf with rfl | rfl | rfl | rfl | rfl <;> simp at hn)
    (allowed := (oneTriangle.tags d).map MeshField.name) (changed := []) (by interval_cases d <;> decide)
    (fun f hf => List.mem_map_of_mem hf) (fun _ t ht => ⟨t, rfl, ht, fun _ _ => rfl⟩) (t := []) ⟨by simp, by simp⟩
  exact ⟨t', h1, h2⟩

/-- What the triangle's fields become on the vertices, edges and elements. -/
example : transferRefine (fun _ => Sched.reversed) oneTriangle oneTriangleOpts oneTriangleShapes 0 [0] [0, 1] (oneTriangleMaps 0) [] =
    some [⟨"class_id", .i32, 1, intData [10, 11, 12, 20]⟩, ⟨"coordinates", .f64, 2, realData [0, 0, 2, 0, 0, 2, 1, 0]⟩,
      ⟨"metric", .f64, 1, realData [1, 1, 1, 1]⟩] := by
  decide +kernel

example : transferRefine (fun _ => Sched.reversed) oneTriangle oneTriangleOpts oneTriangleShapes 1 [0] [0, 3] (oneTriangleMaps 1) [] =
    some [⟨"class_id", .i32, 1, intData [21, 22, 20, 20, 30]⟩, ⟨"length", .f64, 1, realData [3, 2, 1, 1, 1]⟩] := by
  decide +kernel

example : transferRefine (fun _ => Sched.reversed) oneTriangle oneTriangleOpts oneTriangleShapes 2 [0] [0, 2] (oneTriangleMaps 2) [] =
    some [⟨"class_id", .i32, 1, intData [30, 30]⟩, ⟨"size", .f64, 1, realData [1, 1]⟩, ⟨"rho", .f64, 1, realData [7, 7]⟩,
      ⟨"p", .f64, 2, realData [8, 9, 8, 9]⟩] := by
  decide +kernel
end OmegaH
