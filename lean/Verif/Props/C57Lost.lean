import Verif.Props.C57Examples
/-!
# C57: two triangles that are coarsened and swapped, and what is lost

The triangles are (0, 1, 2) and (0, 2, 3), with edges (0, 1), (1, 2), (2, 3), (3, 0), (0, 2). Coarsening collapses vertex 0
onto vertex 1, swapping replaces the edge (0, 2) by (1, 3).
-/
namespace OmegaH
open OmegaH.Spec

/-- The products of one key are a fan. -/
theorem isFan_one (n : Nat) : IsFan [0, n] := by
  refine ⟨rfl, ?_⟩
  intro i lo hi h1 h2
  match i with
  | 0 =>
    obtain rfl : 0 = lo := by simpa using h1
    omega
  | i + 1 => simp at h2

/-- The two triangles. -/
def twoTriangles : FieldMesh ℚ where
  dim := 2
  tags
    | 0 => [⟨"class_id", .i32, 1, intData [10, 11, 12, 13]⟩, ⟨"coordinates", .f64, 2, realData [0, 0, 1, 0, 1, 1, 0, 1]⟩,
        ⟨"global", .i64, 1, intData [0, 1, 2, 3]⟩, ⟨"note", .i8, 1, intData [1, 2, 3, 4]⟩]
    | 1 => [⟨"class_id", .i32, 1, intData [20, 21, 22, 23, 24]⟩, ⟨"length", .f64, 1, realData [1, 1, 1, 1, 2]⟩]
    | 2 => [⟨"class_id", .i32, 1, intData [30, 31]⟩, ⟨"size", .f64, 1, realData [5, 6]⟩, ⟨"p", .f64, 2, realData [6, 7, 8, 9]⟩,
        ⟨"magnetic face flux", .f64, 1, realData [3, 4]⟩]
    | _ => []
  edgeVerts := [0, 1, 1, 2, 2, 3, 3, 0, 0, 2]
  edgeOffsets _ := [0, 1, 2, 3, 4, 6]
  edgeEnts _ := [0, 0, 1, 1, 0, 1]

def twoTrianglesCounts (d : Nat) : Nat := if d = 0 then 4 else if d = 1 then 5 else 2

theorem twoTriangles_fields : ∀ d, d ≤ 2 → FieldsOk (twoTrianglesCounts d) (twoTriangles.tags d) := by
  intro d hd
  interval_cases d <;> exact ⟨by decide, by decide, by decide, by decide, by simp [twoTriangles, intData, realData]⟩

/-- The second triangle is nearer. -/
def secondNearer (_ e : Nat) : ℚ := if e = 1 then 0 else 1

def collapseMaps (d : Nat) : XferMaps := if d = 1 then ⟨3, [1, 2], [0, 1], [2]⟩ else ⟨1, [], [], [0]⟩

def collapseDoms (d : Nat) : List Nat := if d = 1 then [3] else [1]

def swapMaps (d : Nat) : XferMaps := if d = 1 then ⟨5, [0, 1, 2, 3], [0, 1, 2, 3], [4]⟩ else ⟨2, [], [], [0, 1]⟩

def swapProds (d : Nat) : List Nat := if d = 1 then [0, 1] else [0, 2]

theorem twoTriangles_flux : FluxOk twoTriangles := by
  intro f hf hn
  simp only [twoTriangles, List.mem_cons, List.not_mem_nil, or_false] at hf
  rcases hf with rfl | rfl | rfl | rfl <;> simp at hn ⊢

/-- `C57_coarsen_partial` applies to the edges and the elements of the two triangles. -/
example (s : Nat → Sched) (d : Nat) (h1 : 1 ≤ d) (hd : d ≤ 2) :
    ∃ t', transferCoarsen s twoTriangles oneTriangleOpts oneTriangleShapes secondNearer d [0, 2, 3, 5, 6] [0, 1, 0, 0, 1, 1] [0] [0, 1]
        (collapseDoms d) (collapseMaps d) [] = some t' ∧ NewTags ((twoTriangles.tags d).map MeshField.name) t' := by
  obtain ⟨t', h1, h2, _⟩ := C57_coarsen_partial s (mesh := twoTriangles) (nents := twoTrianglesCounts) (d := d) (dist := secondNearer)
    (opts := oneTriangleOpts) (g := oneTriangleShapes) (near := fun _ => [0, 1]) (vertOffsets := [0, 2, 3, 5, 6]) (vertElems := [0, 1, 0, 0, 1, 1])
    (keys2verts := [0]) (domOffsets := [0, 1]) (doms := collapseDoms d) (x := collapseMaps d) (L := fun _ => 1) (S := fun _ => 1) (Q := fun _ => 1)
    (allowed := (twoTriangles.tags d).map MeshField.name) (changed := []) (t := [])
    (hd0 := by omega) (hd := hd) (hfields := twoTriangles_fields)
    (hx := by interval_cases d <;> exact ⟨by decide, by unfold InRange; decide, by decide⟩)
    (hdoms := by interval_cases d <;> (unfold InRange; decide)) (hcount := by interval_cases d <;> rfl)
    (hpick := by
      intro hdd
      have : d = 2 := hdd
      subst this
      refine ⟨isFan_one _, rfl, rfl, ?_⟩
      intro kd hk
      rw [List.mem_singleton] at hk
      subst hk
      exact ⟨⟨0, 2, rfl, rfl, by omega, by decide, rfl⟩, by decide, by decide⟩)
    (hL := fun _ _ _ => rfl) (hS := fun _ _ _ => rfl) (hQ := fun _ _ _ => rfl) (hF := fun _ => twoTriangles_flux)
    (hal := by interval_cases d <;> decide) (ha := fun f hf => List.mem_map_of_mem hf)
    (hC := fun _ t ht => ⟨t, rfl, ht, fun _ _ => rfl⟩) (ht := ⟨by simp, by simp⟩)
  exact ⟨t', h1, h2⟩

example : transferCoarsen (fun _ => Sched.reversed) twoTriangles oneTriangleOpts oneTriangleShapes secondNearer 2 [0, 2, 3, 5, 6] [0, 1, 0, 0, 1, 1]
    [0] [0, 1] [1] (collapseMaps 2) [] =
    some [⟨"class_id", .i32, 1, intData [31]⟩, ⟨"magnetic face flux", .f64, 1, realData [0]⟩, ⟨"size", .f64, 1, realData [1]⟩,
      ⟨"p", .f64, 2, realData [8, 9]⟩] := by
  decide +kernel

example : transferCoarsen (fun _ => Sched.reversed) twoTriangles oneTriangleOpts oneTriangleShapes secondNearer 1 [] [] [0] [0, 1] [3] (collapseMaps 1) [] =
    some [⟨"class_id", .i32, 1, intData [21, 22, 23]⟩, ⟨"length", .f64, 1, realData [1, 1, 1]⟩] := by
  decide +kernel

/-- `C57_coarsen_verts` applies to the vertices of the two triangles. -/
example (s : Nat → Sched) :
    ∃ t', transferCoarsen s twoTriangles oneTriangleOpts oneTriangleShapes secondNearer 0 [] [] [] [] [] ⟨3, [1, 2, 3], [0, 1, 2], []⟩ [] = some t' ∧
      NewTags ((twoTriangles.tags 0).map MeshField.name) t' := by
  obtain ⟨t', h1, h2, _⟩ := C57_coarsen_verts s (mesh := twoTriangles) (nents := twoTrianglesCounts) (dist := secondNearer)
    (opts := oneTriangleOpts) (g := oneTriangleShapes) (vertOffsets := []) (vertElems := []) (keys2verts := []) (domOffsets := []) (doms := [])
    (x := ⟨3, [1, 2, 3], [0, 1, 2], []⟩) (allowed := (twoTriangles.tags 0).map MeshField.name) (t := [])
    (hD := by decide) (hfields := twoTriangles_fields) (hx := ⟨by decide, by unfold InRange; decide, by decide⟩) (hnone := rfl)
    (hal := by decide) (ha := fun f hf => List.mem_map_of_mem hf) (ht := ⟨by simp, by simp⟩)
  exact ⟨t', h1, h2⟩

/-- `C57_swap_partial` applies to the edges and the elements of the two triangles. -/
example (s : Nat → Sched) (d : Nat) (h1 : 1 ≤ d) (hd : d ≤ 2) :
    ∃ t', transferSwap s twoTriangles oneTriangleOpts oneTriangleShapes secondNearer d [0, 1, 2, 3, 4, 6] [0, 0, 1, 1, 0, 1] [4] (swapProds d)
        (swapMaps d) [] = some t' ∧ NewTags ((twoTriangles.tags d).map MeshField.name) t' := by
  obtain ⟨t', h1, h2, _⟩ := C57_swap_partial s (mesh := twoTriangles) (nents := twoTrianglesCounts) (d := d) (dist := secondNearer)
    (opts := oneTriangleOpts) (g := oneTriangleShapes) (near := fun _ => [0, 1]) (edgeOffsets := [0, 1, 2, 3, 4, 6]) (edgeElems := [0, 0, 1, 1, 0, 1])
    (keys2edges := [4]) (keys2prods := swapProds d) (x := swapMaps d) (L := fun _ => 1) (S := fun _ => 1) (Q := fun _ => 1)
    (allowed := (twoTriangles.tags d).map MeshField.name) (changed := []) (t := [])
    (hd0 := by omega) (hd := hd) (hfields := twoTriangles_fields)
    (hx := by interval_cases d <;> exact ⟨by decide, by unfold InRange; decide, by decide⟩)
    (hkeys := by unfold InRange; decide) (hfan := by interval_cases d <;> exact isFan_one _) (hlen := by interval_cases d <;> rfl)
    (hlast := by interval_cases d <;> rfl)
    (hpick := by
      intro hdd
      have : d = 2 := hdd
      subst this
      refine ⟨isFan_one _, rfl, rfl, ?_⟩
      intro kd hk
      rw [List.mem_singleton] at hk
      subst hk
      exact ⟨⟨4, 6, rfl, rfl, by omega, by decide, rfl⟩, by decide, by decide⟩)
    (hL := fun _ _ _ => rfl) (hS := fun _ _ _ => rfl) (hQ := fun _ _ _ => rfl) (hF := fun _ => twoTriangles_flux)
    (hal := by interval_cases d <;> decide) (ha := fun f hf => List.mem_map_of_mem hf)
    (hC := fun _ t ht => ⟨t, rfl, ht, fun _ _ => rfl⟩) (ht := ⟨by simp, by simp⟩)
  exact ⟨t', h1, h2⟩

example : transferSwap (fun _ => Sched.reversed) twoTriangles oneTriangleOpts oneTriangleShapes secondNearer 2 [0, 1, 2, 3, 4, 6] [0, 0, 1, 1, 0, 1]
    [4] [0, 2] (swapMaps 2) [] =
    some [⟨"class_id", .i32, 1, intData [24, 24]⟩, ⟨"magnetic face flux", .f64, 1, realData [0, 0]⟩, ⟨"size", .f64, 1, realData [1, 1]⟩,
      ⟨"p", .f64, 2, realData [8, 9, 8, 9]⟩] := by
  decide +kernel

/-- `C57_copy` applies to the vertices of the two triangles, and this is the result. -/
example : ∃ t', transferCopy twoTriangles oneTriangleOpts 0 4 [] = some t' ∧ NewTags ((twoTriangles.tags 0).map MeshField.name) t' := by
  obtain ⟨t', h1, h2, _⟩ := C57_copy (mesh := twoTriangles) (opts := oneTriangleOpts) (nents := twoTrianglesCounts) (by decide) twoTriangles_fields
    (allowed := (twoTriangles.tags 0).map MeshField.name) (by decide) (fun f hf => List.mem_map_of_mem hf) (t := []) ⟨by simp, by simp⟩
  exact ⟨t', h1, h2⟩

example : transferCopy twoTriangles oneTriangleOpts 0 4 [] =
    some [⟨"class_id", .i32, 1, intData [10, 11, 12, 13]⟩, ⟨"coordinates", .f64, 2, realData [0, 0, 1, 0, 1, 1, 0, 1]⟩,
      ⟨"global", .i64, 1, intData [0, 1, 2, 3]⟩] := by
  decide +kernel

/-! ## What is lost -/

/-- Two edges in a line, with a pointwise field on the edges. -/
def twoSegments : FieldMesh ℚ where
  dim := 1
  tags
    | 1 => [⟨"p", .f64, 1, realData [6, 7]⟩]
    | _ => []
  edgeVerts := [0, 1, 1, 2]
  edgeOffsets _ := [0, 1, 2]
  edgeEnts _ := [0, 1]

/-- On a mesh of dimension 1 a pointwise field of the elements disappears when the mesh is coarsened, although
refinement keeps it: there are products and nothing else is wrong with the input. -/
theorem C57_pointwise_1d_refuted :
    ∃ (mesh : FieldMesh ℚ) (opts : XferOpts) (g : XferShapes ℚ) (dist : Nat → Nat → ℚ) (nents : Nat → Nat)
      (vertOffsets vertElems keys2verts domOffsets doms : List Nat) (x : XferMaps) (near : Nat → List Nat) (f : MeshField ℚ),
      (∀ d, d ≤ mesh.dim → FieldsOk (nents d) (mesh.tags d)) ∧ NumberingOk (nents mesh.dim) x ∧ InRange doms (nents mesh.dim) ∧
      x.prods2new.length = doms.length ∧ PickInput (nents mesh.dim) vertOffsets vertElems keys2verts domOffsets x near ∧
      f ∈ mesh.tags mesh.dim ∧ PointwiseField opts f ∧
      ∀ s, transferCoarsen s mesh opts g dist mesh.dim vertOffsets vertElems keys2verts domOffsets doms x [] = some [] := by
  refine ⟨twoSegments, oneTriangleOpts, oneTriangleShapes, secondNearer, fun d => if d = 0 then 3 else 2, [0, 1, 3, 4], [0, 0, 1, 1], [1], [0, 1], [1],
    ⟨1, [], [], [0]⟩, fun _ => [0, 1], ⟨"p", .f64, 1, realData [6, 7]⟩, ?_, ⟨by decide, by unfold InRange; decide, by decide⟩,
    by unfold InRange; decide, rfl, ?_, by decide, ⟨by decide, rfl⟩, ?_⟩
  · intro d hd
    have hd' : d ≤ 1 := hd
    interval_cases d <;> exact ⟨by decide, by decide, by decide, by decide, by simp [twoSegments, realData]⟩
  · refine ⟨isFan_one _, rfl, rfl, ?_⟩
    intro kd hk
    rw [List.mem_singleton] at hk
    subst hk
    exact ⟨⟨1, 3, rfl, rfl, by omega, by decide, rfl⟩, by decide, by decide⟩
  · intro s
    rfl

/-- The triangle with a face flux of two components. -/
def wideFlux : FieldMesh ℚ :=
  { oneTriangle with tags := fun d => if d = 2 then [⟨"magnetic face flux", .f64, 2, realData [3, 4]⟩] else [] }

/-- A field called `magnetic face flux` with two components cannot be carried over: refinement fails a check, although
the field is well formed. -/
theorem C57_face_flux_refuted :
    ∃ (mesh : FieldMesh ℚ) (opts : XferOpts) (g : XferShapes ℚ) (nents : Nat → Nat) (keys2edges keys2prods : List Nat) (x : XferMaps)
      (R : Nat → Nat → List Nat), SplitInput mesh nents 2 keys2edges keys2prods x R ∧ mesh.dim = 2 ∧
      ∀ s, transferRefine s mesh opts g 2 keys2edges keys2prods x [] = none := by
  have hs := oneTriangle_split 2 (by decide)
  refine ⟨wideFlux, fun _ => none, oneTriangleShapes, oneTriangleCounts, [0], oneTriangleProds 2, oneTriangleMaps 2, oneTriangleNear,
    ⟨?_, hs.numbering, hs.ends, hs.itself, hs.near, hs.offsets, hs.count⟩, rfl, ?_⟩
  · intro d hd
    have hd' : d ≤ 2 := hd
    interval_cases d <;> exact ⟨by decide, by decide, by decide, by decide, by simp [wideFlux, realData]⟩
  · intro s
    rfl
end OmegaH
