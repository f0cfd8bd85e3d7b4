import Verif.Model.Blocks
import Verif.Model.Element
import Mathlib.Algebra.Order.Field.Basic
/-!
# Generated boxes: src/Omega_h_box.cpp

Local ordinals are unbounded: the code computes them in 32 bits, so the model describes boxes whose arrays fit.
A coordinate is the product `i * dx` computed by the hardware; it is given as the function `c` from the axis
and the grid index `i` to the product. Taking a remainder by zero is undefined (`none`).
-/
namespace OmegaH

/-- `make_1d_box`, connectivity: src/Omega_h_box.cpp:20-26. -/
def box1Conn (s : Sched) (nx : Nat) : Option (List Nat) :=
  (parScatter s nx (fun q =>
    if nx = 0 then none else
      let i := q % nx
      some (blockWrites (q * 2) [i + 0, i + 1])) (Mem.alloc (nx * 2))).bind Mem.toArray?

/-- `make_1d_box`, coordinates: src/Omega_h_box.cpp:11-19. -/
def box1Coords {α : Type} (s : Sched) (c : Nat → Nat → α) (nx : Nat) : Option (List α) :=
  let nv := nx + 1
  (parScatter s nv (fun v => some (blockWrites v [c 0 (v % nv)])) (Mem.alloc nv)).bind Mem.toArray?

/-- `make_2d_box`, connectivity: src/Omega_h_box.cpp:47-56. -/
def box2Conn (s : Sched) (nx ny : Nat) : Option (List Nat) :=
  let nq := nx * ny
  let nvx := nx + 1
  (parScatter s nq (fun q =>
    if nx = 0 then none else
      let i := q % nx
      let j := q / nx
      some (blockWrites (q * 4)
        [(j + 0) * nvx + (i + 0), (j + 0) * nvx + (i + 1), (j + 1) * nvx + (i + 1), (j + 1) * nvx + (i + 0)]))
    (Mem.alloc (nq * 4))).bind Mem.toArray?

/-- `make_2d_box`, coordinates: src/Omega_h_box.cpp:33-46. -/
def box2Coords {α : Type} (s : Sched) (c : Nat → Nat → α) (nx ny : Nat) : Option (List α) :=
  let nvx := nx + 1
  let nvy := ny + 1
  let nv := nvx * nvy
  (parScatter s nv (fun v =>
    let i := v % nvx
    let j := v / nvx
    some (blockWrites (v * 2) [c 0 i, c 1 j])) (Mem.alloc (nv * 2))).bind Mem.toArray?

/-- `make_3d_box`, connectivity: src/Omega_h_box.cpp:84-99. -/
def box3Conn (s : Sched) (nx ny nz : Nat) : Option (List Nat) :=
  let nxy := nx * ny
  let nh := nx * ny * nz
  let nvx := nx + 1
  let nvy := ny + 1
  let nvxy := nvx * nvy
  (parScatter s nh (fun h =>
    if nxy = 0 ∨ nx = 0 then none else
      let ij := h % nxy
      let k := h / nxy
      let i := ij % nx
      let j := ij / nx
      some (blockWrites (h * 8)
        [(k + 0) * nvxy + (j + 0) * nvx + (i + 0), (k + 0) * nvxy + (j + 0) * nvx + (i + 1),
         (k + 0) * nvxy + (j + 1) * nvx + (i + 1), (k + 0) * nvxy + (j + 1) * nvx + (i + 0),
         (k + 1) * nvxy + (j + 0) * nvx + (i + 0), (k + 1) * nvxy + (j + 0) * nvx + (i + 1),
         (k + 1) * nvxy + (j + 1) * nvx + (i + 1), (k + 1) * nvxy + (j + 1) * nvx + (i + 0)]))
    (Mem.alloc (nh * 8))).bind Mem.toArray?

/-- `make_3d_box`, coordinates: src/Omega_h_box.cpp:63-83. -/
def box3Coords {α : Type} (s : Sched) (c : Nat → Nat → α) (nx ny nz : Nat) : Option (List α) :=
  let nvx := nx + 1
  let nvy := ny + 1
  let nvz := nz + 1
  let nvxy := nvx * nvy
  let nv := nvx * nvy * nvz
  (parScatter s nv (fun v =>
    let ij := v % nvxy
    let k := v / nvxy
    let i := ij % nvx
    let j := ij / nvx
    some (blockWrites (v * 3) [c 0 i, c 1 j, c 2 k])) (Mem.alloc (nv * 3))).bind Mem.toArray?

section
variable {K : Type} [Field K] [LinearOrder K] [IsStrictOrderedRing K]

/-- `average_field` for entities with vertices: src/Omega_h_mesh.cpp:822-844, with `a2e` the identity as in
`classify_box` (src/Omega_h_box.cpp:145-146). Sums and quotients are exact, in the ordered field `K`:
rounding is not modelled. Reading beyond an array is undefined (`none`). -/
def averageField (s : Sched) (ncomps degree : Nat) (ev2v : List Nat) (v2x : List K) (na : Nat) : Option (List K) :=
  if ncomps = 0 then none else
  if v2x.length % ncomps ≠ 0 then none else
  (parScatter s na (fun e => ((List.range ncomps).mapM (fun j =>
      ((List.range degree).foldlM (fun comp k =>
          (ev2v[e * degree + k]?).bind (fun v => (v2x[v * ncomps + j]?).map (fun x => comp + x))) (0 : K)).map
        (fun comp => comp / (degree : K)))).map (fun l => blockWrites (e * ncomps) l))
    (Mem.alloc (na * ncomps))).bind Mem.toArray?

/-- The loop over axes for one point: src/Omega_h_box.cpp:119-133. `l` are the sizes and `dists` the
tolerances. -/
def classifyPoint (dim : Nat) (l dists : Nat → K) (x : Nat → K) : Nat × Nat :=
  (List.range dim).reverse.foldl (fun (acc : Nat × Nat) j =>
    let id := acc.1 * 3
    if x j > l j - dists j then (id + 2, acc.2)
    else if x j > dists j then (id + 1, acc.2 + 1)
    else (id, acc.2)) (0, 0)

/-- `classify_box_dim`: src/Omega_h_box.cpp:104-137, the two tags as one array of pairs. Arithmetic is exact in
`K`. `OMEGA_H_CHECK` failing is `none`; so is reading past the end of the coordinates. -/
def classifyBoxDim (s : Sched) (dim : Nat) (centroids : List K) (nel : Nat → Nat) (l : Nat → K) : Option (List (Nat × Nat)) :=
  if dim = 0 then none else
  if centroids.length % dim ≠ 0 then none else
  let npts := centroids.length / dim
  let dists := fun i => l i / ((nel i : K) * 32)
  (parScatter s npts (fun i =>
    ((List.range dim).mapM (fun j => centroids[i * dim + j]?)).map (fun x =>
      -- `x` has `dim` entries: the default is not used
      [(i, classifyPoint dim l dists (fun j => x.getD j 0))])) (Mem.alloc npts)).bind Mem.toArray?

end

/-- `get_box_class_sets`: src/Omega_h_box.cpp:160-184: name, dimension, number. -/
def boxClassSets (dim : Nat) : List (String × Nat × Nat) :=
  match dim with
  | 1 => [("x-", 0, 0), ("body", 1, 1), ("x+", 0, 2)]
  | 2 => [("y-", 1, 1), ("x-", 1, 3), ("body", 2, 4), ("x+", 1, 5), ("y+", 1, 7)]
  | 3 => [("z-", 2, 4), ("y-", 2, 10), ("x-", 2, 12), ("body", 3, 13), ("x+", 2, 14), ("y+", 2, 16), ("z+", 2, 22)]
  | _ => []

end OmegaH
