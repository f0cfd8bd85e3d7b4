import Verif.Model.Res
/-!
# Named data on a mesh: src/Omega_h_mesh.cpp, src/Omega_h_tag.cpp

`V` is the type of the values in arrays. `LO` and `Int` are integers without bound here: sizes of arrays are within range in the program.
`dim_` is set once to 1, 2 or 3 and the numbers of entities are set once while the mesh is built (src/Omega_h_mesh.cpp:78-95), so both are
constant over a history. The entities and their vertices are constant too, so lengths, qualities and sizes are functions of arrays only.
-/
namespace OmegaH

/-- `Omega_h_Type`: src/Omega_h_defines.hpp, src/Omega_h_tag.cpp:46-71. -/
inductive TagType where
  | i8 | i32 | i64 | f64
deriving DecidableEq, Repr

/-- `TagBase` and `Tag<T>`: src/Omega_h_tag.hpp:14-40. `arr` is absent if the array does not exist. -/
structure NamedTag (V : Type) where
  name : String
  ncomps : Int
  typ : TagType
  arr : Option (List V)
deriving DecidableEq

/-- The members of `Mesh` that hold tags: src/Omega_h_mesh.hpp:112-115. `nents` is -1 where entities do not exist. -/
structure TaggedMesh (V : Type) where
  dim : Int
  nents : Nat → Int
  tags : Nat → List (NamedTag V)

variable {V : Type}

/-- `check_dim`: src/Omega_h_mesh.cpp:270-273. -/
def TaggedMesh.checkDim (m : TaggedMesh V) (d : Int) : Res Unit := if 0 ≤ d ∧ d ≤ m.dim then .ok () else .fail

/-- `has_ents`: src/Omega_h_mesh.cpp:223-226. -/
def TaggedMesh.hasEnts (m : TaggedMesh V) (d : Int) : Res Bool :=
  (m.checkDim d).bind (fun _ => .ok (decide (0 ≤ m.nents d.toNat)))

/-- `check_dim2`: src/Omega_h_mesh.cpp:275-278. -/
def TaggedMesh.checkDim2 (m : TaggedMesh V) (d : Int) : Res Unit :=
  (m.checkDim d).bind (fun _ => (m.hasEnts d).bind (fun b => if b then .ok () else .fail))

/-- `tags_[ent_dim]`, an array of four vectors: src/Omega_h_mesh.hpp:115. -/
def TaggedMesh.tagVector (m : TaggedMesh V) (d : Int) : Res (List (NamedTag V)) := if 0 ≤ d ∧ d < 4 then .ok (m.tags d.toNat) else .ub

/-- `tag_iter`: src/Omega_h_mesh.cpp:260-268. -/
def tagIter (ts : List (NamedTag V)) (name : String) : Option Nat := ts.findIdx? (fun t => t.name == name)

/-- Storing a vector of tags. -/
def TaggedMesh.setVector (m : TaggedMesh V) (d : Nat) (ts : List (NamedTag V)) : TaggedMesh V :=
  ⟨m.dim, m.nents, fun d' => if d' = d then ts else m.tags d'⟩

/-- `has_tag`: src/Omega_h_mesh.cpp:205-209. -/
def TaggedMesh.hasTag (m : TaggedMesh V) (d : Int) (name : String) : Res Bool :=
  (m.checkDim d).bind (fun _ => (m.hasEnts d).bind (fun b =>
    if b then (m.tagVector d).bind (fun ts => .ok (tagIter ts name).isSome) else .ok false))

/-- `remove_tag`: src/Omega_h_mesh.cpp:199-203. Erasing at the end of the vector is undefined. -/
def TaggedMesh.removeTag (m : TaggedMesh V) (d : Int) (name : String) : Res (TaggedMesh V) :=
  (m.hasTag d name).bind (fun has =>
    if has then (m.checkDim2 d).bind (fun _ => (m.tagVector d).bind (fun ts =>
      match tagIter ts name with
      | some i => .ok (m.setVector d.toNat (ts.eraseIdx i))
      | none => .ub))
    else .ok m)

/-- `react_to_set_tag`: src/Omega_h_mesh.cpp:167-177. -/
def TaggedMesh.reactToSetTag (m : TaggedMesh V) (d : Int) (name : String) : Res (TaggedMesh V) :=
  (if d = 0 ∧ (name = "coordinates" ∨ name = "metric") then
      (m.removeTag 1 "length").bind (fun m1 => m1.removeTag m1.dim "quality")
    else .ok m).bind (fun m2 =>
      if d = 0 ∧ name = "coordinates" then m2.removeTag m2.dim "size" else .ok m2)

/-- The tag stored in place of the one of the same name, or at the end: src/Omega_h_mesh.cpp:150-154. -/
def putTag (ts : List (NamedTag V)) (t : NamedTag V) : List (NamedTag V) :=
  match tagIter ts t.name with
  | some i => ts.set i t
  | none => ts ++ [t]

/-- The check of the size of an array that exists: src/Omega_h_mesh.cpp:146-147. -/
def arrayFits (size : Int) : Option (List V) → Prop
  | some a => (a.length : Int) = size
  | none => True

instance (size : Int) (arr : Option (List V)) : Decidable (arrayFits size arr) := by
  cases arr <;> unfold arrayFits <;> infer_instance

/-- `add_tag`: src/Omega_h_mesh.cpp:132-159. The constructor of the tag checks the name again: src/Omega_h_tag.cpp:5-8. -/
def TaggedMesh.addTag (m : TaggedMesh V) (d : Int) (name : String) (ncomps : Int) (typ : TagType) (arr : Option (List V)) (internal : Bool) :
    Res (TaggedMesh V) :=
  (m.tagVector d).bind (fun ts =>
    (if (tagIter ts name).isNone then
        (m.checkDim2 d).bind (fun _ =>
          if name ≠ "" ∧ 0 ≤ ncomps ∧ ncomps ≤ 127 ∧ ts.length < 127 then .ok () else .fail)
      else .ok ()).bind (fun _ =>
    if name = "" then .fail
    else if arrayFits (m.nents d.toNat * ncomps) arr then
      let m1 := m.setVector d.toNat (putTag ts ⟨name, ncomps, typ, arr⟩)
      if internal then .ok m1 else m1.reactToSetTag d name
    else .fail))

/-- `nents`: src/Omega_h_mesh.cpp:104-107. -/
def TaggedMesh.numEnts (m : TaggedMesh V) (d : Int) : Res Int := (m.checkDim2 d).bind (fun _ => .ok (m.nents d.toNat))

/-- `divide_no_remainder` of two integers that are not negative: src/Omega_h_scalar.hpp:279-284. -/
def divNoRem (a b : Int) : Res Int := if b ≠ 0 ∧ a % b = 0 then .ok (a / b) else .fail

/-- `set_tag`: src/Omega_h_mesh.cpp:161-165. -/
def TaggedMesh.setTag (m : TaggedMesh V) (d : Int) (name : String) (typ : TagType) (a : List V) (internal : Bool) : Res (TaggedMesh V) :=
  (m.numEnts d).bind (fun n => (divNoRem a.length n).bind (fun ncomps => m.addTag d name ncomps typ (some a) internal))

/-- `get_tagbase`: src/Omega_h_mesh.cpp:179-187. -/
def TaggedMesh.getTagBase (m : TaggedMesh V) (d : Int) (name : String) : Res (NamedTag V) :=
  (m.checkDim2 d).bind (fun _ => (m.tagVector d).bind (fun ts =>
    match tagIter ts name with
    | some i => Res.ofOption ts[i]?
    | none => .fail))

/-- `get_array`: src/Omega_h_mesh.cpp:189-197, src/Omega_h_tag.cpp:18-28. -/
def TaggedMesh.getArray (m : TaggedMesh V) (typ : TagType) (d : Int) (name : String) : Res (Option (List V)) :=
  (m.getTagBase d name).bind (fun t => if t.typ = typ then .ok t.arr else .fail)

/-- `ntags`: src/Omega_h_mesh.cpp:211-214. -/
def TaggedMesh.ntags (m : TaggedMesh V) (d : Int) : Res Int :=
  (m.checkDim2 d).bind (fun _ => (m.tagVector d).bind (fun ts => .ok (ts.length : Int)))

/-- `get_tag` by position: src/Omega_h_mesh.cpp:216-221. -/
def TaggedMesh.getTagAt (m : TaggedMesh V) (d i : Int) : Res (NamedTag V) :=
  (m.checkDim2 d).bind (fun _ =>
    if 0 ≤ i then (m.ntags d).bind (fun n =>
      if i ≤ n then (m.tagVector d).bind (fun ts => Res.ofOption ts[i.toNat]?) else .fail)
    else .fail)

/-- What is measured: lengths and qualities from coordinates and metric, sizes from coordinates. Absent if the arrays do not fit the
mesh: src/Omega_h_shape.cpp:22-49 and 51-89, src/Omega_h_quality.cpp:7-51. -/
structure TagMeasures (V : Type) where
  lengths : List V → List V → Option (List V)
  qualities : List V → List V → Option (List V)
  sizes : List V → Option (List V)

/-- Reading the values of an array that does not exist. -/
def existing (a : Option (List V)) : Res (List V) := Res.ofOption a

/-- A value that is asked for and measured only if it is not stored: src/Omega_h_mesh.cpp:374-396. -/
def TaggedMesh.askMeasured (m : TaggedMesh V) (d : Int) (name : String) (measure : TaggedMesh V → Res (List V)) :
    Res (TaggedMesh V × Option (List V)) :=
  (m.hasTag d name).bind (fun has =>
    (if has then .ok m else (measure m).bind (fun a => m.addTag d name 1 .f64 (some a) false)).bind (fun m1 =>
      (m1.getArray .f64 d name).bind (fun a => .ok (m1, a))))

/-- A measure that failed has ended the program: `OMEGA_H_NORETURN`. -/
def measured : Option (List V) → Res (List V)
  | some a => .ok a
  | none => .fail

/-- `measure_edges_metric`, `measure_qualities`: the metric is looked up first, arrays are read only if there is anything to measure, and
the coordinates only if `coordsToo`: src/Omega_h_shape.cpp:22-24, 47-49, src/Omega_h_shape.hpp:150-151, src/Omega_h_quality.cpp:22-24, 36-38,
44-51. -/
def TaggedMesh.measureMetric (f : List V → List V → Option (List V)) (coordsToo : Bool) (d : Int) (m : TaggedMesh V) : Res (List V) :=
  (m.getArray .f64 0 "metric").bind (fun metric => (m.numEnts d).bind (fun n =>
    if n = 0 then .ok []
    else (existing metric).bind (fun metric =>
      if coordsToo then (m.getArray .f64 0 "coordinates").bind (fun coords => (existing coords).bind (fun coords => measured (f coords metric)))
      else measured (f [] metric))))

/-- `ask_lengths`: src/Omega_h_mesh.cpp:374-380. -/
def TaggedMesh.askLengths (M : TagMeasures V) (m : TaggedMesh V) : Res (TaggedMesh V × Option (List V)) :=
  m.askMeasured 1 "length" (TaggedMesh.measureMetric M.lengths true 1)

/-- `ask_qualities`: src/Omega_h_mesh.cpp:382-388. In 1D the coordinates are not used: src/Omega_h_quality.cpp:36-38. -/
def TaggedMesh.askQualities (M : TagMeasures V) (m : TaggedMesh V) : Res (TaggedMesh V × Option (List V)) :=
  m.askMeasured m.dim "quality" (TaggedMesh.measureMetric M.qualities (decide (m.dim ≠ 1)) m.dim)

/-- `measure_elements_real`: src/Omega_h_shape.cpp:83-89. -/
def TaggedMesh.measureSizes (M : TagMeasures V) (m : TaggedMesh V) : Res (List V) :=
  (m.numEnts m.dim).bind (fun n => (m.getArray .f64 0 "coordinates").bind (fun coords =>
    if n = 0 then .ok [] else (existing coords).bind (fun coords => measured (M.sizes coords))))

/-- `ask_sizes`: src/Omega_h_mesh.cpp:390-396. -/
def TaggedMesh.askSizes (M : TagMeasures V) (m : TaggedMesh V) : Res (TaggedMesh V × Option (List V)) :=
  m.askMeasured m.dim "size" (TaggedMesh.measureSizes M)

/-- The calls that change a mesh's tags. -/
inductive TagCall (V : Type) where
  | add (d : Int) (name : String) (ncomps : Int) (typ : TagType) (arr : Option (List V)) (internal : Bool)
  | set (d : Int) (name : String) (typ : TagType) (arr : List V) (internal : Bool)
  | remove (d : Int) (name : String)
  | askLengths
  | askQualities
  | askSizes

/-- One call. -/
def TaggedMesh.call (M : TagMeasures V) (m : TaggedMesh V) : TagCall V → Res (TaggedMesh V)
  | .add d name ncomps typ arr internal => m.addTag d name ncomps typ arr internal
  | .set d name typ arr internal => m.setTag d name typ arr internal
  | .remove d name => m.removeTag d name
  | .askLengths => (m.askLengths M).bind (fun x => .ok x.1)
  | .askQualities => (m.askQualities M).bind (fun x => .ok x.1)
  | .askSizes => (m.askSizes M).bind (fun x => .ok x.1)

/-- Calls one after another. -/
def TaggedMesh.calls (M : TagMeasures V) : TaggedMesh V → List (TagCall V) → Res (TaggedMesh V)
  | m, [] => .ok m
  | m, c :: cs => (m.call M c).bind (fun m1 => m1.calls M cs)

end OmegaH
