import Verif.Model.Xml
import Verif.Model.FileDir
import Verif.Model.Base64
import Verif.Model.Blocks
import Verif.Model.Mem
import Verif.Model.Sort

/-!
# VTK files: src/Omega_h_vtk.cpp

Bytes, values, tags and parsers are those of `Model/File.lean`. `z` is the compression library if the program is built with one, `little` says whether the CPU is
little-endian, `charSigned` whether `char` is signed there. `sch` gives the schedule of the loop that resizes the array of a given name.
-/

namespace OmegaH

/-- A number in decimal notation, as `<<` writes it. -/
def intText (n : Int) : FileBytes := if n < 0 then ch '-' :: decimal n.natAbs else decimal n.toNat

/-- An operation that does not read. -/
def liftRes {α : Type} (r : Res α) : FileParser α := fun s => r.bind fun a => .ok (a, s)

/-- `describe_array`: src/Omega_h_vtk.cpp:92-98. -/
def describeArray (type name : FileBytes) (ncomps : Int) : FileBytes :=
  str "type=\"" ++ type ++ str "\"" ++ (str " Name=\"" ++ name ++ str "\"") ++ (str " NumberOfComponents=\"" ++ intText ncomps ++ str "\"") ++ str " format=\"binary\""

/-- `base64::encode` on bytes: see `base64Encode`. -/
def encodeBytes (b : FileBytes) : Res FileBytes := Res.ofOption ((base64Encode (b.map BitVec.toNat)).map (List.map (BitVec.ofNat 8)))

/-- The line with the data of an array: src/Omega_h_vtk.cpp:136-172. The length of the header of compressed data is in units of blocks, of which there is one. -/
def vtkWriteData (z : Option Zlib) (little compress : Bool) {w : Nat} (a : List (BitVec w)) : Res FileBytes :=
  let uncompressed := a.flatMap (fun v => memBytes little v)
  let nbytes := BitVec.ofNat 64 (w / 8 * a.length)
  if compress then
    match z with
    | none => .fail
    | some z =>
      match z.compress uncompressed with
      | none => .fail
      | some c => wlist [encodeBytes ([1#64, nbytes, nbytes, BitVec.ofNat 64 c.length].flatMap (fun v => memBytes little v)), encodeBytes c, .ok (str "\n")]
  else wlist [encodeBytes (memBytes little nbytes), encodeBytes uncompressed, .ok (str "\n")]

/-- `write_array`: src/Omega_h_vtk.cpp:122-179. -/
def vtkWriteArray (z : Option Zlib) (little compress : Bool) (type name : FileBytes) (ncomps : Int) {w : Nat} (array : Option (List (BitVec w))) : Res FileBytes :=
  match array with
  | none => .fail
  | some a => wlist [.ok (str "<DataArray " ++ describeArray type name ncomps ++ str ">\n"), vtkWriteData z little compress a, .ok (str "</DataArray>\n")]

/-- `std::getline`: the line and what follows it. -/
def getLine (s : FileBytes) : FileBytes × FileBytes := (s.takeWhile (fun c => decide (c ≠ ch '\n')), (s.dropWhile (fun c => decide (c ≠ ch '\n'))).drop 1)

/-- `xml_lite::read_tag`: src/Omega_h_xml_lite.cpp:102-109. -/
def readXml : FileParser XmlTag := fun s =>
  match parseTag (getLine s).1 with
  | none => .fail
  | some t => .ok (t, (getLine s).2)

/-- `tag.attribs[name]`, which is the empty string if there is no such attribute. -/
def XmlTag.attr (t : XmlTag) (name : FileBytes) : FileBytes :=
  match (t.attribs.find? (fun a => decide (a.1 = name))).map Prod.snd with
  | some v => v
  | none => []

/-- The types of tags: src/Omega_h_defines.hpp:29-35. -/
inductive VtkType where
  | i8
  | i32
  | i64
  | f64
deriving DecidableEq, Repr

def VtkType.text : VtkType → FileBytes
  | .i8 => str "Int8"
  | .i32 => str "Int32"
  | .i64 => str "Int64"
  | .f64 => str "Float64"

/-- `std::stoi`; it throws if there is no number: see `parseI32`. -/
def readStoi (s : FileBytes) : FileParser Int :=
  match parseI32 s with
  | none => fun _ => .fail
  | some n => .give n

/-- `read_array_start_tag`: src/Omega_h_vtk.cpp:100-120. None if there is no array any more. The type stays `I8` if the name is none of the four: :280. -/
def readArrayStart : FileParser (Option (VtkType × FileBytes × Int)) :=
  readXml.andThen fun st =>
  if st.name ≠ str "DataArray" ∨ st.type ≠ .start then
    (FileParser.check (decide (st.type = .end_))).andThen fun _ => .give none
  else
    let type : VtkType :=
      if st.attr (str "type") = str "Int8" then .i8 else if st.attr (str "type") = str "Int32" then .i32
      else if st.attr (str "type") = str "Int64" then .i64 else if st.attr (str "type") = str "Float64" then .f64 else .i8
    (readStoi (st.attr (str "NumberOfComponents"))).andThen fun ncomps =>
    (FileParser.check (decide (st.attr (str "format") = str "binary"))).andThen fun _ => .give (some (type, st.attr (str "Name"), ncomps))

/-- `base64::read_encoded` on a stream of bytes: see `readEncoded`. -/
def readEncodedBytes : FileParser (List Nat) := fun s => .ok ((readEncoded (s.map BitVec.toNat)).1, (readEncoded (s.map BitVec.toNat)).2.map (BitVec.ofNat 8))

/-- `base64::decode` of a part of the text. -/
def decodeBytes (charSigned : Bool) (text : List Nat) (size : Nat) : FileParser FileBytes := fun s =>
  (base64Decode charSigned text size).bind fun l => .ok (l.map (BitVec.ofNat 8), s)

/-- `std::string::substr(pos)`, which throws if the position is past the end. -/
def substrFrom (text : List Nat) (pos : Nat) : FileParser (List Nat) := fun s => if pos ≤ text.length then .ok (text.drop pos, s) else .fail

/-- The value with the given bytes in memory, with its bytes swapped if this is wanted: `swap_bytes`, src/Omega_h_file.cpp:97-104, src/Omega_h_vtk.cpp:244. -/
def rawValue (little swap : Bool) (w : Nat) (l : FileBytes) : BitVec w := if swap then swapValue w (ofMemBytes little w l) else ofMemBytes little w l

def rawValues (little swap : Bool) (w : Nat) : Nat → FileBytes → List (BitVec w)
  | 0, _ => []
  | n + 1, l => rawValue little swap w (l.take (w / 8)) :: rawValues little swap w n (l.drop (w / 8))

/-- `read_array`: src/Omega_h_vtk.cpp:181-245. The sizes are compared as unsigned numbers; there is no array of negative size. -/
def vtkReadArray (z : Option Zlib) (little charSigned : Bool) (size : Int) (swap isCompressed : Bool) (w : Nat) : FileParser (List (BitVec w)) :=
  readEncodedBytes.andThen fun both =>
  (if isCompressed then
    (FileParser.check z.isSome).andThen fun _ =>
    (decodeBytes charSigned (both.take (encodedSize 32)) 32).andThen fun header =>
    (substrFrom both (encodedSize 32)).andThen fun encoded =>
    .give (rawValue little swap 64 ((header.drop 16).take 8), rawValue little swap 64 ((header.drop 24).take 8), encoded)
  else
    (decodeBytes charSigned (both.take (encodedSize 8)) 8).andThen fun header =>
    (substrFrom both (encodedSize 8)).andThen fun encoded =>
    .give (rawValue little swap 64 header, rawValue little swap 64 header, encoded)).andThen fun (uncompressedBytes, compressedBytes, encoded) =>
  (FileParser.check (decide (uncompressedBytes = BitVec.ofInt 64 size * BitVec.ofNat 64 (w / 8)))).andThen fun _ =>
  if size < 0 then fun _ => .ub
  else if isCompressed then
    (decodeBytes charSigned encoded compressedBytes.toNat).andThen fun c =>
    match z.bind (fun z => z.uncompress c uncompressedBytes.toNat) with
    | none => fun _ => .fail
    | some l => (FileParser.check (decide (l.length = uncompressedBytes.toNat))).andThen fun _ => .give (rawValues little swap w size.toNat l)
  else
    (decodeBytes charSigned encoded uncompressedBytes.toNat).andThen fun l => .give (rawValues little swap w size.toNat l)

/-- `resize_vectors`: src/Omega_h_vector.cpp:66-81. The new size must be an `LO`. -/
def resizeVectors (s : Sched) (a : List (BitVec 64)) (oldDim newDim : Nat) : Res (List (BitVec 64)) :=
  if oldDim = newDim then .ok a
  else if a.length % oldDim ≠ 0 then .fail
  else if 2 ^ 31 ≤ a.length / oldDim * newDim then .ub
  else Res.ofOption ((parScatter s (a.length / oldDim)
    (fun i => ((List.range (min oldDim newDim)).mapM (fun j => a[i * oldDim + j]?)).map
      (fun l => blockWrites (i * newDim) (l ++ List.replicate (newDim - min oldDim newDim) 0#64)))
    (Mem.alloc (a.length / oldDim * newDim))).bind Mem.toArray?)

/-- `symm_ncomps`: src/Omega_h_matrix.hpp:381-383. -/
def symmNcomps (dim : Nat) : Nat := (dim + 1) * dim / 2

/-- The position of an entry in the vector of a symmetric tensor: `vector2symm`, src/Omega_h_matrix.hpp:399-406, 419-431. -/
def symmPos (dim j k : Nat) : Nat :=
  if dim = 2 then (if j = 0 ∧ k = 0 then 0 else if j = 1 ∧ k = 1 then 1 else 2)
  else if j = k then j else if j + k = 1 then 3 else if j + k = 3 then 4 else 5

/-- The entries that are stored, in their order: `symm2vector`, src/Omega_h_matrix.hpp:391-397, 408-417. -/
def symmEntries (dim : Nat) : List (Nat × Nat) := if dim = 2 then [(0, 0), (1, 1), (1, 0)] else [(0, 0), (1, 1), (2, 2), (1, 0), (2, 1), (2, 0)]

/-- `resize_symms` from 2 to 3 or from 3 to 2 dimensions: src/Omega_h_matrix.cpp:15-39. -/
def resizeSymms (s : Sched) (a : List (BitVec 64)) (oldDim newDim : Nat) : Res (List (BitVec 64)) :=
  if a.length % symmNcomps oldDim ≠ 0 then .fail
  else if 2 ^ 31 ≤ a.length / symmNcomps oldDim * symmNcomps newDim then .ub
  else Res.ofOption ((parScatter s (a.length / symmNcomps oldDim)
    (fun i => ((symmEntries newDim).mapM (fun e =>
        if e.1 < min oldDim newDim ∧ e.2 < min oldDim newDim then a[i * symmNcomps oldDim + symmPos oldDim e.1 e.2]? else some 0#64)).map
      (fun l => blockWrites (i * symmNcomps newDim) l))
    (Mem.alloc (a.length / symmNcomps oldDim * symmNcomps newDim))).bind Mem.toArray?)

/-- `write_tag`: src/Omega_h_vtk.cpp:247-282. The size of an array that does not exist is undefined. -/
def vtkWriteTag (sch : FileBytes → Sched) (z : Option Zlib) (little compress : Bool) (dim : Nat) (t : FileTag) : Res FileBytes :=
  match t.data with
  | .i8 a => vtkWriteArray z little compress (str "Int8") t.name t.ncomps a
  | .i32 a => vtkWriteArray z little compress (str "Int32") t.name t.ncomps a
  | .i64 a => vtkWriteArray z little compress (str "Int64") t.name t.ncomps a
  | .f64 a =>
    if dim = 2 then
      if t.ncomps = 2 then
        match a with
        | none => .ub
        | some a => (resizeVectors (sch t.name) a 2 3).bind fun b => vtkWriteArray z little compress (str "Float64") t.name 3 (some b)
      else if t.ncomps = 3 then
        match a with
        | none => .ub
        | some a => (resizeSymms (sch t.name) a 2 3).bind fun b => vtkWriteArray z little compress (str "Float64") t.name 6 (some b)
      else vtkWriteArray z little compress (str "Float64") t.name t.ncomps a
    else vtkWriteArray z little compress (str "Float64") t.name t.ncomps a

/-- `remove_tag`: src/Omega_h_mesh.cpp:199-203. -/
def removeTag (name : FileBytes) (tags : List FileTag) : List FileTag := tags.filter (fun t => decide (t.name ≠ name))

/-- The array of a tag, with the resizing of `write_tag` undone, and the number of components: src/Omega_h_vtk.cpp:297-320. -/
def vtkReadData (sch : FileBytes → Sched) (z : Option Zlib) (little charSigned swap isCompressed : Bool) (dim : Nat) (type : VtkType) (name : FileBytes)
    (ncomps size : Int) : FileParser (Int × TagData) :=
  match type with
  | .i8 => (vtkReadArray z little charSigned size swap isCompressed 8).andThen fun a => .give (ncomps, .i8 (some a))
  | .i32 => (vtkReadArray z little charSigned size swap isCompressed 32).andThen fun a => .give (ncomps, .i32 (some a))
  | .i64 => (vtkReadArray z little charSigned size swap isCompressed 64).andThen fun a => .give (ncomps, .i64 (some a))
  | .f64 => (vtkReadArray z little charSigned size swap isCompressed 64).andThen fun a =>
    if dim = 2 ∧ ncomps = 3 then (liftRes (resizeVectors (sch name) a 3 2)).andThen fun b => .give (2, .f64 (some b))
    else if dim = 2 ∧ ncomps = 6 then (liftRes (resizeSymms (sch name) a 3 2)).andThen fun b => .give (3, .f64 (some b))
    else .give (ncomps, .f64 (some a))

/-- The end tag of an array: src/Omega_h_vtk.cpp:322-324, 334-336. -/
def readArrayEnd : FileParser Unit :=
  readXml.andThen fun et => FileParser.check (decide (et.name = str "DataArray" ∧ et.type = .end_))

/-- `read_tag`: src/Omega_h_vtk.cpp:284-326. None if there is no tag any more. The number of values is an `LO`. -/
def vtkReadTag (sch : FileBytes → Sched) (z : Option Zlib) (little charSigned swap isCompressed : Bool) (dim : Nat) (nents : Int) (tags : List FileTag) :
    FileParser (Option (List FileTag)) :=
  readArrayStart.andThen fun start =>
  match start with
  | none => .give none
  | some (type, name, ncomps) =>
    if nents * ncomps < -2147483648 ∨ 2147483647 < nents * ncomps then fun _ => .ub
    else
      (vtkReadData sch z little charSigned swap isCompressed dim type name ncomps (nents * ncomps)).andThen fun (n, data) =>
      (liftRes (addTag nents (removeTag name tags) ⟨name, n, data⟩)).andThen fun ts =>
      readArrayEnd.andThen fun _ => .give (some ts)

/-- `while (read_tag(…));`. Every tag takes at least one byte of the stream, so that `fuel` is enough if it is more than the number of bytes. -/
def vtkReadTags (sch : FileBytes → Sched) (z : Option Zlib) (little charSigned swap isCompressed : Bool) (dim : Nat) (nents : Int) :
    Nat → List FileTag → FileParser (List FileTag)
  | 0, _ => fun _ => .fail
  | fuel + 1, tags => (vtkReadTag sch z little charSigned swap isCompressed dim nents tags).andThen fun r =>
    match r with
    | none => .give tags
    | some ts => vtkReadTags sch z little charSigned swap isCompressed dim nents fuel ts

def readTagLoop (sch : FileBytes → Sched) (z : Option Zlib) (little charSigned swap isCompressed : Bool) (dim : Nat) (nents : Int) (tags : List FileTag) :
    FileParser (List FileTag) := fun s => vtkReadTags sch z little charSigned swap isCompressed dim nents (s.length + 1) tags s

/-- `read_known_array`: src/Omega_h_vtk.cpp:328-338. The number of values is an `LO`. -/
def vtkReadKnown (z : Option Zlib) (little charSigned swap isCompressed : Bool) (type : VtkType) (name : FileBytes) (nents ncomps : Int) (w : Nat) :
    FileParser (List (BitVec w)) :=
  readXml.andThen fun st =>
  (FileParser.check (decide (st.name = str "DataArray" ∧ st.type = .start ∧ st.attr (str "Name") = name ∧ st.attr (str "type") = type.text ∧
    st.attr (str "NumberOfComponents") = intText ncomps))).andThen fun _ =>
  if nents * ncomps < -2147483648 ∨ 2147483647 < nents * ncomps then fun _ => .ub
  else (vtkReadArray z little charSigned (nents * ncomps) swap isCompressed w).andThen fun a => readArrayEnd.andThen fun _ => .give a

/-- What of a mesh is written to a VTK file: the cells as lists of vertices, and the tags of vertices and cells. On more than one rank there are the ranks of the
owners; `ghosted` says how the mesh is distributed. -/
structure VtkMesh where
  family : Family
  dim : Nat
  commSize : Nat
  ghosted : Bool
  nverts : Nat
  ncells : Nat
  conn : List (BitVec 32)
  vertTags : List FileTag
  cellTags : List FileTag
  vertOwners : List (BitVec 32)
  cellOwners : List (BitVec 32)
  cellOwned : List (BitVec 8)
deriving DecidableEq

/-- `vtk_type`: src/Omega_h_vtk.cpp:357-368. -/
def vtkTypeCode (family : Family) (dim : Nat) : BitVec 8 :=
  match family with
  | .simplex => if dim = 3 then 10#8 else if dim = 2 then 5#8 else if dim = 1 then 3#8 else if dim = 0 then 1#8 else 255#8
  | .hypercube => if dim = 3 then 12#8 else if dim = 2 then 9#8 else if dim = 1 then 3#8 else if dim = 0 then 1#8 else 255#8

/-- `get_tag`: src/Omega_h_mesh.cpp:189-197. -/
def findTag (name : FileBytes) (tags : List FileTag) : Option FileTag := tags.find? (fun t => decide (t.name = name))

def specialNames : List FileBytes := [str "local", str "owner", str "vtkGhostType"]

/-- `verify_vtk_tagset`: src/Omega_h_vtk.cpp:560-580. -/
def verifyTags (tags : List FileTag) (set : List FileBytes) : Res FileBytes :=
  if set.all (fun n => decide (n ∈ specialNames) || (findTag n tags).isSome) then .ok [] else .fail

/-- `write_connectivity`: src/Omega_h_vtk.cpp:396-409. `degree` is the number of vertices of a cell. -/
def writeConn (z : Option Zlib) (little compress : Bool) (m : VtkMesh) (degree : Nat) : Res FileBytes :=
  wlist [vtkWriteArray z little compress (str "Int8") (str "types") 1 (some (List.replicate m.ncells (vtkTypeCode m.family m.dim))),
    vtkWriteArray z little compress (str "Int32") (str "connectivity") 1 (some m.conn),
    vtkWriteArray z little compress (str "Int32") (str "offsets") 1 (some ((List.range m.ncells).map fun i => BitVec.ofNat 32 (degree + i * degree)))]

/-- The tag "global", which goes first: src/Omega_h_vtk.cpp:619-621, 633-637. It must hold `GO`s. -/
def writeGlobal (sch : FileBytes → Sched) (z : Option Zlib) (little compress : Bool) (dim : Nat) (tags : List FileTag) (set : List FileBytes) : Res FileBytes :=
  match findTag (str "global") tags with
  | none => .ok []
  | some t =>
    if str "global" ∈ set then
      match t.data with
      | .i64 _ => vtkWriteTag sch z little compress dim t
      | _ => .fail
    else .ok []

/-- `write_locals_and_owners`: src/Omega_h_vtk.cpp:450-458, 470-480. -/
def writeLocals (z : Option Zlib) (little compress : Bool) (commSize nents : Nat) (owners : List (BitVec 32)) (set : List FileBytes) : Res FileBytes :=
  wlist [if str "local" ∈ set then vtkWriteArray z little compress (str "Int32") (str "local") 1 (some ((List.range nents).map (BitVec.ofNat 32))) else .ok [],
    if str "owner" ∈ set ∧ commSize ≠ 1 then vtkWriteArray z little compress (str "Int32") (str "owner") 1 (some owners) else .ok []]

/-- The loop over the other tags: src/Omega_h_vtk.cpp:623-629, 642-647. `but` are the names left out. -/
def writeOthers (sch : FileBytes → Sched) (z : Option Zlib) (little compress : Bool) (dim : Nat) (tags : List FileTag) (set but : List FileBytes) : Res FileBytes :=
  wlist ((tags.filter (fun t => decide (t.name ∉ but ∧ t.name ∈ set))).map (vtkWriteTag sch z little compress dim))

/-- `write_vtkfile_vtu_start_tag`: src/Omega_h_vtk.cpp:582-602. -/
def vtuStart (z : Option Zlib) (little compress : Bool) : Res FileBytes :=
  if compress && z.isNone then .fail
  else .ok (str "<VTKFile type=\"UnstructuredGrid\" byte_order=\"" ++ (if little then str "LittleEndian" else str "BigEndian") ++ str "\" header_type=\"" ++ str "UInt64" ++
    str "\"" ++ (if compress then str " compressor=\"vtkZLibDataCompressor\"" else []) ++ str ">\n")

/-- The coordinates: src/Omega_h_vtk.cpp:614-616, with `coords` (src/Omega_h_mesh.cpp). They must be `Real`s, and the size of an array that does not exist is
undefined. In three dimensions nothing is resized. -/
def writeCoords (sch : FileBytes → Sched) (z : Option Zlib) (little compress : Bool) (m : VtkMesh) : Res FileBytes :=
  match findTag (str "coordinates") m.vertTags with
  | none => .fail
  | some t =>
    match t.data with
    | .f64 none => if m.dim = 3 then .fail else .ub
    | .f64 (some a) => (resizeVectors (sch (str "coordinates")) a m.dim 3).bind fun b => vtkWriteArray z little compress (str "Float64") (str "coordinates") 3 (some b)
    | _ => .fail

/-- `write_vtu` to a stream, of the cells of highest dimension: src/Omega_h_vtk.cpp:604-652. `vset` and `cset` are the names of the tags to write. `owned` is 1 for a
cell that is owned: `each_eq_to(owned, 0)`, :460-468. -/
def writeVtu (sch : FileBytes → Sched) (z : Option Zlib) (little compress : Bool) (m : VtkMesh) (vset cset : List FileBytes) : Res FileBytes :=
  wlist [verifyTags m.vertTags vset, verifyTags m.cellTags cset,
    vtuStart z little compress,
    .ok (str "<UnstructuredGrid>\n"),
    .ok (str "<Piece NumberOfPoints=\"" ++ intText m.nverts ++ str "\"" ++ (str " NumberOfCells=\"" ++ intText m.ncells ++ str "\">\n")),
    .ok (str "<Cells>\n"),
    writeConn z little compress m (elementDegree m.family m.dim 0).toNat,
    .ok (str "</Cells>\n"),
    .ok (str "<Points>\n"),
    writeCoords sch z little compress m,
    .ok (str "</Points>\n"),
    .ok (str "<PointData>\n"),
    writeGlobal sch z little compress m.dim m.vertTags vset,
    writeLocals z little compress m.commSize m.nverts m.vertOwners vset,
    writeOthers sch z little compress m.dim m.vertTags vset [str "coordinates", str "global"],
    .ok (str "</PointData>\n"),
    .ok (str "<CellData>\n"),
    writeGlobal sch z little compress m.dim m.cellTags cset,
    writeLocals z little compress m.commSize m.ncells m.cellOwners cset,
    if str "vtkGhostType" ∈ cset ∧ m.commSize ≠ 1 then
      vtkWriteArray z little compress (str "UInt8") (str "vtkGhostType") 1 (some (m.cellOwned.map fun o => if o = 0#8 then 1#8 else 0#8)) else .ok [],
    writeOthers sch z little compress m.dim m.cellTags cset [str "global"],
    .ok (str "</CellData>\n"),
    .ok (str "</Piece>\n"),
    .ok (str "</UnstructuredGrid>\n"),
    .ok (str "</VTKFile>\n")]

/-- `read_vtkfile_vtu_start_tag`: whether bytes have to be swapped and whether arrays are compressed, src/Omega_h_vtk.cpp:370-381. -/
def readVtuStart (little : Bool) : FileParser (Bool × Bool) :=
  readXml.andThen fun st =>
  (FileParser.check (decide (st.name = str "VTKFile" ∧ st.attr (str "header_type") = str "UInt64"))).andThen fun _ =>
  .give (decide (st.attr (str "byte_order") = str "LittleEndian") != little, (st.attribs.find? (fun a => decide (a.1 = str "compressor"))).isSome)

/-- A tag of which only the name is looked at: src/Omega_h_vtk.cpp:666-667 and so on. -/
def readNamed (name : FileBytes) : FileParser Unit := readXml.andThen fun t => FileParser.check (decide (t.name = name))

/-- `read_piece_start_tag`: src/Omega_h_vtk.cpp:389-394. -/
def readPiece : FileParser (Int × Int) :=
  readXml.andThen fun st =>
  (FileParser.check (decide (st.name = str "Piece"))).andThen fun _ =>
  (readStoi (st.attr (str "NumberOfPoints"))).andThen fun nverts =>
  (readStoi (st.attr (str "NumberOfCells"))).andThen fun ncells => .give (nverts, ncells)

/-- Family and dimension that belong to the type of the first cell: src/Omega_h_vtk.cpp:417-440. Without cells, simplices of dimension -1. -/
def cellType (types : List (BitVec 8)) : Res (Nat × Int) :=
  match types with
  | [] => .ok (0, -1)
  | t :: _ =>
    if t = 3#8 then .ok (0, 1) else if t = 9#8 then .ok (1, 2) else if t = 12#8 then .ok (1, 3) else if t = 5#8 then .ok (0, 2)
    else if t = 10#8 then .ok (0, 3) else .fail

/-- `read_connectivity`: src/Omega_h_vtk.cpp:411-453. `others` are the greatest family code and dimension found on the other ranks. Without any cells there is no degree.
-/
def readConn (z : Option Zlib) (little charSigned swap isCompressed : Bool) (others : Nat × Int) (ncells : Int) : FileParser (Family × Nat × List (BitVec 32)) :=
  (vtkReadKnown z little charSigned swap isCompressed .i8 (str "types") ncells 1 8).andThen fun types =>
  match cellType types with
  | .fail => fun _ => .fail
  | .ub => fun _ => .ub
  | .ok (f, d) =>
    let family : Family := if max f others.1 = 0 then .simplex else .hypercube
    let dim : Int := max d others.2
    if dim < 0 then fun _ => .fail
    else if ncells * elementDegree family dim 0 < -2147483648 ∨ 2147483647 < ncells * elementDegree family dim 0 then fun _ => .ub
    else
      (vtkReadKnown z little charSigned swap isCompressed .i32 (str "connectivity") (ncells * elementDegree family dim 0) 1 32).andThen fun conn =>
      (vtkReadKnown z little charSigned swap isCompressed .i32 (str "offsets") ncells 1 32).andThen fun _ => .give (family, dim.toNat, conn)

/-- Rows of `l` in a new order: `unmap`. -/
def reorderRows {α : Type} (perm : List Nat) (w : Nat) (l : List α) : List α := perm.flatMap (fun i => (l.drop (i * w)).take w)

def TagData.reorder (perm : List Nat) (w : Nat) : TagData → TagData
  | .i8 a => .i8 (a.map (reorderRows perm w))
  | .i32 a => .i32 (a.map (reorderRows perm w))
  | .i64 a => .i64 (a.map (reorderRows perm w))
  | .f64 a => .f64 (a.map (reorderRows perm w))

/-- The values of a tag, if they are `GO`s. -/
def FileTag.globals (t : FileTag) : Option (List Int) :=
  match t.data with
  | .i64 (some a) => some (a.map BitVec.toInt)
  | _ => none

/-- `reorder_by_globals`: src/Omega_h_reorder.cpp:66-72, with what `unmap_mesh` does to tags and to the vertices of cells. -/
def reorderByGlobals (m : VtkMesh) : Res VtkMesh :=
  match ((findTag (str "global") m.vertTags).bind FileTag.globals).bind (sortByKeys · 1), ((findTag (str "global") m.cellTags).bind FileTag.globals).bind (sortByKeys · 1) with
  | some vp, some cp =>
    let degree := (elementDegree m.family m.dim 0).toNat
    .ok { m with
      conn := (reorderRows cp degree m.conn).map (fun v => BitVec.ofNat 32 (vp.idxOf v.toNat))
      vertTags := m.vertTags.map (fun t => { t with data := t.data.reorder vp t.ncomps.toNat })
      cellTags := m.cellTags.map (fun t => { t with data := t.data.reorder cp t.ncomps.toNat }) }
  | _, _ => .fail

/-- The values are in ascending order: `is_sorted`, src/Omega_h_array_ops.cpp:420-428; see `isSorted`. -/
def sortedGlobals (globals : List (BitVec 64)) : Bool := decide ((globals.map BitVec.toInt).IsChain (· ≤ ·))

/-- The default numbers: `Read<GO>(n, 0, 1)`. -/
def countGlobals (n : Nat) : List (BitVec 64) := (List.range n).map (BitVec.ofNat 64)

/-- `read_vtu_ents` into a new mesh with the given number of ranks and distribution: src/Omega_h_vtk.cpp:660-733, with `build_verts_from_globals` and
`build_ents_from_elems2verts` (src/Omega_h_build.cpp:58-81) as far as cells and tags of vertices and cells are concerned. `others` is for `readConn`, `othersSorted` says
whether the vertices of all other ranks are sorted. The entities between vertices and cells and the owners are not modelled here. -/
def readVtu (sch : FileBytes → Sched) (z : Option Zlib) (little charSigned : Bool) (commSize : Nat) (ghosted : Bool) (others : Nat × Int) (othersSorted : Bool) :
    FileParser VtkMesh :=
  (readVtuStart little).andThen fun (swap, isCompressed) =>
  (readNamed (str "UnstructuredGrid")).andThen fun _ =>
  readPiece.andThen fun (nverts, ncells) =>
  (readNamed (str "Cells")).andThen fun _ =>
  (readConn z little charSigned swap isCompressed others ncells).andThen fun (family, dim, conn) =>
  (readNamed (str "Cells")).andThen fun _ =>
  (readNamed (str "Points")).andThen fun _ =>
  (vtkReadKnown z little charSigned swap isCompressed .f64 (str "coordinates") nverts 3 64).andThen fun coords3 =>
  (liftRes (resizeVectors (sch (str "coordinates")) coords3 3 dim)).andThen fun coords =>
  (readNamed (str "Points")).andThen fun _ =>
  (readNamed (str "PointData")).andThen fun _ =>
  (if commSize ≠ 1 then vtkReadKnown z little charSigned swap isCompressed .i64 (str "global") nverts 1 64 else .give (countGlobals nverts.toNat)).andThen fun vertGlobals =>
  (liftRes ((addTag nverts [] ⟨str "global", 1, .i64 (some vertGlobals)⟩).bind fun ts => addTag nverts ts ⟨str "coordinates", dim, .f64 (some coords)⟩)).andThen fun vt0 =>
  (readTagLoop sch z little charSigned swap isCompressed dim nverts vt0).andThen fun vt =>
  (readNamed (str "CellData")).andThen fun _ =>
  (if commSize ≠ 1 ∧ ghosted then vtkReadKnown z little charSigned swap isCompressed .i64 (str "global") ncells 1 64
    else .give (countGlobals ncells.toNat)).andThen fun cellGlobals =>
  (liftRes (addTag ncells [] ⟨str "global", 1, .i64 (some cellGlobals)⟩)).andThen fun ct0 =>
  (liftRes (let m : VtkMesh := ⟨family, dim, commSize, ghosted, nverts.toNat, ncells.toNat, conn, removeTag (str "owner") (removeTag (str "local") vt), ct0, [], [], []⟩
    if sortedGlobals vertGlobals && othersSorted then .ok m else reorderByGlobals m)).andThen fun m =>
  (readTagLoop sch z little charSigned swap isCompressed dim ncells m.cellTags).andThen fun ct =>
  (readNamed (str "Piece")).andThen fun _ =>
  (readNamed (str "UnstructuredGrid")).andThen fun _ =>
  (readNamed (str "VTKFile")).andThen fun _ =>
  .give { m with cellTags := removeTag (str "owner") (removeTag (str "local") ct) }

end OmegaH
