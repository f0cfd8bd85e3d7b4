import Verif.Model.Res
import Verif.Model.Element

/-!
# Mesh files: src/Omega_h_file.cpp, namespace `binary`

A byte is a `BitVec 8`, an `I32` or `LO` a `BitVec 32`, an `I64` or `Real` a `BitVec 64` (a `Real` is the pattern of its bits). `little` says whether the CPU is
little-endian, `z` is the compression library if the program is built with one.
-/

namespace OmegaH

abbrev FileBytes := List (BitVec 8)

/-- `bswap32`: src/Omega_h_file.cpp:37-47. -/
def bswap32 (a : BitVec 32) : BitVec 32 :=
  ((a &&& 0x000000FF#32) <<< 24) ||| ((a &&& 0x0000FF00#32) <<< 8) ||| ((a &&& 0x00FF0000#32) >>> 8) ||| ((a &&& 0xFF000000#32) >>> 24)

/-- `bswap64`: src/Omega_h_file.cpp:49-64. -/
def bswap64 (a : BitVec 64) : BitVec 64 :=
  ((a &&& 0x00000000000000FF#64) <<< 56) ||| ((a &&& 0x000000000000FF00#64) <<< 40) ||| ((a &&& 0x0000000000FF0000#64) <<< 24) |||
    ((a &&& 0x00000000FF000000#64) <<< 8) ||| ((a &&& 0x000000FF00000000#64) >>> 8) ||| ((a &&& 0x0000FF0000000000#64) >>> 24) |||
    ((a &&& 0x00FF000000000000#64) >>> 40) ||| ((a &&& 0xFF00000000000000#64) >>> 56)

/-- `SwapBytes`: src/Omega_h_file.cpp:66-95. It exists for values of 1, 4 and 8 bytes. -/
def swapValue : (w : Nat) → BitVec w → BitVec w
  | 32, a => bswap32 a
  | 64, a => bswap64 a
  | _, a => a

/-- The bytes of a value in memory, in the order of their addresses. -/
def memBytes (little : Bool) {w : Nat} (v : BitVec w) : FileBytes :=
  let l := (List.range (w / 8)).map (fun i => v.extractLsb' (8 * i) 8)
  if little then l else l.reverse

/-- The value whose bytes in memory are `l`. -/
def ofMemBytes (little : Bool) (w : Nat) (l : FileBytes) : BitVec w :=
  (if little then l else l.reverse).foldr (fun b acc => (acc <<< 8) ||| b.setWidth w) 0#w

/-- `write_value`: src/Omega_h_file.cpp:106-110, with `needs_swapping = !is_little_endian_cpu()`: :372. -/
def writeValue (little : Bool) {w : Nat} (v : BitVec w) : FileBytes := memBytes little (if little then v else swapValue w v)

/-- What reads from a stream: a value and the bytes not read yet. -/
abbrev FileParser (α : Type) := FileBytes → Res (α × FileBytes)

def FileParser.andThen {α β : Type} (p : FileParser α) (f : α → FileParser β) : FileParser β := fun s => (p s).bind (fun r => f r.1 r.2)

def FileParser.give {α : Type} (a : α) : FileParser α := fun s => .ok (a, s)

/-- A check on what was read. -/
def FileParser.check (c : Bool) : FileParser Unit := fun s => if c then .ok ((), s) else .fail

/-- `stream.read`. If there are not enough bytes, a part of the destination is never written; nobody asks for the state of the stream, and using the rest is
undefined. -/
def readBytes (n : Nat) : FileParser FileBytes := fun s => if n ≤ s.length then .ok (s.take n, s.drop n) else .ub

/-- `read_value`: src/Omega_h_file.cpp:112-116. -/
def readValue (little : Bool) (w : Nat) : FileParser (BitVec w) :=
  (readBytes (w / 8)).andThen (fun l => .give (if little then ofMemBytes little w l else swapValue w (ofMemBytes little w l)))

/-- zlib. `compress` is none if `compress2` reports an error, and `uncompress`, which is given the size of its destination, if the function of this name does. -/
structure Zlib where
  compress : FileBytes → Option FileBytes
  uncompress : FileBytes → Nat → Option FileBytes

/-- `write_array`: src/Omega_h_file.cpp:118-148. An array that does not exist has no size: `size()` dereferences a null pointer (src/Omega_h_shared_alloc.hpp:128-138).
`z` is none if the program is built without zlib; `is_compressed` is then false (:367-371), otherwise true. The bytes of each entry are swapped by themselves. -/
def writeArray (z : Option Zlib) (little : Bool) {w : Nat} (array : Option (List (BitVec w))) : Res FileBytes :=
  match array with
  | none => .ub
  | some a =>
    let uncompressed := a.flatMap (fun v => writeValue little v)
    match z with
    | none => .ok (writeValue little (BitVec.ofNat 32 a.length) ++ uncompressed)
    | some z =>
      match z.compress uncompressed with
      | none => .fail
      | some c => .ok (writeValue little (BitVec.ofNat 32 a.length) ++ (writeValue little (BitVec.ofNat 64 c.length) ++ c))

/-- The values whose bytes are `l`, which has enough of them. -/
def ofBytes (little : Bool) (w : Nat) : Nat → FileBytes → List (BitVec w)
  | 0, _ => []
  | n + 1, l =>
    (if little then ofMemBytes little w (l.take (w / 8)) else swapValue w (ofMemBytes little w (l.take (w / 8)))) :: ofBytes little w n (l.drop (w / 8))

/-- `read_array`: src/Omega_h_file.cpp:150-184. -/
def readArray (z : Option Zlib) (little : Bool) (isCompressed : Bool) (w : Nat) : FileParser (List (BitVec w)) :=
  (readValue little 32).andThen fun size =>
    (FileParser.check (decide (0 ≤ size.toInt))).andThen fun _ =>
      match z with
      | none =>
        (FileParser.check (!isCompressed)).andThen fun _ =>
          (readBytes (size.toNat * (w / 8))).andThen fun l => .give (ofBytes little w size.toNat l)
      | some z =>
        if isCompressed then
          (readValue little 64).andThen fun csize =>
            (FileParser.check (decide (0 ≤ csize.toInt))).andThen fun _ =>
              (readBytes csize.toNat).andThen fun c =>
                match z.uncompress c (size.toNat * (w / 8)) with
                | none => fun _ => .fail
                | some l => (FileParser.check (decide (l.length = size.toNat * (w / 8)))).andThen fun _ => .give (ofBytes little w size.toNat l)
        else (readBytes (size.toNat * (w / 8))).andThen fun l => .give (ofBytes little w size.toNat l)

/-- `write` of a string: src/Omega_h_file.cpp:186-190. Writing a negative number of characters is undefined. -/
def writeString (little : Bool) (s : FileBytes) : Res FileBytes :=
  let len := BitVec.ofNat 32 s.length
  if len.toInt < 0 then .ub else .ok (writeValue little len ++ s.take len.toNat)

/-- `read` of a string: src/Omega_h_file.cpp:192-198. If there are not enough bytes the string is filled up with zeros, but every string is followed by a value, whose
reading is then undefined, and so this is said here already. -/
def readString (little : Bool) : FileParser FileBytes :=
  (readValue little 32).andThen fun len =>
    (FileParser.check (decide (0 ≤ len.toInt))).andThen fun _ => readBytes len.toNat

/-- `Omega_h_Parting`: src/Omega_h_defines.hpp:39-43. -/
inductive FileParting where
  | elemBased
  | ghosted
  | vertBased
deriving DecidableEq, Repr

def FileParting.code : FileParting → BitVec 8
  | .elemBased => 0#8
  | .ghosted => 1#8
  | .vertBased => 2#8

def FileParting.ofCode (c : BitVec 8) : Option FileParting :=
  if c = 0#8 then some .elemBased else if c = 1#8 then some .ghosted else if c = 2#8 then some .vertBased else none

/-- The array of a tag, which need not exist, of type `I8`, `I32`, `I64` or `Real`: src/Omega_h_tag.hpp:12-50. -/
inductive TagData where
  | i8 (a : Option (List (BitVec 8)))
  | i32 (a : Option (List (BitVec 32)))
  | i64 (a : Option (List (BitVec 64)))
  | f64 (a : Option (List (BitVec 64)))
deriving DecidableEq, Repr

/-- `array().size()` of an array that exists. -/
def TagData.size : TagData → Option Nat
  | .i8 a => a.map List.length
  | .i32 a => a.map List.length
  | .i64 a => a.map List.length
  | .f64 a => a.map List.length

/-- A tag: name, number of components and array. -/
structure FileTag where
  name : FileBytes
  ncomps : Int
  data : TagData
deriving DecidableEq, Repr

/-- The part of a mesh that concerns one dimension: its tags, and owners and parents if there are any: src/Omega_h_mesh.hpp:216-232. -/
structure FileLevel where
  tags : List FileTag
  owners : Option (List (BitVec 32) × List (BitVec 32))
  parents : Option (List (BitVec 32) × List (BitVec 8))
deriving DecidableEq, Repr

/-- A mesh all of whose entities have been set. Entry `d` of `levels` belongs to dimension `d`, entry `d` of `downs` is the adjacency from dimension `d + 1` to
dimension `d`; `sets` is `class_sets`, a map ordered by name. The dimension is the number of `downs`. -/
structure FileMesh where
  family : Family
  commSize : Nat
  commRank : Nat
  parting : Option FileParting
  nghost : BitVec 32
  hints : Option (List (BitVec 64 × BitVec 64 × BitVec 64))
  nverts : BitVec 32
  downs : List (List (BitVec 32) × Option (List (BitVec 8)))
  levels : List FileLevel
  sets : List (FileBytes × List (BitVec 32 × BitVec 32))
deriving DecidableEq

/-- The results one after the other, up to the first that is none. -/
def wcat (a b : Res FileBytes) : Res FileBytes := a.bind fun x => b.bind fun y => .ok (x ++ y)

def wlist : List (Res FileBytes) → Res FileBytes
  | [] => .ok []
  | a :: l => wcat a (wlist l)

def familyCode : Family → BitVec 8
  | .simplex => 0#8
  | .hypercube => 1#8

/-- The inertia hints, if there are any: src/Omega_h_file.cpp:214-223. -/
def writeHints (little : Bool) (hints : Option (List (BitVec 64 × BitVec 64 × BitVec 64))) : FileBytes :=
  match hints with
  | none => writeValue little 0#8
  | some axes => writeValue little 1#8 ++ writeValue little (BitVec.ofNat 32 axes.length) ++
      axes.flatMap (fun a => writeValue little a.1 ++ writeValue little a.2.1 ++ writeValue little a.2.2)

/-- `write_meta`: src/Omega_h_file.cpp:200-224. `parting()` checks that it is set. -/
def writeMeta (little : Bool) (m : FileMesh) : Res FileBytes :=
  match m.parting with
  | none => .fail
  | some p =>
    .ok (writeValue little (familyCode m.family) ++ writeValue little (BitVec.ofNat 8 m.downs.length) ++ writeValue little (BitVec.ofNat 32 m.commSize) ++
      writeValue little (BitVec.ofNat 32 m.commRank) ++ writeValue little p.code ++ writeValue little m.nghost ++ writeHints little m.hints)

/-- `write_tag`: src/Omega_h_file.cpp:273-292. -/
def writeTag (z : Option Zlib) (little : Bool) (t : FileTag) : Res FileBytes :=
  let head (type : BitVec 8) := wcat (writeString little t.name) (.ok (writeValue little (BitVec.ofInt 8 t.ncomps) ++ writeValue little type))
  match t.data with
  | .i8 a => wcat (head 0#8) (writeArray z little a)
  | .i32 a => wcat (head 2#8) (writeArray z little a)
  | .i64 a => wcat (head 3#8) (writeArray z little a)
  | .f64 a => wcat (head 5#8) (writeArray z little a)

/-- `write_sets`: src/Omega_h_file.cpp:331-344. -/
def writeSets (little : Bool) (sets : List (FileBytes × List (BitVec 32 × BitVec 32))) : Res FileBytes :=
  wcat (.ok (writeValue little (BitVec.ofNat 32 sets.length)))
    (wlist (sets.map fun s => wcat (writeString little s.1)
      (.ok (writeValue little (BitVec.ofNat 32 s.2.length) ++ s.2.flatMap (fun q => writeValue little q.1 ++ writeValue little q.2)))))

/-- The adjacency from dimension `d` to the one below; it has codes if `d` is more than 1: src/Omega_h_file.cpp:377-383. -/
def writeDown (z : Option Zlib) (little : Bool) (d : Nat) (down : List (BitVec 32) × Option (List (BitVec 8))) : Res FileBytes :=
  wcat (writeArray z little (some down.1)) (if d > 1 then writeArray z little down.2 else .ok [])

/-- Tags and, on more than one rank, owners of one dimension: src/Omega_h_file.cpp:384-395. `ask_owners` checks that there is one rank if there are no owners:
src/Omega_h_mesh.cpp:456-463. -/
def writeLevel (z : Option Zlib) (little : Bool) (commSize : Nat) (l : FileLevel) : Res FileBytes :=
  wcat (.ok (writeValue little (BitVec.ofNat 32 l.tags.length)))
    (wcat (wlist (l.tags.map (writeTag z little)))
      (if commSize > 1 then match l.owners with
        | none => .fail
        | some o => wcat (writeArray z little (some o.1)) (writeArray z little (some o.2))
      else .ok []))

/-- The number of entities of dimension `d`: src/Omega_h_mesh.cpp:83, 85-93. The degree of an entity is not zero. -/
def FileMesh.nents (m : FileMesh) (d : Nat) : Int :=
  match d with
  | 0 => m.nverts.toInt
  | d + 1 => match m.downs[d]? with
    | none => -1
    | some down => (down.1.length : Int) / elementDegree m.family (d + 1 : Nat) d

/-- `ask_parents`: the parents if there are any, else the default: src/Omega_h_mesh.cpp:416-425. -/
def FileLevel.askParents (l : FileLevel) (nents : Int) : List (BitVec 32) × List (BitVec 8) :=
  match l.parents with
  | none => (List.replicate nents.toNat (BitVec.ofInt 32 (-1)), List.replicate nents.toNat 0#8)
  | some p => p

/-- `has_any_parents`: src/Omega_h_mesh.cpp:438-446. -/
def FileMesh.hasAnyParents (m : FileMesh) : Bool := m.levels.any (fun l => l.parents.isSome)

/-- `write` of a mesh to a stream: src/Omega_h_file.cpp:363-407. -/
def writeMesh (z : Option Zlib) (little : Bool) (m : FileMesh) : Res FileBytes :=
  wlist [.ok [0xa1#8, 0x1a#8], .ok (writeValue little (if z.isSome then 1#8 else 0#8)), writeMeta little m, .ok (writeValue little m.nverts),
    wlist (m.downs.mapIdx fun d down => writeDown z little (d + 1) down),
    wlist (m.levels.map (writeLevel z little m.commSize)),
    writeSets little m.sets,
    if m.hasAnyParents then
      wcat (.ok (writeValue little 1#8)) (wlist (m.levels.mapIdx fun d l =>
        wcat (writeArray z little (some (l.askParents (m.nents d)).1)) (writeArray z little (some (l.askParents (m.nents d)).2))))
    else .ok (writeValue little 0#8)]

/-- Three reals: src/Omega_h_file.cpp:262-263. -/
def readAxis (little : Bool) : FileParser (BitVec 64 × BitVec 64 × BitVec 64) :=
  (readValue little 64).andThen fun x => (readValue little 64).andThen fun y => (readValue little 64).andThen fun z => .give (x, y, z)

/-- `n` times. -/
def readTimes {α : Type} (p : FileParser α) : Nat → FileParser (List α)
  | 0 => .give []
  | n + 1 => p.andThen fun a => (readTimes p n).andThen fun l => .give (a :: l)

/-- What `read_meta` sets. -/
structure FileMeta where
  family : Family
  dim : Nat
  parting : FileParting
  nghost : BitVec 32
  hints : Option (List (BitVec 64 × BitVec 64 × BitVec 64))

/-- A family read from a file; a value that is no family is undefined as one. -/
def readFamily (little : Bool) : FileParser Family :=
  (readValue little 8).andThen fun c => if c = 0#8 then .give .simplex else if c = 1#8 then .give .hypercube else fun _ => .ub

/-- The inertia hints, if there are any: src/Omega_h_file.cpp:255-267. A loop up to a negative number does nothing. -/
def readHints (little : Bool) : FileParser (Option (List (BitVec 64 × BitVec 64 × BitVec 64))) :=
  (readValue little 8).andThen fun have_ =>
    if have_ = 0#8 then .give none
    else (readValue little 32).andThen fun naxes => (readTimes (readAxis little) naxes.toInt.toNat).andThen fun axes => .give (some axes)

/-- `read_meta` into a new mesh: src/Omega_h_file.cpp:226-271, with `set_dim` (src/Omega_h_mesh.cpp:76-81) and `set_parting`, which sets the parting of a mesh that has
none (:493-497, 514-519). The family of a new mesh is simplices. -/
def readMeta (little : Bool) (version : Int) (commSize commRank : Nat) : FileParser FileMeta :=
  (if version ≥ 7 then readFamily little else .give .simplex).andThen fun family =>
  (readValue little 8).andThen fun dim =>
  (FileParser.check (decide (1 ≤ dim.toInt ∧ dim.toInt ≤ 3))).andThen fun _ =>
  (readValue little 32).andThen fun size =>
  (FileParser.check (decide ((commSize : Int) = size.toInt))).andThen fun _ =>
  (readValue little 32).andThen fun rank =>
  (FileParser.check (decide ((commRank : Int) = rank.toInt))).andThen fun _ =>
  (readValue little 8).andThen fun parting =>
  match FileParting.ofCode parting with
  | none => fun _ => .fail
  | some p =>
    (if version ≥ 3 then readValue little 32 else .give (if p = .elemBased then 0#32 else 1#32)).andThen fun nghost =>
    (readHints little).andThen fun hints =>
    (if version < 6 then readValue little 8 else .give 0#8).andThen fun _ =>
    .give ⟨family, dim.toNat, p, nghost, hints⟩

/-- `add_tag` from a file: src/Omega_h_mesh.cpp:130-159, 267-275. The product is one of `LO`s. -/
def addTag (nents : Int) (tags : List FileTag) (t : FileTag) : Res (List FileTag) :=
  let had := tags.any (fun a => decide (a.name = t.name))
  if !had && (decide (nents < 0) || t.name.isEmpty || decide (t.ncomps < 0) || decide (t.ncomps > 127) || decide (127 ≤ tags.length)) then .fail
  else if t.name.isEmpty then .fail
  else match t.data.size with
    | none => .ok (if had then tags.map (fun a => if a.name = t.name then t else a) else tags ++ [t])
    | some size =>
      if nents * t.ncomps < -2147483648 ∨ 2147483647 < nents * t.ncomps then .ub
      else if (size : Int) ≠ nents * t.ncomps then .fail
      else .ok (if had then tags.map (fun a => if a.name = t.name then t else a) else tags ++ [t])

/-- The array of a tag of a type: src/Omega_h_file.cpp:309-328. -/
def readTagData (z : Option Zlib) (little : Bool) (isCompressed : Bool) (type : BitVec 8) : FileParser TagData :=
  if type = 0#8 then (readArray z little isCompressed 8).andThen fun a => .give (.i8 (some a))
  else if type = 2#8 then (readArray z little isCompressed 32).andThen fun a => .give (.i32 (some a))
  else if type = 3#8 then (readArray z little isCompressed 64).andThen fun a => .give (.i64 (some a))
  else if type = 5#8 then (readArray z little isCompressed 64).andThen fun a => .give (.f64 (some a))
  else fun _ => .fail

/-- `read_tag`: src/Omega_h_file.cpp:294-329. -/
def readTag (z : Option Zlib) (little : Bool) (isCompressed : Bool) (version : Int) (nents : Int) (tags : List FileTag) : FileParser (List FileTag) :=
  (readString little).andThen fun name =>
  (readValue little 8).andThen fun ncomps =>
  (readValue little 8).andThen fun type =>
  (if version < 5 then readBytes (if 2 ≤ version then 2 else 1) else .give []).andThen fun _ =>
  (readTagData z little isCompressed type).andThen fun data =>
  fun s => (addTag nents tags ⟨name, ncomps.toInt, data⟩).bind fun ts => .ok (ts, s)

def readTags (z : Option Zlib) (little : Bool) (isCompressed : Bool) (version : Int) (nents : Int) : Nat → List FileTag → FileParser (List FileTag)
  | 0, tags => .give tags
  | n + 1, tags => (readTag z little isCompressed version nents tags).andThen fun ts => readTags z little isCompressed version nents n ts

/-- Tags and, on more than one rank, owners of one dimension: src/Omega_h_file.cpp:436-448, with `set_owners` (src/Omega_h_mesh.cpp:448-454). -/
def readLevel (z : Option Zlib) (little : Bool) (isCompressed : Bool) (version : Int) (commSize : Nat) (nents : Int) : FileParser FileLevel :=
  (readValue little 32).andThen fun ntags =>
  (readTags z little isCompressed version nents ntags.toInt.toNat []).andThen fun tags =>
  if commSize > 1 then
    (readArray z little isCompressed 32).andThen fun ranks =>
    (readArray z little isCompressed 32).andThen fun idxs =>
    (FileParser.check (decide (nents = ranks.length ∧ nents = idxs.length))).andThen fun _ =>
    .give ⟨tags, some (ranks, idxs), none⟩
  else .give ⟨tags, none, none⟩

/-- One parser after the other. -/
def readAll {α : Type} : List (FileParser α) → FileParser (List α)
  | [] => .give []
  | p :: ps => p.andThen fun a => (readAll ps).andThen fun l => .give (a :: l)

/-- The adjacency from dimension `d` to the one below: src/Omega_h_file.cpp:428-435, with `set_ents` (src/Omega_h_mesh.cpp:85-93) and `add_adj` (:277-297), whose other
checks hold because the number of entities is computed from the size. -/
def readDown (z : Option Zlib) (little : Bool) (isCompressed : Bool) (family : Family) (d : Nat) : FileParser (List (BitVec 32) × Option (List (BitVec 8))) :=
  (readArray z little isCompressed 32).andThen fun ab2b =>
  (if d > 1 then (readArray z little isCompressed 8).andThen fun codes => .give (some codes) else .give none).andThen fun codes =>
  (FileParser.check (decide ((ab2b.length : Int) % elementDegree family d (d - 1 : Nat) = 0))).andThen fun _ => .give (ab2b, codes)

/-- The order of strings, by their bytes. -/
def bytesLt : FileBytes → FileBytes → Bool
  | _, [] => false
  | [], _ :: _ => true
  | a :: l, b :: k => decide (a < b) || (decide (a = b) && bytesLt l k)

/-- `class_sets[name].push_back(pair)`. -/
def pushPair (name : FileBytes) (q : BitVec 32 × BitVec 32) : List (FileBytes × List (BitVec 32 × BitVec 32)) → List (FileBytes × List (BitVec 32 × BitVec 32))
  | [] => [(name, [q])]
  | s :: rest =>
    if s.1 = name then (s.1, s.2 ++ [q]) :: rest
    else if bytesLt name s.1 then (name, [q]) :: s :: rest
    else s :: pushPair name q rest

/-- One set: its name and its pairs, src/Omega_h_file.cpp:349-360. -/
def readSet (little : Bool) : FileParser (FileBytes × List (BitVec 32 × BitVec 32)) :=
  (readString little).andThen fun name =>
  (readValue little 32).andThen fun npairs =>
  (readTimes ((readValue little 32).andThen fun dim => (readValue little 32).andThen fun id => .give (dim, id)) npairs.toInt.toNat).andThen fun pairs =>
  .give (name, pairs)

/-- `read_sets` into a mesh without sets: src/Omega_h_file.cpp:346-361. -/
def readSets (little : Bool) : FileParser (List (FileBytes × List (BitVec 32 × BitVec 32))) :=
  (readValue little 32).andThen fun n =>
  (readTimes (readSet little) n.toInt.toNat).andThen fun sets =>
  .give (sets.foldl (fun acc s => s.2.foldl (fun acc q => pushPair s.1 q acc) acc) [])

/-- The parents of one dimension: src/Omega_h_file.cpp:457-460. `set_parents` does not check sizes: src/Omega_h_mesh.cpp:97-100. -/
def readParents (z : Option Zlib) (little : Bool) (isCompressed : Bool) (nents : Int) : FileParser (List (BitVec 32) × List (BitVec 8)) :=
  (readArray z little isCompressed 32).andThen fun idx => (readArray z little isCompressed 8).andThen fun codes =>
    (FileParser.check (decide (0 ≤ nents))).andThen fun _ => .give (idx, codes)

/-- `read` of a mesh from a stream, into a new mesh on the given rank: src/Omega_h_file.cpp:409-464. -/
def readMesh (z : Option Zlib) (little : Bool) (version0 : Int) (commSize commRank : Nat) : FileParser FileMesh :=
  (readBytes 2).andThen fun magic =>
  (FileParser.check (decide (magic = [0xa1#8, 0x1a#8]))).andThen fun _ =>
  (if version0 = -1 then (readValue little 32).andThen fun v => .give v.toInt else .give version0).andThen fun version =>
  (FileParser.check (decide (1 ≤ version ∧ version ≤ 9))).andThen fun _ =>
  (readValue little 8).andThen fun compressed =>
  (FileParser.check (z.isSome || decide (compressed = 0#8))).andThen fun _ =>
  (readMeta little version commSize commRank).andThen fun meta_ =>
  (readValue little 32).andThen fun nverts =>
  (readAll ((List.range meta_.dim).map fun d => readDown z little (decide (compressed ≠ 0#8)) meta_.family (d + 1))).andThen fun downs =>
  let m : FileMesh := ⟨meta_.family, commSize, commRank, some meta_.parting, meta_.nghost, meta_.hints, nverts, downs, [], []⟩
  (readAll ((List.range (meta_.dim + 1)).map fun d => readLevel z little (decide (compressed ≠ 0#8)) version commSize (m.nents d))).andThen fun levels =>
  (if version ≥ 8 then readSets little else .give []).andThen fun sets =>
  (if version ≥ 9 then readValue little 8 else .give 0#8).andThen fun has =>
  if has = 0#8 then .give { m with levels := levels, sets := sets }
  else (readAll ((List.range (meta_.dim + 1)).map fun d => readParents z little (decide (compressed ≠ 0#8)) (m.nents d))).andThen fun parents =>
    .give { m with levels := List.zipWith (fun l p => { l with parents := some p }) levels parents, sets := sets }

end OmegaH
