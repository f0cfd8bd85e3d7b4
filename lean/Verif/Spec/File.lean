import Verif.Model.File

/-! # Specification of mesh files -/

namespace OmegaH.Spec

/-- The bytes of a number, the least significant one first. -/
def leBytes {w : Nat} (v : BitVec w) : FileBytes := (List.range (w / 8)).map (fun i => BitVec.ofNat 8 (v.toNat / 256 ^ i))

/-- What is asked of the compression library: what was compressed is recovered, and fits a 64-bit size. -/
def GoodZlib (z : Zlib) : Prop := ∀ b c, z.compress b = some c → z.uncompress c b.length = some b ∧ c.length < 2 ^ 63

/-- A tag within the limits of the format. -/
structure GoodTag (nents : Int) (t : FileTag) : Prop where
  named : t.name ≠ []
  name : t.name.length < 2 ^ 31
  comps : 0 ≤ t.ncomps ∧ t.ncomps ≤ 127
  size : ∃ n, t.data.size = some n ∧ (n : Int) = nents * t.ncomps ∧ n < 2 ^ 31

/-- One dimension of a mesh within the limits. -/
structure GoodLevel (commSize : Nat) (nents : Int) (l : FileLevel) : Prop where
  tags : ∀ t ∈ l.tags, GoodTag nents t
  names : (l.tags.map FileTag.name).Nodup
  count : l.tags.length ≤ 127
  owners : 1 < commSize → ∃ o, l.owners = some o ∧ (o.1.length : Int) = nents ∧ (o.2.length : Int) = nents
  parents : ∀ p, l.parents = some p → p.1.length < 2 ^ 31 ∧ p.2.length < 2 ^ 31

/-- A mesh within the limits of the format: sizes fit 31 bits, tags have at most 127 components and their arrays, and so on. -/
structure Storable (m : FileMesh) : Prop where
  dim : 1 ≤ m.downs.length ∧ m.downs.length ≤ 3
  levels : m.levels.length = m.downs.length + 1
  comm : m.commSize < 2 ^ 31 ∧ m.commRank < m.commSize
  parting : m.parting.isSome
  hints : ∀ axes, m.hints = some axes → axes.length < 2 ^ 31
  verts : 0 ≤ m.nverts.toInt
  down : ∀ (d : Nat) (a : List (BitVec 32)) (c : Option (List (BitVec 8))), m.downs[d]? = some (a, c) →
    a.length < 2 ^ 31 ∧ (a.length : Int) % elementDegree m.family (d + 1 : Nat) d = 0 ∧ (d = 0 → c = none) ∧
      (0 < d → ∃ codes, c = some codes ∧ codes.length < 2 ^ 31)
  level : ∀ (d : Nat) (l : FileLevel), m.levels[d]? = some l → GoodLevel m.commSize (m.nents d) l
  sorted : m.sets.Pairwise (fun s t => bytesLt s.1 t.1)
  sets : m.sets.length < 2 ^ 31
  pairs : ∀ s ∈ m.sets, s.1.length < 2 ^ 31 ∧ s.2.length < 2 ^ 31

/-- The owners of a mesh's entities of dimension `d`: on one rank, everybody is its own owner. -/
def ownersOf (m : FileMesh) (d : Nat) : Option (List (BitVec 32) × List (BitVec 32)) :=
  if m.commSize = 1 then some (List.replicate (m.nents d).toNat (BitVec.ofNat 32 m.commRank), (List.range (m.nents d).toNat).map (BitVec.ofNat 32))
  else m.levels[d]?.bind FileLevel.owners

/-- The parents of a mesh's entities of dimension `d`, -1 where there are none. -/
def parentsOf (m : FileMesh) (d : Nat) : Option (List (BitVec 32) × List (BitVec 8)) := m.levels[d]?.map fun l => l.askParents (m.nents d)

/-- Two meshes are the same as far as a user can see. -/
structure SameMesh (m m' : FileMesh) : Prop where
  family : m'.family = m.family
  comm : m'.commSize = m.commSize ∧ m'.commRank = m.commRank
  parting : m'.parting = m.parting ∧ m'.nghost = m.nghost
  hints : m'.hints = m.hints
  verts : m'.nverts = m.nverts
  downs : m'.downs = m.downs
  tags : m'.levels.map FileLevel.tags = m.levels.map FileLevel.tags
  owners : ∀ d ≤ m.downs.length, ownersOf m' d = ownersOf m d
  sets : m'.sets = m.sets
  parents : m'.hasAnyParents = m.hasAnyParents ∧ ∀ d ≤ m.downs.length, parentsOf m' d = parentsOf m d

end OmegaH.Spec
