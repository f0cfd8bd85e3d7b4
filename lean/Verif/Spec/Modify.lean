import Verif.Model.Modify
import Verif.Spec.Map
import Verif.Spec.AdjRow
/-!
# What a renumbering starts from
-/
namespace OmegaH.Spec

/-- `m` is the index of a modified entity of dimension `d` that has products. -/
def IsMod (mods2prods : Nat → Option (List Nat)) (mds : Nat → List Nat) (d m : Nat) : Prop :=
  (mods2prods d).isSome = true ∧ m < (mds d).length

/-- Product `p` comes from the modified entity `m` of dimension `d`. -/
def ProducedBy (mods2prods : Nat → Option (List Nat)) (d m p : Nat) : Prop :=
  ∃ prods, mods2prods d = some prods ∧ InFan prods m p

/-- The entities of dimension `E` in `same` stay, and the modified entities `mds d` of each dimension `d`
that has products get the products listed by `mods2prods d`, `P` in all. Each modified entity is
represented by an old entity of dimension `E`: itself if it has that dimension, the first entity above
it, or the first entity below it. `L d r` are the entities of dimension `d` above `r`. -/
structure ModifyInput (mesh : ModifyMesh) (E : Nat) (mods2mds mods2prods : Nat → Option (List Nat))
    (keepMods : Bool) (same : List Nat) (P : Nat) (mds : Nat → List Nat) (rep : Nat → Nat → Nat)
    (L : Nat → Nat → List (Nat × Int)) : Prop where
  dim : mesh.dim ≤ 3
  owned : (mesh.owned E).length = mesh.nents E
  sameUp : same.Pairwise (· < ·)
  sameLt : ∀ r ∈ same, r < mesh.nents E
  exist : ∀ d prods, mods2prods d = some prods → d ≤ mesh.dim ∧ mods2mds d = some (mds d) ∧
    prods.length = (mds d).length + 1 ∧ (mds d).Nodup ∧ (∀ md ∈ mds d, md < mesh.nents d) ∧
    ∀ i lo hi : Nat, prods[i]? = some lo → prods[i + 1]? = some hi → lo ≤ hi
  count : countProducts mods2prods = some P
  covered : ∀ p, p < P → ∃ d m, ProducedBy mods2prods d m p
  bounded : ∀ d m p, ProducedBy mods2prods d m p → p < P
  once : ∀ d m d' m' p, ProducedBy mods2prods d m p → ProducedBy mods2prods d' m' p → d = d' ∧ m = m'
  repLt : ∀ d m, IsMod mods2prods mds d m → rep d m < mesh.nents E
  repSame : ∀ m, IsMod mods2prods mds E m → (mds E)[m]? = some (rep E m)
  repLow : ∀ d m md, d < E → IsMod mods2prods mds d m → (mds d)[m]? = some md →
    ∃ i, (mesh.up d E).a2ab[md]? = some i ∧ (mesh.up d E).ab2b[i]? = some (rep d m)
  repHigh : ∀ d m md, E < d → IsMod mods2prods mds d m → (mds d)[m]? = some md →
    (mesh.down d E)[md * mesh.degree d E]? = some (rep d m)
  /-- the upward adjacency lists every entity above, and its code tells which side of it `r` is -/
  upRow : ∀ d r, E < d → (mods2prods d).isSome = true → r < mesh.nents E → AdjRow (mesh.up E d) r (L d r) ∧
    (∀ x ∈ L d r, x.1 < mesh.nents d) ∧ ((L d r).filter (fun x => codeWhichDown x.2 = 0)).Nodup ∧
    (∀ x ∈ L d r, ∀ y ∈ L d r, codeWhichDown x.2 = 0 → codeWhichDown y.2 = 0 → x.1 = y.1 → x = y) ∧
    ∀ m md, (mds d)[m]? = some md → (rep d m = r ↔ ∃ code, (md, code) ∈ L d r ∧ codeWhichDown code = 0)
  /-- modified entities of lower dimension do not share their representative -/
  apart : ∀ d m d' m', d < E → IsMod mods2prods mds d m → IsMod mods2prods mds d' m' →
    rep d m = rep d' m' → d = d' ∧ m = m'
  /-- representatives stay exactly if modified entities are kept or are above -/
  stays : ∀ d m, IsMod mods2prods mds d m → (rep d m ∈ same ↔ keepMods = true ∨ E < d)

/-- The new local numbers `out` of the entities in `same`, which stay, and of `P` products: what stays and
what is produced gets exactly the numbers `0 .. nnew - 1`, each once; what stays keeps its order; the products
of one modified entity are numbered consecutively; `old2new` gives the new number of an old entity that
stays, and -1 for one that does not. -/
structure Renumbered (nents : Nat) (same : List Nat) (P : Nat) (mods2prods : Nat → Option (List Nat))
    (out : NewNumbers) : Prop where
  sameEq : out.same = same
  nnew : out.nnew = ((same.length + P : Nat) : Int)
  sameLen : out.same2new.length = same.length
  prodsLen : out.prods2new.length = P
  all : (out.same2new ++ out.prods2new).Perm ((List.range (same.length + P)).map (fun i : Nat => (i : Int)))
  order : out.same2new.Pairwise (· < ·)
  contiguous : ∀ d m p, ProducedBy mods2prods d m p → ProducedBy mods2prods d m (p + 1) →
    ∃ v, out.prods2new[p]? = some v ∧ out.prods2new[p + 1]? = some (v + 1)
  oldLen : out.old2new.length = nents
  oldSame : ∀ i r : Nat, same[i]? = some r → out.old2new[r]? = out.same2new[i]?
  oldGone : ∀ r, r < nents → r ∉ same → out.old2new[r]? = some (-1)

/-- Entity `e` of dimension `E` is a key of dimension `K`, or one of its parts is. -/
def TouchesKey (mesh : ModifyMesh) (E K : Nat) (keys : List Nat) (e : Nat) : Prop :=
  (E = K ∧ e ∈ keys) ∨
    (K < E ∧ ∃ j k, j < mesh.degree E K ∧ (mesh.down E K)[e * mesh.degree E K + j]? = some k ∧ k ∈ keys)

/-- Keys `keys` of dimension `K` that may be replaced together, with their products `prods` of
dimension `E`. -/
structure AdaptInput (mesh : ModifyMesh) (E K : Nat) (keys prods : List Nat) (L : Nat → List (Nat × Int)) : Prop where
  dim : mesh.dim ≤ 3
  entDim : E ≤ mesh.dim
  keyDim : K ≤ mesh.dim
  owned : (mesh.owned E).length = mesh.nents E
  keysNodup : keys.Nodup
  keysLt : ∀ k ∈ keys, k < mesh.nents K
  prodsLen : prods.length = keys.length + 1
  prodsFan : IsFan prods
  /-- downward adjacencies to keys -/
  down : ∀ d e j, K < d → d ≤ mesh.dim → e < mesh.nents d → j < mesh.degree d K →
    ∃ k, (mesh.down d K)[e * mesh.degree d K + j]? = some k ∧ k < mesh.nents K
  /-- the first entity above a key has it as a part -/
  above : K < E → ∀ k ∈ keys, ∃ i e j, (mesh.up K E).a2ab[k]? = some i ∧ (mesh.up K E).ab2b[i]? = some e ∧
    e < mesh.nents E ∧ j < mesh.degree E K ∧ (mesh.down E K)[e * mesh.degree E K + j]? = some k
  /-- no entity touches two keys -/
  apart : K < E → ∀ e j j' k k', e < mesh.nents E → j < mesh.degree E K → j' < mesh.degree E K →
    (mesh.down E K)[e * mesh.degree E K + j]? = some k → (mesh.down E K)[e * mesh.degree E K + j']? = some k' →
    k ∈ keys → k' ∈ keys → k = k'
  /-- parts of a key, and the upward adjacency that inverts them -/
  below : E < K → (∀ k ∈ keys, ∃ r, (mesh.down K E)[k * mesh.degree K E]? = some r ∧ r < mesh.nents E) ∧
    ∀ r, r < mesh.nents E → AdjRow (mesh.up E K) r (L r) ∧
      (L r).Pairwise (fun x y => x.1 = y.1 → codeWhichDown x.2 ≠ codeWhichDown y.2) ∧
      (∀ x ∈ L r, x.1 < mesh.nents K) ∧
      ∀ k, (mesh.down K E)[k * mesh.degree K E]? = some r ↔ ∃ code, (k, code) ∈ L r ∧ codeWhichDown code = 0

end OmegaH.Spec
