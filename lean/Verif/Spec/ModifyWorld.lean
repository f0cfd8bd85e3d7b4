import Verif.Model.ModifyWorld
import Verif.Spec.Modify
import Verif.Spec.Dist
import Verif.Spec.Owners
/-!
# What replacing entities does to a distributed mesh

The entities of one dimension are named by their global numbers, wherever their copies are.
-/
namespace OmegaH.Spec

/-- What happens to the entities of one dimension of the whole mesh: the old ones have the global numbers
`0 .. N - 1`, of which some stay. Each modified entity, given by its dimension and its global number in that
dimension, gets a number of products; it has an old entity that represents it, and a place among what
that entity represents. -/
structure Change where
  N : Nat
  stays : Nat → Bool
  mods : List (Nat × Nat)
  rep : Nat × Nat → Nat
  nprods : Nat × Nat → Nat
  place : Nat × Nat → Nat

/-- The new entities: old ones that stay, and products of modified entities. -/
def Change.New (c : Change) : Nat ⊕ ((Nat × Nat) × Nat) → Prop
  | .inl g => g < c.N ∧ c.stays g = true
  | .inr (x, j) => x ∈ c.mods ∧ j < c.nprods x

/-- The number of products that entity `g` represents. -/
def Change.represented (c : Change) (g : Nat) : Nat := ((c.mods.filter (fun x => c.rep x = g)).map c.nprods).sum

/-- Each modified entity is listed once and has a representative; what one entity represents has places
that do not overlap and leave no gaps. -/
structure Change.Ok (c : Change) : Prop where
  once : c.mods.Nodup
  repLt : ∀ x ∈ c.mods, c.rep x < c.N
  fits : ∀ x ∈ c.mods, c.place x + c.nprods x ≤ c.represented (c.rep x)
  apart : ∀ x ∈ c.mods, ∀ y ∈ c.mods, x ≠ y → c.rep x = c.rep y → 0 < c.nprods x → 0 < c.nprods y →
    c.place x + c.nprods x ≤ c.place y ∨ c.place y + c.nprods y ≤ c.place x

/-- The number of new entities that come from old entities below `g`: those that stay, and the products that they represent. -/
def Change.below (c : Change) (g : Nat) : Nat :=
  ((List.range g).filter c.stays).length + ((c.mods.filter (fun x => c.rep x < g)).map c.nprods).sum

/-- The new global number. -/
def Change.num (c : Change) : Nat ⊕ ((Nat × Nat) × Nat) → Nat
  | .inl g => c.below g
  | .inr (x, j) => c.below (c.rep x) + (if c.stays (c.rep x) then 1 else 0) + c.place x + j

/-- The old entity that a new one comes from: itself if it stays, or the representative of what it is a product of. -/
def Change.source (c : Change) : Nat ⊕ ((Nat × Nat) × Nat) → Nat
  | .inl g => g
  | .inr (x, _) => c.rep x

/-- The ranks `0 .. n - 1` hold the parts of a mesh to which the change `c` is made. The entities of dimension `E` on rank `r` that stay
are `same r`, there are `P r` products, the modified entities are `mds r`, their representatives are `rep r`,
the entities above are `L r`. `gid r d m` is the global number of modified entity `m` of dimension `d`. -/
structure ModifyWorld (n E : Nat) (keepMods : Bool) (rank : Nat → ModifyRank) (same : Nat → List Nat) (P : Nat → Nat)
    (mds : Nat → Nat → List Nat) (rep : Nat → Nat → Nat → Nat) (L : Nat → Nat → Nat → List (Nat × Int))
    (gl : Nat → List Nat) (gid : Nat → Nat → Nat → Nat) (c : Change) : Prop where
  input : ∀ r, r < n → ModifyInput (rank r).mesh E (rank r).mods2mds (rank r).mods2prods keepMods (same r) (P r)
    (mds r) (rep r) (L r)
  globals : ∀ r, r < n → (rank r).globals = (gl r).map Int.ofNat
  globalsLen : ∀ r, r < n → (gl r).length = (rank r).mesh.nents E
  globalsLt : ∀ r, r < n → ∀ g ∈ gl r, g < c.N
  ownedLen : ∀ r, r < n → ∀ d, ((rank r).mesh.owned d).length = (rank r).mesh.nents d
  /-- every old entity has exactly one copy that is owned -/
  owned : ∀ g, g < c.N → ∃ (r i : Nat) (o : Int), r < n ∧ (gl r)[i]? = some g ∧ ((rank r).mesh.owned E)[i]? = some o ∧ o ≠ 0
  ownedOnce : ∀ (g r i : Nat) (o : Int) (r' i' : Nat) (o' : Int), r < n → r' < n → (gl r)[i]? = some g → (gl r')[i']? = some g →
    ((rank r).mesh.owned E)[i]? = some o → o ≠ 0 → ((rank r').mesh.owned E)[i']? = some o' → o' ≠ 0 → r = r' ∧ i = i'
  /-- the copies agree on what stays -/
  stays : ∀ r i g : Nat, r < n → (gl r)[i]? = some g → (i ∈ same r ↔ c.stays g = true)
  /-- the modified entities of a rank, with their representatives, products and places -/
  mods : ∀ r d m, r < n → IsMod (rank r).mods2prods (mds r) d m → (d, gid r d m) ∈ c.mods ∧
    (gl r)[rep r d m]? = some (c.rep (d, gid r d m)) ∧
    (∀ (prods : List Nat) (lo hi : Nat), (rank r).mods2prods d = some prods → prods[m]? = some lo → prods[m + 1]? = some hi →
      hi = lo + c.nprods (d, gid r d m)) ∧
    (d ≤ E → c.place (d, gid r d m) = 0) ∧
    (E < d → ∃ (ord : List Int) (md : Nat), (rank r).order d = some ord ∧ (mds r d)[m]? = some md ∧ ord[md]? = some ((c.place (d, gid r d m) : Nat) : Int))
  orders : ∀ r d, r < n → E < d → ((rank r).mods2prods d).isSome = true → ((rank r).order d).isSome = true
  modsDistinct : ∀ r d m m', r < n → IsMod (rank r).mods2prods (mds r) d m → IsMod (rank r).mods2prods (mds r) d m' →
    gid r d m = gid r d m' → m = m'
  /-- every modified entity has exactly one copy that is owned -/
  modOwned : ∀ x ∈ c.mods, ∃ (r m md : Nat) (o : Int), r < n ∧ IsMod (rank r).mods2prods (mds r) x.1 m ∧ gid r x.1 m = x.2 ∧
    (mds r x.1)[m]? = some md ∧ ((rank r).mesh.owned x.1)[md]? = some o ∧ o ≠ 0
  modOwnedOnce : ∀ (r m md : Nat) (o : Int) (r' m' md' : Nat) (o' : Int) (d : Nat), r < n → r' < n → IsMod (rank r).mods2prods (mds r) d m →
    IsMod (rank r').mods2prods (mds r') d m' → gid r d m = gid r' d m' →
    (mds r d)[m]? = some md → ((rank r).mesh.owned d)[md]? = some o → o ≠ 0 →
    (mds r' d)[m']? = some md' → ((rank r').mesh.owned d)[md']? = some o' → o' ≠ 0 → r = r'

/-- New entity `v` of rank `r`, which got the local numbers `l`, is a copy of `e`. -/
def NewCopy (rank : ModifyRank) (gl : List Nat) (gid : Nat → Nat → Nat) (l : NewNumbers) (v : Nat) :
    Nat ⊕ ((Nat × Nat) × Nat) → Prop
  | .inl g => ∃ i e : Nat, l.same[i]? = some e ∧ gl[e]? = some g ∧ l.same2new[i]? = some (v : Int)
  | .inr (x, j) => ∃ (m : Nat) (prods : List Nat) (lo hi : Nat), rank.mods2prods x.1 = some prods ∧ gid x.1 m = x.2 ∧ prods[m]? = some lo ∧
      prods[m + 1]? = some hi ∧ lo + j < hi ∧ l.prods2new[lo + j]? = some (v : Int)

/-- All copies of a new entity have the same owner, which is one of them. -/
def NewOwnersOk (n : Nat) (rank : Nat → ModifyRank) (gl : Nat → List Nat) (gid : Nat → Nat → Nat → Nat) (l : Nat → NewNumbers)
    (ranks idxs : Nat → List Int) : Prop :=
  ∀ e r v, r < n → NewCopy (rank r) (gl r) (gid r) (l r) v e → ∃ q k : Nat, q < n ∧ NewCopy (rank q) (gl q) (gid q) (l q) k e ∧
    ∀ r' v' : Nat, r' < n → NewCopy (rank r') (gl r') (gid r') (l r') v' e → (ranks r')[v']? = some (q : Int) ∧ (idxs r')[v']? = some (k : Int)

/-- Element `e` of a rank is in the cavity of a key whose owner is on rank `q`. -/
def InCavity (keys : List Nat) (kds2elems : Graph) (kdRanks : List Nat) (e q : Nat) : Prop :=
  ∃ kd i : Nat, kd ∈ keys ∧ kdRanks[kd]? = some q ∧ InFan kds2elems.a2ab kd i ∧ kds2elems.ab2b[i]? = some e

/-- The arrays of one rank with the keys and the elements around them fit together. -/
structure CavityInput (keys : List Nat) (kds2elems : Graph) (kdRanks : List Nat) (nelems : Nat) : Prop where
  owner : ∀ kd ∈ keys, kd < kdRanks.length
  fan : ∀ kd ∈ keys, kd + 1 < kds2elems.a2ab.length
  elem : ∀ kd ∈ keys, ∀ i, InFan kds2elems.a2ab kd i → ∃ e, kds2elems.ab2b[i]? = some e ∧ e < nelems

/-- The entities of dimension `K` of a rank that sees all of them have a first part of dimension `E`, and `L r` lists, in the order of
the upward adjacency, the entities above `r`, each with a code that tells which part of it `r` is. -/
structure PlacesInput (mesh : ModifyMesh) (E K : Nat) (L : Nat → List (Nat × Int)) : Prop where
  dims : E < K ∧ K ≤ mesh.dim ∧ mesh.dim ≤ 3
  owned : (mesh.owned E).length = mesh.nents E
  down : ∀ k, k < mesh.nents K → ∃ r, (mesh.down K E)[k * mesh.degree K E]? = some r ∧ r < mesh.nents E
  row : ∀ r, r < mesh.nents E → AdjRow (mesh.up E K) r (L r)
  each : ∀ r, r < mesh.nents E → (L r).Pairwise (fun x y => x.1 = y.1 → codeWhichDown x.2 ≠ codeWhichDown y.2)
  ents : ∀ r, r < mesh.nents E → ∀ x ∈ L r, x.1 < mesh.nents K
  inv : ∀ r, r < mesh.nents E → ∀ k, (mesh.down K E)[k * mesh.degree K E]? = some r ↔ ∃ code, (k, code) ∈ L r ∧ codeWhichDown code = 0

/-- Entry `x` of an adjacency row is a key whose first part is where the row is. -/
def FirstKey (marks : List Int) (x : Nat × Int) : Prop := marks[x.1]? = some 1 ∧ codeWhichDown x.2 = 0

instance (marks : List Int) (x : Nat × Int) : Decidable (FirstKey marks x) := inferInstanceAs (Decidable (_ ∧ _))

end OmegaH.Spec
