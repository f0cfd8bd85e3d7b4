import Verif.Spec.Map
import Mathlib.Order.Basic

/-! # Specification of independent sets -/

namespace OmegaH.Spec

/-- `S` is what one gets by going through the candidates from the top down and choosing each that is not adjacent to a chosen one. -/
def Greedy {V : Type} (cand : V → Prop) (adj above : V → V → Prop) (S : V → Prop) : Prop :=
  ∀ v, S v ↔ cand v ∧ ∀ u, adj v u → above u v → ¬ S u

/-- No two chosen vertices are adjacent. -/
def Independent {V : Type} (adj : V → V → Prop) (S : V → Prop) : Prop := ∀ u v, adj u v → S u → ¬ S v

/-- A candidate that was not chosen is adjacent to one that was. -/
def Maximal {V : Type} (cand : V → Prop) (adj : V → V → Prop) (S : V → Prop) : Prop := ∀ v, cand v → ¬ S v → ∃ u, adj v u ∧ S u

/-- The input of the ranks: owners, offsets and neighbors of the graph, candidates, qualities and global numbers of the entities. -/
structure IndsetInput (K : Type) where
  nents : Nat → Nat
  ownRanks : Nat → List Nat
  ownIdxs : Nat → List Nat
  fans : Nat → List Nat
  nbrs : Nat → List Nat
  cand : Nat → List Int
  quality : Nat → List K
  globals : Nat → List Int

variable {K : Type}

/-- The owner of a copy. -/
def IndsetInput.owner (I : IndsetInput K) (e : Nat × Nat) : Option (Nat × Nat) :=
  ((I.ownRanks e.1)[e.2]?).bind (fun p => ((I.ownIdxs e.1)[e.2]?).map (fun x => (p, x)))

/-- An entity, named by its owner. -/
def IndsetInput.IsEnt (I : IndsetInput K) (n : Nat) (e : Nat × Nat) : Prop := e.1 < n ∧ I.owner e = some e

/-- The neighbors of an entity are those that its owner sees. -/
def IndsetInput.Adj (I : IndsetInput K) (n : Nat) (e f : Nat × Nat) : Prop :=
  I.IsEnt n e ∧ ∃ k u, InFan (I.fans e.1) e.2 k ∧ (I.nbrs e.1)[k]? = some u ∧ I.owner (e.1, u) = some f

def IndsetInput.Cand (I : IndsetInput K) (n : Nat) (e : Nat × Nat) : Prop := I.IsEnt n e ∧ (I.cand e.1)[e.2]? = some 1

/-- `u` has the higher quality, or equal quality and the higher global number. -/
def IndsetInput.Above [LT K] (I : IndsetInput K) (u v : Nat × Nat) : Prop :=
  ∃ qu qv gu gv, (I.quality u.1)[u.2]? = some qu ∧ (I.quality v.1)[v.2]? = some qv ∧ (I.globals u.1)[u.2]? = some gu ∧
    (I.globals v.1)[v.2]? = some gv ∧ (qv < qu ∨ (qv = qu ∧ gv < gu))

/-- Sizes fit, owners exist and own themselves, the copies of an entity agree, the graph is symmetric and neighbors are comparable. -/
structure IndsetInput.Ok [LT K] (I : IndsetInput K) (n : Nat) : Prop where
  ranksLen : ∀ r, r < n → (I.ownRanks r).length = I.nents r
  idxsLen : ∀ r, r < n → (I.ownIdxs r).length = I.nents r
  owner : ∀ r i o, r < n → I.owner (r, i) = some o → o.1 < n ∧ o.2 < I.nents o.1 ∧ I.owner o = some o
  fan : ∀ r, r < n → IsFan (I.fans r) ∧ (I.fans r).length = I.nents r + 1 ∧ (I.fans r).getLast? = some (I.nbrs r).length
  nbrs : ∀ r, r < n → ∀ u ∈ I.nbrs r, u < I.nents r
  candLen : ∀ r, r < n → (I.cand r).length = I.nents r
  marks : ∀ r, r < n → ∀ c ∈ I.cand r, c = 0 ∨ c = 1
  qualityLen : ∀ r, r < n → (I.quality r).length = I.nents r
  globalsLen : ∀ r, r < n → (I.globals r).length = I.nents r
  agree : ∀ r i p x, r < n → I.owner (r, i) = some (p, x) → (I.cand r)[i]? = (I.cand p)[x]? ∧ (I.quality r)[i]? = (I.quality p)[x]? ∧
    (I.globals r)[i]? = (I.globals p)[x]?
  symm : ∀ e f, I.Adj n e f → I.Adj n f e
  differ : ∀ e f, I.Adj n e f → (I.quality e.1)[e.2]? ≠ (I.quality f.1)[f.2]? ∨ (I.globals e.1)[e.2]? ≠ (I.globals f.1)[f.2]?

/-- The input is a way to distribute the graph on global numbers with candidates `cand`, edges `adj` and qualities `q`. -/
structure IndsetInput.Represents (I : IndsetInput K) (n : Nat) (cand : Int → Prop) (adj : Int → Int → Prop) (q : Int → K) : Prop where
  inj : ∀ e f g, I.IsEnt n e → I.IsEnt n f → (I.globals e.1)[e.2]? = some g → (I.globals f.1)[f.2]? = some g → e = f
  cand : ∀ g, cand g ↔ ∃ e, I.Cand n e ∧ (I.globals e.1)[e.2]? = some g
  adj : ∀ g h, adj g h ↔ ∃ e f, I.Adj n e f ∧ (I.globals e.1)[e.2]? = some g ∧ (I.globals f.1)[f.2]? = some h
  quality : ∀ e g, I.IsEnt n e → (I.globals e.1)[e.2]? = some g → (I.quality e.1)[e.2]? = some (q g)

end OmegaH.Spec
