import Verif.Model.Mem

/-! # Reductions: src/Omega_h_reduce.hpp

The shape of a reduction is a binary tree.  For an OpenMP reduction the leaves are the sets of
iterations executed by the threads, in the order the thread executes them, and the inner nodes say
how the partial results are combined; OpenMP leaves all of this open.  For an MPI reduction the
leaves are the ranks. -/

namespace OmegaH

inductive RTree (β : Type) where
  | leaf (x : β)
  | node (l r : RTree β)

/-- Leaves from left to right. -/
def RTree.leaves {β : Type} : RTree β → List β
  | .leaf x => [x]
  | .node l r => l.leaves ++ r.leaves

/-- Combining the leaves in the order given by the tree. -/
def RTree.reduce {β : Type} (op : β → β → β) : RTree β → β
  | .leaf x => x
  | .node l r => op (l.reduce op) (r.reduce op)

/-- Replacing the leaves; `none` if some leaf has no value. -/
def RTree.mapM? {β γ : Type} (f : β → Option γ) : RTree β → Option (RTree γ)
  | .leaf x => (f x).map .leaf
  | .node l r => (l.mapM? f).bind (fun l' => (r.mapM? f).map (fun r' => .node l' r'))

/-- A division of the iterations `0 … n-1` of a loop among threads, with the order in which every
thread executes its iterations and the order in which the partial results are combined. -/
structure Team where
  tree : Nat → RTree (List Nat)
  ok : ∀ n, ((tree n).leaves.flatten).Perm (List.range n)

/-- One thread executing everything in order: the serial backend, src/Omega_h_reduce.hpp:165-175. -/
def Team.serial : Team := ⟨fun n => .leaf (List.range n), fun n => by simp [RTree.leaves]⟩

/-- Two threads, the second one taking the first half in reverse order; for examples. -/
def Team.two : Team :=
  ⟨fun n => .node (.leaf ((List.range' (n / 2) (n - n / 2)))) (.leaf (List.range (n / 2)).reverse),
   fun n => by
    simp only [RTree.leaves, List.singleton_append, List.flatten_cons, List.flatten_nil,
      List.append_nil]
    refine List.perm_append_comm.trans ?_
    refine ((List.reverse_perm _).append_right _).trans ?_
    rw [List.range_eq_range', List.range_eq_range']
    have := @List.range'_append 0 (n / 2) (n - n / 2) 1
    simp only [Nat.zero_add, Nat.one_mul] at this
    rw [this, Nat.add_sub_of_le (Nat.div_le_self n 2)]⟩

/-- `transform_reduce` with OpenMP: src/Omega_h_reduce.hpp:90-161. `priv` is the value of the private
copy at the start of the loop: the identity of the operator for the built-in operators `&&`, `+`,
`max`, `min` (lines 107-161) and the original `init` for the generic version (lines 92-95). The
combined partial results are combined with the original value `init`. -/
def transformReduce {β : Type} (t : Team) (op : β → β → β) (priv init : β)
    (f : Nat → Option β) (n : Nat) : Option β :=
  ((t.tree n).mapM? (fun its => (its.mapM f).map (fun vs => vs.foldl op priv))).map
    (fun partials => op init (partials.reduce op))

/-- The same loop, serial: src/Omega_h_reduce.hpp:165-175. -/
def transformReduceSerial {β : Type} (op : β → β → β) (init : β) (f : Nat → Option β) (n : Nat) :
    Option β := ((List.range n).mapM f).map (fun vs => vs.foldl op init)

/-- The order in which an MPI library combines the contributions of the ranks of a communicator. -/
structure RankTree where
  tree : Nat → RTree Nat
  ok : ∀ n, 0 < n → ((tree n).leaves).Perm (List.range n)

/-- `Comm::allreduce`: src/Omega_h_comm.cpp:202-210 (one contribution per rank, in rank order;
every rank gets the result). The serial build returns the argument (lines 206-209). -/
def allreduce {β : Type} (t : RankTree) (op : β → β → β) (xs : List β) : Option β :=
  ((t.tree xs.length).mapM? (fun r => xs[r]?)).map (fun v => v.reduce op)

/-- Left to right over the ranks, for examples. -/
def leftTree : Nat → RTree Nat
  | 0 => .leaf 0
  | 1 => .leaf 0
  | n + 2 => .node (leftTree (n + 1)) (.leaf (n + 1))

theorem leftTree_leaves : ∀ n, 0 < n → (leftTree n).leaves = List.range n
  | 0, h => absurd h (by omega)
  | 1, _ => rfl
  | n + 2, _ => by
    rw [leftTree, RTree.leaves, RTree.leaves, leftTree_leaves (n + 1) (by omega),
      List.range_succ (n := n + 1)]

def RankTree.left : RankTree := ⟨leftTree, fun n h => by rw [leftTree_leaves n h]⟩

end OmegaH
