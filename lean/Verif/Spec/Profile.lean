/-! # Specification: which regions were timed

A region is known by its path: the names of the regions that were open when it began, from the outermost one, and its own name. -/

namespace OmegaH.Spec

/-- What a program does: begin a region at a time, or end the region that it began last. -/
inductive PEvent (K : Type) where
  | start (name : List Nat) (t : K)
  | stop (t : K)

/-- The regions that are open with the times they began, innermost first; the paths of all calls so far; the paths and durations of the
calls that have ended. -/
structure PLog (K : Type) where
  opened : List (List (List Nat) × K)
  calls : List (List (List Nat))
  ended : List (List (List Nat) × K)

/-- The path of the innermost open region. -/
def PLog.path {K : Type} (l : PLog K) : List (List Nat) :=
  match l.opened with
  | [] => []
  | (p, _) :: _ => p

/-- `none`: a region ends though none is open. -/
def PLog.step {K : Type} [Sub K] (l : PLog K) : PEvent K → Option (PLog K)
  | .start name t => some ⟨(l.path ++ [name], t) :: l.opened, (l.path ++ [name]) :: l.calls, l.ended⟩
  | .stop t => match l.opened with
    | [] => none
    | (p, t0) :: rest => some ⟨rest, l.calls, (p, t - t0) :: l.ended⟩

/-- The total duration of the calls at path `p` that have ended. -/
def PLog.duration {K : Type} [Zero K] [Add K] (l : PLog K) (p : List (List Nat)) : K :=
  ((l.ended.filter (fun e => decide (e.1 = p))).map Prod.snd).sum

/-- The path of entry `i` of a table of entries with parents and names. -/
inductive PathOf (parent : Nat → Option (Option Nat)) (name : Nat → Option (List Nat)) : Nat → List (List Nat) → Prop
  | root (i : Nat) (x : List Nat) : parent i = some none → name i = some x → PathOf parent name i [x]
  | child (i j : Nat) (x : List Nat) (p : List (List Nat)) : parent i = some (some j) → name i = some x → PathOf parent name j p →
    PathOf parent name i (p ++ [x])

/-- A table with `n` entries tells what happened: there is one entry for each path that was called, with the number of calls and the
total duration of those that have ended. -/
structure PRecords {K : Type} [Zero K] [Add K] (n : Nat) (parent : Nat → Option (Option Nat)) (name : Nat → Option (List Nat))
    (calls : Nat → Option Nat) (time : Nat → Option K) (log : PLog K) : Prop where
  each : ∀ i, i < n → ∃ p, PathOf parent name i p ∧ p ∈ log.calls ∧ calls i = some (log.calls.count p) ∧ time i = some (log.duration p)
  all : ∀ p ∈ log.calls, ∃ i, i < n ∧ PathOf parent name i p
  once : ∀ i j p, PathOf parent name i p → PathOf parent name j p → i = j

/-- The order in which the trees below some entries are visited, given the children of each: an entry, all that is below it, then the
next entry. -/
inductive PWalk (kids : Nat → List Nat) : List Nat → List Nat → Prop
  | nil : PWalk kids [] []
  | cons (i : Nat) (l a b : List Nat) : PWalk kids (kids i) a → PWalk kids l b → PWalk kids (i :: l) (i :: (a ++ b))

/-- What can be read from a table with `n` entries: the name, the number of calls, the time and the path of each. -/
structure PReads {K : Type} (n : Nat) (parentOf : Nat → Option (Option Nat)) (nameOf : Nat → Option (List Nat))
    (callsOf : Nat → Option Nat) (timeOf : Nat → Option K) (name : Nat → List Nat) (calls : Nat → Nat) (time : Nat → K)
    (path : Nat → List (List Nat)) : Prop where
  name_eq : ∀ i, i < n → nameOf i = some (name i)
  calls_eq : ∀ i, i < n → callsOf i = some (calls i)
  time_eq : ∀ i, i < n → timeOf i = some (time i)
  path_of : ∀ i, i < n → PathOf parentOf nameOf i (path i)

/-- The time spent in a call of an entry but not in the calls below it; times may be measured so that this is negative. -/
def selfTime {K : Type} [Zero K] [Add K] [Sub K] [Max K] (n : Nat) (parentOf : Nat → Option (Option Nat)) (time : Nat → K) (j : Nat) : K :=
  max (time j - (((List.range n).filter (fun k => decide (parentOf k = some (some j)))).map time).sum) 0

/-- The entries whose path, read from its end, begins with `q`. -/
def endsIn (n : Nat) (path : Nat → List (List Nat)) (q : List (List Nat)) : List Nat :=
  (List.range n).filter (fun j => decide (q.reverse <:+ path j))

end OmegaH.Spec
