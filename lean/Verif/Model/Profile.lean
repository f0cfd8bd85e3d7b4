/-! # The call profile: src/Omega_h_profile.hpp, src/Omega_h_profile.cpp

Times are elements of an ordered field, so sums are exact. Bytes of names are natural numbers; a name (a C string) has no byte 0. The
index `invalid` (`size_t` maximum) is `none`: there are never that many frames. What is printed is modelled as a list of lines. -/

namespace OmegaH

/-- A name without its terminating 0. -/
abbrev PName := List Nat

/-- `Frame`: src/Omega_h_profile.hpp:34-43. -/
structure PFrame (K : Type) where
  parent : Option Nat
  firstChild : Option Nat
  lastChild : Option Nat
  nextSibling : Option Nat
  namePtr : Nat
  startTime : K
  totalRuntime : K
  calls : Nat

/-- `History`: src/Omega_h_profile.hpp:45-50, without the options for printing. `chars` is `Strings` (lines 19-30). -/
structure PHistory (K : Type) where
  frames : List (PFrame K)
  current : Option Nat
  lastRoot : Option Nat
  chars : List Nat

variable {K : Type}

/-- `History::History(CommPtr, ...)`: src/Omega_h_profile.cpp:19-21. -/
def PHistory.empty : PHistory K := ⟨[], none, none, []⟩

/-- `History::History(const History&)`: src/Omega_h_profile.cpp:23-29. It copies options only; `current_frame` and `last_root` are not
initialised, so that they may have any values. -/
def PHistory.copyOptions (_ : PHistory K) (anyCurrent anyRoot : Option Nat) : PHistory K := ⟨[], anyCurrent, anyRoot, []⟩

/-- `Strings::get` and the comparison that follows: the bytes up to the first 0. Reading past the end of the array is undefined. -/
def charsGet (chars : List Nat) (i : Nat) : Option PName :=
  if 0 ∈ chars.drop i then some ((chars.drop i).takeWhile (fun c => decide (c ≠ 0))) else none

/-- `History::get_name`: src/Omega_h_profile.hpp:59-61. -/
def PHistory.name (h : PHistory K) (i : Nat) : Option PName := (h.frames[i]?).bind (fun f => charsGet h.chars f.namePtr)

/-- A change of one frame; undefined if there is no such frame. -/
def PHistory.modify (h : PHistory K) (i : Nat) (g : PFrame K → PFrame K) : Option (PHistory K) :=
  if i < h.frames.length then some { h with frames := h.frames.modify i g } else none

/-- The search along siblings: the loops of src/Omega_h_profile.hpp:65-70 (`rootsOnly` false) and 99-104 (`rootsOnly` true). `fuel`
counts the frames that are left to be seen. -/
def PHistory.search (h : PHistory K) (rootsOnly : Bool) (name : PName) : Nat → Option Nat → Option (Option Nat)
  | _, none => some none
  | 0, some _ => none
  | fuel + 1, some i => (h.frames[i]?).bind (fun f => (h.name i).bind (fun x =>
    if (rootsOnly → f.parent = none) ∧ x = name then some (some i) else h.search rootsOnly name fuel f.nextSibling))

/-- `find_root`: src/Omega_h_profile.hpp:97-106. -/
def PHistory.findRoot (h : PHistory K) (name : PName) : Option (Option Nat) :=
  if h.frames.isEmpty then some none else h.search true name h.frames.length (some 0)

/-- `find_child_of`: src/Omega_h_profile.hpp:62-72. -/
def PHistory.findChildOf (h : PHistory K) (parent : Option Nat) (name : PName) : Option (Option Nat) :=
  match parent with
  | none => h.findRoot name
  | some p => (h.frames[p]?).bind (fun f => h.search false name h.frames.length f.firstChild)

/-- `create_root`: src/Omega_h_profile.hpp:107-124. -/
def PHistory.createRoot [Zero K] (h : PHistory K) (name : PName) : Option (PHistory K × Nat) :=
  let index := h.frames.length
  let frame : PFrame K := ⟨none, none, none, none, h.chars.length, 0, 0, 0⟩
  let h1 : PHistory K := { h with frames := h.frames ++ [frame], chars := h.chars ++ name ++ [0] }
  (if index ≠ 0 then h.lastRoot.bind (fun l => h1.modify l (fun f => { f with nextSibling := some index })) else some h1).map (fun h2 =>
    ({ h2 with lastRoot := some index }, index))

/-- `create_child_of`: src/Omega_h_profile.hpp:73-93. -/
def PHistory.createChildOf [Zero K] (h : PHistory K) (parent : Option Nat) (name : PName) : Option (PHistory K × Nat) :=
  match parent with
  | none => h.createRoot name
  | some p =>
    let index := h.frames.length
    let frame : PFrame K := ⟨some p, none, none, none, h.chars.length, 0, 0, 0⟩
    let h1 : PHistory K := { h with frames := h.frames ++ [frame], chars := h.chars ++ name ++ [0] }
    (h1.frames[p]?).bind (fun pf =>
    (match pf.lastChild with
      | some l => h1.modify l (fun f => { f with nextSibling := some index })
      | none => h1.modify p (fun f => { f with firstChild := some index })).bind (fun h2 =>
    (h2.modify p (fun f => { f with lastChild := some index })).map (fun h3 => (h3, index))))

/-- `find_or_create_child_of`: src/Omega_h_profile.hpp:134-139. -/
def PHistory.findOrCreate [Zero K] (h : PHistory K) (parent : Option Nat) (name : PName) : Option (PHistory K × Nat) :=
  (h.findChildOf parent name).bind (fun found =>
    match found with
    | some i => some (h, i)
    | none => h.createChildOf parent name)

/-- `start`, that is `begin_code`: src/Omega_h_profile.hpp:140-151. `t` is what the clock shows. -/
def PHistory.start [Zero K] (h : PHistory K) (name : PName) (t : K) : Option (PHistory K) :=
  (h.findOrCreate h.current name).bind (fun (h1, id) =>
    ({ h1 with current := some id } : PHistory K).modify id (fun f => { f with calls := f.calls + 1, startTime := t }))

/-- `measure_total_runtime`: src/Omega_h_profile.hpp:152-159. -/
def PHistory.measureTotal [Add K] [Sub K] (h : PHistory K) (t : K) : Option K :=
  h.current.bind (fun i => (h.frames[i]?).map (fun f => f.totalRuntime + (t - f.startTime)))

/-- `stop`, that is `end_code`: src/Omega_h_profile.hpp:160-163 with `pop` (line 145). -/
def PHistory.stop [Add K] [Sub K] (h : PHistory K) (t : K) : Option (PHistory K) :=
  h.current.bind (fun i => (h.measureTotal t).bind (fun x =>
    (h.modify i (fun f => { f with totalRuntime := x })).bind (fun h1 =>
      (h1.frames[i]?).map (fun f => { h1 with current := f.parent }))))

/-- `History::first`: src/Omega_h_profile.cpp:31-35. -/
def PHistory.first (h : PHistory K) (parent : Option Nat) : Option (Option Nat) :=
  match parent with
  | some p => (h.frames[p]?).map (fun f => f.firstChild)
  | none => some (if h.frames.isEmpty then none else some 0)

/-- `History::next`: src/Omega_h_profile.cpp:37-39. -/
def PHistory.next (h : PHistory K) (i : Nat) : Option (Option Nat) := (h.frames[i]?).map (fun f => f.nextSibling)

/-- `History::parent`: src/Omega_h_profile.cpp:41-43. -/
def PHistory.parent (h : PHistory K) (i : Nat) : Option (Option Nat) := (h.frames[i]?).map (fun f => f.parent)

/-- `History::time`: src/Omega_h_profile.cpp:63-65. -/
def PHistory.time (h : PHistory K) (i : Nat) : Option K := (h.frames[i]?).map (fun f => f.totalRuntime)

/-- `History::calls`: src/Omega_h_profile.cpp:67-69. -/
def PHistory.callsOf (h : PHistory K) (i : Nat) : Option Nat := (h.frames[i]?).map (fun f => f.calls)

/-- The loop `for (child = first; child != invalid; child = next(child))`: src/Omega_h_profile.cpp:137-140, 170-173. -/
def PHistory.chain (h : PHistory K) : Nat → Option Nat → Option (List Nat)
  | _, none => some []
  | 0, some _ => none
  | fuel + 1, some i => (h.next i).bind (fun j => (h.chain fuel j).map (fun l => i :: l))

/-- The children of a frame, or the roots. -/
def PHistory.children (h : PHistory K) (parent : Option Nat) : Option (List Nat) :=
  (h.first parent).bind (fun i => h.chain h.frames.length i)

/-- The last loop of `pre_order_next`: src/Omega_h_profile.cpp:54-59. -/
def PHistory.climb (h : PHistory K) : Nat → Option Nat → Option (Option Nat)
  | _, none => some none
  | 0, some _ => none
  | fuel + 1, some i => (h.next i).bind (fun j =>
    match j with
    | some j => some (some j)
    | none => (h.parent i).bind (fun p => h.climb fuel p))

/-- `pre_order_next`: src/Omega_h_profile.cpp:45-61. -/
def PHistory.preOrderNext (h : PHistory K) (i : Nat) : Option (Option Nat) :=
  (h.first (some i)).bind (fun a =>
    match a with
    | some a => some (some a)
    | none => (h.next i).bind (fun b =>
      match b with
      | some b => some (some b)
      | none => h.climb h.frames.length (some i)))

/-- `for (auto frame : history)` from some frame on: src/Omega_h_profile.cpp:71-96. -/
def PHistory.preOrderFrom (h : PHistory K) : Nat → Option Nat → Option (List Nat)
  | _, none => some []
  | 0, some _ => none
  | fuel + 1, some i => (h.preOrderNext i).bind (fun j => (h.preOrderFrom fuel j).map (fun l => i :: l))

def PHistory.preOrder (h : PHistory K) : Option (List Nat) :=
  h.preOrderFrom h.frames.length (if h.frames.isEmpty then none else some 0)

/-- The body of the loop of `compute_depths`: src/Omega_h_profile.cpp:100-107. -/
def PHistory.depthStep (h : PHistory K) (depths : List Nat) (i : Nat) : Option (List Nat) :=
  (h.parent i).bind (fun p =>
    (match p with
      | some p => (depths[p]?).map (fun d => d + 1)
      | none => some 0).bind (fun d => if i < depths.length then some (depths.set i d) else none))

/-- `compute_depths`: src/Omega_h_profile.cpp:98-109. -/
def PHistory.depths (h : PHistory K) : Option (List Nat) :=
  h.preOrder.bind (fun l => l.foldlM h.depthStep (List.replicate h.frames.length 0))

/-- A printed line: depth, name, time and calls. -/
structure PLine (K : Type) where
  depth : Nat
  name : PName
  time : K
  calls : Nat

/-- `simple_print`: src/Omega_h_profile.cpp:111-125. (It does not print the calls; they are put into the line for uniformity.) -/
def PHistory.simplePrint (h : PHistory K) : Option (List (PLine K)) :=
  h.depths.bind (fun ds => h.preOrder.bind (fun l => l.mapM (fun i =>
    (ds[i]?).bind (fun d => (h.name i).bind (fun x => (h.frames[i]?).map (fun f => ⟨d, x, f.totalRuntime, f.calls⟩))))))

/-- The walk from a node to its root in `invert`: src/Omega_h_profile.cpp:145-150. -/
def PHistory.invertWalk [Zero K] [Add K] (h : PHistory K) (self : K) (calls : Nat) :
    Nat → Option Nat → PHistory K → Option Nat → Option (PHistory K)
  | _, none, inv, _ => some inv
  | 0, some _, _, _ => none
  | fuel + 1, some node, inv, invNode => (h.name node).bind (fun name => (inv.findOrCreate invNode name).bind (fun (inv1, i) =>
    (inv1.modify i (fun f => { f with totalRuntime := f.totalRuntime + self, calls := f.calls + calls })).bind (fun inv2 =>
      (h.parent node).bind (fun p => h.invertWalk self calls fuel p inv2 (some i)))))

/-- The loop over the queue in `invert`: src/Omega_h_profile.cpp:133-151. -/
def PHistory.invertLoop [Zero K] [Add K] [Sub K] [Max K] (h : PHistory K) : Nat → List Nat → PHistory K → Option (PHistory K)
  | _, [], inv => some inv
  | 0, _ :: _, _ => none
  | fuel + 1, node :: q, inv => (h.time node).bind (fun t => (h.callsOf node).bind (fun calls =>
    (h.children (some node)).bind (fun kids => (kids.mapM h.time).bind (fun ts =>
      let self := ts.foldl (fun x y => x - y) t
      (h.invertWalk (max self 0) calls h.frames.length (some node) inv none).bind (fun inv1 =>
        h.invertLoop fuel (q ++ kids) inv1)))))

/-- `invert`: src/Omega_h_profile.cpp:127-153. -/
def PHistory.invert [Zero K] [Add K] [Sub K] [Max K] (h : PHistory K) (anyCurrent anyRoot : Option Nat) : Option (PHistory K) :=
  (h.children none).bind (fun q => h.invertLoop h.frames.length q (h.copyOptions anyCurrent anyRoot))

/-- `print_time_sorted_recursive`: src/Omega_h_profile.cpp:155-183. A line holds the time before it is scaled. The children are sorted by
`std::stable_sort` with the order "has more time"; `List.mergeSort` is stable. -/
def PHistory.printSortedFrom [Mul K] [Div K] [NatCast K] [LE K] [DecidableLE K] (h : PHistory K) (depths : List Nat) (total chop : K) :
    Nat → Option Nat → Option (List (PLine K))
  | 0, _ => none
  | fuel + 1, frame => (h.children frame).bind (fun kids =>
    (kids.mapM (fun i => (h.time i).map (fun t => (i, t)))).bind (fun ts =>
      ((ts.mergeSort (fun a b => decide (b.2 ≤ a.2))).mapM (fun (i, t) =>
        (depths[i]?).bind (fun d => (h.name i).bind (fun x => (h.callsOf i).bind (fun c =>
          (h.printSortedFrom depths total chop fuel (some i)).map (fun below =>
            (if chop ≤ t * ((100 : Nat) : K) / total then [(⟨d, x, t, c⟩ : PLine K)] else []) ++ below)))))).map List.flatten))

/-- `print_time_sorted`: src/Omega_h_profile.cpp:185-188. -/
def PHistory.printSorted [Mul K] [Div K] [NatCast K] [LE K] [DecidableLE K] (h : PHistory K) (total chop : K) : Option (List (PLine K)) :=
  h.depths.bind (fun ds => h.printSortedFrom ds total chop (h.frames.length + 1) none)

/-- A row of the table of top functions: the vector of `TOP_AVE`, `TOP_MIN`, `TOP_MAX`. -/
structure TopRow (K : Type) where
  name : PName
  ave : K
  min : K
  max : K
deriving DecidableEq

/-- The loop body of `gather`: src/Omega_h_profile.cpp:198-203. The map is a list of rows, in the order in which they were made; a C++
map would sort them by name. -/
def topSet (m : List (TopRow K)) (name : PName) (t : K) : List (TopRow K) :=
  if m.any (fun r => decide (r.name = name)) then m.map (fun r => if r.name = name then ⟨name, t, t, t⟩ else r) else m ++ [⟨name, t, t, t⟩]

/-- `gather` at the roots: src/Omega_h_profile.cpp:195-205. -/
def PHistory.topGather (h : PHistory K) : Option (List (TopRow K)) :=
  (h.children none).bind (fun kids => kids.foldlM (fun m i => (h.name i).bind (fun x => (h.time i).map (fun t => topSet m x t))) [])

/-- What a rank other than 0 sends in `sendrecv`: src/Omega_h_profile.cpp:242-247. -/
def topMessage (m : List (TopRow K)) : List Nat × List K := (m.flatMap (fun r => r.name ++ [0]), m.map (fun r => r.ave))

/-- `split_char_vec`: src/Omega_h_profile.cpp:225-236. `fuel` is the number of bytes. -/
def splitNames : Nat → List Nat → Option (List PName)
  | _, [] => some []
  | 0, _ :: _ => none
  | fuel + 1, c :: cs => (charsGet (c :: cs) 0).bind (fun s => (splitNames fuel ((c :: cs).drop (s.length + 1))).map (fun r => s :: r))

/-- The body of the loop over names in `sendrecv`: src/Omega_h_profile.cpp:259-261. For a name that is not in the map,
`result[res[i]]` makes an empty vector and `[TOP_AVE]` is an access outside of it: undefined. -/
def topAdd [Add K] [Min K] [Max K] (m : List (TopRow K)) (e : PName × K) : Option (List (TopRow K)) :=
  if m.any (fun r => decide (r.name = e.1)) then
    some (m.map (fun r => if r.name = e.1 then ⟨r.name, r.ave + e.2, Min.min r.min e.2, Max.max r.max e.2⟩ else r))
  else none

/-- What rank 0 does with a message: src/Omega_h_profile.cpp:250-262. -/
def topReceive [Add K] [Min K] [Max K] (m : List (TopRow K)) (msg : List Nat × List K) : Option (List (TopRow K)) :=
  (splitNames msg.1.length msg.1).bind (fun res =>
    if res.length = msg.2.length then (res.zip msg.2).foldlM topAdd m else none)

/-- `sendrecv` and the division by the number of ranks: src/Omega_h_profile.cpp:238-266, 277-283. The map of rank 0 and those of the
other ranks. -/
def topCollect [Add K] [Div K] [NatCast K] [Min K] [Max K] (mine : List (TopRow K)) (others : List (List (TopRow K))) : Option (List (TopRow K)) :=
  ((others.map topMessage).foldlM topReceive mine).map (fun m =>
    m.map (fun r => { r with ave := r.ave / ((others.length + 1 : Nat) : K) }))

end OmegaH
