import Verif.Model.ArrayOps
import Verif.Model.Adj
import Verif.Model.Blocks
import Verif.Model.Res

/-! # The expression evaluator: src/Omega_h_expr.cpp

Expressions are evaluated over `n` points of a space of dimension `d`: by `ExprReader`, which computes
while it reads, and by `ExprOpsReader`, which builds a tree of operations that is evaluated later.

Arithmetic is a parameter (`RealOps`): nothing is assumed here about it, so the model covers the
rounded operations on doubles. Reading the text is the subject of C28–C30; here an expression is the
tree of the productions of src/Omega_h_math_lang.cpp:8-54 (productions that only hand on a value are
left out), and its values are reduced from left to right, operands first, as the parser does. -/

namespace OmegaH

/-- The operations on `Real` that the evaluator uses. `toInt` is `static_cast<Int>`, undefined
(`none`) when the value does not fit. -/
structure RealOps (R : Type) where
  add : R → R → R
  sub : R → R → R
  mul : R → R → R
  div : R → R → R
  pow : R → R → R
  neg : R → R
  abs : R → R
  sqrt : R → R
  exp : R → R
  sin : R → R
  cos : R → R
  erf : R → R
  zero : R
  negOne : R
  pi : R
  ofNat : Nat → R
  gt : R → R → Bool
  lt : R → R → Bool
  eq : R → R → Bool
  toInt : R → Option Int

/-- The contents of an `any`: nothing, `bool`, `Bytes`, `Real`, `Reals`, `Vector<k>` (`k` is the
length) or `Matrix<m,k>` (a list of columns: src/Omega_h_matrix.hpp:9, 44-64). Other types that a user
may store are not modelled. -/
inductive EVal (R : Type) where
  | empty
  | bool (b : Bool)
  | bytes (l : List Int)
  | real (r : R)
  | reals (l : List R)
  | vec (v : List R)
  | mat (cols : List (List R))
deriving DecidableEq, Repr

/-- A failed check or a thrown exception in place of a missing value. -/
def Res.orFail {α : Type} : Option α → Res α
  | some a => .ok a
  | none => .fail

/-- The value, inside a loop whose iterations have no checks. -/
def Res.value? {α : Type} : Res α → Option α
  | .ok a => some a
  | _ => none

/-- Applying a function that may fail to every member, in order. -/
def mapRes {α β : Type} (f : α → Res β) : List α → Res (List β)
  | [] => .ok []
  | a :: as => (f a).bind (fun b => (mapRes f as).bind (fun bs => .ok (b :: bs)))

namespace EVal
variable {R : Type}

/-- `any_cast<Real>`, which throws for other types: src/Omega_h_any.hpp. -/
def toReal : EVal R → Res R
  | .real r => .ok r
  | _ => .fail
/-- `any_cast<Reals>`. -/
def toReals : EVal R → Res (List R)
  | .reals l => .ok l
  | _ => .fail
/-- `any_cast<bool>`. -/
def toBool : EVal R → Res Bool
  | .bool b => .ok b
  | _ => .fail
/-- `any_cast<Bytes>`. -/
def toBytes : EVal R → Res (List Int)
  | .bytes l => .ok l
  | _ => .fail
/-- `any_cast<Vector<d>>`. -/
def toVec (d : Nat) : EVal R → Res (List R)
  | .vec v => if v.length = d then .ok v else .fail
  | _ => .fail
/-- `any_cast<Tensor<d>>`. -/
def toMat (d : Nat) : EVal R → Res (List (List R))
  | .mat m => if m.length = d ∧ m.all (fun c => c.length == d) then .ok m else .fail
  | _ => .fail
/-- `type() == typeid(Real)`. -/
def isReal : EVal R → Bool
  | .real _ => true
  | _ => false
/-- `type() == typeid(Reals)`. -/
def isReals : EVal R → Bool
  | .reals _ => true
  | _ => false
/-- `type() == typeid(Vector<d>)`. -/
def isVec (d : Nat) : EVal R → Bool
  | .vec v => v.length == d
  | _ => false
/-- `type() == typeid(Tensor<d>)`. -/
def isMat (d : Nat) : EVal R → Bool
  | .mat m => m.length == d && m.all (fun c => c.length == d)
  | _ => false
end EVal

section small
variable {R : Type} (O : RealOps R)

/-- `Vector * Real`: src/Omega_h_vector.hpp:100-105. -/
def vecScale (a : List R) (b : R) : List R := a.map (fun x => O.mul x b)

/-- `inner_product`: src/Omega_h_few.hpp:137-144. -/
def vecDot (a b : List R) : Res R :=
  match List.zipWith O.mul a b with
  | [] => .ub
  | x :: xs => .ok (xs.foldl O.add x)

/-- `Matrix * Vector`: src/Omega_h_matrix.hpp:87-93. -/
def matVec (a : List (List R)) (b : List R) : Res (List R) :=
  match List.zipWith (vecScale O) a b with
  | [] => .ub
  | c :: cs => .ok (cs.foldl (fun x y => List.zipWith O.add x y) c)

/-- `Matrix * Matrix`: src/Omega_h_matrix.hpp:95-100. -/
def matMat (a b : List (List R)) : Res (List (List R)) := mapRes (matVec O a) b

/-- `Matrix::operator()`: src/Omega_h_matrix.hpp:56-61. -/
def matEntry (m : List (List R)) (i j : Nat) : Option R := (m[j]?).bind (fun c => c[i]?)

/-- `matrix2vector`: src/Omega_h_matrix.hpp:487-496. -/
def matrix2vector (d : Nat) (m : List (List R)) : Option (List R) :=
  ((List.range d).mapM (fun i => (List.range d).mapM (fun j => matEntry m i j))).map List.flatten

/-- `vector2matrix`: src/Omega_h_matrix.hpp:498-507. -/
def vector2matrix (d : Nat) (v : List R) : Option (List (List R)) :=
  (List.range d).mapM (fun j => (List.range d).mapM (fun i => v[i * d + j]?))

/-- `norm` of a vector: src/Omega_h_vector.hpp:137-150. -/
def vecNorm (v : List R) : Res R :=
  match v with
  | [x] => .ok (O.abs x)
  | _ => (vecDot O v v).bind (fun x => .ok (O.sqrt x))

/-- The entries `(row, column)` stored by `symm2vector`: src/Omega_h_matrix.hpp:385-417. -/
def symmCells (d : Nat) : List (Nat × Nat) :=
  if d = 3 then [(0, 0), (1, 1), (2, 2), (0, 1), (1, 2), (0, 2)]
  else if d = 2 then [(0, 0), (1, 1), (0, 1)] else [(0, 0)]

end small

section arrays
variable {R : Type} (s : Sched) (O : RealOps R)

/-- Kernel that stores the row `F i` of width `w` in iteration `i` (`set_vector`:
src/Omega_h_vector.hpp:245-249). -/
def rowKernel {α : Type} (n w : Nat) (F : Nat → Option (List α)) : Option (List α) :=
  (parScatter s n (fun i => (F i).map (fun r => blockWrites (i * w) r)) (Mem.alloc (n * w))).bind
    Mem.toArray?

/-- Kernel that stores one value per iteration. -/
def eachKernel {α : Type} (n : Nat) (F : Nat → Option α) : Option (List α) :=
  (parScatter s n (fun i => (F i).map (fun v => [(i, v)])) (Mem.alloc n)).bind Mem.toArray?

/-- `repeat_vector`: src/Omega_h_vector.cpp:84-89. -/
def repeatVector (n : Nat) (v : List R) : Res (List R) :=
  Res.ofOption (rowKernel s n v.length (fun _ => some v))

/-- `multiply_each` for doubles: src/Omega_h_array_ops.cpp:103-118. -/
def multiplyReals (a b : List R) : Res (List R) :=
  if b.length = 0 then (if a.length = 0 then .ok a else .fail)
  else (Res.orFail (divideNoRemainder a.length b.length)).bind (fun w =>
    Res.ofOption (rowEach s (fun x y => some (O.mul x y)) a b w))

/-- `divide_each_maybe_zero`: src/Omega_h_array_ops.cpp:141-162. The sizes being checked, the loop can
fail only by its check. -/
def divideReals (a b : List R) : Res (List R) :=
  if b.length = 0 then (if a.length = 0 then .ok a else .fail)
  else (Res.orFail (divideNoRemainder a.length b.length)).bind (fun w =>
    Res.orFail (rowEach s (fun x y => if O.eq y O.zero = false then some (O.div x y)
      else if O.eq x O.zero then some O.zero else none) a b w))

/-- Elementwise operations on two arrays after the check of their sizes: `add_each`, `subtract_each`,
`pow_each`, `gt_each`, `lt_each`, `eq_each`, `land_each`, `lor_each`,
src/Omega_h_array_ops.cpp:164-196, 246-271, 352-366. -/
def zipArrays {α β : Type} (f : α → α → β) (a b : List α) : Res (List β) :=
  if a.length = b.length then Res.ofOption (zipEach s (fun x y => some (f x y)) a b) else .fail

/-- `dot_vectors`: src/Omega_h_vector.cpp:47-64. -/
def dotVectors (d : Nat) (a b : List R) : Res (List R) :=
  if a.length = b.length then
    (Res.orFail (divideNoRemainder a.length d)).bind (fun n =>
      Res.ofOption (eachKernel s n (fun i => (rowAt a d i).bind (fun x => (rowAt b d i).bind (fun y =>
        (vecDot O x y).value?)))))
  else .fail

/-- `matrices_times_vectors`: src/Omega_h_matrix.cpp:50-67. -/
def matricesTimesVectors (d : Nat) (ms vs : List R) : Res (List R) :=
  (Res.orFail (divideNoRemainder vs.length d)).bind (fun n =>
    if ms.length = n * (d * d) then
      Res.ofOption (rowKernel s n d (fun i => (rowAt ms (d * d) i).bind (fun a =>
        (vector2matrix d a).bind (fun m => (rowAt vs d i).bind (fun x => (matVec O m x).value?)))))
    else .fail)

/-- `matrices_times_matrices`: src/Omega_h_matrix.cpp:69-86. -/
def matricesTimesMatrices (d : Nat) (a b : List R) : Res (List R) :=
  (Res.orFail (divideNoRemainder a.length (d * d))).bind (fun n =>
    if b.length = n * (d * d) then
      Res.ofOption (rowKernel s n (d * d) (fun i => (rowAt a (d * d) i).bind (fun x =>
        (vector2matrix d x).bind (fun mx => (rowAt b (d * d) i).bind (fun y =>
          (vector2matrix d y).bind (fun my => (matMat O mx my).value?.bind (matrix2vector d)))))))
    else .fail)

/-- `matrices_to_symms`: src/Omega_h_matrix.cpp:130-148. -/
def matricesToSymms (d : Nat) (a : List R) : Res (List R) :=
  if d = 1 ∨ d = 2 ∨ d = 3 then
    (Res.orFail (divideNoRemainder a.length (d * d))).bind (fun n =>
      Res.ofOption (rowKernel s n (symmCells d).length (fun i => (rowAt a (d * d) i).bind (fun x =>
        (vector2matrix d x).bind (fun m => (symmCells d).mapM (fun e => matEntry m e.1 e.2))))))
  else .fail

end arrays

section values
variable {R : Type} (s : Sched) (O : RealOps R) (n d : Nat)

/-- The template argument chosen by `if (dim == 3) … if (dim == 2) … else f<1>`, e.g.
src/Omega_h_expr.cpp:218-224. -/
def templateDim (d : Nat) : Nat := if d = 3 then 3 else if d = 2 then 2 else 1

/-- `promote(size, dim, x)`: src/Omega_h_expr.cpp:98-131. A `Vector<symm_ncomps(dim)>` is made a
symmetric tensor and back, which changes nothing. -/
def promoteOne (x : EVal R) : Res (EVal R) :=
  if d = 1 ∨ d = 2 ∨ d = 3 then
    match x with
    | .bool b => .ok (.bytes (List.replicate n (b2i b)))
    | .real r => .ok (.reals (List.replicate n r))
    | .vec v =>
      if v.length = d ∨ v.length = (symmCells d).length then
        (repeatVector s n v).bind (fun l => .ok (.reals l))
      else .fail
    | .mat m =>
      ((EVal.mat m).toMat d).bind (fun m => (Res.ofOption (matrix2vector d m)).bind (fun v =>
        (repeatVector s n v).bind (fun l => .ok (.reals l))))
    | .reals l => .ok (.reals l)
    | _ => .fail
  else .fail

/-- `promote(size, dim, lhs, rhs)`: src/Omega_h_expr.cpp:17-96. -/
def promoteTwo (lhs rhs : EVal R) : Res (EVal R × EVal R) :=
  if d = 1 ∨ d = 2 ∨ d = 3 then
    match lhs, rhs with
    | .bool b, .bytes l =>
      if l.length = n then .ok (.bytes (List.replicate n (b2i b)), .bytes l) else .fail
    | .bytes l, .bool b =>
      if l.length = n then .ok (.bytes l, .bytes (List.replicate n (b2i b))) else .fail
    | .real r, .reals l => .ok (.reals (List.replicate n r), .reals l)
    | .reals l, .real r => .ok (.reals l, .reals (List.replicate n r))
    | .vec v, .reals l =>
      if v.length = d then (repeatVector s n v).bind (fun a => .ok (.reals a, .reals l))
      else .ok (.vec v, .reals l)
    | .reals l, .vec v =>
      if v.length = d then (repeatVector s n v).bind (fun a => .ok (.reals l, .reals a))
      else .ok (.reals l, .vec v)
    | .mat m, .reals l =>
      if (EVal.mat m).isMat d then (Res.ofOption (matrix2vector d m)).bind (fun v =>
        (repeatVector s n v).bind (fun a => .ok (.reals a, .reals l)))
      else .ok (.mat m, .reals l)
    | .reals l, .mat m =>
      if (EVal.mat m).isMat d then (Res.ofOption (matrix2vector d m)).bind (fun v =>
        (repeatVector s n v).bind (fun a => .ok (.reals l, .reals a)))
      else .ok (.reals l, .mat m)
    | a, b => .ok (a, b)
  else .fail

/-- `ternary`: src/Omega_h_expr.cpp:133-153. -/
def exprTernary (cond t f : EVal R) : Res (EVal R) :=
  match cond with
  | .bool c =>
    if t.isReal then
      if c then t.toReal.bind (fun x => .ok (.real x)) else f.toReal.bind (fun x => .ok (.real x))
    else if t.isReals then
      if c then t.toReals.bind (fun x => .ok (.reals x)) else f.toReals.bind (fun x => .ok (.reals x))
    else .fail
  | .bytes c =>
    (promoteOne s n d t).bind (fun t => (promoteOne s n d f).bind (fun f =>
      t.toReals.bind (fun a => f.toReals.bind (fun b =>
        (Res.orFail (ternaryEach s c a b)).bind (fun l => .ok (.reals l))))))
  | _ => .fail

/-- The binary operators of the language: src/Omega_h_math_lang.cpp:27-40. -/
inductive ExprBin where
  | or | and | gt | lt | geq | leq | eq | add | sub | mul | div | pow
deriving DecidableEq, Repr

/-- `eval_or`, `eval_and`: src/Omega_h_expr.cpp:155-173. -/
def exprLogic (f : Bool → Bool → Bool) (lhs rhs : EVal R) : Res (EVal R) :=
  match lhs with
  | .bool a => rhs.toBool.bind (fun b => .ok (.bool (f a b)))
  | .bytes a => rhs.toBytes.bind (fun b =>
      (zipArrays s (fun x y => b2i (f (decide (x ≠ 0)) (decide (y ≠ 0)))) a b).bind
        (fun l => .ok (.bytes l)))
  | _ => .fail

/-- `gt`, `lt`, `eq`: src/Omega_h_expr.cpp:175-206. -/
def exprCompare (f : R → R → Bool) (lhs rhs : EVal R) : Res (EVal R) :=
  match lhs with
  | .real a => rhs.toReal.bind (fun b => .ok (.bool (f a b)))
  | .reals a => rhs.toReals.bind (fun b =>
      (zipArrays s (fun x y => b2i (f x y)) a b).bind (fun l => .ok (.bytes l)))
  | _ => .fail

/-- `add`, `sub`: src/Omega_h_expr.cpp:208-252, with the operators of
src/Omega_h_vector.hpp:65-88 and src/Omega_h_matrix.hpp:188-212. -/
def exprSum (f : R → R → R) (lhs rhs : EVal R) : Res (EVal R) :=
  match lhs with
  | .real a => rhs.toReal.bind (fun b => .ok (.real (f a b)))
  | .vec a => ((EVal.vec a).toVec (templateDim d)).bind (fun a =>
      (rhs.toVec (templateDim d)).bind (fun b => .ok (.vec (List.zipWith f a b))))
  | .mat a => ((EVal.mat a).toMat (templateDim d)).bind (fun a =>
      (rhs.toMat (templateDim d)).bind (fun b =>
        .ok (.mat (List.zipWith (fun x y => List.zipWith f x y) a b))))
  | .reals a => rhs.toReals.bind (fun b =>
      (zipArrays s f a b).bind (fun l => .ok (.reals l)))
  | _ => .fail

/-- `mul` on two arrays: src/Omega_h_expr.cpp:279-297. -/
def mulArrays (d : Nat) (a b : List R) : Res (List R) :=
  if b.length = n then multiplyReals s O a b
  else if a.length = n then multiplyReals s O b a
  else if a.length = n * d ∧ b.length = n * d then dotVectors s O d a b
  else if a.length = n * (d * d) ∧ b.length = n * d then matricesTimesVectors s O d a b
  else if a.length = n * (d * d) ∧ b.length = n * (d * d) then matricesTimesMatrices s O d a b
  else .fail

/-- `mul`: src/Omega_h_expr.cpp:254-309. -/
def exprMul (lhs rhs : EVal R) : Res (EVal R) :=
  match lhs, rhs with
  | .real a, .real b => .ok (.real (O.mul a b))
  | .vec a, .real b => ((EVal.vec a).toVec (templateDim d)).bind (fun a => .ok (.vec (vecScale O a b)))
  | .real a, .vec b => ((EVal.vec b).toVec (templateDim d)).bind (fun b => .ok (.vec (vecScale O b a)))
  | .mat a, .real b => ((EVal.mat a).toMat (templateDim d)).bind (fun a =>
      .ok (.mat (a.map (fun c => vecScale O c b))))
  | .real a, .mat b => ((EVal.mat b).toMat (templateDim d)).bind (fun b =>
      .ok (.mat (b.map (fun c => vecScale O c a))))
  | .vec a, .vec b => ((EVal.vec a).toVec (templateDim d)).bind (fun a =>
      ((EVal.vec b).toVec (templateDim d)).bind (fun b => (vecDot O a b).bind (fun x => .ok (.real x))))
  | .mat a, .vec b => ((EVal.mat a).toMat (templateDim d)).bind (fun a =>
      ((EVal.vec b).toVec (templateDim d)).bind (fun b => (matVec O a b).bind (fun x => .ok (.vec x))))
  | .mat a, .mat b => ((EVal.mat a).toMat (templateDim d)).bind (fun a =>
      ((EVal.mat b).toMat (templateDim d)).bind (fun b => (matMat O a b).bind (fun x => .ok (.mat x))))
  | .reals a, .reals b => (mulArrays s O n (templateDim d) a b).bind (fun l => .ok (.reals l))
  | _, _ => .fail

/-- `div`: src/Omega_h_expr.cpp:311-335. -/
def exprDiv (lhs rhs : EVal R) : Res (EVal R) :=
  match rhs with
  | .reals b => lhs.toReals.bind (fun a => (divideReals s O a b).bind (fun l => .ok (.reals l)))
  | .real b =>
    match lhs with
    | .real a => .ok (.real (O.div a b))
    | .vec a => ((EVal.vec a).toVec (templateDim d)).bind (fun a =>
        .ok (.vec (a.map (fun x => O.div x b))))
    | .mat a => ((EVal.mat a).toMat (templateDim d)).bind (fun a =>
        .ok (.mat (a.map (fun c => c.map (fun x => O.div x b)))))
    | _ => .fail
  | _ => .fail

/-- `eval_pow`: src/Omega_h_expr.cpp:337-352. -/
def exprPow (lhs rhs : EVal R) : Res (EVal R) :=
  match rhs with
  | .reals b => lhs.toReals.bind (fun a => (zipArrays s O.pow a b).bind (fun l => .ok (.reals l)))
  | .real b => lhs.toReal.bind (fun a => .ok (.real (O.pow a b)))
  | _ => .fail

/-- `neg`: src/Omega_h_expr.cpp:354-373. -/
def exprNeg (x : EVal R) : Res (EVal R) :=
  match x with
  | .real a => .ok (.real (O.neg a))
  | .vec a => ((EVal.vec a).toVec (templateDim d)).bind (fun a => .ok (.vec (a.map O.neg)))
  | .mat a => ((EVal.mat a).toMat (templateDim d)).bind (fun a =>
      .ok (.mat (a.map (fun c => c.map O.neg))))
  | .reals a => (Res.ofOption (mapEach s (fun x => some (O.mul x O.negOne)) a)).bind
      (fun l => .ok (.reals l))
  | _ => .fail

/-- A binary operator: the two values are promoted, then the function of the operator is called:
src/Omega_h_expr.cpp:773-805 and the macro in lines 976-1002. -/
def exprBin (op : ExprBin) (lhs rhs : EVal R) : Res (EVal R) :=
  match op with
  | .geq => .fail
  | .leq => .fail
  | op => (promoteTwo s n d lhs rhs).bind (fun p =>
    match op with
    | .or => exprLogic s (fun a b => a || b) p.1 p.2
    | .and => exprLogic s (fun a b => a && b) p.1 p.2
    | .gt => exprCompare s O.gt p.1 p.2
    | .lt => exprCompare s O.lt p.1 p.2
    | .eq => exprCompare s O.eq p.1 p.2
    | .add => exprSum s d O.add p.1 p.2
    | .sub => exprSum s d O.sub p.1 p.2
    | .mul => exprMul s O n d p.1 p.2
    | .div => exprDiv s O d p.1 p.2
    | .pow => exprPow s O p.1 p.2
    | _ => .fail)

/-- `get_component` with a component that may be out of range: src/Omega_h_array_ops.cpp:390-396. -/
def componentAt (a : List R) (ncomps : Nat) (comp : Int) : Res (List R) :=
  if 0 ≤ comp then Res.ofOption (getComponent s a ncomps comp.toNat)
  else if a.length = 0 then .ok [] else .ub

/-- `access`: src/Omega_h_expr.cpp:375-405. Both indices are taken from the first argument. -/
def exprAccess (var : EVal R) (args : List (EVal R)) : Res (EVal R) :=
  let dim := templateDim d
  (Res.orFail args[0]?).bind (fun arg => arg.toReal.bind (fun r => (Res.ofOption (O.toInt r)).bind (fun i =>
    let j : Int := if args.length > 1 then i else -1
    match var with
    | .vec v =>
      if v.length = dim then
        (if 0 ≤ i then Res.ofOption v[i.toNat]? else .ub).bind (fun x => .ok (.real x))
      else .fail
    | .mat m =>
      if (EVal.mat m).isMat dim then
        (if 0 ≤ i ∧ 0 ≤ j then Res.ofOption (matEntry m i.toNat j.toNat) else .ub).bind
          (fun x => .ok (.real x))
      else .fail
    | .reals a =>
      if a.length = n * dim then (componentAt s a dim i).bind (fun l => .ok (.reals l))
      else if a.length = n * (dim * dim) then
        (componentAt s a (dim * dim) (j * dim + i)).bind (fun l => .ok (.reals l))
      else .fail
    | _ => .fail)))

/-- The arguments of `vector` and `matrix` as arrays, if one of them is an array. -/
def argArrays (args : List (EVal R)) : Res (List (List R)) :=
  mapRes (fun a => (promoteOne s n d a).bind EVal.toReals) args

/-- The loop that adds the last array until there are `d`: src/Omega_h_expr.cpp:436-438. -/
def extendLast {α : Type} (d : Nat) (l : List α) : Option (List α) :=
  if l.length < d then l.getLast?.map (fun x => l ++ List.replicate (d - l.length) x) else some l

/-- `make_vector`: src/Omega_h_expr.cpp:407-446. Without arguments the components are copies of
`v[-1]`. -/
def makeVector (args : List (EVal R)) : Res (EVal R) :=
  if args.length > d then .fail
  else if args.any EVal.isReals then
    (argArrays s n d args).bind (fun arrays => (Res.ofOption (extendLast d arrays)).bind (fun arrays =>
      if arrays.length = d then (Res.orFail (interleave s arrays)).bind (fun l => .ok (.reals l))
      else .fail))
  else (mapRes EVal.toReal args).bind (fun vals =>
    (Res.ofOption (extendLast (templateDim d) vals)).bind (fun v => .ok (.vec v)))

/-- `make_matrix`: src/Omega_h_expr.cpp:448-486. -/
def makeMatrix (args : List (EVal R)) : Res (EVal R) :=
  if (match args with
      | [.real x] => O.eq x O.zero
      | _ => false) then .ok (.reals (List.replicate (n * d * d) O.zero))
  else if args.length ≠ d * d then .fail
  else if args.any EVal.isReals then
    (argArrays s n d args).bind (fun arrays =>
      (Res.orFail (interleave s arrays)).bind (fun l => .ok (.reals l)))
  else if args.length ≠ templateDim d * templateDim d then .fail
  else (mapRes EVal.toReal args).bind (fun vals =>
    (Res.ofOption (vector2matrix (templateDim d) vals)).bind (fun m => .ok (.mat m)))

/-- `make_symm`: src/Omega_h_expr.cpp:488-501. -/
def makeSymm (args : List (EVal R)) : Res (EVal R) :=
  match args with
  | [arg] => (if arg.isReals then .ok arg else promoteOne s n d arg).bind (fun x =>
      x.toReals.bind (fun a =>
        if a.length = n * d * d then (matricesToSymms s d a).bind (fun l => .ok (.reals l)) else .fail))
  | _ => .fail

/-- `eval_exp`, `eval_sqrt`, `eval_sin`, `eval_cos`, `eval_erf`: src/Omega_h_expr.cpp:503-626. -/
def evalUnary (f : R → R) (args : List (EVal R)) : Res (EVal R) :=
  match args with
  | [.real x] => .ok (.real (f x))
  | [.reals a] =>
    if a.length = n then (Res.ofOption (mapEach s (fun x => some (f x)) a)).bind (fun l => .ok (.reals l))
    else .fail
  | _ => .fail

/-- `eval_norm`: src/Omega_h_expr.cpp:628-660. -/
def evalNorm (args : List (EVal R)) : Res (EVal R) :=
  match args with
  | [.vec v] => ((EVal.vec v).toVec (templateDim d)).bind (fun v =>
      (vecNorm O v).bind (fun x => .ok (.real x)))
  | [.reals a] =>
    if a.length = n * templateDim d then
      (Res.ofOption (eachKernel s n (fun i => (rowAt a (templateDim d) i).bind (fun v =>
        (vecNorm O v).value?)))).bind (fun l => .ok (.reals l))
    else .fail
  | _ => .fail

end values

/-- A registered function: src/Omega_h_expr.hpp:18-19. -/
abbrev ExprFn (R : Type) := List (EVal R) → Res (EVal R)

/-- `ExprEnv`: src/Omega_h_expr.hpp:15-27. The maps of names are functions. -/
structure ExprEnv (R : Type) where
  vars : String → Option (EVal R)
  funcs : String → Option (ExprFn R)
  size : Nat
  dim : Nat

/-- The functions registered by the constructor: src/Omega_h_expr.cpp:664-686. -/
def builtinFn {R : Type} (s : Sched) (O : RealOps R) (n d : Nat) (name : String) : Option (ExprFn R) :=
  if name = "exp" then some (evalUnary s n O.exp)
  else if name = "sqrt" then some (evalUnary s n O.sqrt)
  else if name = "sin" then some (evalUnary s n O.sin)
  else if name = "cos" then some (evalUnary s n O.cos)
  else if name = "erf" then some (evalUnary s n O.erf)
  else if name = "vector" then some (makeVector s n d)
  else if name = "symm" then some (makeSymm s n d)
  else if name = "matrix" then some (makeMatrix s O n d)
  else if name = "tensor" then some (makeMatrix s O n d)
  else if name = "norm" then some (evalNorm s O n d)
  else none

/-- The variables registered by the constructor: src/Omega_h_expr.cpp:687-691. -/
def builtinVar {R : Type} (O : RealOps R) (d : Nat) (name : String) : Option (EVal R) :=
  if name = "d" then some (.real (O.ofNat d))
  else if name = "I" then
    (if d = 1 ∨ d = 2 ∨ d = 3 then some (.mat ((List.range d).map (fun j => (List.range d).map (fun i =>
      O.ofNat (if i = j then 1 else 0))))) else none)
  else if name = "pi" then some (.real O.pi)
  else none

/-- `ExprEnv(size, dim)`: src/Omega_h_expr.cpp:664-692. -/
def ExprEnv.init {R : Type} (s : Sched) (O : RealOps R) (n d : Nat) : ExprEnv R :=
  ⟨builtinVar O d, builtinFn s O n d, n, d⟩

/-- `variables[name] = value`: src/Omega_h_expr.cpp:699, 755. -/
def ExprEnv.set {R : Type} (env : ExprEnv R) (name : String) (v : EVal R) : ExprEnv R :=
  { env with vars := fun x => if x = name then some v else env.vars x }

/-- `register_variable`: src/Omega_h_expr.cpp:694-700. -/
def ExprEnv.registerVariable {R : Type} (env : ExprEnv R) (name : String) (v : EVal R) :
    Res (ExprEnv R) :=
  if (env.funcs name).isSome then .fail else .ok (env.set name v)

mutual
/-- The tree of an expression: the productions of src/Omega_h_math_lang.cpp:17-50 that compute. -/
inductive ExprTree (R : Type) where
  | const (r : R)
  | var (name : String)
  | neg (e : ExprTree R)
  | bin (op : ExprBin) (a b : ExprTree R)
  | ternary (c a b : ExprTree R)
  | call (name : String) (args : ExprArgs R)
/-- The arguments of a call: src/Omega_h_math_lang.cpp:42-45. -/
inductive ExprArgs (R : Type) where
  | nil
  | cons (a : ExprTree R) (as : ExprArgs R)
end

/-- A program: statements `name = expression;` and a final expression, which may be missing:
src/Omega_h_math_lang.cpp:11-16. -/
structure ExprProgram (R : Type) where
  stmts : List (String × ExprTree R)
  result : Option (ExprTree R)

section eval
variable {R : Type} (s : Sched) (O : RealOps R)

/-- `PROD_CALL`: src/Omega_h_expr.cpp:806-826 and 950-974: access to a variable of that name, or else
a call of the function. -/
def exprCall (env : ExprEnv R) (name : String) (args : List (EVal R)) : Res (EVal R) :=
  match env.vars name with
  | some v => exprAccess s O env.size env.dim v args
  | none =>
    match env.funcs name with
    | some f => f args
    | none => .fail

/-- `PROD_VAR`: src/Omega_h_expr.cpp:845-853 and `VarOp::eval`, 901-909. -/
def exprVar (env : ExprEnv R) (name : String) : Res (EVal R) := Res.orFail (env.vars name)

/-- `promote` of the two branches, then `ternary`: src/Omega_h_expr.cpp:770-772, 928-933. -/
def exprChoose (env : ExprEnv R) (c a b : EVal R) : Res (EVal R) :=
  (promoteTwo s env.size env.dim a b).bind (fun p => exprTernary s env.size env.dim c p.1 p.2)

mutual
/-- What `ExprReader` computes for an expression while reading it: `ExprReader::at_shift`, `at_reduce`,
src/Omega_h_expr.cpp:726-857. -/
def directEval (env : ExprEnv R) : ExprTree R → Res (EVal R)
  | .const r => .ok (.real r)
  | .var name => exprVar env name
  | .neg e => (directEval env e).bind (exprNeg s O env.dim)
  | .bin op a b => (directEval env a).bind (fun x => (directEval env b).bind (fun y =>
      exprBin s O env.size env.dim op x y))
  | .ternary c a b => (directEval env c).bind (fun z => (directEval env a).bind (fun x =>
      (directEval env b).bind (fun y => exprChoose s env z x y)))
  | .call name args => (directArgs env args).bind (fun vs => exprCall s O env name vs)
/-- The arguments, in order. -/
def directArgs (env : ExprEnv R) : ExprArgs R → Res (List (EVal R))
  | .nil => .ok []
  | .cons a as => (directEval env a).bind (fun v => (directArgs env as).bind (fun vs => .ok (v :: vs)))
end

/-- The statements, in order: `PROD_ASSIGN`, src/Omega_h_expr.cpp:753-757. -/
def directStmts (env : ExprEnv R) : List (String × ExprTree R) → Res (ExprEnv R)
  | [] => .ok env
  | (name, e) :: rest => (directEval s O env e).bind (fun v => directStmts (env.set name v) rest)

/-- `PROD_PROGRAM`: src/Omega_h_expr.cpp:741-747. A missing expression and an empty value are
rejected. -/
def directRun (env : ExprEnv R) (p : ExprProgram R) : Res (EVal R × ExprEnv R) :=
  (directStmts s O env p.stmts).bind (fun env' =>
    match p.result with
    | none => .fail
    | some e => (directEval s O env' e).bind (fun v =>
        match v with
        | .empty => .fail
        | v => .ok (v, env')))

end eval

mutual
/-- The operations built by `ExprOpsReader`: src/Omega_h_expr.cpp:861-1002. -/
inductive ExprOp (R : Type) where
  | const (r : R)
  | semicolon (a b : ExprOp R)
  | assign (name : String) (a : ExprOp R)
  | var (name : String)
  | neg (a : ExprOp R)
  | ternary (c a b : ExprOp R)
  | call (name : String) (args : ExprOps R)
  | bin (op : ExprBin) (a b : ExprOp R)
/-- The operands of a `CallOp`. -/
inductive ExprOps (R : Type) where
  | nil
  | cons (a : ExprOp R) (as : ExprOps R)
end

section ops
variable {R : Type}

mutual
/-- `ExprOpsReader::at_reduce` for expressions: src/Omega_h_expr.cpp:1064-1133. The operators `>=` and
`<=` are rejected here. -/
def compileTree : ExprTree R → Res (ExprOp R)
  | .const r => .ok (.const r)
  | .var name => .ok (.var name)
  | .neg e => (compileTree e).bind (fun a => .ok (.neg a))
  | .bin op a b => (compileTree a).bind (fun a => (compileTree b).bind (fun b =>
      match op with
      | .geq => .fail
      | .leq => .fail
      | op => .ok (.bin op a b)))
  | .ternary c a b => (compileTree c).bind (fun c => (compileTree a).bind (fun a =>
      (compileTree b).bind (fun b => .ok (.ternary c a b))))
  | .call name args => (compileArgs args).bind (fun as => .ok (.call name as))
/-- The arguments of a call. -/
def compileArgs : ExprArgs R → Res (ExprOps R)
  | .nil => .ok .nil
  | .cons a as => (compileTree a).bind (fun a => (compileArgs as).bind (fun as => .ok (.cons a as)))
end

/-- `PROD_NO_STATEMENTS`, `PROD_NEXT_STATEMENT`, `PROD_ASSIGN`: src/Omega_h_expr.cpp:1046-1063. The
accumulator is the operation of the statements read so far, if there are any. -/
def compileStmts (acc : Option (ExprOp R)) : List (String × ExprTree R) → Res (Option (ExprOp R))
  | [] => .ok acc
  | (name, e) :: rest => (compileTree e).bind (fun a =>
      compileStmts (some (match acc with
        | none => .assign name a
        | some l => .semicolon l (.assign name a))) rest)

/-- `ExprOpsReader::read_ops` with `PROD_PROGRAM`: src/Omega_h_expr.cpp:1013-1015, 1033-1045. -/
def compileProgram (p : ExprProgram R) : Res (ExprOp R) :=
  (compileStmts none p.stmts).bind (fun acc =>
    match p.result with
    | none => .fail
    | some e => (compileTree e).bind (fun a =>
        match acc with
        | none => .ok a
        | some l => .ok (.semicolon l a)))

variable (s : Sched) (O : RealOps R)

mutual
/-- `ExprOp::eval`: src/Omega_h_expr.cpp:861-1002. A `TernaryOp` evaluates its branches before its
condition. -/
def opEval (env : ExprEnv R) : ExprOp R → Res (EVal R × ExprEnv R)
  | .const r => .ok (.real r, env)
  | .semicolon a b => (opEval env a).bind (fun p => opEval p.2 b)
  | .assign name a => (opEval env a).bind (fun p => .ok (.empty, p.2.set name p.1))
  | .var name => (exprVar env name).bind (fun v => .ok (v, env))
  | .neg a => (opEval env a).bind (fun p => (exprNeg s O p.2.dim p.1).bind (fun v => .ok (v, p.2)))
  | .ternary c a b => (opEval env a).bind (fun p => (opEval p.2 b).bind (fun q =>
      (promoteTwo s q.2.size q.2.dim p.1 q.1).bind (fun ab => (opEval q.2 c).bind (fun r =>
        (exprTernary s r.2.size r.2.dim r.1 ab.1 ab.2).bind (fun v => .ok (v, r.2))))))
  | .call name args => (opArgs env args).bind (fun p =>
      (exprCall s O p.2 name p.1).bind (fun v => .ok (v, p.2)))
  | .bin op a b => (opEval env a).bind (fun p => (opEval p.2 b).bind (fun q =>
      (exprBin s O q.2.size q.2.dim op p.1 q.1).bind (fun v => .ok (v, q.2))))
/-- `CallOp::eval`, the loop over the arguments: src/Omega_h_expr.cpp:951-954. -/
def opArgs (env : ExprEnv R) : ExprOps R → Res (List (EVal R) × ExprEnv R)
  | .nil => .ok ([], env)
  | .cons a as => (opEval env a).bind (fun p => (opArgs p.2 as).bind (fun q =>
      .ok (p.1 :: q.1, q.2)))
end

/-- `read_ops` followed by `eval`. -/
def compiledRun (env : ExprEnv R) (p : ExprProgram R) : Res (EVal R × ExprEnv R) :=
  (compileProgram p).bind (fun op => opEval s O env op)

end ops

end OmegaH
