import Verif.Model.Expr
import Verif.Spec.Align

/-! # What an expression means at one point

This file says, without arrays, what the value of an expression is at a single point of space, and
what it means for the result of an evaluation over `n` points to hold these values. -/

namespace OmegaH.Spec

/-- The kinds of numerical values. -/
inductive Shape where
  | scalar | vector | matrix | symm
deriving DecidableEq, Repr

/-- The number of components of a value in `d` dimensions. -/
def Shape.ncomps (d : Nat) : Shape → Nat
  | .scalar => 1
  | .vector => d
  | .matrix => d * d
  | .symm => d * (d + 1) / 2

/-- The value of an expression at a point: a truth value, or the components of a number, vector,
matrix (row after row) or symmetric tensor. -/
inductive PVal (R : Type) where
  | bool (b : Bool)
  | num (sh : Shape) (comps : List R)
deriving DecidableEq, Repr

section
variable {R : Type} (O : RealOps R) (d : Nat)

/-- A sum, added from left to right. -/
def sumOf : List R → Option R
  | [] => none
  | x :: xs => some (xs.foldl O.add x)

/-- The product of a row and a column. -/
def dotOf (a b : List R) : Option R := sumOf O (List.zipWith O.mul a b)

/-- Row `i` of a matrix. -/
def matRow (m : List R) (i : Nat) : List R := row m d i
/-- Column `j` of a matrix. -/
def matCol (m : List R) (j : Nat) : List R := (List.range d).filterMap (fun i => m[i * d + j]?)

/-- Sums and differences: of two values of the same kind, component by component. -/
def addAt (f : R → R → R) : PVal R → PVal R → Option (PVal R)
  | .num sh a, .num sh' b => if sh = sh' then some (.num sh (List.zipWith f a b)) else none
  | _, _ => none

/-- Products: with a scalar on either side, of two vectors, of a matrix and a vector, of two
matrices. -/
def mulAt : PVal R → PVal R → Option (PVal R)
  | .num .scalar a, .num .scalar b => some (.num .scalar (List.zipWith O.mul a b))
  | .num sh a, .num .scalar [b] => some (.num sh (a.map (fun x => O.mul x b)))
  | .num .scalar [a], .num sh b => some (.num sh (b.map (fun x => O.mul x a)))
  | .num .vector a, .num .vector b => (dotOf O a b).map (fun x => .num .scalar [x])
  | .num .matrix a, .num .vector b =>
    ((List.range d).mapM (fun i => dotOf O (matRow d a i) b)).map (fun c => .num .vector c)
  | .num .matrix a, .num .matrix b =>
    ((List.range d).mapM (fun i => (List.range d).mapM (fun j =>
      dotOf O (matRow d a i) (matCol d b j)))).map (fun c => .num .matrix c.flatten)
  | _, _ => none

/-- What a statement about expressions admits, beyond what the program gets right: `offDiag` —
components `m(i,j)` of a matrix with `i ≠ j`; `zeroDiv` — division by zero; `anyBranch` — a choice
`c ? a : b` between values other than scalars; `anyIndex` — indices other than constants written out. -/
structure Admits where
  offDiag : Bool
  zeroDiv : Bool
  anyBranch : Bool
  anyIndex : Bool

/-- Everything the language is meant to express. -/
def Admits.all : Admits := ⟨true, true, true, true⟩

variable (A : Admits)

/-- Quotients by a scalar. -/
def divAt : PVal R → PVal R → Option (PVal R)
  | .num sh a, .num .scalar [b] =>
    if A.zeroDiv = true ∨ O.eq b O.zero = false then some (.num sh (a.map (fun x => O.div x b))) else none
  | _, _ => none

/-- Powers of scalars. -/
def powAt : PVal R → PVal R → Option (PVal R)
  | .num .scalar [a], .num .scalar [b] => some (.num .scalar [O.pow a b])
  | _, _ => none

/-- Comparison of scalars. -/
def compareAt (f : R → R → Bool) : PVal R → PVal R → Option (PVal R)
  | .num .scalar [a], .num .scalar [b] => some (.bool (f a b))
  | _, _ => none

/-- `&&` and `||`. -/
def logicAt (f : Bool → Bool → Bool) : PVal R → PVal R → Option (PVal R)
  | .bool a, .bool b => some (.bool (f a b))
  | _, _ => none

/-- Negation. -/
def negAt : PVal R → Option (PVal R)
  | .num sh a => some (.num sh (a.map O.neg))
  | _ => none

/-- The binary operators; `>=` and `<=` are not provided. -/
def binAt : ExprBin → PVal R → PVal R → Option (PVal R)
  | .or, x, y => logicAt (fun a b => a || b) x y
  | .and, x, y => logicAt (fun a b => a && b) x y
  | .gt, x, y => compareAt O.gt x y
  | .lt, x, y => compareAt O.lt x y
  | .eq, x, y => compareAt O.eq x y
  | .add, x, y => addAt O.add x y
  | .sub, x, y => addAt O.sub x y
  | .mul, x, y => mulAt O d x y
  | .div, x, y => divAt O A x y
  | .pow, x, y => powAt O x y
  | .geq, _, _ => none
  | .leq, _, _ => none

/-- `c ? a : b`. -/
def chooseAt : PVal R → PVal R → PVal R → Option (PVal R)
  | .bool c, .num sh a, .num sh' b =>
    if sh = sh' ∧ (A.anyBranch = true ∨ sh = .scalar) then some (if c then .num sh a else .num sh' b) else none
  | _, _, _ => none

/-- `v(i)` and `m(i,j)`. -/
def accessAt : PVal R → List (PVal R) → Option (PVal R)
  | .num .vector v, [.num .scalar [x]] =>
    match O.toInt x with
    | some (.ofNat i) => (v[i]?).map (fun r => .num .scalar [r])
    | _ => none
  | .num .matrix m, [.num .scalar [x], .num .scalar [y]] =>
    match O.toInt x, O.toInt y with
    | some (.ofNat i), some (.ofNat j) =>
      if i < d ∧ j < d ∧ (A.offDiag = true ∨ i = j) then (m[i * d + j]?).map (fun r => .num .scalar [r]) else none
    | _, _ => none
  | _, _ => none

/-- The scalars in a list of values, if all are scalars. -/
def scalarsOf : List (PVal R) → Option (List R)
  | [] => some []
  | .num .scalar [x] :: l => (scalarsOf l).map (fun xs => x :: xs)
  | _ => none

/-- The order in which the entries of a symmetric tensor are stored: xx, yy, zz, xy, yz, xz. -/
def symmOrder : Nat → List (Nat × Nat)
  | 3 => [(0, 0), (1, 1), (2, 2), (0, 1), (1, 2), (0, 2)]
  | 2 => [(0, 0), (1, 1), (0, 1)]
  | _ => [(0, 0)]

/-- The functions of the language: scalar functions, `vector(x, …)` with the last argument repeated,
`matrix(a, b, …)` row after row, `symm` and `norm`. -/
def functionAt (name : String) : Option (List (PVal R) → Option (PVal R)) :=
  let unary (f : R → R) : List (PVal R) → Option (PVal R) := fun args =>
    match args with
    | [.num .scalar [x]] => some (.num .scalar [f x])
    | _ => none
  if name = "exp" then some (unary O.exp)
  else if name = "sqrt" then some (unary O.sqrt)
  else if name = "sin" then some (unary O.sin)
  else if name = "cos" then some (unary O.cos)
  else if name = "erf" then some (unary O.erf)
  else if name = "vector" then some (fun args => (scalarsOf args).bind (fun xs =>
    match xs.getLast? with
    | some x => if xs.length ≤ d then some (.num .vector (xs ++ List.replicate (d - xs.length) x)) else none
    | none => none))
  else if name = "symm" then some (fun args =>
    match args with
    | [.num .matrix m] =>
      ((symmOrder d).mapM (fun e => m[e.1 * d + e.2]?)).map (fun c => .num .symm c)
    | _ => none)
  else if name = "matrix" ∨ name = "tensor" then some (fun args => (scalarsOf args).bind (fun xs =>
    if xs.length = d * d ∧ 1 < d then some (.num .matrix xs) else none))
  else if name = "norm" then some (fun args =>
    match args with
    | [.num .vector [x]] => some (.num .scalar [O.abs x])
    | [.num .vector v] => (dotOf O v v).map (fun x => .num .scalar [O.sqrt x])
    | _ => none)
  else none

end

/-- The values of the variables at a point. -/
abbrev PEnv (R : Type) := String → Option (PVal R)

section
variable {R : Type} (O : RealOps R) (d : Nat) (A : Admits)
variable (φ : String → Option (List (PVal R) → Option (PVal R)))

/-- Whether all arguments are constants written out. -/
def literalArgs : ExprArgs R → Bool
  | .nil => true
  | .cons (.const _) as => literalArgs as
  | _ => false

mutual
/-- The value of an expression at a point where the variables have the values `ρ`. A name that is a
variable stands for a component of it, otherwise for the function `φ name`. -/
def evalAt (ρ : PEnv R) : ExprTree R → Option (PVal R)
  | .const r => some (.num .scalar [r])
  | .var name => ρ name
  | .neg e => (evalAt ρ e).bind (negAt O)
  | .bin op a b => (evalAt ρ a).bind (fun x => (evalAt ρ b).bind (fun y => binAt O d A op x y))
  | .ternary c a b => (evalAt ρ c).bind (fun z => (evalAt ρ a).bind (fun x => (evalAt ρ b).bind (fun y =>
      chooseAt A z x y)))
  | .call name args => (argsAt ρ args).bind (fun vs =>
      match ρ name with
      | some v => if A.anyIndex = true ∨ literalArgs args = true then accessAt O d A v vs else none
      | none => (φ name).bind (fun f => f vs))
/-- The values of the arguments. -/
def argsAt (ρ : PEnv R) : ExprArgs R → Option (List (PVal R))
  | .nil => some []
  | .cons a as => (evalAt ρ a).bind (fun v => (argsAt ρ as).bind (fun vs => some (v :: vs)))
end

/-- A statement gives a variable its new value at the point. -/
def PEnv.set (ρ : PEnv R) (name : String) (v : PVal R) : PEnv R := fun x => if x = name then some v else ρ x

/-- The variables after the statements. -/
def stmtsAt (ρ : PEnv R) : List (String × ExprTree R) → Option (PEnv R)
  | [] => some ρ
  | (name, e) :: rest => (evalAt O d A φ ρ e).bind (fun v => stmtsAt (PEnv.set ρ name v) rest)

/-- The value of a program at a point, and the variables afterwards. -/
def runAt (ρ : PEnv R) (p : ExprProgram R) : Option (PVal R × PEnv R) :=
  (stmtsAt O d A φ ρ p.stmts).bind (fun ρ' =>
    p.result.bind (fun e => (evalAt O d A φ ρ' e).map (fun v => (v, ρ'))))

end

section
variable {R : Type} (n d : Nat)

/-- The value `x` of the evaluator stands for the values `f p` at the points `p < n`: a constant for
the same value everywhere, an array for one block of components per point. -/
def Holds (x : EVal R) (f : Nat → PVal R) : Prop :=
  match x with
  | .empty => False
  | .bool b => ∀ p, p < n → f p = .bool b
  | .bytes l => l.length = n ∧ ∀ p, p < n → ∃ k, l[p]? = some k ∧ f p = .bool (decide (k ≠ 0))
  | .real r => ∀ p, p < n → f p = .num .scalar [r]
  | .vec v => v.length = d ∧ ∀ p, p < n → f p = .num .vector v
  | .mat m => m.length = d ∧ (∀ c ∈ m, c.length = d) ∧
      ∃ c, (∀ i j, i < d → j < d → c[i * d + j]? = matEntry m i j) ∧ c.length = d * d ∧
        ∀ p, p < n → f p = .num .matrix c
  | .reals l => ∃ sh : Shape, l.length = n * sh.ncomps d ∧
      ∀ p, p < n → f p = .num sh (row l (sh.ncomps d) p)

/-- The variables stand for the values `ρ p` at the points `p < n`. -/
def HoldsVars (vars : String → Option (EVal R)) (ρ : Nat → PEnv R) : Prop :=
  ∀ name, match vars name with
    | none => ∀ p, p < n → ρ p name = none
    | some x => ∃ f, (∀ p, p < n → ρ p name = some (f p)) ∧ Holds n d x f

/-- Each argument stands for the corresponding values. -/
def HoldsAll : List (EVal R) → List (Nat → PVal R) → Prop
  | [], [] => True
  | x :: xs, f :: fs => Holds n d x f ∧ HoldsAll xs fs
  | _, _ => False

/-- The function `F` on arrays does at each point what `g` does. -/
def Lifts (F : ExprFn R) (g : List (PVal R) → Option (PVal R)) : Prop :=
  ∀ args fs h, HoldsAll n d args fs → (∀ p, p < n → g (fs.map (fun f => f p)) = some (h p)) →
    ∃ v, F args = .ok v ∧ Holds n d v h

/-- The registered functions do at each point what the functions `φ` do. -/
def LiftsAll (funcs : String → Option (ExprFn R))
    (φ : String → Option (List (PVal R) → Option (PVal R))) : Prop :=
  ∀ name, match funcs name with
    | none => φ name = none
    | some F => ∃ g, φ name = some g ∧ Lifts n d F g

end

/-- The laws of arithmetic that are used: they hold of doubles (up to the sign of a NaN). -/
structure RealLaws {R : Type} (O : RealOps R) : Prop where
  neg_eq : ∀ x, O.neg x = O.mul x O.negOne
  mul_comm : ∀ x y, O.mul x y = O.mul y x

end OmegaH.Spec
