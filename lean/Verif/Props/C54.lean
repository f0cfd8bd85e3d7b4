import Verif.Model.Expr

/-! # C54: compiled expressions compute what reading them computes -/

namespace OmegaH

section
variable {R : Type} (s : Sched) (O : RealOps R)

theorem res_bind_ok {α β : Type} {r : Res α} {f : α → Res β} {b : β} (h : r.bind f = .ok b) :
    ∃ a, r = .ok a ∧ f a = .ok b := Res.bind_eq_ok.1 h

mutual
/-- What can be evaluated can be compiled. -/
theorem compile_of_direct (env : ExprEnv R) : ∀ (e : ExprTree R) (v : EVal R),
    directEval s O env e = .ok v → ∃ op, compileTree e = .ok op
  | .const r, v, _ => ⟨_, rfl⟩
  | .var name, v, _ => ⟨_, rfl⟩
  | .neg e, v, h => by
    rw [directEval] at h
    obtain ⟨x, h1, _⟩ := res_bind_ok h
    obtain ⟨op, ho⟩ := compile_of_direct env e x h1
    exact ⟨_, by rw [compileTree, ho]; rfl⟩
  | .bin op a b, v, h => by
    rw [directEval] at h
    obtain ⟨x, h1, h⟩ := res_bind_ok h
    obtain ⟨y, h2, h⟩ := res_bind_ok h
    obtain ⟨oa, ha⟩ := compile_of_direct env a x h1
    obtain ⟨ob, hb⟩ := compile_of_direct env b y h2
    rw [compileTree, ha, hb]
    cases op <;> first | exact ⟨_, rfl⟩ | (simp [exprBin] at h)
  | .ternary c a b, v, h => by
    rw [directEval] at h
    obtain ⟨z, h0, h⟩ := res_bind_ok h
    obtain ⟨x, h1, h⟩ := res_bind_ok h
    obtain ⟨y, h2, h⟩ := res_bind_ok h
    obtain ⟨oc, hc⟩ := compile_of_direct env c z h0
    obtain ⟨oa, ha⟩ := compile_of_direct env a x h1
    obtain ⟨ob, hb⟩ := compile_of_direct env b y h2
    exact ⟨_, by rw [compileTree, hc, ha, hb]; rfl⟩
  | .call name args, v, h => by
    rw [directEval] at h
    obtain ⟨vs, h1, _⟩ := res_bind_ok h
    obtain ⟨os, ho⟩ := compile_of_args env args vs h1
    exact ⟨_, by rw [compileTree, ho]; rfl⟩
theorem compile_of_args (env : ExprEnv R) : ∀ (as : ExprArgs R) (vs : List (EVal R)),
    directArgs s O env as = .ok vs → ∃ ops, compileArgs as = .ok ops
  | .nil, vs, _ => ⟨_, rfl⟩
  | .cons a as, vs, h => by
    rw [directArgs] at h
    obtain ⟨x, h1, h⟩ := res_bind_ok h
    obtain ⟨xs, h2, _⟩ := res_bind_ok h
    obtain ⟨oa, ha⟩ := compile_of_direct env a x h1
    obtain ⟨os, hs⟩ := compile_of_args env as xs h2
    exact ⟨_, by rw [compileArgs, ha, hs]; rfl⟩
end

mutual
/-- The operations of an expression succeed with the values of the expression, and leave the
variables alone. -/
theorem opEval_iff (env : ExprEnv R) : ∀ (e : ExprTree R) (op : ExprOp R), compileTree e = .ok op →
    ∀ v env', opEval s O env op = .ok (v, env') ↔ directEval s O env e = .ok v ∧ env' = env
  | .const r, op, ho, v, env' => by
    cases ho
    simp [opEval, directEval, eq_comm]
  | .var name, op, ho, v, env' => by
    cases ho
    simp only [opEval, directEval, Res.bind_eq_ok, Res.ok.injEq, Prod.mk.injEq]
    constructor
    · rintro ⟨a, h, rfl, rfl⟩; exact ⟨h, rfl⟩
    · rintro ⟨h, rfl⟩; exact ⟨v, h, rfl, rfl⟩
  | .neg e, op, ho, v, env' => by
    rw [compileTree] at ho
    obtain ⟨a, h1, h2⟩ := res_bind_ok ho
    cases h2
    have ih := opEval_iff env e a h1
    simp only [opEval, directEval, Res.bind_eq_ok]
    constructor
    · rintro ⟨⟨x, en⟩, g1, y, g2, g3⟩
      obtain ⟨g1, rfl⟩ := (ih x en).1 g1
      cases g3
      exact ⟨⟨x, g1, g2⟩, rfl⟩
    · rintro ⟨⟨x, g1, g2⟩, rfl⟩
      exact ⟨(x, env'), (ih x env').2 ⟨g1, rfl⟩, v, g2, rfl⟩
  | .bin bop a b, op, ho, v, env' => by
    rw [compileTree] at ho
    obtain ⟨oa, h1, ho⟩ := res_bind_ok ho
    obtain ⟨ob, h2, ho⟩ := res_bind_ok ho
    have iha := opEval_iff env a oa h1
    have ihb := opEval_iff env b ob h2
    have hop : op = .bin bop oa ob := by
      cases bop <;> first | (cases ho; rfl) | cases ho
    subst hop
    simp only [opEval, directEval, Res.bind_eq_ok]
    constructor
    · rintro ⟨⟨x, en⟩, g1, ⟨y, en2⟩, g2, z, g3, g4⟩
      obtain ⟨g1, rfl⟩ := (iha x en).1 g1
      obtain ⟨g2, e2⟩ := (ihb y en2).1 g2
      have e2 : en2 = en := e2
      subst e2
      cases g4
      exact ⟨⟨x, g1, y, g2, g3⟩, rfl⟩
    · rintro ⟨⟨x, g1, y, g2, g3⟩, rfl⟩
      exact ⟨(x, env'), (iha x env').2 ⟨g1, rfl⟩, (y, env'), (ihb y env').2 ⟨g2, rfl⟩, v, g3, rfl⟩
  | .ternary c a b, op, ho, v, env' => by
    rw [compileTree] at ho
    obtain ⟨oc, h0, ho⟩ := res_bind_ok ho
    obtain ⟨oa, h1, ho⟩ := res_bind_ok ho
    obtain ⟨ob, h2, ho⟩ := res_bind_ok ho
    cases ho
    have ihc := opEval_iff env c oc h0
    have iha := opEval_iff env a oa h1
    have ihb := opEval_iff env b ob h2
    simp only [opEval, directEval, exprChoose, Res.bind_eq_ok]
    constructor
    · rintro ⟨⟨x, en⟩, g1, ⟨y, en2⟩, g2, ab, g3, ⟨z, en3⟩, g4, w, g5, g6⟩
      obtain ⟨g1, rfl⟩ := (iha x en).1 g1
      obtain ⟨g2, e2⟩ := (ihb y en2).1 g2
      have e2 : en2 = en := e2
      subst e2
      obtain ⟨g4, e3⟩ := (ihc z en3).1 g4
      have e3 : en3 = en2 := e3
      subst e3
      cases g6
      exact ⟨⟨z, g4, x, g1, y, g2, ab, g3, g5⟩, rfl⟩
    · rintro ⟨⟨z, g4, x, g1, y, g2, ab, g3, g5⟩, rfl⟩
      exact ⟨(x, env'), (iha x env').2 ⟨g1, rfl⟩, (y, env'), (ihb y env').2 ⟨g2, rfl⟩, ab, g3,
        (z, env'), (ihc z env').2 ⟨g4, rfl⟩, v, g5, rfl⟩
  | .call name args, op, ho, v, env' => by
    rw [compileTree] at ho
    obtain ⟨os, h1, ho⟩ := res_bind_ok ho
    cases ho
    have ih := opArgs_iff env args os h1
    simp only [opEval, directEval, Res.bind_eq_ok]
    constructor
    · rintro ⟨⟨x, en⟩, g1, y, g2, g3⟩
      obtain ⟨g1, rfl⟩ := (ih x en).1 g1
      cases g3
      exact ⟨⟨x, g1, g2⟩, rfl⟩
    · rintro ⟨⟨x, g1, g2⟩, rfl⟩
      exact ⟨(x, env'), (ih x env').2 ⟨g1, rfl⟩, v, g2, rfl⟩
theorem opArgs_iff (env : ExprEnv R) : ∀ (as : ExprArgs R) (ops : ExprOps R), compileArgs as = .ok ops →
    ∀ vs env', opArgs s O env ops = .ok (vs, env') ↔ directArgs s O env as = .ok vs ∧ env' = env
  | .nil, ops, ho, vs, env' => by
    cases ho
    simp [opArgs, directArgs, eq_comm]
  | .cons a as, ops, ho, vs, env' => by
    rw [compileArgs] at ho
    obtain ⟨oa, h1, ho⟩ := res_bind_ok ho
    obtain ⟨os, h2, ho⟩ := res_bind_ok ho
    cases ho
    have iha := opEval_iff env a oa h1
    have ihs := opArgs_iff env as os h2
    simp only [opArgs, directArgs, Res.bind_eq_ok]
    constructor
    · rintro ⟨⟨x, en⟩, g1, ⟨y, en2⟩, g2, g3⟩
      obtain ⟨g1, rfl⟩ := (iha x en).1 g1
      obtain ⟨g2, e2⟩ := (ihs y en2).1 g2
      have e2 : en2 = en := e2
      subst e2
      cases g3
      exact ⟨⟨x, g1, y, g2, rfl⟩, rfl⟩
    · rintro ⟨⟨x, g1, y, g2, g3⟩, rfl⟩
      cases g3
      exact ⟨(x, env'), (iha x env').2 ⟨g1, rfl⟩, (y, env'), (ihs y env').2 ⟨g2, rfl⟩, rfl⟩
end

/-- Running the operation of the statements read so far, if any. -/
def accRun (env : ExprEnv R) (acc : Option (ExprOp R)) (en : ExprEnv R) : Prop :=
  match acc with
  | none => en = env
  | some l => ∃ v, opEval s O env l = .ok (v, en)

/-- The statements: what they do when compiled after `acc` is what they do after running `acc`. -/
theorem stmts_iff (env : ExprEnv R) : ∀ (stmts : List (String × ExprTree R)) (acc : Option (ExprOp R))
    (out : Option (ExprOp R)), compileStmts acc stmts = .ok out → ∀ en,
    accRun s O env out en ↔ ∃ mid, accRun s O env acc mid ∧ directStmts s O mid stmts = .ok en
  | [], acc, out, h, en => by
    cases h
    simp only [directStmts, Res.ok.injEq]
    exact ⟨fun h => ⟨en, h, rfl⟩, fun ⟨m, h, e⟩ => e ▸ h⟩
  | (name, e) :: rest, acc, out, h, en => by
    rw [compileStmts] at h
    obtain ⟨a, h1, h⟩ := res_bind_ok h
    rw [stmts_iff env rest _ out h en]
    have key : ∀ m, accRun s O env (some (match acc with
        | none => .assign name a
        | some l => .semicolon l (.assign name a))) m ↔
        ∃ mid v, accRun s O env acc mid ∧ directEval s O mid e = .ok v ∧ m = mid.set name v := by
      intro m
      cases acc with
      | none =>
        simp only [accRun, opEval, Res.bind_eq_ok]
        constructor
        · rintro ⟨v, ⟨x, en1⟩, g1, g2⟩
          obtain ⟨g1, rfl⟩ := (opEval_iff s O env e a h1 x en1).1 g1
          cases g2
          exact ⟨_, x, rfl, g1, rfl⟩
        · rintro ⟨mid, v, rfl, g1, rfl⟩
          exact ⟨.empty, (v, mid), (opEval_iff s O mid e a h1 v mid).2 ⟨g1, rfl⟩, rfl⟩
      | some l =>
        simp only [accRun, opEval, Res.bind_eq_ok]
        constructor
        · rintro ⟨v, ⟨x0, en0⟩, g0, ⟨x, en1⟩, g1, g2⟩
          obtain ⟨g1, e1⟩ := (opEval_iff s O en0 e a h1 x en1).1 g1
          have e1 : en1 = en0 := e1
          subst e1
          cases g2
          exact ⟨_, x, ⟨x0, g0⟩, g1, rfl⟩
        · rintro ⟨mid, v, ⟨x0, g0⟩, g1, rfl⟩
          exact ⟨.empty, (x0, mid), g0, (v, mid), (opEval_iff s O mid e a h1 v mid).2 ⟨g1, rfl⟩, rfl⟩
    constructor
    · rintro ⟨m, hm, hs⟩
      obtain ⟨mid, v, k1, k2, rfl⟩ := (key m).1 hm
      exact ⟨mid, k1, by rw [directStmts, k2]; exact hs⟩
    · rintro ⟨mid, k1, hs⟩
      rw [directStmts] at hs
      obtain ⟨v, k2, hs⟩ := res_bind_ok hs
      exact ⟨_, (key _).2 ⟨mid, v, k1, k2, rfl⟩, hs⟩

theorem compileStmts_of_direct : ∀ (stmts : List (String × ExprTree R)) (acc : Option (ExprOp R))
    (env en : ExprEnv R), directStmts s O env stmts = .ok en → ∃ out, compileStmts acc stmts = .ok out
  | [], acc, env, en, _ => ⟨_, rfl⟩
  | (name, e) :: rest, acc, env, en, h => by
    rw [directStmts] at h
    obtain ⟨v, h1, h⟩ := res_bind_ok h
    obtain ⟨a, ha⟩ := compile_of_direct s O env e v h1
    obtain ⟨out, ho⟩ := compileStmts_of_direct rest (some (match acc with
        | none => .assign name a
        | some l => .semicolon l (.assign name a))) (env.set name v) en h
    exact ⟨out, by rw [compileStmts, ha]; exact ho⟩

/-- **Compiling and evaluating gives the value and the variables that reading gives.** For every
program and every environment, on every schedule: reading the text with `ExprReader` succeeds with a
value and leaves certain variables, exactly if building the operations with `ExprOpsReader` and
evaluating them does so with the same value and the same variables — a value meaning something other
than the empty `any`, which only a user's function could return, and which the reader rejects. -/
theorem C54_compiled (env env' : ExprEnv R) (p : ExprProgram R) (v : EVal R) :
    directRun s O env p = .ok (v, env') ↔ compiledRun s O env p = .ok (v, env') ∧ v ≠ .empty := by
  unfold directRun compiledRun compileProgram
  simp only [Res.bind_eq_ok]
  constructor
  · rintro ⟨en, h1, h2⟩
    obtain ⟨out, ho⟩ := compileStmts_of_direct s O p.stmts none env en h1
    cases hr : p.result with
    | none => rw [hr] at h2; cases h2
    | some e =>
      rw [hr] at h2
      obtain ⟨x, h3, h4⟩ := res_bind_ok h2
      have hx : x = v ∧ en = env' ∧ v ≠ .empty := by
        cases x <;> simp at h4 <;> exact ⟨h4.1, h4.2, by rw [← h4.1]; simp⟩
      obtain ⟨rfl, rfl, hne⟩ := hx
      obtain ⟨a, ha⟩ := compile_of_direct s O en e x h3
      have hrun := (stmts_iff s O env p.stmts none out ho en).2 ⟨env, rfl, h1⟩
      have hev := (opEval_iff s O en e a ha x en).2 ⟨h3, rfl⟩
      refine ⟨?_, hne⟩
      cases out with
      | none =>
        have hrun : en = env := hrun
        subst hrun
        exact ⟨a, ⟨none, ho, by simp only [ha]; rfl⟩, hev⟩
      | some l =>
        obtain ⟨w, hw⟩ := hrun
        exact ⟨.semicolon l a, ⟨some l, ho, by simp only [ha]; rfl⟩, by rw [opEval, hw]; exact hev⟩
  · rintro ⟨⟨op, ⟨out, ho, h⟩, hop⟩, hne⟩
    cases hr : p.result with
    | none => rw [hr] at h; cases h
    | some e =>
      rw [hr] at h
      obtain ⟨a, ha, h⟩ := res_bind_ok h
      have key : ∃ en, directStmts s O env p.stmts = .ok en ∧ opEval s O en a = .ok (v, env') := by
        cases out with
        | none =>
          cases h
          obtain ⟨m, rfl, hm⟩ := (stmts_iff s O env p.stmts none none ho env).1 rfl
          exact ⟨m, hm, hop⟩
        | some l =>
          cases h
          rw [opEval] at hop
          obtain ⟨⟨w, en⟩, g1, g2⟩ := res_bind_ok hop
          obtain ⟨m, rfl, hm⟩ := (stmts_iff s O env p.stmts none (some l) ho en).1 ⟨w, g1⟩
          exact ⟨en, hm, g2⟩
      obtain ⟨en, k1, k2⟩ := key
      obtain ⟨k3, rfl⟩ := (opEval_iff s O en e a ha v env').1 k2
      refine ⟨env', k1, ?_⟩
      show (directEval s O env' e).bind _ = _
      rw [k3]
      cases v <;> first | rfl | exact absurd rfl hne

/-- The operations may be kept and evaluated again, in any environment: each evaluation gives what
reading the text would give there. -/
theorem C54_again (p : ExprProgram R) (op : ExprOp R) (h : compileProgram p = .ok op)
    (env env' : ExprEnv R) (v : EVal R) (hv : v ≠ .empty) :
    opEval s O env op = .ok (v, env') ↔ directRun s O env p = .ok (v, env') := by
  rw [C54_compiled]
  unfold compiledRun
  rw [h]
  exact ⟨fun k => ⟨k, hv⟩, fun k => k.1⟩

end

/-- Integers as an arithmetic, for examples. -/
def intOps : RealOps Int where
  add := (· + ·)
  sub := (· - ·)
  mul := (· * ·)
  div := fun a b => a / b
  pow := fun a b => a ^ b.toNat
  neg := fun a => -a
  abs := fun a => if a < 0 then -a else a
  sqrt := fun a => a
  exp := fun a => a
  sin := fun a => a
  cos := fun a => a
  erf := fun a => a
  zero := 0
  negOne := -1
  pi := 3
  ofNat := fun n => n
  gt := fun a b => decide (a > b)
  lt := fun a b => decide (a < b)
  eq := fun a b => decide (a = b)
  toInt := fun a => some a

/-- The program `y = x * 2; y > 3 ? y + d : -x`. -/
def exampleProgram : ExprProgram Int where
  stmts := [("y", .bin .mul (.var "x") (.const 2))]
  result := some (.ternary (.bin .gt (.var "y") (.const 3)) (.bin .add (.var "y") (.var "d"))
    (.neg (.var "x")))

/-- Both ways give `[-1, 7, 9]` for `x = [1, 2, 3]` in three dimensions. -/
example : (directRun Sched.serial intOps ((ExprEnv.init Sched.serial intOps 3 3).set "x" (.reals [1, 2, 3]))
      exampleProgram).bind (fun r => .ok (r.1, r.2.vars "y")) = .ok (.reals [-1, 7, 9], some (.reals [2, 4, 6])) ∧
    (compiledRun Sched.reversed intOps ((ExprEnv.init Sched.reversed intOps 3 3).set "x" (.reals [1, 2, 3]))
      exampleProgram).bind (fun r => .ok (r.1, r.2.vars "y")) = .ok (.reals [-1, 7, 9], some (.reals [2, 4, 6])) := by
  decide +kernel

/-- The two ways may differ in how they fail: in `x ? vector() : 1` the reader finds first that `x` is
unknown, while the operations evaluate the branches first and read outside the vector. -/
theorem C54_failures_differ :
    let p : ExprProgram Int := ⟨[], some (.ternary (.var "x") (.call "vector" .nil) (.const 1))⟩
    directRun Sched.serial intOps (ExprEnv.init Sched.serial intOps 1 3) p = .fail ∧
    compiledRun Sched.serial intOps (ExprEnv.init Sched.serial intOps 1 3) p = .ub :=
  ⟨rfl, rfl⟩

end OmegaH
