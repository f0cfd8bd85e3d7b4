import Verif.Lemmas.ExprCall
import Verif.Props.C54

/-! # C53: an expression over many points has at each point the value it has there -/

namespace OmegaH

open Spec

section
variable {R : Type} (s : Sched) (O : RealOps R) {n d : Nat}
variable {φ : String → Option (List (PVal R) → Option (PVal R))} {A : Admits}

theorem literalArgs_cons {a : ExprTree R} {as : ExprArgs R} (h : literalArgs (.cons a as) = true) :
    (∃ r, a = .const r) ∧ literalArgs as = true := by
  cases a with
  | const r =>
    rw [literalArgs] at h
    exact ⟨⟨r, rfl⟩, h⟩
  | _ => simp [literalArgs] at h

theorem literal_real (env : ExprEnv R) : ∀ (as : ExprArgs R) (xs : List (EVal R)), literalArgs as = true →
    directArgs s O env as = .ok xs → ∀ x ∈ xs, EVal.isReal x = true
  | .nil, xs, _, h => by
    cases h
    simp
  | .cons a as, xs, hl, h => by
    obtain ⟨⟨r, rfl⟩, hl⟩ := literalArgs_cons hl
    rw [directArgs] at h
    obtain ⟨x, h1, h⟩ := res_bind_ok h
    obtain ⟨ys, h2, h⟩ := res_bind_ok h
    cases h
    cases h1
    intro x hx
    rcases List.mem_cons.1 hx with rfl | hx
    · rfl
    · exact literal_real env as ys hl h2 x hx

/-- The value at a point, where there is one. -/
def valueAt (o : Nat → Option (PVal R)) (p : Nat) : PVal R := (o p).getD (.bool false)

theorem valueAt_eq {o : Nat → Option (PVal R)} {p : Nat} {v : PVal R} (h : o p = some v) : o p = some (valueAt o p) := by
  unfold valueAt
  rw [h]
  rfl

set_option linter.unusedSectionVars false
variable (law : RealLaws O) (hd : SmallDim d) (hn : 0 < n) (hA1 : A.offDiag = false) (hA2 : A.zeroDiv = false)
include law hd hn hA1 hA2

mutual
theorem eval_spec {env : ExprEnv R} {ρ : Nat → PEnv R} (hs : env.size = n) (hdim : env.dim = d)
    (hv : HoldsVars n d env.vars ρ) (hf : LiftsAll n d env.funcs φ) : ∀ (e : ExprTree R) (f : Nat → PVal R),
    (∀ p, p < n → evalAt O d A φ (ρ p) e = some (f p)) →
    (∀ v, directEval s O env e = .ok v → Holds n d v f) ∧
    (A.anyBranch = false → A.anyIndex = false → ∃ v, directEval s O env e = .ok v)
  | .const r, f, h => by
    refine ⟨fun v hv => ?_, fun _ _ => ⟨_, rfl⟩⟩
    cases hv
    exact fun p hp => (Option.some.inj (h p hp)).symm
  | .var name, f, h => by
    have hvn := hv name
    have h0 : ρ 0 name = some (f 0) := h 0 hn
    simp only [directEval, exprVar]
    cases hx : env.vars name with
    | none =>
      rw [hx] at hvn
      rw [hvn 0 hn] at h0
      cases h0
    | some x =>
      rw [hx] at hvn
      obtain ⟨g, g1, g2⟩ := hvn
      refine ⟨fun v hv => ?_, fun _ _ => ⟨x, rfl⟩⟩
      cases hv
      have e : ∀ p, p < n → g p = f p := fun p hp =>
        Option.some.inj ((g1 p hp).symm.trans (h p hp))
      cases x with
      | empty => exact g2
      | bool b => exact fun p hp => (e p hp).symm.trans (g2 p hp)
      | bytes l => exact ⟨g2.1, fun p hp => by rw [← e p hp]; exact g2.2 p hp⟩
      | real r => exact fun p hp => (e p hp).symm.trans (g2 p hp)
      | reals l =>
        obtain ⟨sh, k1, k2⟩ := g2
        exact ⟨sh, k1, fun p hp => (e p hp).symm.trans (k2 p hp)⟩
      | vec v => exact ⟨g2.1, fun p hp => (e p hp).symm.trans (g2.2 p hp)⟩
      | mat m =>
        obtain ⟨k1, k2, c, k3, k4, k5⟩ := g2
        exact ⟨k1, k2, c, k3, k4, fun p hp => (e p hp).symm.trans (k5 p hp)⟩
  | .neg e, f, h => by
    have h1 : ∀ p, p < n → ∃ x, evalAt O d A φ (ρ p) e = some x ∧ negAt O x = some (f p) := fun p hp => by
      have := h p hp
      rw [evalAt] at this
      exact Option.bind_eq_some_iff.1 this
    have h2 : ∀ p, p < n → evalAt O d A φ (ρ p) e = some (valueAt (fun p => evalAt O d A φ (ρ p) e) p) :=
      fun p hp => by obtain ⟨x, e1, _⟩ := h1 p hp; exact valueAt_eq (o := fun p => evalAt O d A φ (ρ p) e) e1
    obtain ⟨i1, i2⟩ := eval_spec hs hdim hv hf e _ h2
    have key : ∀ x, directEval s O env e = .ok x → ∃ v, exprNeg s O env.dim x = .ok v ∧ Holds n d v f := by
      intro x hx
      rw [hdim]
      refine neg_spec s O law hd hn (i1 x hx) (fun p hp => ?_)
      obtain ⟨y, e1, e2⟩ := h1 p hp
      rw [h2 p hp] at e1
      cases e1
      exact e2
    simp only [directEval]
    refine ⟨fun v hv => ?_, fun b1 b2 => ?_⟩
    · obtain ⟨x, e1, e2⟩ := res_bind_ok hv
      obtain ⟨w, k1, k2⟩ := key x e1
      rw [e2] at k1
      cases k1
      exact k2
    · obtain ⟨x, e1⟩ := i2 b1 b2
      obtain ⟨w, k1, _⟩ := key x e1
      exact ⟨w, by rw [e1]; exact k1⟩
  | .bin op a b, f, h => by
    have h1 : ∀ p, p < n → ∃ x y, evalAt O d A φ (ρ p) a = some x ∧ evalAt O d A φ (ρ p) b = some y ∧
        binAt O d A op x y = some (f p) := fun p hp => by
      have := h p hp
      rw [evalAt] at this
      obtain ⟨x, e1, this⟩ := Option.bind_eq_some_iff.1 this
      obtain ⟨y, e2, this⟩ := Option.bind_eq_some_iff.1 this
      exact ⟨x, y, e1, e2, this⟩
    have h2 : ∀ p, p < n → evalAt O d A φ (ρ p) a = some (valueAt (fun p => evalAt O d A φ (ρ p) a) p) :=
      fun p hp => by obtain ⟨x, y, e1, _⟩ := h1 p hp; exact valueAt_eq (o := fun p => evalAt O d A φ (ρ p) a) e1
    have h3 : ∀ p, p < n → evalAt O d A φ (ρ p) b = some (valueAt (fun p => evalAt O d A φ (ρ p) b) p) :=
      fun p hp => by obtain ⟨x, y, _, e1, _⟩ := h1 p hp; exact valueAt_eq (o := fun p => evalAt O d A φ (ρ p) b) e1
    obtain ⟨i1, i2⟩ := eval_spec hs hdim hv hf a _ h2
    obtain ⟨j1, j2⟩ := eval_spec hs hdim hv hf b _ h3
    have key : ∀ x y, directEval s O env a = .ok x → directEval s O env b = .ok y →
        ∃ v, exprBin s O env.size env.dim op x y = .ok v ∧ Holds n d v f := by
      intro x y hx hy
      rw [hs, hdim]
      refine bin_spec s O law hd hn hA2 op (i1 x hx) (j1 y hy) (fun p hp => ?_)
      obtain ⟨u, w, e1, e2, e3⟩ := h1 p hp
      rw [h2 p hp] at e1
      rw [h3 p hp] at e2
      cases e1
      cases e2
      exact e3
    simp only [directEval]
    refine ⟨fun v hv => ?_, fun b1 b2 => ?_⟩
    · obtain ⟨x, e1, hv⟩ := res_bind_ok hv
      obtain ⟨y, e2, hv⟩ := res_bind_ok hv
      obtain ⟨w, k1, k2⟩ := key x y e1 e2
      rw [hv] at k1
      cases k1
      exact k2
    · obtain ⟨x, e1⟩ := i2 b1 b2
      obtain ⟨y, e2⟩ := j2 b1 b2
      obtain ⟨w, k1, _⟩ := key x y e1 e2
      exact ⟨w, by rw [e1, e2]; exact k1⟩
  | .ternary c a b, f, h => by
    have h1 : ∀ p, p < n → ∃ z x y, evalAt O d A φ (ρ p) c = some z ∧ evalAt O d A φ (ρ p) a = some x ∧
        evalAt O d A φ (ρ p) b = some y ∧ chooseAt A z x y = some (f p) := fun p hp => by
      have := h p hp
      rw [evalAt] at this
      obtain ⟨z, e0, this⟩ := Option.bind_eq_some_iff.1 this
      obtain ⟨x, e1, this⟩ := Option.bind_eq_some_iff.1 this
      obtain ⟨y, e2, this⟩ := Option.bind_eq_some_iff.1 this
      exact ⟨z, x, y, e0, e1, e2, this⟩
    have h0 : ∀ p, p < n → evalAt O d A φ (ρ p) c = some (valueAt (fun p => evalAt O d A φ (ρ p) c) p) :=
      fun p hp => by obtain ⟨z, x, y, e1, _⟩ := h1 p hp; exact valueAt_eq (o := fun p => evalAt O d A φ (ρ p) c) e1
    have h2 : ∀ p, p < n → evalAt O d A φ (ρ p) a = some (valueAt (fun p => evalAt O d A φ (ρ p) a) p) :=
      fun p hp => by obtain ⟨z, x, y, _, e1, _⟩ := h1 p hp; exact valueAt_eq (o := fun p => evalAt O d A φ (ρ p) a) e1
    have h3 : ∀ p, p < n → evalAt O d A φ (ρ p) b = some (valueAt (fun p => evalAt O d A φ (ρ p) b) p) :=
      fun p hp => by obtain ⟨z, x, y, _, _, e1, _⟩ := h1 p hp; exact valueAt_eq (o := fun p => evalAt O d A φ (ρ p) b) e1
    obtain ⟨l1, l2⟩ := eval_spec hs hdim hv hf c _ h0
    obtain ⟨i1, i2⟩ := eval_spec hs hdim hv hf a _ h2
    obtain ⟨j1, j2⟩ := eval_spec hs hdim hv hf b _ h3
    have key : ∀ z x y, directEval s O env c = .ok z → directEval s O env a = .ok x →
        directEval s O env b = .ok y → (∀ v, exprChoose s env z x y = .ok v → Holds n d v f) ∧
        (A.anyBranch = false → ∃ v, exprChoose s env z x y = .ok v) := by
      intro z x y hz hx hy
      refine choose_spec s hd hn (A := A) hs hdim (l1 z hz) (i1 x hx) (j1 y hy) (fun p hp => ?_)
      obtain ⟨t, u, w, e0, e1, e2, e3⟩ := h1 p hp
      rw [h0 p hp] at e0
      rw [h2 p hp] at e1
      rw [h3 p hp] at e2
      cases e0
      cases e1
      cases e2
      exact e3
    simp only [directEval]
    refine ⟨fun v hv => ?_, fun b1 b2 => ?_⟩
    · obtain ⟨z, e0, hv⟩ := res_bind_ok hv
      obtain ⟨x, e1, hv⟩ := res_bind_ok hv
      obtain ⟨y, e2, hv⟩ := res_bind_ok hv
      exact (key z x y e0 e1 e2).1 v hv
    · obtain ⟨z, e0⟩ := l2 b1 b2
      obtain ⟨x, e1⟩ := i2 b1 b2
      obtain ⟨y, e2⟩ := j2 b1 b2
      obtain ⟨w, k1⟩ := (key z x y e0 e1 e2).2 b1
      exact ⟨w, by rw [e0, e1, e2]; exact k1⟩
  | .call name args, f, h => by
    have h1 : ∀ p, p < n → ∃ vs, argsAt O d A φ (ρ p) args = some vs ∧ (match ρ p name with
        | some v => if A.anyIndex = true ∨ literalArgs args = true then accessAt O d A v vs else none
        | none => (φ name).bind (fun f => f vs)) = some (f p) := fun p hp => by
      have := h p hp
      rw [evalAt] at this
      exact Option.bind_eq_some_iff.1 this
    obtain ⟨fs, a1, a2, a3⟩ := args_spec hs hdim hv hf args
      (fun p => (argsAt O d A φ (ρ p) args).getD []) (fun p hp => by
        obtain ⟨vs, e1, _⟩ := h1 p hp
        rw [e1]; rfl)
    have h2 : ∀ p, p < n → (match ρ p name with
        | some v => if A.anyIndex = true ∨ literalArgs args = true then
            accessAt O d A v (fs.map (fun f => f p)) else none
        | none => (φ name).bind (fun g => g (fs.map (fun f => f p)))) = some (f p) := by
      intro p hp
      obtain ⟨vs, e1, e2⟩ := h1 p hp
      have := a1 p hp
      rw [e1] at this
      have this : vs = fs.map (fun f => f p) := this
      rw [← this]
      exact e2
    have hvn := hv name
    have key : ∀ xs, directArgs s O env args = .ok xs →
        (∀ v, exprCall s O env name xs = .ok v → Holds n d v f) ∧
        (A.anyIndex = false → ∃ v, exprCall s O env name xs = .ok v) := by
      intro xs hxs
      have hall := a2 xs hxs
      unfold exprCall
      cases hx : env.vars name with
      | some x =>
        rw [hx] at hvn
        obtain ⟨g, g1, g2⟩ := hvn
        have h3 : ∀ p, p < n → (A.anyIndex = true ∨ literalArgs args = true) ∧
            accessAt O d A (g p) (fs.map (fun f => f p)) = some (f p) := by
          intro p hp
          have := h2 p hp
          rw [g1 p hp] at this
          dsimp only at this
          split at this
          · exact ⟨by assumption, this⟩
          · cases this
        have := access_spec s O hd hn hA1 g2 hall (fun p hp => (h3 p hp).2)
        dsimp only
        rw [hs, hdim]
        refine ⟨this.1, fun b => this.2 ?_⟩
        rcases (h3 0 hn).1 with e | e
        · rw [b] at e; cases e
        · exact literal_real s O env args xs e hxs
      | none =>
        rw [hx] at hvn
        have h3 : ∀ p, p < n → (φ name).bind (fun g => g (fs.map (fun f => f p))) = some (f p) := by
          intro p hp
          have := h2 p hp
          rw [hvn p hp] at this
          exact this
        have hfn := hf name
        cases hF : env.funcs name with
        | none =>
          rw [hF] at hfn
          have := h3 0 hn
          rw [show φ name = none from hfn] at this
          cases this
        | some F =>
          rw [hF] at hfn
          obtain ⟨g, g1, g2⟩ := hfn
          obtain ⟨v, v1, v2⟩ := g2 xs fs f hall (fun p hp => by
            have := h3 p hp
            rw [g1] at this
            exact this)
          refine ⟨fun w hw => ?_, fun _ => ⟨v, v1⟩⟩
          have hw : F xs = .ok w := hw
          rw [v1] at hw
          cases hw
          exact v2
    simp only [directEval]
    refine ⟨fun v hv => ?_, fun b1 b2 => ?_⟩
    · obtain ⟨xs, e1, hv⟩ := res_bind_ok hv
      exact (key xs e1).1 v hv
    · obtain ⟨xs, e1⟩ := a3 b1 b2
      obtain ⟨w, k1⟩ := (key xs e1).2 b2
      exact ⟨w, by rw [e1]; exact k1⟩
theorem args_spec {env : ExprEnv R} {ρ : Nat → PEnv R} (hs : env.size = n) (hdim : env.dim = d)
    (hv : HoldsVars n d env.vars ρ) (hf : LiftsAll n d env.funcs φ) :
    ∀ (as : ExprArgs R) (vs : Nat → List (PVal R)),
    (∀ p, p < n → argsAt O d A φ (ρ p) as = some (vs p)) →
    ∃ fs : List (Nat → PVal R), (∀ p, p < n → vs p = fs.map (fun f => f p)) ∧
      (∀ xs, directArgs s O env as = .ok xs → HoldsAll n d xs fs) ∧
      (A.anyBranch = false → A.anyIndex = false → ∃ xs, directArgs s O env as = .ok xs)
  | .nil, vs, h => by
    refine ⟨[], fun p hp => (Option.some.inj (h p hp)).symm, fun xs hx => ?_, fun _ _ => ⟨_, rfl⟩⟩
    cases hx
    trivial
  | .cons a as, vs, h => by
    have h1 : ∀ p, p < n → ∃ x ys, evalAt O d A φ (ρ p) a = some x ∧ argsAt O d A φ (ρ p) as = some ys ∧
        vs p = x :: ys := fun p hp => by
      have := h p hp
      rw [argsAt] at this
      obtain ⟨x, e1, this⟩ := Option.bind_eq_some_iff.1 this
      obtain ⟨y, e2, this⟩ := Option.bind_eq_some_iff.1 this
      exact ⟨x, y, e1, e2, (Option.some.inj this).symm⟩
    have h2 : ∀ p, p < n → evalAt O d A φ (ρ p) a = some (valueAt (fun p => evalAt O d A φ (ρ p) a) p) :=
      fun p hp => by obtain ⟨x, y, e1, _⟩ := h1 p hp; exact valueAt_eq (o := fun p => evalAt O d A φ (ρ p) a) e1
    obtain ⟨i1, i2⟩ := eval_spec hs hdim hv hf a _ h2
    obtain ⟨fs, a1, a2, a3⟩ := args_spec hs hdim hv hf as
      (fun p => (argsAt O d A φ (ρ p) as).getD []) (fun p hp => by
        obtain ⟨x, ys, _, e1, _⟩ := h1 p hp
        rw [e1]; rfl)
    refine ⟨valueAt (fun p => evalAt O d A φ (ρ p) a) :: fs, fun p hp => ?_, fun xs hx => ?_, fun b1 b2 => ?_⟩
    · obtain ⟨x, ys, e1, e2, e3⟩ := h1 p hp
      have hy := a1 p hp
      rw [e2] at hy
      have hy : ys = fs.map (fun f => f p) := hy
      rw [h2 p hp] at e1
      rw [e3, hy, ← Option.some.inj e1]
      rfl
    · rw [directArgs] at hx
      obtain ⟨x, e1, hx⟩ := res_bind_ok hx
      obtain ⟨ys, e2, hx⟩ := res_bind_ok hx
      cases hx
      exact ⟨i1 x e1, a2 ys e2⟩
    · obtain ⟨x, e1⟩ := i2 b1 b2
      obtain ⟨ys, e2⟩ := a3 b1 b2
      exact ⟨x :: ys, by rw [directArgs, e1, e2]; rfl⟩
end

omit law hd hn hA1 hA2 in
theorem holdsVars_set {vars : String → Option (EVal R)} {ρ : Nat → PEnv R} (hv : HoldsVars n d vars ρ)
    (name : String) {v : EVal R} {f : Nat → PVal R} (h : Holds n d v f) :
    HoldsVars n d (fun x => if x = name then some v else vars x) (fun p => PEnv.set (ρ p) name (f p)) := by
  intro x
  unfold PEnv.set
  by_cases hx : x = name
  · simp only [hx, if_true]
    exact ⟨f, fun p hp => rfl, h⟩
  · simp only [hx, if_false]
    exact hv x

theorem stmts_spec : ∀ (stmts : List (String × ExprTree R)) (env : ExprEnv R) (ρ : Nat → PEnv R)
    (ρ' : Nat → PEnv R), env.size = n → env.dim = d → HoldsVars n d env.vars ρ → LiftsAll n d env.funcs φ →
    (∀ p, p < n → stmtsAt O d A φ (ρ p) stmts = some (ρ' p)) →
    (∀ env', directStmts s O env stmts = .ok env' → env'.size = n ∧ env'.dim = d ∧ env'.funcs = env.funcs ∧
      HoldsVars n d env'.vars ρ') ∧
    (A.anyBranch = false → A.anyIndex = false → ∃ env', directStmts s O env stmts = .ok env')
  | [], env, ρ, ρ', hs, hdim, hv, hf, h => by
    refine ⟨fun env' he => ?_, fun _ _ => ⟨_, rfl⟩⟩
    cases he
    refine ⟨hs, hdim, rfl, fun name => ?_⟩
    have e : ∀ p, p < n → ρ p = ρ' p := fun p hp => Option.some.inj (h p hp)
    have := hv name
    cases hx : env.vars name with
    | none => rw [hx] at this; exact fun p hp => by rw [← e p hp]; exact this p hp
    | some x =>
      rw [hx] at this
      obtain ⟨g, g1, g2⟩ := this
      exact ⟨g, fun p hp => by rw [← e p hp]; exact g1 p hp, g2⟩
  | (name, e) :: rest, env, ρ, ρ', hs, hdim, hv, hf, h => by
    have h1 : ∀ p, p < n → ∃ x, evalAt O d A φ (ρ p) e = some x ∧
        stmtsAt O d A φ (PEnv.set (ρ p) name x) rest = some (ρ' p) := fun p hp => by
      have := h p hp
      rw [stmtsAt] at this
      exact Option.bind_eq_some_iff.1 this
    have h2 : ∀ p, p < n → evalAt O d A φ (ρ p) e = some (valueAt (fun p => evalAt O d A φ (ρ p) e) p) :=
      fun p hp => by obtain ⟨x, e1, _⟩ := h1 p hp; exact valueAt_eq (o := fun p => evalAt O d A φ (ρ p) e) e1
    obtain ⟨i1, i2⟩ := eval_spec s O law hd hn hA1 hA2 hs hdim hv hf e _ h2
    have next : ∀ v, directEval s O env e = .ok v → _ := fun v hx =>
      stmts_spec rest (env.set name v) (fun p => PEnv.set (ρ p) name (valueAt (fun p => evalAt O d A φ (ρ p) e) p)) ρ'
        hs hdim (holdsVars_set hv name (i1 v hx)) hf (fun p hp => by
          obtain ⟨x, e1, e2⟩ := h1 p hp
          rw [h2 p hp] at e1
          cases e1
          exact e2)
    simp only [directStmts]
    refine ⟨fun env' he => ?_, fun b1 b2 => ?_⟩
    · obtain ⟨v, e1, he⟩ := res_bind_ok he
      exact (next v e1).1 env' he
    · obtain ⟨v, e1⟩ := i2 b1 b2
      obtain ⟨w, k⟩ := (next v e1).2 b1 b2
      exact ⟨w, by rw [e1]; exact k⟩

theorem run_spec (env : ExprEnv R) (ρ ρ' : Nat → PEnv R) (prog : ExprProgram R) (f : Nat → PVal R)
    (hs : env.size = n) (hdim : env.dim = d) (hv : HoldsVars n d env.vars ρ) (hf : LiftsAll n d env.funcs φ)
    (h : ∀ p, p < n → runAt O d A φ (ρ p) prog = some (f p, ρ' p)) :
    (∀ v env', directRun s O env prog = .ok (v, env') → Holds n d v f ∧ HoldsVars n d env'.vars ρ') ∧
    (A.anyBranch = false → A.anyIndex = false → ∃ v env', directRun s O env prog = .ok (v, env')) := by
  have h1 : ∀ p, p < n → stmtsAt O d A φ (ρ p) prog.stmts = some (ρ' p) ∧
      ∃ e, prog.result = some e ∧ evalAt O d A φ (ρ' p) e = some (f p) := by
    intro p hp
    obtain ⟨r, e1, e2⟩ := Option.bind_eq_some_iff.1 (h p hp)
    obtain ⟨e, e3, e4⟩ := Option.bind_eq_some_iff.1 e2
    obtain ⟨v, e5, e6⟩ := Option.map_eq_some_iff.1 e4
    cases e6
    exact ⟨e1, e, e3, e5⟩
  obtain ⟨_, e, he, _⟩ := h1 0 hn
  have h2 : ∀ p, p < n → evalAt O d A φ (ρ' p) e = some (f p) := by
    intro p hp
    obtain ⟨_, e', he', e5⟩ := h1 p hp
    rw [he] at he'
    cases he'
    exact e5
  obtain ⟨s1, s2⟩ := stmts_spec s O law hd hn hA1 hA2 prog.stmts env ρ ρ' hs hdim hv hf (fun p hp => (h1 p hp).1)
  have next : ∀ env', directStmts s O env prog.stmts = .ok env' → _ := fun env' hx =>
    have k := s1 env' hx
    eval_spec (env := env') (φ := φ) s O law hd hn hA1 hA2 k.1 k.2.1 k.2.2.2 (by rw [k.2.2.1]; exact hf) e f h2
  unfold directRun
  rw [he]
  refine ⟨fun v env' hr => ?_, fun b1 b2 => ?_⟩
  · obtain ⟨en, e1, hr⟩ := res_bind_ok hr
    obtain ⟨w, e2, hr⟩ := res_bind_ok hr
    have hw : w = v ∧ en = env' := by cases w <;> cases hr <;> exact ⟨rfl, rfl⟩
    obtain ⟨rfl, rfl⟩ := hw
    exact ⟨(next en e1).1 w e2, (s1 en e1).2.2.2⟩
  · obtain ⟨en, e1⟩ := s2 b1 b2
    obtain ⟨w, e2⟩ := (next en e1).2 b1 b2
    have hw := (next en e1).1 w e2
    rw [e1, Res.bind_ok]
    show ∃ v env', (directEval s O en e).bind _ = _
    rw [e2]
    cases w with
    | empty => exact hw.elim
    | bool b => exact ⟨_, _, rfl⟩
    | bytes l => exact ⟨_, _, rfl⟩
    | real r => exact ⟨_, _, rfl⟩
    | reals l => exact ⟨_, _, rfl⟩
    | vec v => exact ⟨_, _, rfl⟩
    | mat m => exact ⟨_, _, rfl⟩

end

/-- **Expressions are evaluated point by point**, as far as the program gets them right. Over `n > 0`
points of a space of 1, 2 or 3 dimensions, let each variable stand for a value at every point — a constant for
the same value everywhere, an array for one value per point — and let each function do at every point what it
is meant to do. If the program has the value `f p` at every point `p`, then reading it computes a value that
stands for `f`, whatever mixture of constants and arrays it meets and on whatever schedule; and its variables
afterwards stand for the variables at the points.

Missing from the full property (`Spec.Admits.all`): components `m(i,j)` with `i ≠ j`; division by zero; `c ? a : b`
between vectors or matrices; indices that are computed; no points at all. Each fails: see the refutations below. -/
theorem C53_pointwise_partial {R : Type} (s : Sched) (O : RealOps R) (law : RealLaws O) {n d : Nat} (hn : 0 < n)
    (hd : d = 1 ∨ d = 2 ∨ d = 3) (env : ExprEnv R) (hs : env.size = n) (hdim : env.dim = d)
    (φ : String → Option (List (PVal R) → Option (PVal R))) (hf : LiftsAll n d env.funcs φ)
    (ρ ρ' : Nat → PEnv R) (hv : HoldsVars n d env.vars ρ) (prog : ExprProgram R) (f : Nat → PVal R)
    (h : ∀ p, p < n → runAt O d ⟨false, false, false, false⟩ φ (ρ p) prog = some (f p, ρ' p)) :
    ∃ v env', directRun s O env prog = .ok (v, env') ∧ Holds n d v f ∧ HoldsVars n d env'.vars ρ' := by
  obtain ⟨h1, h2⟩ := run_spec s O (A := ⟨false, false, false, false⟩) law hd hn rfl rfl env ρ ρ' prog f hs hdim hv hf h
  obtain ⟨v, env', e⟩ := h2 rfl rfl
  exact ⟨v, env', e, h1 v env' e⟩

/-- With choices between values of any kind and with computed indices, the program may abort, but if it
yields a value, this is the right one. -/
theorem C53_sound_partial {R : Type} (s : Sched) (O : RealOps R) (law : RealLaws O) {n d : Nat} (hn : 0 < n)
    (hd : d = 1 ∨ d = 2 ∨ d = 3) (env : ExprEnv R) (hs : env.size = n) (hdim : env.dim = d)
    (φ : String → Option (List (PVal R) → Option (PVal R))) (hf : LiftsAll n d env.funcs φ)
    (ρ ρ' : Nat → PEnv R) (hv : HoldsVars n d env.vars ρ) (prog : ExprProgram R) (f : Nat → PVal R)
    (h : ∀ p, p < n → runAt O d ⟨false, false, true, true⟩ φ (ρ p) prog = some (f p, ρ' p))
    (v : EVal R) (env' : ExprEnv R) (hr : directRun s O env prog = .ok (v, env')) :
    Holds n d v f ∧ HoldsVars n d env'.vars ρ' :=
  (run_spec s O (A := ⟨false, false, true, true⟩) law hd hn rfl rfl env ρ ρ' prog f hs hdim hv hf h).1 v env' hr

/-- The functions of the language do at each point what they are meant to do. -/
theorem C53_builtins {R : Type} (s : Sched) (O : RealOps R) {n d : Nat} (hn : 0 < n)
    (hd : d = 1 ∨ d = 2 ∨ d = 3) : LiftsAll n d (ExprEnv.init s O n d).funcs (functionAt O d) :=
  builtins_lift s O hd hn

/-- The values of the variables of a new environment: the dimension, the identity and π. -/
def initialVars {R : Type} (O : RealOps R) (d : Nat) : PEnv R := fun name =>
  if name = "d" then some (.num .scalar [O.ofNat d])
  else if name = "I" then some (.num .matrix ((List.range d).flatMap (fun i =>
    (List.range d).map (fun j => O.ofNat (if i = j then 1 else 0)))))
  else if name = "pi" then some (.num .scalar [O.pi])
  else none

/-- A new environment holds the dimension, the identity and π at each point. -/
theorem C53_initial {R : Type} (s : Sched) (O : RealOps R) {n d : Nat} (hd : d = 1 ∨ d = 2 ∨ d = 3) :
    HoldsVars n d (ExprEnv.init s O n d).vars (fun _ => initialVars O d) := by
  intro name
  show match builtinVar O d name with
    | none => _
    | some x => _
  unfold builtinVar initialVars
  by_cases h1 : name = "d"
  · simp only [h1, if_true]
    exact ⟨fun _ => .num .scalar [O.ofNat d], fun _ _ => rfl, fun _ _ => rfl⟩
  by_cases h2 : name = "I"
  · simp only [h2, if_true]
    rw [if_neg (by decide), if_pos hd]
    refine ⟨fun _ => _, fun _ _ => rfl, (holds_mat_iff hd).2 ⟨_, ?_, fun _ _ => rfl⟩⟩
    rcases hd with rfl | rfl | rfl
    · exact ⟨rfl, rfl, rfl, rfl, by simp⟩
    · exact ⟨rfl, rfl, rfl, rfl, by simp⟩
    · exact ⟨rfl, rfl, rfl, rfl, by simp⟩
  by_cases h3 : name = "pi"
  · simp only [h3, if_true]
    rw [if_neg (by decide), if_neg (by decide)]
    exact ⟨fun _ => .num .scalar [O.pi], fun _ _ => rfl, fun _ _ => rfl⟩
  · simp only [h1, h2, h3, if_false]
    exact fun _ _ => trivial

/-- Registering an array with one value per point, or a constant, adds a variable that stands for it. -/
theorem C53_register {R : Type} {n d : Nat} (env env' : ExprEnv R) (name : String) (v : EVal R)
    (ρ : Nat → PEnv R) (hv : HoldsVars n d env.vars ρ) (f : Nat → PVal R) (h : Holds n d v f)
    (hr : env.registerVariable name v = .ok env') :
    HoldsVars n d env'.vars (fun p => PEnv.set (ρ p) name (f p)) := by
  unfold ExprEnv.registerVariable at hr
  split at hr
  · cases hr
  · cases hr
    intro x
    show match (if x = name then some v else env.vars x) with
      | none => _
      | some x => _
    unfold PEnv.set
    by_cases hx : x = name
    · simp only [hx, if_true]
      exact ⟨f, fun p hp => rfl, h⟩
    · simp only [hx, if_false]
      exact hv x

/-- The integers satisfy the laws. -/
theorem intLaws : RealLaws intOps where
  neg_eq := fun x => by show -x = x * -1; omega
  mul_comm := fun x y => Int.mul_comm x y

/-- An environment of two points in the plane, with `x = [1, 2]`. -/
def planeEnv (s : Sched) : ExprEnv Int := (ExprEnv.init s intOps 2 2).set "x" (.reals [1, 2])

/-- Its variables at the two points. -/
def planeVars (p : Nat) : PEnv Int := PEnv.set (initialVars intOps 2) "x" (.num .scalar [(p : Int) + 1])

theorem plane_holds (s : Sched) : HoldsVars 2 2 (planeEnv s).vars planeVars :=
  C53_register (ExprEnv.init s intOps 2 2) (planeEnv s) "x" (.reals [1, 2]) _
    (C53_initial s intOps (by omega)) (fun p => .num .scalar [(p : Int) + 1])
    ⟨.scalar, rfl, fun p hp => by
      rcases (show p = 0 ∨ p = 1 by omega) with rfl | rfl <;> rfl⟩ rfl

/-- The program `A = matrix(x, 2, 3, 4); v = vector(5, 6); (A + I * x) * v / x`: constants and arrays of all
kinds. -/
def planeProgram : ExprProgram Int where
  stmts := [("A", .call "matrix" (.cons (.var "x") (.cons (.const 2) (.cons (.const 3) (.cons (.const 4) .nil))))),
    ("v", .call "vector" (.cons (.const 5) (.cons (.const 6) .nil)))]
  result := some (.bin .div (.bin .mul (.bin .add (.var "A") (.bin .mul (.var "I") (.var "x"))) (.var "v")) (.var "x"))

/-- The hypotheses of `C53_pointwise_partial` hold of it, and so `[22, 45, 16, 25]` is computed — the values
`(22, 45)` at the first point and `(16, 25)` at the second. -/
example : (∀ p, p < 2 → ∃ ρ', runAt intOps 2 ⟨false, false, false, false⟩ (functionAt intOps 2) (planeVars p)
      planeProgram = some ((if p = 0 then .num .vector [22, 45] else .num .vector [16, 25]), ρ')) ∧
    (directRun Sched.reversed intOps (planeEnv Sched.reversed) planeProgram).bind (fun r => .ok r.1) =
      .ok (.reals [22, 45, 16, 25]) := by
  refine ⟨fun p hp => ?_, by decide +kernel⟩
  rcases (show p = 0 ∨ p = 1 by omega) with rfl | rfl
  · exact ⟨_, rfl⟩
  · exact ⟨_, rfl⟩

/-- The property as it should be: for everything the language is meant to express, and any number of
points. -/
def PointwiseEverywhere : Prop := ∀ (R : Type) (s : Sched) (O : RealOps R), RealLaws O → ∀ (n d : Nat),
  (d = 1 ∨ d = 2 ∨ d = 3) → ∀ (env : ExprEnv R), env.size = n → env.dim = d →
  LiftsAll n d env.funcs (functionAt O d) → ∀ (ρ ρ' : Nat → PEnv R), HoldsVars n d env.vars ρ →
  ∀ (prog : ExprProgram R) (f : Nat → PVal R),
  (∀ p, p < n → runAt O d Admits.all (functionAt O d) (ρ p) prog = some (f p, ρ' p)) →
  ∃ v env', directRun s O env prog = .ok (v, env') ∧ Holds n d v f

/-- The programs used in the refutations. -/
def offDiagonal : ExprProgram Int := ⟨[("A", .call "matrix" (.cons (.const 1) (.cons (.const 2) (.cons (.const 3)
  (.cons (.const 4) .nil)))))], some (.call "A" (.cons (.const 0) (.cons (.const 1) .nil)))⟩
def constantChoice : ExprProgram Int := ⟨[], some (.ternary (.bin .lt (.const 1) (.const 2))
  (.call "vector" (.cons (.const 1) .nil)) (.call "vector" (.cons (.const 2) .nil)))⟩
def computedIndex : ExprProgram Int := ⟨[("v", .call "vector" (.cons (.const 5) (.cons (.const 6) .nil)))],
  some (.call "v" (.cons (.bin .sub (.var "x") (.const 1)) .nil))⟩
def divideByZero : ExprProgram Int := ⟨[], some (.bin .div (.var "x") (.const 0))⟩
def choosePoint : ExprProgram Int := ⟨[], some (.ternary (.bin .gt (.var "x") (.const 0)) (.const 1) (.const 2))⟩

/-- Components off the diagonal are wrong: `A(0,1)` of the matrix `(1 2; 3 4)` is 2, but 1 is computed, because
the second index is read from the first argument. -/
theorem C53_component_refuted : ¬ PointwiseEverywhere := by
  intro h
  obtain ⟨v, env', h1, h2⟩ := h Int Sched.serial intOps intLaws 2 2 (by omega) (planeEnv Sched.serial) rfl rfl
    (C53_builtins _ _ (by omega) (by omega)) planeVars
    (fun p => ((runAt intOps 2 Admits.all (functionAt intOps 2) (planeVars p) offDiagonal).map Prod.snd).getD (fun _ => none))
    (plane_holds _) offDiagonal (fun _ => .num .scalar [2]) (by
      intro p hp
      rcases (show p = 0 ∨ p = 1 by omega) with rfl | rfl <;> rfl)
  have e : (directRun Sched.serial intOps (planeEnv Sched.serial) offDiagonal).bind (fun r => .ok r.1) =
    .ok (.real 1) := by decide +kernel
  rw [h1] at e
  have e : Res.ok v = .ok (.real 1) := e
  cases e
  have := h2 0 (by omega)
  simp at this

/-- A constant condition with vectors as branches aborts. -/
theorem C53_choice_refuted :
    (∀ p, p < 2 → (runAt intOps 2 Admits.all (functionAt intOps 2) (planeVars p) constantChoice).map Prod.fst =
      some (.num .vector [1, 1])) ∧
    directRun Sched.serial intOps (planeEnv Sched.serial) constantChoice = .fail :=
  ⟨fun _ _ => rfl, rfl⟩

/-- An index that varies from point to point aborts. -/
theorem C53_index_refuted :
    (∀ p, p < 2 → (runAt intOps 2 Admits.all (functionAt intOps 2) (planeVars p) computedIndex).map Prod.fst =
      some (.num .scalar [if p = 0 then 5 else 6])) ∧
    directRun Sched.serial intOps (planeEnv Sched.serial) computedIndex = .fail := by
  refine ⟨fun p hp => ?_, rfl⟩
  rcases (show p = 0 ∨ p = 1 by omega) with rfl | rfl <;> rfl

/-- Dividing an array by zero aborts, where a constant divided by zero gives what the arithmetic gives. -/
theorem C53_division_refuted :
    (∀ p, p < 2 → (runAt intOps 2 Admits.all (functionAt intOps 2) (planeVars p) divideByZero).map Prod.fst =
      some (.num .scalar [0])) ∧
    directRun Sched.serial intOps (planeEnv Sched.serial) divideByZero = .fail ∧
    (directRun Sched.serial intOps (planeEnv Sched.serial) ⟨[], some (.bin .div (.const 1) (.const 0))⟩).bind
      (fun r => .ok r.1) = .ok (.real 0) := by
  refine ⟨fun p hp => ?_, rfl, rfl⟩
  rcases (show p = 0 ∨ p = 1 by omega) with rfl | rfl <;> rfl

/-- On a rank without points the choice of a value per point aborts: there 0 is to be divided by 0. -/
theorem C53_no_points_refuted (s : Sched) :
    directRun s intOps ((ExprEnv.init s intOps 0 2).set "x" (.reals [])) choosePoint = .fail := by
  have e1 : zipArrays s (fun x y : Int => b2i (intOps.gt x y)) [] [] = .ok [] := by
    unfold zipArrays
    rw [if_pos rfl, zipEach_eq s _ (fun x y : Int => b2i (intOps.gt x y)) [] [] rfl (fun _ _ _ _ _ => rfl)]
    rfl
  have e2 : exprBin s intOps 0 2 .gt (.reals []) (.real 0) = .ok (.bytes []) := by
    show ((zipArrays s (fun x y : Int => b2i (intOps.gt x y)) [] []).bind (fun l => .ok (.bytes l)) : Res (EVal Int)) = _
    rw [e1]
    rfl
  have e3 : directEval s intOps ((ExprEnv.init s intOps 0 2).set "x" (.reals []))
      (.bin .gt (.var "x") (.const 0)) = .ok (.bytes []) := e2
  have e4 : directEval s intOps ((ExprEnv.init s intOps 0 2).set "x" (.reals []))
      (.ternary (.bin .gt (.var "x") (.const 0)) (.const 1) (.const 2)) = .fail := by
    rw [directEval, e3]
    rfl
  show ((directEval s intOps ((ExprEnv.init s intOps 0 2).set "x" (.reals []))
      (.ternary (.bin .gt (.var "x") (.const 0)) (.const 1) (.const 2))).bind _) = _
  rw [e4]
  rfl

/-- `matrix(0)` is an array of zero matrices, in every arithmetic. -/
theorem C53_zero_matrix {R : Type} (s : Sched) (O : RealOps R) {n d : Nat} (x : R) (hx : O.eq x O.zero = true) :
    ∃ v, makeMatrix s O n d [.real x] = .ok v ∧
      Holds n d v (fun _ => .num .matrix (List.replicate (d * d) O.zero)) := by
  refine ⟨.reals (List.replicate (n * d * d) O.zero), by unfold makeMatrix; rw [if_pos (by exact hx)],
    .matrix, by simp [Shape.ncomps, Nat.mul_assoc], ?_⟩
  intro p hp
  simp only [Shape.ncomps]
  congr 1
  unfold row
  rw [List.drop_replicate, List.take_replicate]
  congr 1
  have : (p + 1) * (d * d) ≤ n * (d * d) := Nat.mul_le_mul_right _ hp
  rw [Nat.add_mul] at this
  rw [Nat.mul_assoc]
  omega

end OmegaH
