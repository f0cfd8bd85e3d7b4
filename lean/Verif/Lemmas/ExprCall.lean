import Verif.Lemmas.ExprMul

/-! # Lemmas about the evaluation of expressions: choices, components and functions -/

namespace OmegaH

open Spec

section
variable {R : Type} (s : Sched) (O : RealOps R) {n d : Nat}

theorem ofOption_some {α : Type} (a : α) : Res.ofOption (some a) = .ok a := rfl
theorem orFail_some {α : Type} (a : α) : Res.orFail (some a) = .ok a := rfl
theorem ofNat_nonneg (i : Nat) : 0 ≤ Int.ofNat i := Int.natCast_nonneg i

/-! ## Choices -/

theorem chooseAt_some {A : Admits} {x y z w : PVal R} (h : chooseAt A z x y = some w) :
    ∃ c sh a b, z = .bool c ∧ x = .num sh a ∧ y = .num sh b ∧ w = (if c then x else y) ∧
      (A.anyBranch = true ∨ sh = .scalar) := by
  unfold chooseAt at h
  split at h
  · split at h
    · rename_i hc
      obtain ⟨rfl, hA⟩ := hc
      cases h
      exact ⟨_, _, _, _, rfl, rfl, rfl, rfl, hA⟩
    · cases h
  · cases h

theorem choose_spec (hd : SmallDim d) (hn : 0 < n) {A : Admits} {env : ExprEnv R} (hs : env.size = n)
    (hdim : env.dim = d) {c a b : EVal R} {k f g h : Nat → PVal R} (hc : Holds n d c k)
    (ha : Holds n d a f) (hb : Holds n d b g)
    (hh : ∀ p, p < n → chooseAt A (k p) (f p) (g p) = some (h p)) :
    (∀ v, exprChoose s env c a b = .ok v → Holds n d v h) ∧
    (A.anyBranch = false → ∃ v, exprChoose s env c a b = .ok v) := by
  obtain ⟨a', b', hp, ha', hb', hm⟩ := promoteTwo_spec s hd ha hb
  have e : exprChoose s env c a b = exprTernary s n d c a' b' := by
    unfold exprChoose
    rw [hs, hdim, hp]
    rfl
  rw [e]
  clear e hp ha hb
  obtain ⟨c0, sh, x0, y0, hk0, hx0, hy0, _, hA⟩ := chooseAt_some (hh 0 hn)
  have hval : ∀ p, p < n → ∀ cc, k p = .bool cc → h p = if cc then f p else g p := by
    intro p hp cc hcc
    obtain ⟨c1, _, _, _, e1, _, _, e4, _⟩ := chooseAt_some (hh p hp)
    rw [hcc] at e1
    cases e1
    exact e4
  cases c with
  | empty => exact hc.elim
  | real r => have := hc 0 hn; rw [hk0] at this; cases this
  | vec v => have := hc.2 0 hn; rw [hk0] at this; cases this
  | mat m => obtain ⟨_, _, c, _, _, q⟩ := hc; have := q 0 hn; rw [hk0] at this; cases this
  | reals l => obtain ⟨sh, _, q⟩ := hc; have := q 0 hn; rw [hk0] at this; cases this
  | bool cc =>
    rcases holds_num hd hn ha' hx0 with ⟨r, rfl, rfl, k1⟩ | ⟨v, rfl, rfl, lv, k1⟩ | ⟨m, c, rfl, rfl, hc, k1⟩ | ⟨l, rfl, k1⟩
    · rcases holds_scalar (x0 := (match y0 with | [y] => y | _ => r)) hn hb' (by
        rcases holds_num hd hn hb' hy0 with ⟨r', _, rfl, k2⟩ | ⟨v', e, _⟩ | ⟨m', c', e, _⟩ | ⟨l', rfl, k2⟩
        · rw [k2 0 hn] at hy0; cases hy0; exact k2 0 hn
        · cases e
        · cases e
        · exact hm.elim) with ⟨r', rfl, k2⟩ | ⟨l', rfl, k2⟩
      · cases cc
        · refine ⟨fun v hv => ?_, fun _ => ⟨_, rfl⟩⟩
          cases hv
          exact fun p hp => by rw [hval p hp _ (hc p hp)]; exact k2 p hp
        · refine ⟨fun v hv => ?_, fun _ => ⟨_, rfl⟩⟩
          cases hv
          exact fun p hp => by rw [hval p hp _ (hc p hp)]; exact k1 p hp
      · exact hm.elim
    · refine ⟨(fun v hv => by cases hv), fun e => ?_⟩
      rcases hA with hA | hA
      · rw [e] at hA; cases hA
      · cases hA
    · refine ⟨(fun v hv => by cases hv), fun e => ?_⟩
      rcases hA with hA | hA
      · rw [e] at hA; cases hA
      · cases hA
    · rcases holds_num hd hn hb' hy0 with ⟨r', e, rfl, k2⟩ | ⟨v', e, rfl, lv', k2⟩ | ⟨m', c', e, rfl, hc', k2⟩ | ⟨l', rfl, k2⟩
      · exact hm.elim
      · exact hm.elim
      · exact hm.elim
      · cases cc
        · refine ⟨fun v hv => ?_, fun _ => ⟨_, rfl⟩⟩
          cases hv
          exact ⟨sh, k2.1, fun p hp => by rw [hval p hp _ (hc p hp)]; exact k2.2 p hp⟩
        · refine ⟨fun v hv => ?_, fun _ => ⟨_, rfl⟩⟩
          cases hv
          exact ⟨sh, k1.1, fun p hp => by rw [hval p hp _ (hc p hp)]; exact k1.2 p hp⟩
  | bytes l =>
    obtain ⟨hl, hc⟩ := hc
    obtain ⟨la, p1, h1⟩ := promoteOne_num s hd ha' hn hx0
    obtain ⟨lb, p2, h2⟩ := promoteOne_num s hd hb' hn hy0
    obtain ⟨o, o1, o2, o3⟩ := C43_ternary_each s l la lb (sh.ncomps d) (by rintro rfl; simp at hl; omega)
      (by rw [h1.1, hl]) (by rw [h1.1, h2.1])
    have e : exprTernary s n d (.bytes l) a' b' = .ok (.reals o) := by
      simp only [exprTernary, p1, p2, Res.bind_ok, EVal.toReals, o1, Res.orFail]
    refine ⟨fun v hv => ?_, fun _ => ⟨_, e⟩⟩
    rw [e] at hv
    cases hv
    refine ⟨sh, by rw [o2, h1.1], fun p hp => ?_⟩
    obtain ⟨q, q1, q2⟩ := hc p hp
    rw [hval p hp _ q2]
    by_cases hq : q ≠ 0
    · rw [if_pos (by simpa using hq), h1.2 p hp]
      congr 1
      apply row_ext
      intro j hj
      unfold entry
      rw [o3 p j q hj q1, if_pos hq]
    · rw [if_neg (by simpa using hq), h2.2 p hp]
      congr 1
      apply row_ext
      intro j hj
      unfold entry
      rw [o3 p j q hj q1, if_neg hq]

/-! ## Components -/

theorem holdsAll_one {args : List (EVal R)} {f : Nat → PVal R} (h : HoldsAll n d args [f]) :
    ∃ x, args = [x] ∧ Holds n d x f := by
  match args, h with
  | [x], h => exact ⟨x, rfl, h.1⟩

theorem holdsAll_two {args : List (EVal R)} {f g : Nat → PVal R} (h : HoldsAll n d args [f, g]) :
    ∃ x y, args = [x, y] ∧ Holds n d x f ∧ Holds n d y g := by
  match args, h with
  | [x, y], h => exact ⟨x, y, rfl, h.1, h.2.1⟩

theorem accessAt_some {A : Admits} (hA : A.offDiag = false) {v z : PVal R} {args : List (PVal R)}
    (h : accessAt O d A v args = some z) :
    (∃ a x i r, v = .num .vector a ∧ args = [.num .scalar [x]] ∧ O.toInt x = some (.ofNat i) ∧
      a[i]? = some r ∧ z = .num .scalar [r]) ∨
    (∃ a x y i r, v = .num .matrix a ∧ args = [.num .scalar [x], .num .scalar [y]] ∧
      O.toInt x = some (.ofNat i) ∧ i < d ∧ a[i * d + i]? = some r ∧ z = .num .scalar [r]) := by
  unfold accessAt at h
  split at h
  · rename_i a x
    split at h
    · rename_i i hi
      obtain ⟨r, hr, rfl⟩ := Option.map_eq_some_iff.1 h
      exact Or.inl ⟨a, x, i, r, rfl, rfl, hi, hr, rfl⟩
    · cases h
  · rename_i a x y
    split at h
    · rename_i i j hi hj
      split at h
      · rename_i hc
        rw [hA] at hc
        obtain ⟨h1, h2, h3⟩ := hc
        obtain rfl : i = j := by simpa using h3
        obtain ⟨r, hr, rfl⟩ := Option.map_eq_some_iff.1 h
        exact Or.inr ⟨a, x, y, i, r, rfl, rfl, hi, h1, hr, rfl⟩
      · cases h
    · cases h
  · cases h

theorem componentAt_spec {a : List R} {w i : Nat} (ha : a.length = n * w) (hi : i < w) :
    ∃ c, componentAt s a w (.ofNat i) = .ok c ∧ c.length = n ∧ ∀ p, p < n → c[p]? = (row a w p)[i]? := by
  obtain ⟨c, c1, c2, c3⟩ := C43_get_component s a n w i hi ha
  refine ⟨c, ?_, c2, fun p hp => by rw [c3 p hp, row_get a p hi]⟩
  unfold componentAt
  rw [if_pos (ofNat_nonneg i)]
  show Res.ofOption (getComponent s a w i) = _
  rw [c1]; rfl

theorem access_spec (hd : SmallDim d) (hn : 0 < n) {A : Admits} (hA : A.offDiag = false) {var : EVal R}
    {args : List (EVal R)} {f h : Nat → PVal R} {fs : List (Nat → PVal R)} (hv : Holds n d var f)
    (ha : HoldsAll n d args fs)
    (hh : ∀ p, p < n → accessAt O d A (f p) (fs.map (fun f => f p)) = some (h p)) :
    (∀ v, exprAccess s O n d var args = .ok v → Holds n d v h) ∧
    ((∀ a ∈ args, EVal.isReal a = true) → ∃ v, exprAccess s O n d var args = .ok v) := by
  have td := templateDim_eq hd
  have dpos : 0 < d := by rcases hd with rfl | rfl | rfl <;> omega
  rcases accessAt_some O hA (hh 0 hn) with ⟨a0, x0, i, r0, f0, fs0, hi, ha0, _⟩ | ⟨a0, x0, y0, i, r0, f0, fs0, hi, hid, ha0, _⟩
  · -- a vector
    obtain ⟨g, rfl⟩ : ∃ g, fs = [g] := list1 (by simpa using congrArg List.length fs0)
    obtain ⟨x, rfl, hx⟩ := holdsAll_one ha
    have g0 : g 0 = .num .scalar [x0] := by simpa using fs0
    rcases holds_scalar hn hx g0 with ⟨r, rfl, k⟩ | ⟨l, rfl, _⟩
    · obtain rfl : r = x0 := by have := k 0 hn; rw [g0] at this; cases this; rfl
      have hval : ∀ p, p < n → ∃ a q, f p = .num .vector a ∧ a[i]? = some q ∧ h p = .num .scalar [q] := by
        intro p hp
        rcases accessAt_some O hA (hh p hp) with ⟨a1, x1, i1, r1, e1, e2, e3, e4, e5⟩ | ⟨a1, x1, y1, i1, r1, e1, e2, _⟩
        · simp only [List.map_cons, List.map_nil, k p hp, List.cons.injEq, PVal.num.injEq, true_and, and_true] at e2
          cases e2
          rw [hi] at e3
          cases e3
          exact ⟨a1, r1, e1, e4, e5⟩
        · simp at e2
      have hlen : i < d := by
        rcases holds_num hd hn hv f0 with ⟨_, e, _⟩ | ⟨v, _, rfl, lv, k1⟩ | ⟨_, _, e, _⟩ | ⟨l, rfl, k1⟩
        · cases e
        · have := k1 0 hn; rw [f0] at this; cases this
          have := (List.getElem?_eq_some_iff.1 ha0).1; omega
        · cases e
        · have := k1.2 0 hn; rw [f0] at this; cases this
          have h1 := (List.getElem?_eq_some_iff.1 ha0).1
          rw [k1.row_len hn] at h1; exact h1
      have e : ∃ v, exprAccess s O n d var [.real r] = .ok v ∧ Holds n d v h := by
        rcases holds_num hd hn hv f0 with ⟨_, e, _⟩ | ⟨v, _, rfl, lv, k1⟩ | ⟨_, _, e, _⟩ | ⟨l, rfl, k1⟩
        · cases e
        · obtain ⟨a, q, e1, e2, e3⟩ := hval 0 hn
          rw [k1 0 hn] at e1; cases e1
          refine ⟨.real q, ?_, fun p hp => ?_⟩
          · simp only [exprAccess, List.getElem?_cons_zero, orFail_some, Res.bind_ok, EVal.toReal, hi,
              ofOption_some, td]
            rw [if_pos lv, if_pos (ofNat_nonneg i)]
            show (Res.ofOption v[i]?).bind _ = _
            rw [e2]; rfl
          · obtain ⟨a', q', e1', e2', e3'⟩ := hval p hp
            rw [k1 p hp] at e1'; cases e1'
            rw [e2] at e2'; cases e2'
            exact e3'
        · cases e
        · obtain ⟨c, c1, c2, c3⟩ := componentAt_spec s (n := n) (a := l) (w := d) (i := i) k1.1 hlen
          refine ⟨.reals c, ?_, (arrHolds_scalar c2 (fun p hp => ?_)).holds⟩
          · simp only [exprAccess, List.getElem?_cons_zero, orFail_some, Res.bind_ok, EVal.toReal, hi,
              ofOption_some, td]
            have hl : l.length = n * d := k1.1
            rw [if_pos hl, c1]
            rfl
          · obtain ⟨a', q', e1', e2', e3'⟩ := hval p hp
            rw [k1.2 p hp] at e1'; cases e1'
            exact ⟨q', by rw [c3 p hp]; exact e2', e3'⟩
      obtain ⟨v, e1, e2⟩ := e
      exact ⟨fun w hw => by rw [e1] at hw; cases hw; exact e2, fun _ => ⟨v, e1⟩⟩
    · refine ⟨(fun v hv => by simp [exprAccess, Res.orFail, EVal.toReal] at hv), fun hr => ?_⟩
      have := hr (.reals l) (by simp)
      cases this
  · -- a matrix
    obtain ⟨g, g', rfl⟩ : ∃ g g', fs = [g, g'] := list2 (by simpa using congrArg List.length fs0)
    obtain ⟨x, y, rfl, hx, hy⟩ := holdsAll_two ha
    have g0 : g 0 = .num .scalar [x0] := by simp at fs0; exact fs0.1
    rcases holds_scalar hn hx g0 with ⟨r, rfl, k⟩ | ⟨l, rfl, _⟩
    · obtain rfl : r = x0 := by have := k 0 hn; rw [g0] at this; cases this; rfl
      have hval : ∀ p, p < n → ∃ a q, f p = .num .matrix a ∧ a[i * d + i]? = some q ∧ h p = .num .scalar [q] := by
        intro p hp
        rcases accessAt_some O hA (hh p hp) with ⟨a1, x1, i1, r1, e1, e2, _⟩ | ⟨a1, x1, y1, i1, r1, e1, e2, e3, _, e4, e5⟩
        · simp at e2
        · simp only [List.map_cons, List.map_nil, k p hp, List.cons.injEq, PVal.num.injEq, true_and, and_true] at e2
          obtain ⟨e2, _⟩ := e2
          cases e2
          rw [hi] at e3
          cases e3
          exact ⟨a1, r1, e1, e4, e5⟩
      have e : ∃ v, exprAccess s O n d var [.real r, y] = .ok v ∧ Holds n d v h := by
        rcases holds_num hd hn hv f0 with ⟨_, e, _⟩ | ⟨_, e, _⟩ | ⟨m, c, _, rfl, hc, k1⟩ | ⟨l, rfl, k1⟩
        · cases e
        · cases e
        · obtain ⟨a, q, e1, e2, e3⟩ := hval 0 hn
          rw [k1 0 hn] at e1; cases e1
          refine ⟨.real q, ?_, fun p hp => ?_⟩
          · simp only [exprAccess, List.getElem?_cons_zero, orFail_some, Res.bind_ok, EVal.toReal, hi,
              ofOption_some, td]
            rw [if_pos hc.isMat, if_pos (show [EVal.real r, y].length > 1 by simp),
              if_pos ⟨ofNat_nonneg i, ofNat_nonneg i⟩]
            show (Res.ofOption (matEntry m i i)).bind _ = _
            rw [← isMatrix_entry hd hc hid hid, e2]; rfl
          · obtain ⟨a', q', e1', e2', e3'⟩ := hval p hp
            rw [k1 p hp] at e1'; cases e1'
            rw [e2] at e2'; cases e2'
            exact e3'
        · have hl : l.length = n * (d * d) := k1.1
          have hij : i * d + i < d * d := by
            have : (i + 1) * d ≤ d * d := Nat.mul_le_mul_right d hid
            rw [Nat.add_mul] at this; omega
          have fin : ∀ c : List R, c.length = n → (∀ p, p < n → c[p]? = (row l (d * d) p)[i * d + i]?) →
              Holds n d (.reals c) h := by
            intro c c2 c3
            refine (arrHolds_scalar c2 (fun p hp => ?_)).holds
            obtain ⟨a', q', e1', e2', e3'⟩ := hval p hp
            rw [k1.2 p hp] at e1'; cases e1'
            exact ⟨q', by rw [c3 p hp]; exact e2', e3'⟩
          by_cases d1 : d = 1
          · subst d1
            obtain rfl : i = 0 := by omega
            obtain ⟨c, c1, c2, c3⟩ := componentAt_spec s (n := n) (a := l) (w := 1) (i := 0) (by omega) (by omega)
            refine ⟨.reals c, ?_, fin c c2 c3⟩
            simp only [exprAccess, List.getElem?_cons_zero, orFail_some, Res.bind_ok, EVal.toReal, hi,
              ofOption_some, td]
            rw [if_pos (by omega), c1]
            rfl
          · obtain ⟨c, c1, c2, c3⟩ := componentAt_spec s hl hij
            refine ⟨.reals c, ?_, fin c c2 c3⟩
            have d2 : d * d ≠ d := by rcases hd with rfl | rfl | rfl <;> omega
            have nd3 : n * (d * d) ≠ n * d := fun h => d2 (Nat.eq_of_mul_eq_mul_left hn h)
            simp only [exprAccess, List.getElem?_cons_zero, orFail_some, Res.bind_ok, EVal.toReal, hi,
              ofOption_some, td]
            rw [if_neg (by omega), if_pos hl, if_pos (show [EVal.real r, y].length > 1 by simp),
              show (Int.ofNat i * (d : Int) + Int.ofNat i) = Int.ofNat (i * d + i) by simp, c1]
            rfl
      obtain ⟨v, e1, e2⟩ := e
      exact ⟨fun w hw => by rw [e1] at hw; cases hw; exact e2, fun _ => ⟨v, e1⟩⟩
    · refine ⟨(fun v hv => by simp [exprAccess, Res.orFail, EVal.toReal] at hv), fun hr => ?_⟩
      have := hr (.reals l) (by simp)
      cases this

/-! ## Functions -/

theorem unary_lifts (hn : 0 < n) (F : R → R) : Lifts n d (evalUnary s n F) (fun args =>
    match args with
    | [.num .scalar [x]] => some (.num .scalar [F x])
    | _ => none) := by
  intro args fs h ha hh
  have inv : ∀ p, p < n → ∃ x, fs.map (fun f => f p) = [.num .scalar [x]] ∧ h p = .num .scalar [F x] := by
    intro p hp
    have := hh p hp
    dsimp only at this
    split at this
    · rename_i x hx
      exact ⟨x, hx, (Option.some.inj this).symm⟩
    · cases this
  obtain ⟨x0, e0, _⟩ := inv 0 hn
  obtain ⟨g, rfl⟩ : ∃ g, fs = [g] := list1 (by simpa using congrArg List.length e0)
  obtain ⟨x, rfl, hx⟩ := holdsAll_one ha
  rcases holds_scalar hn hx (show g 0 = .num .scalar [x0] by simpa using e0) with ⟨r, rfl, k⟩ | ⟨l, rfl, k⟩
  · refine ⟨_, rfl, fun p hp => ?_⟩
    obtain ⟨x, e1, e2⟩ := inv p hp
    simp only [List.map_cons, List.map_nil, k p hp, List.cons.injEq, PVal.num.injEq, true_and, and_true] at e1
    rw [e2, e1]
  · obtain ⟨hl, k⟩ := k.scalar
    refine ⟨.reals (l.map F), ?_, (arrHolds_scalar (by simp [hl]) (fun p hp => ?_)).holds⟩
    · simp only [evalUnary]
      rw [if_pos hl, mapEach_eq s _ F l (fun _ _ => rfl)]
      rfl
    · obtain ⟨y, e3, e4⟩ := k p hp
      obtain ⟨x, e1, e2⟩ := inv p hp
      simp only [List.map_cons, List.map_nil, e4, List.cons.injEq, PVal.num.injEq, true_and, and_true] at e1
      exact ⟨F y, by simp [e3], by rw [e2, e1]⟩

theorem scalarsOf_cons {v : PVal R} {l : List (PVal R)} {xs : List R} (h : scalarsOf (v :: l) = some xs) :
    ∃ x xs', v = .num .scalar [x] ∧ scalarsOf l = some xs' ∧ xs = x :: xs' := by
  unfold scalarsOf at h
  split at h
  · rename_i e; cases e
  · rename_i x l' e
    cases e
    obtain ⟨xs', h1, rfl⟩ := Option.map_eq_some_iff.1 h
    exact ⟨x, xs', rfl, h1, rfl⟩
  · cases h

/-- Scalar arguments, as arrays, and as numbers if none of them is an array. -/
theorem scalar_args (hd : SmallDim d) (hn : 0 < n) : ∀ (args : List (EVal R)) (fs : List (Nat → PVal R))
    (xs : Nat → List R), HoldsAll n d args fs →
    (∀ p, p < n → scalarsOf (fs.map (fun f => f p)) = some (xs p)) →
    (∀ p, p < n → (xs p).length = args.length) ∧
    (∃ arrays, argArrays s n d args = .ok arrays ∧ arrays.length = args.length ∧
      (∀ a ∈ arrays, a.length = n) ∧ ∀ p, p < n → ∀ k : Nat, (xs p)[k]? = (arrays[k]?).bind (fun a => a[p]?)) ∧
    (args.any EVal.isReals = false → ∃ vals, mapRes EVal.toReal args = .ok vals ∧
      ∀ p, p < n → xs p = vals)
  | [], fs, xs, ha, hx => by
    match fs, ha with
    | [], _ =>
      have e : ∀ p, p < n → xs p = [] := fun p hp => (Option.some.inj (hx p hp)).symm
      exact ⟨fun p hp => by rw [e p hp]; rfl, ⟨[], rfl, rfl, by simp, fun p hp k => by rw [e p hp]; simp⟩,
        fun _ => ⟨[], rfl, e⟩⟩
  | a :: args, fs, xs, ha, hx => by
    match fs, ha with
    | f :: fs, ha =>
      obtain ⟨h1, h2⟩ := ha
      have hx' : ∀ p, p < n → ∃ x xs', f p = .num .scalar [x] ∧ scalarsOf (fs.map (fun f => f p)) = some xs' ∧
          xs p = x :: xs' := fun p hp => scalarsOf_cons (hx p hp)
      obtain ⟨i1, ⟨arrays, i2, i3, i4, i5⟩, i6⟩ := scalar_args hd hn args fs (fun p => (xs p).tail) h2 (by
        intro p hp
        obtain ⟨x, xs', e1, e2, e3⟩ := hx' p hp
        rw [e2, e3]; rfl)
      obtain ⟨x0, xs0, e0, _, _⟩ := hx' 0 hn
      obtain ⟨l, p1, p2⟩ := promoteOne_num s hd h1 hn e0
      obtain ⟨l1, l2⟩ := p2.scalar
      refine ⟨fun p hp => ?_, ⟨l :: arrays, ?_, by simp [i3], ?_, ?_⟩, ?_⟩
      · obtain ⟨x, xs', e1, e2, e3⟩ := hx' p hp
        have := i1 p hp
        rw [e3] at this ⊢
        simpa using this
      · have i2' : mapRes (fun a => (promoteOne s n d a).bind EVal.toReals) args = .ok arrays := i2
        simp only [argArrays, mapRes, p1, Res.bind_ok, EVal.toReals, i2']
      · intro b hb
        rcases List.mem_cons.1 hb with rfl | hb
        · exact l1
        · exact i4 b hb
      · intro p hp k
        obtain ⟨x, xs', e1, e2, e3⟩ := hx' p hp
        cases k with
        | zero =>
          obtain ⟨y, g1, g2⟩ := l2 p hp
          rw [e1] at g2
          cases g2
          rw [e3]
          simp [g1]
        | succ k =>
          have := i5 p hp k
          rw [e3] at this ⊢
          simpa using this
      · intro hany
        simp only [List.any_cons, Bool.or_eq_false_iff] at hany
        rcases holds_scalar hn h1 e0 with ⟨r, rfl, k⟩ | ⟨l, rfl, k⟩
        · obtain ⟨vals, v1, v2⟩ := i6 hany.2
          refine ⟨r :: vals, by simp only [mapRes, EVal.toReal, Res.bind_ok, v1], fun p hp => ?_⟩
          obtain ⟨x, xs', e1, e2, e3⟩ := hx' p hp
          have := v2 p hp
          rw [k p hp] at e1
          cases e1
          rw [e3] at this ⊢
          rw [← this]; rfl
        · have := hany.1
          cases this

theorem extendLast_eq {α : Type} {l : List α} {x : α} (h : l.getLast? = some x) (m : Nat) :
    extendLast m l = some (l ++ List.replicate (m - l.length) x) := by
  unfold extendLast
  split
  · rw [h]; rfl
  · rw [show m - l.length = 0 by omega]; simp

/-- Interleaved arrays hold the rows. -/
theorem interleave_rows {arrays : List (List R)} {w : Nat} (hw : arrays.length = w) (h0 : 0 < w)
    (hn : ∀ a ∈ arrays, a.length = n) {xs : Nat → List R} (hl : ∀ p, p < n → (xs p).length = w)
    (hx : ∀ p, p < n → ∀ k, k < w → (xs p)[k]? = (arrays[k]?).bind (fun a => a[p]?)) :
    ∃ l, interleave s arrays = some l ∧ l.length = n * w ∧ ∀ p, p < n → row l w p = xs p := by
  obtain ⟨l, h1, h2, h3⟩ := C43_interleave s arrays n (by rintro rfl; simp at hw; omega) hn
  rw [hw] at h2 h3
  refine ⟨l, h1, h2, fun p hp => ?_⟩
  apply List.ext_getElem?
  intro k
  by_cases hk : k < w
  · have ha := List.getElem?_eq_getElem (show k < arrays.length by omega)
    rw [row_get l p hk, h3 k p _ ha hp, hx p hp k hk, ha]
    rfl
  · rw [List.getElem?_eq_none (show (xs p).length ≤ k by rw [hl p hp]; omega)]
    unfold row
    rw [List.getElem?_take, if_neg hk]

theorem vector_lifts (hd : SmallDim d) (hn : 0 < n) : Lifts n d (makeVector s n d) (fun args : List (PVal R) =>
    (scalarsOf args).bind (fun xs => match xs.getLast? with
      | some x => if xs.length ≤ d then some (.num .vector (xs ++ List.replicate (d - xs.length) x)) else none
      | none => none)) := by
  intro args fs h ha hh
  have inv : ∀ p, ∃ y : List R × R, p < n → scalarsOf (fs.map (fun f => f p)) = some y.1 ∧
      y.1.getLast? = some y.2 ∧ y.1.length ≤ d ∧
      h p = .num .vector (y.1 ++ List.replicate (d - y.1.length) y.2) := by
    intro p
    by_cases hp : p < n
    · obtain ⟨xs, e1, e2⟩ := Option.bind_eq_some_iff.1 (hh p hp)
      cases hl : xs.getLast? with
      | none => rw [hl] at e2; cases e2
      | some x =>
        rw [hl] at e2
        dsimp only at e2
        split at e2
        · exact ⟨(xs, x), fun _ => ⟨e1, hl, by assumption, (Option.some.inj e2).symm⟩⟩
        · cases e2
    · by_cases h0 : 0 < n
      · obtain ⟨xs, e1, e2⟩ := Option.bind_eq_some_iff.1 (hh 0 h0)
        cases hl : xs.getLast? with
        | none => rw [hl] at e2; cases e2
        | some x => exact ⟨(xs, x), fun h => absurd h hp⟩
      · omega
  obtain ⟨Y, hY⟩ := Classical.skolem.1 inv
  obtain ⟨i1, ⟨arrays, i2, i3, i4, i5⟩, i6⟩ := scalar_args s hd hn args fs (fun p => (Y p).1) ha
    (fun p hp => (hY p hp).1)
  have td := templateDim_eq hd
  have dpos : 0 < d := by rcases hd with rfl | rfl | rfl <;> omega
  have hlen : args.length ≤ d := by have := i1 0 hn; have := (hY 0 hn).2.2.1; omega
  have hpos : 0 < args.length := by
    have h1 := (hY 0 hn).2.1
    have h2 := i1 0 hn
    rw [← h2]
    apply List.length_pos_iff.2
    intro e
    rw [e] at h1; cases h1
  unfold makeVector
  rw [if_neg (by omega)]
  cases hany : args.any EVal.isReals with
  | true =>
    rw [if_pos rfl, i2, Res.bind_ok]
    have hlast : ∃ a, arrays.getLast? = some a ∧ arrays[arrays.length - 1]? = some a := by
      rw [List.getLast?_eq_getElem?]
      have := List.getElem?_eq_getElem (show arrays.length - 1 < arrays.length by omega)
      exact ⟨_, this, this⟩
    obtain ⟨a, a1, a2⟩ := hlast
    rw [extendLast_eq a1, ofOption_some, Res.bind_ok, if_pos (by simp; omega)]
    obtain ⟨l, l1, l2, l3⟩ := interleave_rows s (n := n)
      (arrays := arrays ++ List.replicate (d - arrays.length) a) (w := d) (by simp; omega) dpos (by
        intro b hb
        rcases List.mem_append.1 hb with hb | hb
        · exact i4 b hb
        · rw [(List.mem_replicate.1 hb).2]; exact i4 a (List.mem_of_getElem? a2))
      (xs := fun p => (Y p).1 ++ List.replicate (d - (Y p).1.length) (Y p).2) (by
        intro p hp
        have := (hY p hp).2.2.1
        simp; omega) (by
        intro p hp k hk
        have e := i1 p hp
        by_cases hk' : k < arrays.length
        · rw [List.getElem?_append_left (by omega), List.getElem?_append_left hk']
          exact i5 p hp k
        · rw [List.getElem?_append_right (by omega), List.getElem?_append_right (by omega),
            List.getElem?_replicate, List.getElem?_replicate, if_pos (by omega), if_pos (by omega)]
          have g := (hY p hp).2.1
          rw [List.getLast?_eq_getElem?, e, ← i3, i5 p hp, a2] at g
          exact g.symm)
    rw [l1, orFail_some]
    refine ⟨.reals l, rfl, .vector, l2, fun p hp => ?_⟩
    simp only [Shape.ncomps]
    rw [l3 p hp]
    exact (hY p hp).2.2.2
  | false =>
    rw [if_neg (by simp), td]
    obtain ⟨vals, v1, v2⟩ := i6 hany
    rw [v1, Res.bind_ok]
    have h0 := hY 0 hn
    have e0 : (Y 0).1 = vals := v2 0 hn
    rw [e0] at h0
    rw [extendLast_eq h0.2.1, ofOption_some, Res.bind_ok]
    refine ⟨_, rfl, by simp; omega, fun p hp => ?_⟩
    have hp' := hY p hp
    have e : (Y p).1 = vals := v2 p hp
    rw [e] at hp'
    rw [hp'.2.2.2]
    have : (Y p).2 = (Y 0).2 := Option.some.inj (hp'.2.1.symm.trans h0.2.1)
    rw [this]

theorem matrix_lifts (hd : SmallDim d) (hn : 0 < n) : Lifts n d (makeMatrix s O n d) (fun args : List (PVal R) =>
    (scalarsOf args).bind (fun xs =>
      if xs.length = d * d ∧ 1 < d then some (.num .matrix xs) else none)) := by
  intro args fs h ha hh
  have inv : ∀ p, ∃ y : List R, p < n → scalarsOf (fs.map (fun f => f p)) = some y ∧
      y.length = d * d ∧ 1 < d ∧ h p = .num .matrix y := by
    intro p
    by_cases hp : p < n
    · obtain ⟨xs, e1, e2⟩ := Option.bind_eq_some_iff.1 (hh p hp)
      split at e2
      · rename_i hc
        exact ⟨xs, fun _ => ⟨e1, hc.1, hc.2, (Option.some.inj e2).symm⟩⟩
      · cases e2
    · exact ⟨[], fun h => absurd h hp⟩
  obtain ⟨Y, hY⟩ := Classical.skolem.1 inv
  obtain ⟨i1, ⟨arrays, i2, i3, i4, i5⟩, i6⟩ := scalar_args s hd hn args fs Y ha (fun p hp => (hY p hp).1)
  have td := templateDim_eq hd
  have hlen : args.length = d * d := by have := i1 0 hn; have := (hY 0 hn).2.1; omega
  have d1 := (hY 0 hn).2.2.1
  have hbig : 4 ≤ d * d := by rcases hd with rfl | rfl | rfl <;> omega
  unfold makeMatrix
  rw [if_neg (by
    split
    · simp at hlen; omega
    · simp), if_neg (by omega)]
  cases hany : args.any EVal.isReals with
  | true =>
    rw [if_pos rfl, i2, Res.bind_ok]
    obtain ⟨l, l1, l2, l3⟩ := interleave_rows s (n := n) (arrays := arrays) (w := d * d) (by omega) (by omega)
      i4 (xs := Y) (fun p hp => (hY p hp).2.1) (fun p hp k _ => i5 p hp k)
    rw [l1, orFail_some]
    refine ⟨.reals l, rfl, .matrix, l2, fun p hp => ?_⟩
    simp only [Shape.ncomps]
    rw [l3 p hp]
    exact (hY p hp).2.2.2
  | false =>
    rw [if_neg (by simp), td, if_neg (by omega)]
    obtain ⟨vals, v1, v2⟩ := i6 hany
    rw [v1, Res.bind_ok]
    obtain ⟨m, hm⟩ := isMatrix_of hd (c := vals) (by rw [← v2 0 hn]; exact (hY 0 hn).2.1)
    rw [hm.2.1, ofOption_some]
    refine ⟨_, rfl, (holds_mat_iff hd).2 ⟨vals, hm, fun p hp => ?_⟩⟩
    rw [(hY p hp).2.2.2, v2 p hp]

theorem symmOrder_eq (hd : SmallDim d) : symmOrder d = symmCells d := by
  rcases hd with rfl | rfl | rfl <;> rfl

theorem symm_lifts (hd : SmallDim d) (hn : 0 < n) : Lifts n d (makeSymm s n d) (fun args : List (PVal R) =>
    match args with
    | [.num .matrix m] => ((symmOrder d).mapM (fun e => m[e.1 * d + e.2]?)).map (fun c => .num .symm c)
    | _ => none) := by
  rw [symmOrder_eq hd]
  intro args fs h ha hh
  have inv : ∀ p, p < n → ∃ m c, fs.map (fun f => f p) = [.num .matrix m] ∧
      (symmCells d).mapM (fun e => m[e.1 * d + e.2]?) = some c ∧ h p = .num .symm c := by
    intro p hp
    have := hh p hp
    dsimp only at this
    split at this
    · rename_i m hm
      obtain ⟨c, c1, c2⟩ := Option.map_eq_some_iff.1 this
      exact ⟨m, c, hm, c1, c2.symm⟩
    · cases this
  obtain ⟨m0, c0, e0, _, _⟩ := inv 0 hn
  obtain ⟨g, rfl⟩ : ∃ g, fs = [g] := list1 (by simpa using congrArg List.length e0)
  obtain ⟨x, rfl, hx⟩ := holdsAll_one ha
  obtain ⟨l, p1, p2⟩ := promoteOne_num s hd hx hn (show g 0 = .num .matrix m0 by simpa using e0)
  have hl : l.length = n * (d * d) := p2.1
  have dpos : 0 < d := by rcases hd with rfl | rfl | rfl <;> omega
  have hX : ∀ p, ∃ y : List (List R) × List R, p < n → IsMatrix d y.1 (row l (d * d) p) ∧
      (symmCells d).mapM (fun e => matEntry y.1 e.1 e.2) = some y.2 ∧
      (symmCells d).mapM (fun e => (row l (d * d) p)[e.1 * d + e.2]?) = some y.2 ∧
      y.2.length = (symmCells d).length := by
    intro p
    by_cases hp : p < n
    · obtain ⟨m, hm⟩ := isMatrix_of hd (row_length hl hp)
      obtain ⟨r, h⟩ := symm_spec hd hm
      exact ⟨(m, r), fun _ => ⟨hm, h⟩⟩
    · exact ⟨([], []), fun h => absurd h hp⟩
  obtain ⟨X, hX⟩ := Classical.skolem.1 hX
  obtain ⟨c, c1, c2, c3⟩ := rowKernel_spec s n (symmCells d).length (fun i => (rowAt l (d * d) i).bind (fun x =>
    (vector2matrix d x).bind (fun m => (symmCells d).mapM (fun e => matEntry m e.1 e.2)))) (fun i => (X i).2) (by
      intro i hi
      obtain ⟨g1, g2, g3, g4⟩ := hX i hi
      rw [rowAt_eq hl hi]
      simp only [Option.bind_some, g1.2.1, g2, g4, and_self])
  refine ⟨.reals c, ?_, .symm, by rw [c2, symmCells_length hd], fun p hp => ?_⟩
  · have e1 : (if x.isReals then Res.ok x else promoteOne s n d x) = .ok (.reals l) := by
      cases x <;> first | exact p1 | skip
      have : promoteOne s n d (.reals ‹_›) = .ok (.reals ‹_›) := if_pos hd
      rw [this] at p1
      exact p1
    simp only [makeSymm, e1, Res.bind_ok, EVal.toReals]
    rw [if_pos (by rw [hl, Nat.mul_assoc])]
    have hd' : d = 1 ∨ d = 2 ∨ d = 3 := hd
    unfold matricesToSymms
    rw [if_pos hd', divide_no_rem (Nat.mul_pos dpos dpos) hl, orFail_some, Res.bind_ok, c1]
    rfl
  · obtain ⟨m, c', e1, e2, e3⟩ := inv p hp
    simp only [List.map_cons, List.map_nil, p2.2 p hp, List.cons.injEq, PVal.num.injEq, true_and, and_true] at e1
    simp only [Shape.ncomps] at e1
    rw [← e1, (hX p hp).2.2.1] at e2
    rw [e3, ← symmCells_length hd, c3 p hp, Option.some.inj e2]

theorem vecNorm_spec (hd : SmallDim d) {v : List R} (hv : v.length = d) {z : PVal R}
    (h : (match [PVal.num .vector v] with
      | [.num .vector [x]] => some (.num .scalar [O.abs x])
      | [.num .vector v] => (dotOf O v v).map (fun x => .num .scalar [O.sqrt x])
      | _ => none) = some z) : ∃ x, vecNorm O v = .ok x ∧ z = .num .scalar [x] := by
  rcases hd with rfl | rfl | rfl
  · obtain ⟨a, rfl⟩ := list1 hv
    exact ⟨_, rfl, (Option.some.inj h).symm⟩
  · obtain ⟨a, b, rfl⟩ := list2 hv
    exact ⟨_, rfl, (Option.some.inj h).symm⟩
  · obtain ⟨a, b, c, rfl⟩ := list3 hv
    exact ⟨_, rfl, (Option.some.inj h).symm⟩

theorem norm_lifts (hd : SmallDim d) (hn : 0 < n) : Lifts n d (evalNorm s O n d) (fun args : List (PVal R) =>
    match args with
    | [.num .vector [x]] => some (.num .scalar [O.abs x])
    | [.num .vector v] => (dotOf O v v).map (fun x => .num .scalar [O.sqrt x])
    | _ => none) := by
  intro args fs h ha hh
  have td := templateDim_eq hd
  obtain ⟨v0, e0⟩ : ∃ v, fs.map (fun f => f 0) = [.num .vector v] := by
    have := hh 0 hn
    dsimp only at this
    split at this
    · exact ⟨_, by assumption⟩
    · exact ⟨_, by assumption⟩
    · cases this
  obtain ⟨g, rfl⟩ : ∃ g, fs = [g] := list1 (by simpa using congrArg List.length e0)
  obtain ⟨x, rfl, hx⟩ := holdsAll_one ha
  rcases holds_num hd hn hx (show g 0 = .num .vector v0 by simpa using e0) with ⟨_, e, _⟩ | ⟨v, _, rfl, lv, k1⟩ | ⟨_, _, e, _⟩ | ⟨l, rfl, k1⟩
  · cases e
  · have h0 := hh 0 hn
    simp only [List.map_cons, List.map_nil, k1 0 hn] at h0
    obtain ⟨x, x1, x2⟩ := vecNorm_spec O hd lv h0
    refine ⟨.real x, by simp only [evalNorm, td, toVec_eq lv, Res.bind_ok, x1], fun p hp => ?_⟩
    have hp' := hh p hp
    simp only [List.map_cons, List.map_nil, k1 p hp] at hp'
    obtain ⟨y, y1, y2⟩ := vecNorm_spec O hd lv hp'
    rw [x1] at y1
    cases y1
    exact y2
  · cases e
  · have hl : l.length = n * d := k1.1
    have hX : ∀ p, ∃ x : R, p < n → vecNorm O (row l d p) = .ok x ∧ h p = .num .scalar [x] := by
      intro p
      by_cases hp : p < n
      · have hp' := hh p hp
        simp only [List.map_cons, List.map_nil, k1.2 p hp] at hp'
        obtain ⟨y, y1, y2⟩ := vecNorm_spec O hd (k1.row_len hp) hp'
        exact ⟨y, fun _ => ⟨y1, y2⟩⟩
      · exact ⟨O.zero, fun h => absurd h hp⟩
    obtain ⟨X, hX⟩ := Classical.skolem.1 hX
    obtain ⟨c, c1, c2, c3⟩ := eachKernel_spec s n (fun i => (rowAt l d i).bind (fun v =>
      (vecNorm O v).value?)) X (by
        intro i hi
        rw [rowAt_eq hl hi]
        simp only [Option.bind_some, (hX i hi).1, Res.value?])
    refine ⟨.reals c, ?_, (arrHolds_scalar c2 (fun p hp => ⟨X p, c3 p hp, (hX p hp).2⟩)).holds⟩
    simp only [evalNorm, td]
    rw [if_pos hl, c1]
    rfl

/-- The functions of the language do at each point what they are meant to do. -/
theorem builtins_lift (hd : SmallDim d) (hn : 0 < n) :
    LiftsAll n d (builtinFn s O n d) (functionAt O d) := by
  intro name
  unfold builtinFn functionAt
  dsimp only
  by_cases h1 : name = "exp"
  · rw [if_pos h1, if_pos h1]; exact ⟨_, rfl, unary_lifts s hn _⟩
  rw [if_neg h1, if_neg h1]
  by_cases h2 : name = "sqrt"
  · rw [if_pos h2, if_pos h2]; exact ⟨_, rfl, unary_lifts s hn _⟩
  rw [if_neg h2, if_neg h2]
  by_cases h3 : name = "sin"
  · rw [if_pos h3, if_pos h3]; exact ⟨_, rfl, unary_lifts s hn _⟩
  rw [if_neg h3, if_neg h3]
  by_cases h4 : name = "cos"
  · rw [if_pos h4, if_pos h4]; exact ⟨_, rfl, unary_lifts s hn _⟩
  rw [if_neg h4, if_neg h4]
  by_cases h5 : name = "erf"
  · rw [if_pos h5, if_pos h5]; exact ⟨_, rfl, unary_lifts s hn _⟩
  rw [if_neg h5, if_neg h5]
  by_cases h6 : name = "vector"
  · rw [if_pos h6, if_pos h6]; exact ⟨_, rfl, vector_lifts s hd hn⟩
  rw [if_neg h6, if_neg h6]
  by_cases h7 : name = "symm"
  · rw [if_pos h7, if_pos h7]; exact ⟨_, rfl, symm_lifts s hd hn⟩
  rw [if_neg h7, if_neg h7]
  by_cases h8 : name = "matrix"
  · rw [if_pos h8, if_pos (Or.inl h8)]; exact ⟨_, rfl, matrix_lifts s O hd hn⟩
  rw [if_neg h8]
  by_cases h9 : name = "tensor"
  · rw [if_pos h9, if_pos (Or.inr h9)]; exact ⟨_, rfl, matrix_lifts s O hd hn⟩
  rw [if_neg h9, if_neg (show ¬ (name = "matrix" ∨ name = "tensor") from fun h => h.elim h8 h9)]
  by_cases h10 : name = "norm"
  · rw [if_pos h10, if_pos h10]; exact ⟨_, rfl, norm_lifts s O hd hn⟩
  rw [if_neg h10, if_neg h10]

end

end OmegaH
