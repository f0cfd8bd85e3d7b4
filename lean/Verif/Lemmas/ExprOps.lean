import Verif.Lemmas.Expr

/-! # Lemmas about the evaluation of expressions: promotion and operators -/

namespace OmegaH

open Spec

section
variable {R : Type} (s : Sched) (O : RealOps R) {n d : Nat}

/-- An array stands for values of a given kind. -/
def ArrHolds (n d : Nat) (l : List R) (sh : Shape) (f : Nat → PVal R) : Prop :=
  l.length = n * sh.ncomps d ∧ ∀ p, p < n → f p = .num sh (row l (sh.ncomps d) p)

theorem ArrHolds.holds {l : List R} {sh : Shape} {f : Nat → PVal R} (h : ArrHolds n d l sh f) :
    Holds n d (.reals l) f := ⟨sh, h⟩

theorem ArrHolds.row_len {l : List R} {sh : Shape} {f : Nat → PVal R} (h : ArrHolds n d l sh f)
    {p : Nat} (hp : p < n) : (row l (sh.ncomps d) p).length = sh.ncomps d := row_length h.1 hp

/-- An array of scalars. -/
theorem arrHolds_scalar {l : List R} {f : Nat → PVal R} (hl : l.length = n)
    (h : ∀ p, p < n → ∃ x, l[p]? = some x ∧ f p = .num .scalar [x]) : ArrHolds n d l .scalar f := by
  refine ⟨by rw [hl]; simp [Shape.ncomps], fun p hp => ?_⟩
  obtain ⟨x, h1, h2⟩ := h p hp
  rw [h2]
  simp only [Shape.ncomps]
  rw [row_one h1]

theorem ArrHolds.scalar {l : List R} {f : Nat → PVal R} (h : ArrHolds n d l .scalar f) :
    l.length = n ∧ ∀ p, p < n → ∃ x, l[p]? = some x ∧ f p = .num .scalar [x] := by
  have hl : l.length = n := by rw [h.1]; simp [Shape.ncomps]
  refine ⟨hl, fun p hp => ?_⟩
  have hp' : p < l.length := by omega
  refine ⟨l[p], List.getElem?_eq_getElem hp', ?_⟩
  rw [h.2 p hp]
  simp only [Shape.ncomps]
  rw [row_one (List.getElem?_eq_getElem hp')]

theorem holds_mat_iff (hd : SmallDim d) {m : List (List R)} {f : Nat → PVal R} :
    Holds n d (.mat m) f ↔ ∃ c, IsMatrix d m c ∧ ∀ p, p < n → f p = .num .matrix c := by
  constructor
  · rintro ⟨h1, h2, c, h3, h4, h5⟩
    exact ⟨c, isMatrix_of_entries hd h4 h1 h2 h3, h5⟩
  · rintro ⟨c, h, h5⟩
    exact ⟨h.2.2.2.1, h.2.2.2.2, c, fun i j hi hj => isMatrix_entry hd h hi hj, h.1, h5⟩

/-! ## Promotion -/

theorem arr_of_real (r : R) {f : Nat → PVal R} (h : ∀ p, p < n → f p = .num .scalar [r]) :
    ArrHolds n d (List.replicate n r) .scalar f :=
  arrHolds_scalar (by simp) (fun p hp => ⟨r, by simp [hp], h p hp⟩)

theorem arr_of_vec {v : List R} (hv : v.length = d) {f : Nat → PVal R}
    (h : ∀ p, p < n → f p = .num .vector v) :
    ∃ l, repeatVector s n v = .ok l ∧ ArrHolds n d l .vector f := by
  obtain ⟨l, h1, h2, h3⟩ := repeatVector_spec s n v
  rw [hv] at h2 h3
  exact ⟨l, h1, h2, fun p hp => by rw [h p hp]; simp only [Shape.ncomps]; rw [h3 p hp]⟩

theorem arr_of_mat {m : List (List R)} {c : List R} (hm : IsMatrix d m c) {f : Nat → PVal R}
    (h : ∀ p, p < n → f p = .num .matrix c) :
    ∃ l, repeatVector s n c = .ok l ∧ ArrHolds n d l .matrix f := by
  obtain ⟨l, h1, h2, h3⟩ := repeatVector_spec s n c
  rw [hm.1] at h2 h3
  exact ⟨l, h1, h2, fun p hp => by rw [h p hp]; simp only [Shape.ncomps]; rw [h3 p hp]⟩

theorem bytes_of_bool (b : Bool) {f : Nat → PVal R} (h : ∀ p, p < n → f p = .bool b) :
    Holds n d (.bytes (List.replicate n (b2i b))) f :=
  ⟨by simp, fun p hp => ⟨b2i b, by simp [hp], by rw [h p hp]; cases b <;> rfl⟩⟩

/-- A numerical value becomes an array of the same values. -/
theorem promoteOne_num (hd : SmallDim d) {x : EVal R} {f : Nat → PVal R} (h : Holds n d x f) (hn : 0 < n)
    {sh : Shape} {c : List R} (hf : f 0 = .num sh c) :
    ∃ l, promoteOne s n d x = .ok (.reals l) ∧ ArrHolds n d l sh f := by
  have hd' : d = 1 ∨ d = 2 ∨ d = 3 := hd
  unfold promoteOne
  rw [if_pos hd']
  cases x with
  | empty => exact h.elim
  | bool b => have := h 0 hn; rw [hf] at this; cases this
  | bytes l =>
    obtain ⟨_, h⟩ := h
    obtain ⟨k, _, h⟩ := h 0 hn
    rw [hf] at h; cases h
  | real r =>
    have := h 0 hn
    rw [hf] at this
    cases this
    exact ⟨_, rfl, arr_of_real r h⟩
  | vec v =>
    obtain ⟨hv, h⟩ := h
    have := h 0 hn
    rw [hf] at this
    cases this
    obtain ⟨l, h1, h2⟩ := arr_of_vec s hv h
    exact ⟨l, by dsimp only; rw [if_pos (Or.inl hv), h1]; rfl, h2⟩
  | mat m =>
    obtain ⟨c', hc, h⟩ := (holds_mat_iff hd).1 h
    have := h 0 hn
    rw [hf] at this
    cases this
    obtain ⟨l, h1, h2⟩ := arr_of_mat s hc h
    exact ⟨l, by dsimp only; rw [hc.toMat, Res.bind_ok, hc.2.2.1]; show (repeatVector s n c).bind _ = _; rw [h1]; rfl, h2⟩
  | reals l =>
    obtain ⟨sh', h⟩ := h
    have := h.2 0 hn
    rw [hf] at this
    cases this
    exact ⟨l, rfl, h⟩

/-- Two values of which not just one is an array. -/
def Matched : EVal R → EVal R → Prop
  | .bool _, .bytes _ => False
  | .bytes _, .bool _ => False
  | .real _, .reals _ => False
  | .vec _, .reals _ => False
  | .mat _, .reals _ => False
  | .reals _, .real _ => False
  | .reals _, .vec _ => False
  | .reals _, .mat _ => False
  | _, _ => True

theorem promoteTwo_spec (hd : SmallDim d) {a b : EVal R} {f g : Nat → PVal R} (ha : Holds n d a f)
    (hb : Holds n d b g) :
    ∃ a' b', promoteTwo s n d a b = .ok (a', b') ∧ Holds n d a' f ∧ Holds n d b' g ∧ Matched a' b' := by
  have hd' : d = 1 ∨ d = 2 ∨ d = 3 := hd
  unfold promoteTwo
  rw [if_pos hd']
  cases a with
  | empty => exact ha.elim
  | bool x =>
    cases b <;> first | exact ⟨_, _, rfl, ha, hb, trivial⟩ | skip
    exact ⟨_, _, if_pos hb.1, bytes_of_bool x ha, hb, trivial⟩
  | bytes x =>
    cases b <;> first | exact ⟨_, _, rfl, ha, hb, trivial⟩ | skip
    exact ⟨_, _, if_pos ha.1, ha, bytes_of_bool _ hb, trivial⟩
  | real x =>
    cases b <;> first | exact ⟨_, _, rfl, ha, hb, trivial⟩ | skip
    exact ⟨_, _, rfl, (arr_of_real x ha).holds, hb, trivial⟩
  | vec x =>
    cases b <;> first | exact ⟨_, _, rfl, ha, hb, trivial⟩ | skip
    obtain ⟨l, h1, h2⟩ := arr_of_vec s ha.1 ha.2
    exact ⟨_, _, by dsimp only; rw [if_pos ha.1, h1]; rfl, h2.holds, hb, trivial⟩
  | mat x =>
    cases b <;> first | exact ⟨_, _, rfl, ha, hb, trivial⟩ | skip
    obtain ⟨c, hc, h⟩ := (holds_mat_iff hd).1 ha
    obtain ⟨l, h1, h2⟩ := arr_of_mat s hc h
    exact ⟨_, _, by
      dsimp only
      rw [if_pos hc.isMat, hc.2.2.1]
      show (repeatVector s n c).bind _ = _
      rw [h1]; rfl, h2.holds, hb, trivial⟩
  | reals x =>
    cases b with
    | real y => exact ⟨_, _, rfl, ha, (arr_of_real y hb).holds, trivial⟩
    | vec y =>
      obtain ⟨l, h1, h2⟩ := arr_of_vec s hb.1 hb.2
      exact ⟨_, _, by dsimp only; rw [if_pos hb.1, h1]; rfl, ha, h2.holds, trivial⟩
    | mat y =>
      obtain ⟨c, hc, h⟩ := (holds_mat_iff hd).1 hb
      obtain ⟨l, h1, h2⟩ := arr_of_mat s hc h
      exact ⟨_, _, by
        dsimp only
        rw [if_pos hc.isMat, hc.2.2.1]
        show (repeatVector s n c).bind _ = _
        rw [h1]; rfl, ha, h2.holds, trivial⟩
    | empty => exact hb.elim
    | bool y => exact ⟨_, _, rfl, ha, hb, trivial⟩
    | bytes y => exact ⟨_, _, rfl, ha, hb, trivial⟩
    | reals y => exact ⟨_, _, rfl, ha, hb, trivial⟩

/-! ## Logic and comparison -/

theorem zipArrays_eq {α β : Type} (f : α → α → β) {a b : List α} (h : a.length = b.length) :
    zipArrays s f a b = .ok (List.zipWith f a b) := by
  unfold zipArrays
  rw [if_pos h, zipEach_eq s _ f a b h (fun _ _ _ _ _ => rfl)]
  rfl

theorem logicAt_some {op : Bool → Bool → Bool} {x y z : PVal R} (h : logicAt op x y = some z) :
    ∃ a b, x = .bool a ∧ y = .bool b ∧ z = .bool (op a b) := by
  cases x <;> cases y <;> simp [logicAt] at h
  exact ⟨_, _, rfl, rfl, h.symm⟩

theorem logic_spec (hn : 0 < n) {op : Bool → Bool → Bool} {a b : EVal R} {f g h : Nat → PVal R}
    (ha : Holds n d a f) (hb : Holds n d b g) (hm : Matched a b)
    (hh : ∀ p, p < n → logicAt op (f p) (g p) = some (h p)) :
    ∃ v, exprLogic s op a b = .ok v ∧ Holds n d v h := by
  obtain ⟨x0, y0, hx0, hy0, _⟩ := logicAt_some (hh 0 hn)
  cases a with
  | empty => exact ha.elim
  | real r => have := ha 0 hn; rw [hx0] at this; cases this
  | vec v => have := ha.2 0 hn; rw [hx0] at this; cases this
  | mat m => obtain ⟨_, _, c, _, _, k⟩ := ha; have := k 0 hn; rw [hx0] at this; cases this
  | reals l => obtain ⟨sh, _, k⟩ := ha; have := k 0 hn; rw [hx0] at this; cases this
  | bool x =>
    cases b with
    | empty => exact hb.elim
    | real r => have := hb 0 hn; rw [hy0] at this; cases this
    | vec v => have := hb.2 0 hn; rw [hy0] at this; cases this
    | mat m => obtain ⟨_, _, c, _, _, k⟩ := hb; have := k 0 hn; rw [hy0] at this; cases this
    | reals l => obtain ⟨sh, _, k⟩ := hb; have := k 0 hn; rw [hy0] at this; cases this
    | bytes l => exact hm.elim
    | bool y =>
      refine ⟨_, rfl, fun p hp => ?_⟩
      have := hh p hp
      rw [ha p hp, hb p hp] at this
      exact (Option.some.inj this).symm
  | bytes x =>
    cases b with
    | empty => exact hb.elim
    | real r => have := hb 0 hn; rw [hy0] at this; cases this
    | vec v => have := hb.2 0 hn; rw [hy0] at this; cases this
    | mat m => obtain ⟨_, _, c, _, _, k⟩ := hb; have := k 0 hn; rw [hy0] at this; cases this
    | reals l => obtain ⟨sh, _, k⟩ := hb; have := k 0 hn; rw [hy0] at this; cases this
    | bool y => exact hm.elim
    | bytes y =>
      obtain ⟨l1, k1⟩ := ha
      obtain ⟨l2, k2⟩ := hb
      refine ⟨.bytes (List.zipWith (fun x y => b2i (op (decide (x ≠ 0)) (decide (y ≠ 0)))) x y), ?_, ?_, ?_⟩
      · simp only [exprLogic, EVal.toBytes, Res.bind_ok]
        rw [zipArrays_eq s _ (by omega)]
        rfl
      · simp [l1, l2]
      · intro p hp
        obtain ⟨u, e1, e2⟩ := k1 p hp
        obtain ⟨v, e3, e4⟩ := k2 p hp
        refine ⟨b2i (op (decide (u ≠ 0)) (decide (v ≠ 0))), by simp [List.getElem?_zipWith, e1, e3], ?_⟩
        have := hh p hp
        rw [e2, e4] at this
        rw [← Option.some.inj this]
        cases op (decide (u ≠ 0)) (decide (v ≠ 0)) <;> rfl

theorem compareAt_some {op : R → R → Bool} {x y z : PVal R} (h : compareAt op x y = some z) :
    ∃ a b, x = .num .scalar [a] ∧ y = .num .scalar [b] ∧ z = .bool (op a b) := by
  unfold compareAt at h
  split at h
  · cases h; exact ⟨_, _, rfl, rfl, rfl⟩
  · cases h

theorem powAt_some {x y z : PVal R} (h : powAt O x y = some z) :
    ∃ a b, x = .num .scalar [a] ∧ y = .num .scalar [b] ∧ z = .num .scalar [O.pow a b] := by
  unfold powAt at h
  split at h
  · cases h; exact ⟨_, _, rfl, rfl, rfl⟩
  · cases h

/-- A value that is a scalar at the first point is a number or an array of scalars. -/
theorem holds_scalar (hn : 0 < n) {a : EVal R} {f : Nat → PVal R} (ha : Holds n d a f) {x0 : R}
    (hx0 : f 0 = .num .scalar [x0]) :
    (∃ r, a = .real r ∧ ∀ p, p < n → f p = .num .scalar [r]) ∨
    (∃ l, a = .reals l ∧ ArrHolds n d l .scalar f) := by
  cases a with
  | empty => exact ha.elim
  | bool b => have := ha 0 hn; rw [hx0] at this; cases this
  | bytes l =>
    obtain ⟨_, ha⟩ := ha
    obtain ⟨k, _, ha⟩ := ha 0 hn
    rw [hx0] at ha; cases ha
  | real r => exact Or.inl ⟨r, rfl, ha⟩
  | vec v => have := ha.2 0 hn; rw [hx0] at this; cases this
  | mat m => obtain ⟨_, _, c, _, _, k⟩ := ha; have := k 0 hn; rw [hx0] at this; cases this
  | reals l =>
    obtain ⟨sh, k⟩ := ha
    have := k.2 0 hn
    rw [hx0] at this
    injection this with e _
    subst e
    exact Or.inr ⟨l, rfl, k⟩

theorem compare_spec (hn : 0 < n) {op : R → R → Bool} {a b : EVal R} {f g h : Nat → PVal R}
    (ha : Holds n d a f) (hb : Holds n d b g) (hm : Matched a b)
    (hh : ∀ p, p < n → compareAt op (f p) (g p) = some (h p)) :
    ∃ v, exprCompare s op a b = .ok v ∧ Holds n d v h := by
  obtain ⟨x0, y0, hx0, hy0, _⟩ := compareAt_some (hh 0 hn)
  rcases holds_scalar hn ha hx0 with ⟨r, rfl, k1⟩ | ⟨l, rfl, k1⟩ <;>
    rcases holds_scalar hn hb hy0 with ⟨r', rfl, k2⟩ | ⟨l', rfl, k2⟩
  · refine ⟨_, rfl, fun p hp => ?_⟩
    have := hh p hp
    rw [k1 p hp, k2 p hp] at this
    exact (Option.some.inj this).symm
  · exact hm.elim
  · exact hm.elim
  · obtain ⟨l1, k1⟩ := k1.scalar
    obtain ⟨l2, k2⟩ := k2.scalar
    refine ⟨.bytes (List.zipWith (fun x y => b2i (op x y)) l l'), ?_, ?_, ?_⟩
    · simp only [exprCompare, EVal.toReals, Res.bind_ok]
      rw [zipArrays_eq s _ (by omega)]
      rfl
    · simp [l1, l2]
    · intro p hp
      obtain ⟨u, e1, e2⟩ := k1 p hp
      obtain ⟨v, e3, e4⟩ := k2 p hp
      refine ⟨b2i (op u v), by simp [List.getElem?_zipWith, e1, e3], ?_⟩
      have := hh p hp
      rw [e2, e4] at this
      rw [← Option.some.inj this]
      cases op u v <;> rfl

theorem pow_spec (hn : 0 < n) {a b : EVal R} {f g h : Nat → PVal R}
    (ha : Holds n d a f) (hb : Holds n d b g) (hm : Matched a b)
    (hh : ∀ p, p < n → powAt O (f p) (g p) = some (h p)) :
    ∃ v, exprPow s O a b = .ok v ∧ Holds n d v h := by
  obtain ⟨x0, y0, hx0, hy0, _⟩ := powAt_some O (hh 0 hn)
  rcases holds_scalar hn ha hx0 with ⟨r, rfl, k1⟩ | ⟨l, rfl, k1⟩ <;>
    rcases holds_scalar hn hb hy0 with ⟨r', rfl, k2⟩ | ⟨l', rfl, k2⟩
  · refine ⟨_, rfl, fun p hp => ?_⟩
    have := hh p hp
    rw [k1 p hp, k2 p hp] at this
    exact (Option.some.inj this).symm
  · exact hm.elim
  · exact hm.elim
  · obtain ⟨l1, k1⟩ := k1.scalar
    obtain ⟨l2, k2⟩ := k2.scalar
    refine ⟨.reals (List.zipWith O.pow l l'), ?_, (arrHolds_scalar ?_ ?_).holds⟩
    · simp only [exprPow, EVal.toReals, Res.bind_ok]
      rw [zipArrays_eq s _ (by omega)]
      rfl
    · simp [l1, l2]
    · intro p hp
      obtain ⟨u, e1, e2⟩ := k1 p hp
      obtain ⟨v, e3, e4⟩ := k2 p hp
      refine ⟨O.pow u v, by simp [List.getElem?_zipWith, e1, e3], ?_⟩
      have := hh p hp
      rw [e2, e4] at this
      exact (Option.some.inj this).symm

/-! ## Sums -/

theorem addAt_some {op : R → R → R} {x y z : PVal R} (h : addAt op x y = some z) :
    ∃ sh a b, x = .num sh a ∧ y = .num sh b ∧ z = .num sh (List.zipWith op a b) := by
  cases x <;> cases y <;> simp [addAt] at h
  obtain ⟨rfl, rfl⟩ := h
  exact ⟨_, _, _, rfl, rfl, rfl⟩

/-- The kinds of numerical values. -/
theorem holds_num (hd : SmallDim d) (hn : 0 < n) {a : EVal R} {f : Nat → PVal R} (ha : Holds n d a f) {sh : Shape}
    {c : List R} (hf : f 0 = .num sh c) :
    (∃ r, sh = .scalar ∧ a = .real r ∧ ∀ p, p < n → f p = .num .scalar [r]) ∨
    (∃ v, sh = .vector ∧ a = .vec v ∧ v.length = d ∧ ∀ p, p < n → f p = .num .vector v) ∨
    (∃ m c, sh = .matrix ∧ a = .mat m ∧ IsMatrix d m c ∧ ∀ p, p < n → f p = .num .matrix c) ∨
    (∃ l, a = .reals l ∧ ArrHolds n d l sh f) := by
  cases a with
  | empty => exact ha.elim
  | bool b => have := ha 0 hn; rw [hf] at this; cases this
  | bytes l =>
    obtain ⟨_, ha⟩ := ha
    obtain ⟨k, _, ha⟩ := ha 0 hn
    rw [hf] at ha; cases ha
  | real r =>
    have := ha 0 hn; rw [hf] at this; cases this
    exact Or.inl ⟨r, rfl, rfl, ha⟩
  | vec v =>
    have := ha.2 0 hn; rw [hf] at this; cases this
    exact Or.inr (Or.inl ⟨_, rfl, rfl, ha.1, ha.2⟩)
  | mat m =>
    obtain ⟨c', hc, k⟩ := (holds_mat_iff hd).1 ha
    have := k 0 hn; rw [hf] at this; cases this
    exact Or.inr (Or.inr (Or.inl ⟨_, _, rfl, rfl, hc, k⟩))
  | reals l =>
    obtain ⟨sh', k⟩ := ha
    have := k.2 0 hn; rw [hf] at this; cases this
    exact Or.inr (Or.inr (Or.inr ⟨_, rfl, k⟩))

theorem sum_spec (hd : SmallDim d) (hn : 0 < n) {op : R → R → R} {a b : EVal R} {f g h : Nat → PVal R}
    (ha : Holds n d a f) (hb : Holds n d b g) (hm : Matched a b)
    (hh : ∀ p, p < n → addAt op (f p) (g p) = some (h p)) :
    ∃ v, exprSum s d op a b = .ok v ∧ Holds n d v h := by
  obtain ⟨sh, x0, y0, hx0, hy0, _⟩ := addAt_some (hh 0 hn)
  have td := templateDim_eq hd
  rcases holds_num hd hn ha hx0 with ⟨r, rfl, rfl, k1⟩ | ⟨v, rfl, rfl, lv, k1⟩ | ⟨m, c, rfl, rfl, hc, k1⟩ | ⟨l, rfl, k1⟩ <;>
    rcases holds_num hd hn hb hy0 with ⟨r', e, rfl, k2⟩ | ⟨v', e, rfl, lv', k2⟩ | ⟨m', c', e, rfl, hc', k2⟩ | ⟨l', rfl, k2⟩ <;>
    first | cases e | skip
  all_goals first | exact hm.elim | skip
  · refine ⟨_, rfl, fun p hp => ?_⟩
    have := hh p hp
    rw [k1 p hp, k2 p hp] at this
    exact (Option.some.inj this).symm
  · refine ⟨.vec (List.zipWith op v v'), ?_, by simp [lv, lv'], fun p hp => ?_⟩
    · simp only [exprSum, td, toVec_eq lv, toVec_eq lv', Res.bind_ok]
    · have := hh p hp
      rw [k1 p hp, k2 p hp] at this
      exact (Option.some.inj this).symm
  · refine ⟨.mat (List.zipWith (fun x y => List.zipWith op x y) m m'), ?_,
      (holds_mat_iff hd).2 ⟨_, isMatrix_zip hd hc hc' op, fun p hp => ?_⟩⟩
    · simp only [exprSum, td, hc.toMat, hc'.toMat, Res.bind_ok]
    · have := hh p hp
      rw [k1 p hp, k2 p hp] at this
      exact (Option.some.inj this).symm
  · refine ⟨.reals (List.zipWith op l l'), ?_, sh, by simp [k1.1, k2.1], fun p hp => ?_⟩
    · simp only [exprSum, EVal.toReals, Res.bind_ok]
      rw [zipArrays_eq s _ (by rw [k1.1, k2.1])]
      rfl
    · have := hh p hp
      rw [k1.2 p hp, k2.2 p hp] at this
      rw [row_zipWith]
      simp only [addAt, if_true] at this
      exact (Option.some.inj this).symm

/-! ## Negation and quotients -/

theorem neg_spec (law : RealLaws O) (hd : SmallDim d) (hn : 0 < n) {a : EVal R} {f h : Nat → PVal R}
    (ha : Holds n d a f) (hh : ∀ p, p < n → negAt O (f p) = some (h p)) :
    ∃ v, exprNeg s O d a = .ok v ∧ Holds n d v h := by
  have td := templateDim_eq hd
  obtain ⟨sh, x0, hx0⟩ : ∃ sh c, f 0 = .num sh c := by
    have := hh 0 hn
    cases hf : f 0 with
    | bool b => rw [hf] at this; cases this
    | num sh c => exact ⟨sh, c, rfl⟩
  rcases holds_num hd hn ha hx0 with ⟨r, rfl, rfl, k1⟩ | ⟨v, rfl, rfl, lv, k1⟩ | ⟨m, c, rfl, rfl, hc, k1⟩ | ⟨l, rfl, k1⟩
  · refine ⟨_, rfl, fun p hp => ?_⟩
    have := hh p hp
    rw [k1 p hp] at this
    exact (Option.some.inj this).symm
  · refine ⟨.vec (v.map O.neg), ?_, by simp [lv], fun p hp => ?_⟩
    · simp only [exprNeg, td, toVec_eq lv, Res.bind_ok]
    · have := hh p hp
      rw [k1 p hp] at this
      exact (Option.some.inj this).symm
  · refine ⟨.mat (m.map (fun x => x.map O.neg)), ?_,
      (holds_mat_iff hd).2 ⟨_, isMatrix_map hd hc O.neg, fun p hp => ?_⟩⟩
    · simp only [exprNeg, td, hc.toMat, Res.bind_ok]
    · have := hh p hp
      rw [k1 p hp] at this
      exact (Option.some.inj this).symm
  · have e : (fun x => O.mul x O.negOne) = O.neg := funext (fun x => (law.neg_eq x).symm)
    refine ⟨.reals (l.map O.neg), ?_, sh, by simp [k1.1], fun p hp => ?_⟩
    · simp only [exprNeg]
      rw [mapEach_eq s _ (fun x => O.mul x O.negOne) l (fun _ _ => rfl), e]
      rfl
    · have := hh p hp
      rw [k1.2 p hp] at this
      rw [row_map]
      exact (Option.some.inj this).symm

theorem divAt_some {A : Admits} (hA : A.zeroDiv = false) {x y z : PVal R} (h : divAt O A x y = some z) :
    ∃ sh a b, x = .num sh a ∧ y = .num .scalar [b] ∧ O.eq b O.zero = false ∧
      z = .num sh (a.map (fun x => O.div x b)) := by
  unfold divAt at h
  split at h
  · rw [hA] at h
    split at h
    · rename_i hc
      cases h
      exact ⟨_, _, _, rfl, rfl, by simpa using hc, rfl⟩
    · cases h
  · cases h

theorem div_spec (hd : SmallDim d) (hn : 0 < n) {A : Admits} (hA : A.zeroDiv = false) {a b : EVal R}
    {f g h : Nat → PVal R} (ha : Holds n d a f) (hb : Holds n d b g) (hm : Matched a b)
    (hh : ∀ p, p < n → divAt O A (f p) (g p) = some (h p)) :
    ∃ v, exprDiv s O d a b = .ok v ∧ Holds n d v h := by
  obtain ⟨sh, x0, y0, hx0, hy0, _, _⟩ := divAt_some O hA (hh 0 hn)
  have td := templateDim_eq hd
  have hz : ∀ p, p < n → ∃ a b, f p = .num sh a ∧ g p = .num .scalar [b] ∧ O.eq b O.zero = false ∧
      h p = .num sh (a.map (fun x => O.div x b)) := by
    intro p hp
    obtain ⟨sh', a', b', e1, e2, e3, e4⟩ := divAt_some O hA (hh p hp)
    have : sh' = sh := by
      rcases holds_num hd hn ha hx0 with ⟨r, rfl, rfl, k1⟩ | ⟨v, rfl, rfl, lv, k1⟩ | ⟨m, c, rfl, rfl, hc, k1⟩ | ⟨l, rfl, k1⟩
      · rw [k1 p hp] at e1; cases e1; rfl
      · rw [k1 p hp] at e1; cases e1; rfl
      · rw [k1 p hp] at e1; cases e1; rfl
      · rw [k1.2 p hp] at e1; cases e1; rfl
    subst this
    exact ⟨a', b', e1, e2, e3, e4⟩
  rcases holds_scalar hn hb hy0 with ⟨r', rfl, k2⟩ | ⟨l', rfl, k2⟩ <;>
  rcases holds_num hd hn ha hx0 with ⟨r, rfl, rfl, k1⟩ | ⟨v, rfl, rfl, lv, k1⟩ | ⟨m, c, rfl, rfl, hc, k1⟩ | ⟨l, rfl, k1⟩
  all_goals first | exact hm.elim | skip
  · refine ⟨_, rfl, fun p hp => ?_⟩
    obtain ⟨u, w, e1, e2, _, e4⟩ := hz p hp
    rw [k1 p hp] at e1; cases e1
    rw [k2 p hp] at e2; cases e2
    exact e4
  · refine ⟨.vec (v.map (fun x => O.div x r')), ?_, by simp [lv], fun p hp => ?_⟩
    · simp only [exprDiv, td, toVec_eq lv, Res.bind_ok]
    · obtain ⟨u, w, e1, e2, _, e4⟩ := hz p hp
      rw [k1 p hp] at e1; cases e1
      rw [k2 p hp] at e2; cases e2
      exact e4
  · refine ⟨.mat (m.map (fun c => c.map (fun x => O.div x r'))), ?_,
      (holds_mat_iff hd).2 ⟨_, isMatrix_map hd hc (fun x => O.div x r'), fun p hp => ?_⟩⟩
    · simp only [exprDiv, td, hc.toMat, Res.bind_ok]
    · obtain ⟨u, w, e1, e2, _, e4⟩ := hz p hp
      rw [k1 p hp] at e1; cases e1
      rw [k2 p hp] at e2; cases e2
      exact e4
  · obtain ⟨l2, k2'⟩ := k2.scalar
    have hl : l.length = l'.length * sh.ncomps d := by rw [k1.1, l2]
    obtain ⟨c, c1, c2⟩ := rowEach_spec s (fun x y => if O.eq y O.zero = false then some (O.div x y)
      else if O.eq x O.zero then some O.zero else none) O.div l l' (sh.ncomps d) hl (by
        intro i j x y hj hx hy
        have hi : i < n := by have := (List.getElem?_eq_some_iff.1 hy).1; omega
        obtain ⟨y', e1, e2⟩ := k2' i hi
        obtain ⟨u, w, _, e3, e4, _⟩ := hz i hi
        rw [e2] at e3; cases e3
        rw [hy] at e1; cases e1
        rw [if_pos e4])
    refine ⟨.reals c, ?_, sh, by rw [c2.2.1, k1.1], fun p hp => ?_⟩
    · simp only [exprDiv, EVal.toReals, Res.bind_ok, divideReals]
      rw [if_neg (by omega), hl, divideNoRemainder_mul _ _ (by omega)]
      simp only [Res.orFail, Res.bind_ok, c1]
    · obtain ⟨y', e1, e2⟩ := k2' p hp
      obtain ⟨u, w, e3, e4, _, e5⟩ := hz p hp
      rw [e2] at e4; cases e4
      rw [k1.2 p hp] at e3; cases e3
      rw [row_rowwise c2 e1]
      exact e5

end

end OmegaH
