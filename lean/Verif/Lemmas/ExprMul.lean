import Verif.Lemmas.ExprOps

/-! # Lemmas about the evaluation of expressions: products -/

namespace OmegaH

open Spec

section
variable {R : Type} (s : Sched) (O : RealOps R) {n d : Nat}

theorem multiplyReals_spec {a b : List R} {w : Nat} (hn : 0 < n) (hb : b.length = n)
    (ha : a.length = n * w) :
    ∃ c, multiplyReals s O a b = .ok c ∧ Spec.Rowwise O.mul w a b c := by
  have hl : a.length = b.length * w := by rw [ha, hb]
  obtain ⟨c, c1, c2⟩ := rowEach_spec s (fun x y => some (O.mul x y)) O.mul a b w hl
    (fun _ _ _ _ _ _ _ => rfl)
  refine ⟨c, ?_, c2⟩
  unfold multiplyReals
  rw [if_neg (by omega), hl, divideNoRemainder_mul _ _ (by omega)]
  simp only [Res.orFail, Res.bind_ok, c1]
  rfl

theorem mulAt_scalar_right {sh : Shape} {a : List R} {b : R} (h : sh = .scalar → a.length = 1) :
    mulAt O d (.num sh a) (.num .scalar [b]) = some (.num sh (a.map (fun x => O.mul x b))) := by
  cases sh with
  | scalar => obtain ⟨x, rfl⟩ := list1 (h rfl); rfl
  | vector => rfl
  | matrix => rfl
  | symm => rfl

theorem mulAt_scalar_left (law : RealLaws O) {sh : Shape} {b : List R} {a : R} (h : sh = .scalar → b.length = 1) :
    mulAt O d (.num .scalar [a]) (.num sh b) = some (.num sh (b.map (fun x => O.mul x a))) := by
  cases sh with
  | scalar =>
    obtain ⟨x, rfl⟩ := list1 (h rfl)
    show some (PVal.num Shape.scalar [O.mul a x]) = some (PVal.num Shape.scalar [O.mul x a])
    rw [law.mul_comm]
  | vector => rfl
  | matrix => rfl
  | symm => rfl

/-- Products of two arrays. -/
theorem mulArrays_spec (law : RealLaws O) (hd : SmallDim d) (hn : 0 < n) {a b : List R} {sh1 sh2 : Shape}
    {f g h : Nat → PVal R} (ha : ArrHolds n d a sh1 f) (hb : ArrHolds n d b sh2 g)
    (hh : ∀ p, p < n → mulAt O d (f p) (g p) = some (h p)) :
    ∃ c, mulArrays s O n d a b = .ok c ∧ Holds n d (.reals c) h := by
  unfold mulArrays
  by_cases e2 : sh2 = .scalar
  · subst e2
    obtain ⟨l2, k2⟩ := hb.scalar
    rw [if_pos l2]
    obtain ⟨c, c1, c2⟩ := multiplyReals_spec s O hn l2 ha.1
    refine ⟨c, c1, sh1, by rw [c2.2.1, ha.1], fun p hp => ?_⟩
    obtain ⟨y, e1, e2⟩ := k2 p hp
    have := hh p hp
    rw [e2, ha.2 p hp, mulAt_scalar_right] at this
    · rw [row_rowwise c2 e1]
      exact (Option.some.inj this).symm
    · rintro rfl
      exact ha.row_len hp
  by_cases e1 : sh1 = .scalar
  · subst e1
    obtain ⟨l1, k1⟩ := ha.scalar
    have hval : ∀ p, p < n → ∃ x, a[p]? = some x ∧
        h p = .num sh2 ((row b (sh2.ncomps d) p).map (fun y => O.mul y x)) := by
      intro p hp
      obtain ⟨x, e1, e2⟩ := k1 p hp
      have := hh p hp
      rw [e2, hb.2 p hp, mulAt_scalar_left O law (fun e => absurd e ‹_›)] at this
      exact ⟨x, e1, (Option.some.inj this).symm⟩
    by_cases h1 : b.length = n
    · rw [if_pos h1]
      obtain ⟨c, c1, c2⟩ := multiplyReals_spec s O (a := a) (w := 1) hn h1 (by omega)
      have hw : sh2.ncomps d = 1 := by
        have := hb.1
        rw [h1] at this
        exact Nat.eq_of_mul_eq_mul_left hn (by omega)
      refine ⟨c, c1, sh2, by rw [c2.2.1, hw]; omega, fun p hp => ?_⟩
      obtain ⟨x, e1, e2⟩ := hval p hp
      have hp' : p < b.length := by omega
      rw [e2, hw, row_one (List.getElem?_eq_getElem hp'), row_rowwise c2 (List.getElem?_eq_getElem hp'),
        row_one e1]
      show PVal.num sh2 [O.mul b[p] x] = PVal.num sh2 [O.mul x b[p]]
      rw [law.mul_comm]
    · rw [if_neg h1, if_pos l1]
      obtain ⟨c, c1, c2⟩ := multiplyReals_spec s O hn l1 hb.1
      refine ⟨c, c1, sh2, by rw [c2.2.1, hb.1], fun p hp => ?_⟩
      obtain ⟨x, e1, e2⟩ := hval p hp
      rw [row_rowwise c2 e1]
      exact e2
  -- two arrays with one component each, which are not scalars
  have single : d = 1 → ∀ sh : Shape, sh1.ncomps d = 1 → sh2.ncomps d = 1 → sh.ncomps d = 1 →
      (∀ x y : R, mulAt O d (.num sh1 [x]) (.num sh2 [y]) = some (.num sh [O.mul x y])) →
      b.length = n ∧ ∃ c, multiplyReals s O a b = .ok c ∧ Holds n d (.reals c) h := by
    intro _ sh w1 w2 w hmul
    have l1 : a.length = n * 1 := by rw [ha.1, w1]
    have l2 : b.length = n := by rw [hb.1, w2]; omega
    obtain ⟨c, c1, c2⟩ := multiplyReals_spec s O hn l2 l1
    refine ⟨l2, c, c1, sh, by rw [c2.2.1, l1, w], fun p hp => ?_⟩
    have hpa : p < a.length := by omega
    have hpb : p < b.length := by omega
    have := hh p hp
    rw [ha.2 p hp, hb.2 p hp, w1, w2, row_one (List.getElem?_eq_getElem hpa),
      row_one (List.getElem?_eq_getElem hpb), hmul] at this
    rw [w, row_rowwise c2 (List.getElem?_eq_getElem hpb), row_one (List.getElem?_eq_getElem hpa)]
    exact (Option.some.inj this).symm
  have h0 := hh 0 hn
  rw [ha.2 0 hn, hb.2 0 hn] at h0
  have dpos : 0 < d := by rcases hd with rfl | rfl | rfl <;> omega
  cases sh1 with
  | scalar => exact absurd rfl e1
  | symm => cases sh2 <;> simp [mulAt] at h0 e2
  | vector =>
    cases sh2 with
    | scalar => exact absurd rfl e2
    | matrix => simp [mulAt] at h0
    | symm => simp [mulAt] at h0
    | vector =>
      by_cases d1 : d = 1
      · subst d1
        obtain ⟨l2, c, c1, c2⟩ := single rfl .scalar rfl rfl rfl (fun _ _ => rfl)
        exact ⟨c, by rw [if_pos l2]; exact c1, c2⟩
      have l1 : a.length = n * d := ha.1
      have l2 : b.length = n * d := hb.1
      have nd : n * d ≠ n := fun h => d1 (Nat.eq_of_mul_eq_mul_left hn (by omega))
      rw [if_neg (by omega), if_neg (by omega), if_pos ⟨l1, l2⟩]
      have hx : ∀ i, ∃ x, i < n → vecDot O (row a d i) (row b d i) = .ok x ∧
          dotOf O (row a d i) (row b d i) = some x := by
        intro i
        by_cases hi : i < n
        · obtain ⟨x, h⟩ := vecDot_spec O hd (row_length l1 hi) (row_length l2 hi)
          exact ⟨x, fun _ => h⟩
        · exact ⟨O.zero, fun h => absurd h hi⟩
      obtain ⟨X, hX⟩ := Classical.skolem.1 hx
      obtain ⟨c, c1, c2, c3⟩ := eachKernel_spec s n (fun i => (rowAt a d i).bind (fun x =>
        (rowAt b d i).bind (fun y => (vecDot O x y).value?))) X (by
            intro i hi
            rw [rowAt_eq l1 hi, rowAt_eq l2 hi]
            simp only [Option.bind_some, (hX i hi).1, Res.value?])
      refine ⟨c, ?_, (arrHolds_scalar c2 (fun p hp => ⟨X p, c3 p hp, ?_⟩)).holds⟩
      · unfold dotVectors
        rw [if_pos (by omega), divide_no_rem dpos l1]
        simp only [Res.orFail, Res.bind_ok]
        rw [c1]; rfl
      · have := hh p hp
        rw [ha.2 p hp, hb.2 p hp] at this
        simp only [mulAt, Shape.ncomps] at this
        rw [(hX p hp).2] at this
        exact (Option.some.inj this).symm
  | matrix =>
    cases sh2 with
    | scalar => exact absurd rfl e2
    | symm => simp [mulAt] at h0
    | vector =>
      by_cases d1 : d = 1
      · subst d1
        obtain ⟨l2, c, c1, c2⟩ := single rfl .vector rfl rfl rfl (fun _ _ => rfl)
        exact ⟨c, by rw [if_pos l2]; exact c1, c2⟩
      have l1 : a.length = n * (d * d) := ha.1
      have l2 : b.length = n * d := hb.1
      have nd : n * d ≠ n := fun h => d1 (Nat.eq_of_mul_eq_mul_left hn (by omega))
      have d2 : d * d ≠ 1 ∧ d * d ≠ d := by rcases hd with rfl | rfl | rfl <;> omega
      have nd2 : n * (d * d) ≠ n := fun h => d2.1 (Nat.eq_of_mul_eq_mul_left hn (by omega))
      have nd3 : n * (d * d) ≠ n * d := fun h => d2.2 (Nat.eq_of_mul_eq_mul_left hn h)
      rw [if_neg (by omega), if_neg (by omega), if_neg (by omega), if_pos ⟨l1, l2⟩]
      have hx : ∀ i, ∃ x : List R × List (List R), i < n → IsMatrix d x.2 (row a (d * d) i) ∧
          matVec O x.2 (row b d i) = .ok x.1 ∧
          (List.range d).mapM (fun k => dotOf O (matRow d (row a (d * d) i) k) (row b d i)) = some x.1 ∧
          x.1.length = d := by
        intro i
        by_cases hi : i < n
        · obtain ⟨m, hm⟩ := isMatrix_of hd (row_length l1 hi)
          obtain ⟨x, h⟩ := matVec_spec O hd hm (row_length l2 hi)
          exact ⟨(x, m), fun _ => ⟨hm, h⟩⟩
        · exact ⟨([], []), fun h => absurd h hi⟩
      obtain ⟨X, hX⟩ := Classical.skolem.1 hx
      obtain ⟨c, c1, c2, c3⟩ := rowKernel_spec s n d (fun i => (rowAt a (d * d) i).bind (fun a =>
        (vector2matrix d a).bind (fun m => (rowAt b d i).bind (fun x => (matVec O m x).value?)))) (fun i => (X i).1) (by
            intro i hi
            rw [rowAt_eq l1 hi, rowAt_eq l2 hi]
            simp only [Option.bind_some, (hX i hi).1.2.1, (hX i hi).2.1, (hX i hi).2.2.2, Res.value?, and_self])
      refine ⟨c, ?_, .vector, c2, fun p hp => ?_⟩
      · unfold matricesTimesVectors
        rw [divide_no_rem dpos l2]
        simp only [Res.orFail, Res.bind_ok]
        rw [if_pos l1, c1]; rfl
      · have := hh p hp
        rw [ha.2 p hp, hb.2 p hp] at this
        simp only [mulAt, Shape.ncomps] at this
        rw [(hX p hp).2.2.1] at this
        simp only [Shape.ncomps]
        rw [c3 p hp]
        exact (Option.some.inj this).symm
    | matrix =>
      by_cases d1 : d = 1
      · subst d1
        obtain ⟨l2, c, c1, c2⟩ := single rfl .matrix rfl rfl rfl (fun _ _ => rfl)
        exact ⟨c, by rw [if_pos l2]; exact c1, c2⟩
      have l1 : a.length = n * (d * d) := ha.1
      have l2 : b.length = n * (d * d) := hb.1
      have d2 : d * d ≠ 1 ∧ d * d ≠ d := by rcases hd with rfl | rfl | rfl <;> omega
      have nd2 : n * (d * d) ≠ n := fun h => d2.1 (Nat.eq_of_mul_eq_mul_left hn (by omega))
      have nd3 : n * (d * d) ≠ n * d := fun h => d2.2 (Nat.eq_of_mul_eq_mul_left hn h)
      rw [if_neg (by omega), if_neg (by omega), if_neg (by omega), if_neg (by omega), if_pos ⟨l1, l2⟩]
      have hx : ∀ i, ∃ x : (List (List R) × List (List R)) × (List (List R) × List (List R)), i < n →
          IsMatrix d x.1.1 (row a (d * d) i) ∧ IsMatrix d x.1.2 (row b (d * d) i) ∧
          matMat O x.1.1 x.1.2 = .ok x.2.1 ∧ (List.range d).mapM (fun k => (List.range d).mapM (fun j =>
            dotOf O (matRow d (row a (d * d) i) k) (matCol d (row b (d * d) i) j))) = some x.2.2 ∧
          IsMatrix d x.2.1 x.2.2.flatten := by
        intro i
        by_cases hi : i < n
        · obtain ⟨m, hm⟩ := isMatrix_of hd (row_length l1 hi)
          obtain ⟨m', hm'⟩ := isMatrix_of hd (row_length l2 hi)
          obtain ⟨x, y, h⟩ := matMat_spec O hd hm hm'
          exact ⟨((m, m'), (x, y)), fun _ => ⟨hm, hm', h⟩⟩
        · exact ⟨(([], []), ([], [])), fun h => absurd h hi⟩
      obtain ⟨X, hX⟩ := Classical.skolem.1 hx
      obtain ⟨c, c1, c2, c3⟩ := rowKernel_spec s n (d * d) (fun i => (rowAt a (d * d) i).bind (fun x =>
        (vector2matrix d x).bind (fun mx => (rowAt b (d * d) i).bind (fun y =>
          (vector2matrix d y).bind (fun my => (matMat O mx my).value?.bind (matrix2vector d)))))) (fun i => (X i).2.2.flatten) (by
            intro i hi
            obtain ⟨g1, g2, g3, g4, g5⟩ := hX i hi
            rw [rowAt_eq l1 hi, rowAt_eq l2 hi]
            simp only [Option.bind_some, g1.2.1, g2.2.1, g3, g5.2.2.1, g5.1, Res.value?, and_self])
      refine ⟨c, ?_, .matrix, c2, fun p hp => ?_⟩
      · unfold matricesTimesMatrices
        rw [divide_no_rem (Nat.mul_pos dpos dpos) l1]
        simp only [Res.orFail, Res.bind_ok]
        rw [if_pos l2, c1]; rfl
      · have := hh p hp
        rw [ha.2 p hp, hb.2 p hp] at this
        simp only [mulAt, Shape.ncomps] at this
        rw [(hX p hp).2.2.2.1] at this
        simp only [Shape.ncomps]
        rw [c3 p hp]
        exact (Option.some.inj this).symm

theorem mul_spec (law : RealLaws O) (hd : SmallDim d) (hn : 0 < n) {a b : EVal R} {f g h : Nat → PVal R}
    (ha : Holds n d a f) (hb : Holds n d b g) (hm : Matched a b)
    (hh : ∀ p, p < n → mulAt O d (f p) (g p) = some (h p)) :
    ∃ v, exprMul s O n d a b = .ok v ∧ Holds n d v h := by
  have td := templateDim_eq hd
  have h0 := hh 0 hn
  obtain ⟨sh1, x0, hx0⟩ : ∃ sh c, f 0 = .num sh c := by
    cases hf : f 0 with
    | bool b => rw [hf] at h0; simp [mulAt] at h0
    | num sh c => exact ⟨sh, c, rfl⟩
  obtain ⟨sh2, y0, hy0⟩ : ∃ sh c, g 0 = .num sh c := by
    cases hf : g 0 with
    | bool b => rw [hf] at h0; simp [mulAt] at h0
    | num sh c => exact ⟨sh, c, rfl⟩
  rcases holds_num hd hn ha hx0 with ⟨r, rfl, rfl, k1⟩ | ⟨v, rfl, rfl, lv, k1⟩ | ⟨m, c, rfl, rfl, hc, k1⟩ | ⟨l, rfl, k1⟩ <;>
  rcases holds_num hd hn hb hy0 with ⟨r', rfl, rfl, k2⟩ | ⟨v', rfl, rfl, lv', k2⟩ | ⟨m', c', rfl, rfl, hc', k2⟩ | ⟨l', rfl, k2⟩
  all_goals first | exact hm.elim | skip
  · refine ⟨_, rfl, fun p hp => ?_⟩
    have := hh p hp
    rw [k1 p hp, k2 p hp] at this
    exact (Option.some.inj this).symm
  · refine ⟨.vec (vecScale O v' r), ?_, by simp [vecScale, lv'], fun p hp => ?_⟩
    · simp only [exprMul, td, toVec_eq lv', Res.bind_ok]
    · have := hh p hp
      rw [k1 p hp, k2 p hp] at this
      exact (Option.some.inj this).symm
  · refine ⟨.mat (m'.map (fun c => vecScale O c r)), ?_,
      (holds_mat_iff hd).2 ⟨_, isMatrix_map hd hc' (fun x => O.mul x r), fun p hp => ?_⟩⟩
    · simp only [exprMul, td, hc'.toMat, Res.bind_ok]
    · have := hh p hp
      rw [k1 p hp, k2 p hp] at this
      exact (Option.some.inj this).symm
  · refine ⟨.vec (vecScale O v r'), ?_, by simp [vecScale, lv], fun p hp => ?_⟩
    · simp only [exprMul, td, toVec_eq lv, Res.bind_ok]
    · have := hh p hp
      rw [k1 p hp, k2 p hp] at this
      exact (Option.some.inj this).symm
  · obtain ⟨x, e1, e2⟩ := vecDot_spec O hd lv lv'
    refine ⟨.real x, ?_, fun p hp => ?_⟩
    · simp only [exprMul, td, toVec_eq lv, toVec_eq lv', Res.bind_ok, e1]
    · have := hh p hp
      rw [k1 p hp, k2 p hp] at this
      simp only [mulAt, e2] at this
      exact (Option.some.inj this).symm
  · rw [k1 0 hn, k2 0 hn] at h0
    simp [mulAt] at h0
  · refine ⟨.mat (m.map (fun c => vecScale O c r')), ?_,
      (holds_mat_iff hd).2 ⟨_, isMatrix_map hd hc (fun x => O.mul x r'), fun p hp => ?_⟩⟩
    · simp only [exprMul, td, hc.toMat, Res.bind_ok]
    · have := hh p hp
      rw [k1 p hp, k2 p hp] at this
      exact (Option.some.inj this).symm
  · obtain ⟨x, e1, e2, e3⟩ := matVec_spec O hd hc lv'
    refine ⟨.vec x, ?_, e3, fun p hp => ?_⟩
    · simp only [exprMul, td, hc.toMat, toVec_eq lv', Res.bind_ok, e1]
    · have := hh p hp
      rw [k1 p hp, k2 p hp] at this
      simp only [mulAt, e2] at this
      exact (Option.some.inj this).symm
  · obtain ⟨x, y, e1, e2, e3⟩ := matMat_spec O hd hc hc'
    refine ⟨.mat x, ?_, (holds_mat_iff hd).2 ⟨_, e3, fun p hp => ?_⟩⟩
    · simp only [exprMul, td, hc.toMat, hc'.toMat, Res.bind_ok, e1]
    · have := hh p hp
      rw [k1 p hp, k2 p hp] at this
      simp only [mulAt, e2] at this
      exact (Option.some.inj this).symm
  · obtain ⟨c, c1, c2⟩ := mulArrays_spec s O law hd hn k1 k2 hh
    exact ⟨.reals c, by simp only [exprMul, td, c1, Res.bind_ok], c2⟩

/-- All binary operators. -/
theorem bin_spec (law : RealLaws O) (hd : SmallDim d) (hn : 0 < n) {A : Admits} (hA : A.zeroDiv = false)
    (op : ExprBin) {a b : EVal R} {f g h : Nat → PVal R} (ha : Holds n d a f) (hb : Holds n d b g)
    (hh : ∀ p, p < n → binAt O d A op (f p) (g p) = some (h p)) :
    ∃ v, exprBin s O n d op a b = .ok v ∧ Holds n d v h := by
  obtain ⟨a', b', hp, ha', hb', hm⟩ := promoteTwo_spec s hd ha hb
  cases op <;> simp only [exprBin, hp, Res.bind_ok]
  · exact logic_spec s hn ha' hb' hm hh
  · exact logic_spec s hn ha' hb' hm hh
  · exact compare_spec s hn ha' hb' hm hh
  · exact compare_spec s hn ha' hb' hm hh
  · have := hh 0 hn; cases this
  · have := hh 0 hn; cases this
  · exact compare_spec s hn ha' hb' hm hh
  · exact sum_spec s hd hn ha' hb' hm hh
  · exact sum_spec s hd hn ha' hb' hm hh
  · exact mul_spec s O law hd hn ha' hb' hm hh
  · exact div_spec s O hd hn hA ha' hb' hm hh
  · exact pow_spec s O hn ha' hb' hm hh

end

end OmegaH
