import Verif.Spec.Layers
import Verif.Props.C62
import Verif.Lemmas.Serial
import Mathlib.Algebra.Order.Ring.Rat
import Mathlib.Algebra.Field.Rat
/-!
# C63: layers of elements around bad ones
-/
namespace OmegaH
open Spec

/-! ## The graph of neighbours -/

/-- The mesh of sides alone, for the theorem on diffusion. -/
def sidesOnly (dim nelems nsides : Nat) (sides : Nat → Nat → Nat) (sideElems : Nat → List Nat) : FluxMesh ℚ where
  dim := dim
  nelems := nelems
  nsides := nsides
  nverts := nsides
  sides := sides
  sideDim t := if (sideElems t).length < 2 then 0 else dim
  sideElems := sideElems
  verts := sides
  vertElems := sideElems
  size _ := 1

/-- `ask_dual`: the neighbours of an element are the other elements at its sides. -/
theorem C63_neighbours (s : Nat → Sched) (dim nelems nsides : Nat) (sides : Nat → Nat → Nat) (sideElems : Nat → List Nat) (hd : 0 < dim)
    (hn : 0 < nelems) (hi : Incident nelems (dim + 1) nsides sides sideElems)
    (htwo : ∀ t, t < nsides → 2 ≤ (sideElems t).length → ∃ a b, a ≠ b ∧ sideElems t = [a, b]) :
    ∃ g, askDual s dim nsides (tableOf (List.range nelems) (dim + 1) sides) (graphOn (List.range nsides) sideElems) = some g ∧
      GoodGraph g nelems nelems ∧ ∀ e h, Beside g e h ↔ e < nelems ∧ ShareSide dim sides sideElems e h := by
  let m := sidesOnly dim nelems nsides sides sideElems
  have hint : ∀ t, m.interior t = true ↔ 2 ≤ (sideElems t).length := by
    intro t
    unfold FluxMesh.interior
    show _ ↔ 2 ≤ (sideElems t).length
    have : m.sideDim t = if (sideElems t).length < 2 then (0 : Int) else dim := rfl
    have hmd : m.dim = dim := rfl
    rw [this, hmd]
    split <;> simp <;> omega
  have hm : m.Sound := by
    refine ⟨hn, hi, hi, ?_, fun e _ => ?_⟩
    · intro t ht h
      exact htwo t ht ((hint t).1 h)
    · show (0 : ℚ) < 1
      exact one_pos
  have hex : markExposedSides (s 0) nsides (graphOn (List.range nsides) sideElems) =
      some ((List.range nsides).map (fun t => b2i (decide (m.sideDim t < (m.dim : Int))))) := by
    obtain ⟨out, o1, o2, o3⟩ := parVals_spec (s 0) nsides (fun i => ((graphOn (List.range nsides) sideElems).a2ab[i + 1]?).bind (fun hi =>
        ((graphOn (List.range nsides) sideElems).a2ab[i]?).map (fun (lo : Nat) => [(i, b2i ((hi : Int) - lo < 2))])))
      (fun i v => v = b2i (decide (m.sideDim i < (m.dim : Int)))) (Mem.alloc nsides) (by simp [Mem.alloc]) (by
      intro i hi
      rw [graphOn_offset_succ _ _ _ _ (List.getElem?_range hi), Option.bind_some, graphOn_offset _ _ _ (by rw [List.length_range]; omega), Option.map_some]
      refine ⟨_, rfl, ?_⟩
      congr 1
      rw [decide_eq_decide]
      show _ ↔ (if (sideElems i).length < 2 then (0 : Int) else dim) < dim
      split <;> omega)
    unfold markExposedSides
    rw [o1]
    congr 1
    apply List.ext_getElem?
    intro i
    by_cases hi : i < nsides
    · obtain ⟨v, v1, rfl⟩ := o3 i hi
      rw [v1, range_get _ _ hi]
    · rw [List.getElem?_eq_none (by omega), List.getElem?_eq_none (by simpa using hi)]
  have hdiff := diffusionGraph_spec (fun k => s k) hm
  unfold diffusionGraph at hdiff
  have hb : eachLt (s 0) m.sideDims m.dim = some ((List.range m.nsides).map (fun t => b2i (decide (m.sideDim t < (m.dim : Int))))) := by
    unfold eachLt FluxMesh.sideDims
    rw [mapEach_eq (s 0) _ (fun x => b2i (decide (x < (m.dim : Int)))) _ (fun _ _ => rfl), List.map_map]
    rfl
  rw [hb] at hdiff
  refine ⟨graphOn (List.range nelems) m.neighbours, ?_, ⟨graphOn_fan _ _, ?_, ?_, ?_⟩, ?_⟩
  · unfold askDual
    rw [hex, Option.bind_some]
    exact hdiff
  · rw [graphOn_offsets_length, List.length_range]
  · exact graphOn_last _ _
  · intro h hh
    obtain ⟨e, he, hh⟩ := List.mem_flatMap.1 hh
    have he := List.mem_range.1 he
    obtain ⟨i, hi', hh⟩ := List.mem_flatMap.1 hh
    have hi' := List.mem_range.1 hi'
    split at hh
    · have hmem := (List.mem_filter.1 hh).1
      have := (hi.above _ (hi.below e i he hi')).mem_iff.1 hmem
      obtain ⟨p, p1, rfl⟩ := List.mem_map.1 this
      obtain ⟨e', p2, p3⟩ := List.mem_flatMap.1 (List.mem_filter.1 p1).1
      obtain ⟨_, _, rfl⟩ := List.mem_map.1 p3
      exact List.mem_range.1 p2
    · cases hh
  · intro e h
    rw [graphOn_beside]
    refine and_congr_right (fun he => ?_)
    constructor
    · intro hh
      obtain ⟨i, hi', hh⟩ := List.mem_flatMap.1 hh
      have hi' := List.mem_range.1 hi'
      split at hh
      · obtain ⟨h1, h2⟩ := List.mem_filter.1 hh
        exact ⟨by simpa using h2, i, hi', h1⟩
      · cases hh
    · rintro ⟨hne, i, hi', hmem⟩
      refine List.mem_flatMap.2 ⟨i, List.mem_range.2 hi', ?_⟩
      have hself : e ∈ sideElems (sides e i) := by
        rw [(hi.above _ (hi.below e i he hi')).mem_iff]
        refine List.mem_map.2 ⟨(e, i), List.mem_filter.2 ⟨?_, by simp⟩, rfl⟩
        exact List.mem_flatMap.2 ⟨e, List.mem_range.2 he, List.mem_map.2 ⟨i, List.mem_range.2 hi', rfl⟩⟩
      have hlen : 2 ≤ (sideElems (sides e i)).length := by
        by_contra hc
        match hL : sideElems (sides e i), hself, hmem, hc with
        | [], h1, _, _ => cases h1
        | [a], h1, h2, _ =>
          simp at h1 h2
          exact hne (h2.trans h1.symm)
        | _ :: _ :: _, _, _, h3 => simp at h3
      have hin : m.interior (m.sides e i) = true := (hint _).2 hlen
      rw [if_pos hin]
      exact List.mem_filter.2 ⟨hmem, by simpa using hne⟩

/-! ## One layer -/

theorem graphReduceMax_spec (s1 s2 : Sched) {g : Graph} {nl nh : Nat} (hg : GoodGraph g nl nh) (marks : List Int) (hl : marks.length = nh) :
    ∃ out, graphReduceMax s1 s2 g marks = some out ∧ out.length = nl ∧ ∀ l, l < nl → ∃ vs : List Int,
      (∀ v, v ∈ vs ↔ ∃ h, Beside g l h ∧ marks[h]? = some v) ∧ out[l]? = some (wrapSigned 8 (vs.foldl max (-2 ^ (8 - 1)))) := by
  obtain ⟨g1, g2, g3, g4⟩ := hg
  obtain ⟨ab, a1, a2, a3⟩ := C05_unmap s1 g.ab2b marks 1 nh (by omega) g4
  obtain ⟨out, o1, o2, o3⟩ := C06_fan_reduce s2 (maxFunctor 8) g.a2ab ab 1 g.ab2b.length g1 g3 a2
  refine ⟨out, ?_, by omega, ?_⟩
  · unfold graphReduceMax
    rw [a1, Option.bind_some, o1]
  · intro l hl'
    obtain ⟨lo, hi, e1, e2, e3, e4⟩ := goodRow_get ⟨g1, g2, g3, g4⟩ hl'
    obtain ⟨_, h2⟩ := o3 l lo hi 0 e1 e2 (by omega)
    rw [entry_one] at h2
    refine ⟨fanValues ab 1 lo hi 0, ?_, h2⟩
    intro v
    unfold fanValues
    rw [List.mem_filterMap]
    constructor
    · rintro ⟨k, k1, k2⟩
      rw [List.mem_range'_1] at k1
      obtain ⟨h, h3, _⟩ := e4 k (by omega)
      rw [a3 k h 0 h3 (by omega), entry_one] at k2
      exact ⟨h, ⟨lo, hi, k, e1, e2, by omega, by omega, h3⟩, k2⟩
    · rintro ⟨h, ⟨lo', hi', k, b1, b2, b3, b4, b5⟩, hv⟩
      obtain rfl := Option.some.inj (b1.symm.trans e1)
      obtain rfl := Option.some.inj (b2.symm.trans e2)
      exact ⟨k, by rw [List.mem_range'_1]; omega, by rw [a3 k h 0 b5 (by omega), entry_one]; exact hv⟩

section
variable {W : MarkWorld} {n dim : Nat} {shared allUpward : Nat → Bool} {dual : Nat → Graph}

/-- The mark of an element after `k` layers around `B`. -/
def LayerMark (adj : Nat × Nat → Nat × Nat → Prop) (B : Nat × Nat → Prop) (k : Nat) (x : Nat × Nat) (v : Int) : Prop :=
  (Lone adj x → 0 < k → v = -128) ∧ (¬ (Lone adj x ∧ 0 < k) → (v = 0 ∨ v = 1) ∧ (v = 1 ↔ StepsTo adj B k x))

theorem markDualLayers_spec (hW : W.Ok n dim shared allUpward) (hD : W.DualOk n dim dual) (s : Nat → Nat → Nat → Sched) (B : Nat × Nat → Prop) :
    ∀ (k j : Nat) (marks : Nat → List Int), (∀ r, r < n → (marks r).length = (W.rank r).nents dim ∧
        ∀ e, e < (W.rank r).nents dim → ∃ v, (marks r)[e]? = some v ∧ LayerMark (W.Adjacent dual dim) B j (W.owner dim r e) v) →
      ∃ out, markDualLayers s (ownersArg n (shared dim) (fun r => (W.rank r).nents dim) (W.owner dim)) (world n dual) k (world n marks)
          = some (world n out) ∧
        ∀ r, r < n → (out r).length = (W.rank r).nents dim ∧
          ∀ e, e < (W.rank r).nents dim → ∃ v, (out r)[e]? = some v ∧ LayerMark (W.Adjacent dual dim) B (j + k) (W.owner dim r e) v := by
  intro k
  induction k with
  | zero => intro j marks hm; exact ⟨marks, rfl, hm⟩
  | succ k ih =>
    intro j marks hm
    have hod := hW.owners dim (Nat.le_refl _)
    obtain ⟨next, x1, x2⟩ := onRanks_spec (n := n) dual (fun r g => ((world n marks)[r]?).bind (graphReduceMax (s k r 0) (s k r 1) g))
      (fun r out => out.length = (W.rank r).nents dim ∧ ∀ l, l < (W.rank r).nents dim → ∃ vs : List Int,
        (∀ v, v ∈ vs ↔ ∃ h, Beside (dual r) l h ∧ (marks r)[h]? = some v) ∧ out[l]? = some (wrapSigned 8 (vs.foldl max (-2 ^ (8 - 1))))) (by
      intro r hr
      rw [world_get _ hr, Option.bind_some]
      exact graphReduceMax_spec _ _ (hD.good r hr) (marks r) (hm r hr).1)
    obtain ⟨syn, y1, y2⟩ := syncValues_spec hW.size hod (fun r i => s k r (i + 2)) 1 (by omega) next (fun r hr => by rw [(x2 r hr).1, Nat.mul_one])
    obtain ⟨out, o1, o2⟩ := ih (j + 1) syn (by
      intro r hr
      refine ⟨by rw [(y2 r hr).1, Nat.mul_one], ?_⟩
      intro e he
      obtain ⟨v1, v2, v3⟩ := hod.valid r e hr he
      have hs := (y2 r hr).2 e he 0 (by omega)
      rw [entry_one, entry_one] at hs
      obtain ⟨vs, w1, w2⟩ := (x2 _ v1).2 _ v2
      rw [w2] at hs
      refine ⟨_, hs, ?_⟩
      -- the marks of neighbours
      have hnb : ∀ v, v ∈ vs → ∃ y, W.Adjacent dual dim (W.owner dim r e) y ∧ (v = 0 ∨ v = 1) ∧
          (v = 1 ↔ StepsTo (W.Adjacent dual dim) B j y) := by
        intro v hv
        obtain ⟨h, h1, h2⟩ := (w1 v).1 hv
        have hl := (beside_lt (hD.good _ v1) h1).2
        obtain ⟨u, u1, u2, u3⟩ := (hm _ v1).2 h hl
        obtain rfl := Option.some.inj (h2.symm.trans u1)
        have hadj : W.Adjacent dual dim (W.owner dim r e) (W.owner dim (W.owner dim r e).1 h) := ⟨h, h1, rfl⟩
        refine ⟨_, hadj, u3 ?_⟩
        rintro ⟨hlone, _⟩
        exact hlone ⟨_, hD.both _ _ ⟨v1, v2, v3⟩ hadj⟩
      have hall : ∀ y, W.Adjacent dual dim (W.owner dim r e) y → ∃ v ∈ vs, (v = 0 ∨ v = 1) ∧ (v = 1 ↔ StepsTo (W.Adjacent dual dim) B j y) := by
        rintro y ⟨h, h1, rfl⟩
        have hl := (beside_lt (hD.good _ v1) h1).2
        obtain ⟨u, u1, u2, u3⟩ := (hm _ v1).2 h hl
        refine ⟨u, (w1 u).2 ⟨h, h1, u1⟩, u3 ?_⟩
        rintro ⟨hlone, _⟩
        exact hlone ⟨_, hD.both _ _ ⟨v1, v2, v3⟩ ⟨h, h1, rfl⟩⟩
      have hmarks : IsMarks vs := fun v hv => by obtain ⟨_, _, h, _⟩ := hnb v hv; exact h
      obtain ⟨f1, f2⟩ := foldl_max_marks vs hmarks (-2 ^ (8 - 1)) (by decide)
      refine ⟨?_, ?_⟩
      · intro hlone _
        have : vs = [] := by
          cases vs with
          | nil => rfl
          | cons v vs =>
            obtain ⟨y, hy, _⟩ := hnb v (List.mem_cons_self ..)
            exact absurd ⟨y, hy⟩ hlone
        subst this
        decide
      · intro hno
        have hex : ∃ y, W.Adjacent dual dim (W.owner dim r e) y := by
          by_contra hc; exact hno ⟨hc, by omega⟩
        obtain ⟨y0, hy0⟩ := hex
        obtain ⟨v0, hv0, _⟩ := hall y0 hy0
        have hne : vs ≠ [] := List.ne_nil_of_mem hv0
        have hst : StepsTo (W.Adjacent dual dim) B (j + 1) (W.owner dim r e) ↔ (1 : Int) ∈ vs := by
          constructor
          · rintro ⟨y, h1, h2⟩
            obtain ⟨v, g1, _, g3⟩ := hall y h1
            rw [← g3.2 h2]; exact g1
          · intro h1
            obtain ⟨y, g1, _, g3⟩ := hnb 1 h1
            exact ⟨y, g1, g3.1 rfl⟩
        rw [hst]
        by_cases h1 : (1 : Int) ∈ vs
        · rw [f1 h1]
          exact ⟨by decide, by simp only [h1, iff_true]; decide⟩
        · rw [f2 h1 hne]
          exact ⟨by decide, by simp only [h1, iff_false]; decide⟩)
    refine ⟨out, ?_, ?_⟩
    · unfold markDualLayers
      rw [x1, Option.bind_some, y1, Option.bind_some, o1]
    · intro r hr
      refine ⟨(o2 r hr).1, fun e he => ?_⟩
      obtain ⟨v, v1, v2⟩ := (o2 r hr).2 e he
      exact ⟨v, v1, by rw [Nat.add_comm k 1, ← Nat.add_assoc]; exact v2⟩

variable {K : Type} [LinearOrder K]

/-- The marks after the layers around elements of low quality. -/
theorem markSliverLayers_spec (hW : W.Ok n dim shared allUpward) (hD : W.DualOk n dim dual) (s : Nat → Nat → Nat → Sched)
    (quals : Nat → List K) (Q : Nat × Nat → K) (hQ : W.QualsOk n dim quals Q) (ceil : K) (k : Nat) :
    ∃ out, markSliverLayers s (ownersArg n (shared dim) (fun r => (W.rank r).nents dim) (W.owner dim)) (world n dual) (world n quals) ceil k
        = some (world n out) ∧
      ∀ r, r < n → (out r).length = (W.rank r).nents dim ∧
        ∀ e, e < (W.rank r).nents dim → ∃ v, (out r)[e]? = some v ∧
          LayerMark (W.Adjacent dual dim) (fun x => Q x < ceil) k (W.owner dim r e) v := by
  obtain ⟨start, t1, t2⟩ := onRanks_spec (n := n) quals (fun r q => mapEach (s k r 0) (fun x => some (b2i (decide (x < ceil)))) q)
    (fun r out => out = (quals r).map (fun x => b2i (decide (x < ceil)))) (by
    intro r hr
    exact ⟨_, mapEach_eq _ _ (fun x => b2i (decide (x < ceil))) _ (fun _ _ => rfl), rfl⟩)
  obtain ⟨out, o1, o2⟩ := markDualLayers_spec hW hD s (fun x => Q x < ceil) k 0 start (by
    intro r hr
    rw [t2 r hr]
    refine ⟨by rw [List.length_map, (hQ r hr).1], ?_⟩
    intro e he
    refine ⟨b2i (decide (Q (W.owner dim r e) < ceil)), by rw [List.getElem?_map, (hQ r hr).2 e he]; rfl, fun _ h => absurd h (by omega), fun _ => ?_⟩
    unfold b2i StepsTo
    by_cases h : Q (W.owner dim r e) < ceil
    · simp [h]
    · simp [h])
  refine ⟨out, ?_, ?_⟩
  · unfold markSliverLayers
    rw [t1, Option.bind_some, o1]
  · rw [Nat.zero_add] at o2
    exact o2

/-! ## What is offered -/

theorem owner_element (hW : W.Ok n dim shared allUpward) {r e : Nat} (hr : r < n) (he : e < (W.rank r).nents dim) :
    W.IsEntity n dim (W.owner dim r e) := (hW.owners dim (Nat.le_refl _)).valid r e hr he

theorem StepsTo_two (hD : W.DualOk n dim dual) {B : Nat × Nat → Prop} {x : Nat × Nat} (hx : W.IsEntity n dim x)
    (hl : ¬ Lone (W.Adjacent dual dim) x) {j : Nat} (h : StepsTo (W.Adjacent dual dim) B j x) : StepsTo (W.Adjacent dual dim) B (j + 2) x := by
  obtain ⟨y, hy⟩ := not_not.1 hl
  exact ⟨y, hy, x, hD.both x y hx hy, h⟩

theorem StepsTo_even (hD : W.DualOk n dim dual) {B : Nat × Nat → Prop} {x : Nat × Nat} (hx : W.IsEntity n dim x)
    (hl : ¬ Lone (W.Adjacent dual dim) x) {j : Nat} (h : StepsTo (W.Adjacent dual dim) B j x) (i : Nat) :
    StepsTo (W.Adjacent dual dim) B (j + 2 * i) x := by
  induction i with
  | zero => exact h
  | succ i ih => exact StepsTo_two hD hx hl ih

/-- `mark_sliver_layers`: an element with neighbours is offered exactly if a bad one can be reached in exactly the given number of
steps; one without neighbours is always offered. So what is offered is within that number of layers of a bad element or has no
neighbours, and what is nearer by an even number of layers is offered. What is missing: elements that are nearer by an odd number of
layers. -/
theorem C63_layers_partial (hW : W.Ok n dim shared allUpward) (hD : W.DualOk n dim dual) (s : Nat → Nat → Nat → Sched)
    (quals : Nat → List K) (Q : Nat × Nat → K) (hQ : W.QualsOk n dim quals Q) (ceil : K) (k : Nat) :
    ∃ out, markSliverLayers s (ownersArg n (shared dim) (fun r => (W.rank r).nents dim) (W.owner dim)) (world n dual) (world n quals) ceil k
        = some (world n out) ∧
      W.Offers n dim out (fun x => (Lone (W.Adjacent dual dim) x ∧ 0 < k) ∨ StepsTo (W.Adjacent dual dim) (fun y => Q y < ceil) k x) ∧
      (∀ x, StepsTo (W.Adjacent dual dim) (fun y => Q y < ceil) k x → WithinLayers (W.Adjacent dual dim) (fun y => Q y < ceil) k x) ∧
      (∀ x j i, W.IsEntity n dim x → ¬ Lone (W.Adjacent dual dim) x → StepsTo (W.Adjacent dual dim) (fun y => Q y < ceil) j x → k = j + 2 * i →
        StepsTo (W.Adjacent dual dim) (fun y => Q y < ceil) k x) := by
  obtain ⟨out, o1, o2⟩ := markSliverLayers_spec hW hD s quals Q hQ ceil k
  refine ⟨out, o1, ?_, fun x h => ⟨k, Nat.le_refl _, h⟩, fun x j i hx hl h hk => by rw [hk]; exact StepsTo_even hD hx hl h i⟩
  intro r hr
  refine ⟨(o2 r hr).1, ?_⟩
  intro e he
  obtain ⟨v, v1, v2, v3⟩ := (o2 r hr).2 e he
  constructor
  · rintro ⟨w, w1, w2⟩
    obtain rfl := Option.some.inj (v1.symm.trans w1)
    by_cases hl : Lone (W.Adjacent dual dim) (W.owner dim r e) ∧ 0 < k
    · exact Or.inl hl
    · obtain ⟨h1, h2⟩ := v3 hl
      exact Or.inr (h2.1 (by rcases h1 with h | h; exact absurd h w2; exact h))
  · rintro hc
    refine ⟨v, v1, ?_⟩
    by_cases hl : Lone (W.Adjacent dual dim) (W.owner dim r e) ∧ 0 < k
    · rw [v2 hl.1 hl.2]; decide
    · rcases hc with hc | hc
      · exact absurd hc hl
      · rw [(v3 hl).2.2 hc]; decide

/-! ## The check -/

omit [LinearOrder K] in
theorem maxMark_spec (t : Nat → Team) (rt : RankTree) (hn : 0 < n) (marks : Nat → List Int) (h : ∀ r, r < n → ∀ v ∈ marks r, -128 ≤ v) :
    ∃ m, maxMark t rt (world n marks) = some m ∧ (∀ r, r < n → ∀ v ∈ marks r, v ≤ m) ∧ (m = -128 ∨ ∃ r, r < n ∧ m ∈ marks r) := by
  obtain ⟨maxes, x1, x2⟩ := onRanks_spec (n := n) marks (fun r m => arrayMax (t r) (-128) m)
    (fun r m => (∀ x ∈ marks r, x ≤ m) ∧ (marks r = [] → m = -128) ∧ (marks r ≠ [] → m ∈ marks r)) (by
    intro r hr
    exact C43_get_max (t r) (-128) (marks r) (h r hr))
  have hge : ∀ r, r < n → -128 ≤ maxes r := by
    intro r hr
    obtain ⟨_, h2, h3⟩ := x2 r hr
    by_cases he : marks r = []
    · rw [h2 he]
    · exact h r hr _ (h3 he)
  have hop : (fun x y : Int => if x < y then y else x) = max := by
    funext x y
    rw [Int.max_def]
    split <;> split <;> omega
  have hred := allreduce_eq rt (max : Int → Int → Int) (-128) (world n maxes)
    (by intro h0; have := congrArg List.length h0; rw [world_length] at this; simp at this; omega)
    Int.max_assoc Int.max_comm (by
      intro x hx
      obtain ⟨r, hr⟩ := List.mem_iff_getElem?.1 hx
      have hlt : r < n := by have := (List.getElem?_eq_some_iff.1 hr).1; rwa [world_length] at this
      rw [world_get _ hlt] at hr
      obtain rfl := Option.some.inj hr
      have := hge r hlt
      omega)
  refine ⟨_, by unfold maxMark; rw [x1, Option.bind_some, hop, hred], ?_, ?_⟩
  · intro r hr v hv
    exact Int.le_trans ((x2 r hr).1 v hv) ((foldl_max_le (world n maxes) (-128)).2.1 _ (List.mem_of_getElem? (world_get _ hr)))
  · rcases (foldl_max_le (world n maxes) (-128)).2.2 with h3 | h3
    · exact Or.inl h3
    · obtain ⟨r, hr⟩ := List.mem_iff_getElem?.1 h3
      have hlt : r < n := by have := (List.getElem?_eq_some_iff.1 hr).1; rwa [world_length] at this
      rw [world_get _ hlt] at hr
      obtain ⟨_, h4, h5⟩ := x2 r hlt
      by_cases he : marks r = []
      · exact Or.inl (by rw [← Option.some.inj hr, h4 he])
      · exact Or.inr ⟨r, hlt, by rw [← Option.some.inj hr]; exact h5 he⟩

/-- An element from which a bad one is reached in `k` steps exists exactly if there is a bad one that has neighbours, or no steps are
made. -/
theorem StepsTo_some (hW : W.Ok n dim shared allUpward) (hD : W.DualOk n dim dual) {B : Nat × Nat → Prop} (k : Nat) :
    (∃ x, W.IsEntity n dim x ∧ StepsTo (W.Adjacent dual dim) B k x) ↔
      ∃ x, W.IsEntity n dim x ∧ B x ∧ (k = 0 ∨ ¬ Lone (W.Adjacent dual dim) x) := by
  have hent : ∀ x y, W.IsEntity n dim x → W.Adjacent dual dim x y → W.IsEntity n dim y := by
    rintro x y ⟨h1, h2, h3⟩ ⟨h, hb, rfl⟩
    exact owner_element hW h1 (beside_lt (hD.good _ h1) hb).2
  constructor
  · rintro ⟨x, hx, h⟩
    induction k generalizing x with
    | zero => exact ⟨x, hx, h, Or.inl rfl⟩
    | succ k ih =>
      obtain ⟨y, hy, h⟩ := h
      cases k with
      | zero => exact ⟨y, hent x y hx hy, h, Or.inr (not_not.2 ⟨x, hD.both x y hx hy⟩)⟩
      | succ k =>
        obtain ⟨z, z1, z2, z3⟩ := ih y (hent x y hx hy) h
        exact ⟨z, z1, z2, Or.inr (z3.resolve_left (by omega))⟩
  · rintro ⟨x, hx, hB, h | h⟩
    · subst h; exact ⟨x, hx, hB⟩
    · rcases Nat.even_or_odd' k with ⟨i, rfl | rfl⟩
      · exact ⟨x, hx, by have := StepsTo_even hD hx h (j := 0) hB i; rwa [Nat.zero_add] at this⟩
      · obtain ⟨y, hy⟩ := not_not.1 h
        have hye := hent x y hx hy
        refine ⟨y, hye, ?_⟩
        have h1 : StepsTo (W.Adjacent dual dim) B 1 y := ⟨x, hD.both x y hx hy, hB⟩
        have := StepsTo_even hD hye (not_not.2 ⟨x, hD.both x y hx hy⟩) h1 i
        rwa [Nat.add_comm 1] at this

/-- The check after the layers passes exactly if some bad element has a neighbour, or no layers are asked for. -/
theorem C63_check_partial (hW : W.Ok n dim shared allUpward) (hD : W.DualOk n dim dual) (s : Nat → Nat → Nat → Sched) (t : Nat → Team)
    (rt : RankTree) (hn : 0 < n) (quals : Nat → List K) (Q : Nat × Nat → K) (hQ : W.QualsOk n dim quals Q) (ceil : K) (k : Nat) :
    let own := ownersArg n (shared dim) (fun r => (W.rank r).nents dim) (W.owner dim)
    ((sliverElems s t rt own (world n dual) (world n quals) ceil k).isSome ↔
      ∃ x, W.IsEntity n dim x ∧ Q x < ceil ∧ (k = 0 ∨ ¬ Lone (W.Adjacent dual dim) x)) ∧
    ∀ out, sliverElems s t rt own (world n dual) (world n quals) ceil k = some out →
      markSliverLayers s own (world n dual) (world n quals) ceil k = some out := by
  intro own
  obtain ⟨out, o1, o2⟩ := markSliverLayers_spec hW hD s quals Q hQ ceil k
  have hval : ∀ r, r < n → ∀ v ∈ out r, v = -128 ∨ v = 0 ∨ v = 1 := by
    intro r hr v hv
    obtain ⟨e, he⟩ := List.mem_iff_getElem?.1 hv
    have hlt := (List.getElem?_eq_some_iff.1 he).1
    rw [(o2 r hr).1] at hlt
    obtain ⟨w, w1, w2, w3⟩ := (o2 r hr).2 e hlt
    obtain rfl := Option.some.inj (he.symm.trans w1)
    by_cases hl : Lone (W.Adjacent dual dim) (W.owner dim r e) ∧ 0 < k
    · exact Or.inl (w2 hl.1 hl.2)
    · exact Or.inr (w3 hl).1
  obtain ⟨m, m1, m2, m3⟩ := maxMark_spec t rt hn out (by intro r hr v hv; rcases hval r hr v hv with h | h | h <;> omega)
  have hs : sliverElems s t rt own (world n dual) (world n quals) ceil k = if m = 1 then some (world n out) else none := by
    unfold sliverElems
    rw [o1, Option.bind_some, m1, Option.bind_some]
  have hm1 : m = 1 ↔ ∃ x, W.IsEntity n dim x ∧ StepsTo (W.Adjacent dual dim) (fun y => Q y < ceil) k x := by
    constructor
    · rintro rfl
      rcases m3 with h | ⟨r, hr, hv⟩
      · cases h
      · obtain ⟨e, he⟩ := List.mem_iff_getElem?.1 hv
        have hlt := (List.getElem?_eq_some_iff.1 he).1
        rw [(o2 r hr).1] at hlt
        obtain ⟨w, w1, w2, w3⟩ := (o2 r hr).2 e hlt
        obtain rfl := Option.some.inj (he.symm.trans w1)
        refine ⟨_, owner_element hW hr hlt, (w3 ?_).2.1 rfl⟩
        rintro ⟨h1, h2⟩
        exact absurd (w2 h1 h2) (by decide)
    · rintro ⟨x, ⟨x1, x2, x3⟩, hx⟩
      obtain ⟨w, w1, w2, w3⟩ := (o2 _ x1).2 _ x2
      rw [x3] at w2 w3
      have hnl : ¬ (Lone (W.Adjacent dual dim) x ∧ 0 < k) := by
        rintro ⟨h1, h2⟩
        cases k with
        | zero => omega
        | succ k => obtain ⟨y, hy, _⟩ := hx; exact h1 ⟨y, hy⟩
      have hw := (w3 hnl).2.2 hx
      subst hw
      have h1 := m2 _ x1 1 (List.mem_of_getElem? w1)
      rcases m3 with h | ⟨r, hr, hv⟩
      · omega
      · rcases hval r hr m hv with h | h | h <;> omega
  rw [← StepsTo_some hW hD k, ← hm1, hs]
  refine ⟨?_, ?_⟩
  · split <;> simp_all
  · intro o ho
    split at ho
    · rw [o1, ← Option.some.inj ho]
    · cases ho

/-! ## Edges to be swapped -/

omit [LinearOrder K] in
theorem landMarks_spec (s : Sched) {a b : List Int} (hl : a.length = b.length) (ha : IsMarks a) (hb : IsMarks b) :
    ∃ out, landEach s a b = some out ∧ out.length = a.length ∧ IsMarks out ∧ ∀ e, Marked out e ↔ Marked a e ∧ Marked b e := by
  refine ⟨_, zipEach_eq s _ (fun x y => b2i (x ≠ 0 && y ≠ 0)) a b hl (fun i x y _ _ => ?_), by simp [hl], ?_, ?_⟩
  · rfl
  · intro m hm
    obtain ⟨i, hi⟩ := List.mem_iff_getElem?.1 hm
    rw [List.getElem?_zipWith] at hi
    split at hi
    · obtain rfl := Option.some.inj hi
      unfold b2i; split <;> simp
    · cases hi
  · intro e
    unfold Marked
    by_cases he : e < a.length
    · have h1 : a[e]? = some a[e] := List.getElem?_eq_getElem he
      have h2 : b[e]? = some (b[e]'(by omega)) := List.getElem?_eq_getElem (by omega)
      rw [List.getElem?_zipWith, h1, h2]
      rcases ha _ (List.getElem_mem he) with x | x <;> rcases hb _ (List.getElem_mem (show e < b.length by omega)) with y | y <;>
        rw [x, y] <;> simp [b2i]
    · rw [List.getElem?_zipWith, List.getElem?_eq_none (show a.length ≤ e by omega), List.getElem?_eq_none (show b.length ≤ e by omega)]
      simp

/-- `swap_part1`: it ends normally exactly if some bad element has a neighbour, or no layers are asked for. Then the candidates are
exactly the edges inside the domain that bound an offered element, on every copy, and it says that there is nothing to do exactly if
there are none. -/
theorem C63_swap_partial (hW : W.Ok n dim shared allUpward) (hD : W.DualOk n dim dual) (h1 : 1 < dim) (hup : allUpward 1 = true)
    (s : Nat → Nat → Nat → Sched) (t : Nat → Nat → Team)
    (rt : Nat → RankTree) (hn : 0 < n) (quals : Nat → List K) (Q : Nat × Nat → K) (hQ : W.QualsOk n dim quals Q) (ceil : K) (k : Nat) :
    let res := swapPart1 s t rt (ownersArg n (shared dim) (fun r => (W.rank r).nents dim) (W.owner dim))
      (ownersArg n (shared 1) (fun r => (W.rank r).nents 1) (W.owner 1)) dim (world n W.rank) (world n dual) (world n quals) ceil k
    let want := SwapEdge W n dim (fun x => (Lone (W.Adjacent dual dim) x ∧ 0 < k) ∨ StepsTo (W.Adjacent dual dim) (fun y => Q y < ceil) k x)
    (res = none ↔ ¬ ∃ x, W.IsEntity n dim x ∧ Q x < ceil ∧ (k = 0 ∨ ¬ Lone (W.Adjacent dual dim) x)) ∧
    (res = some none → ¬ ∃ x, W.IsEntity n 1 x ∧ want x) ∧
    ∀ cands, res = some (some cands) → (∃ x, W.IsEntity n 1 x ∧ want x) ∧ ∃ out, cands = world n out ∧ W.Says n 1 out want := by
  intro res want
  obtain ⟨c1, c2⟩ := C63_check_partial hW hD s (t 0) (rt 0) hn quals Q hQ ceil k
  obtain ⟨elems, e1, e2, _⟩ := C63_layers_partial hW hD s quals Q hQ ceil k
  by_cases hc : ∃ x, W.IsEntity n dim x ∧ Q x < ceil ∧ (k = 0 ∨ ¬ Lone (W.Adjacent dual dim) x)
  · obtain ⟨o, ho⟩ := Option.isSome_iff_exists.1 (c1.2 hc)
    obtain rfl : o = world n elems := Option.some.inj ((c2 o ho).symm.trans e1)
    obtain ⟨edges, d1, d2⟩ := markDownBelow_spec hW (s (k + 1)) h1 (Nat.le_refl _) elems
      (fun x => (Lone (W.Adjacent dual dim) x ∧ 0 < k) ∨ StepsTo (W.Adjacent dual dim) (fun y => Q y < ceil) k x) e2
    rw [hup] at d1
    have hdown : markDownRanks (s (k + 1)) true (ownersArg n (shared 1) (fun r => (W.rank r).nents 1) (W.owner 1)) (world n W.rank) dim 1
        (world n elems) = some (world n edges) := by
      unfold markDownRanks
      rw [if_pos ⟨by omega, hW.small⟩, if_neg (by omega), world_map, d1]
    obtain ⟨cands, b1, b2⟩ := onRanks_spec (n := n) W.rank (fun r m => ((world n edges)[r]?).bind (fun c =>
        (eachEqTo (s (k + 2) r 0) (m.classDim 1) (wrapSigned 8 dim)).bind (fun inner => landEach (s (k + 2) r 1) c inner)))
      (fun r out => out.length = (W.rank r).nents 1 ∧ IsMarks out ∧
        ∀ e, e < (W.rank r).nents 1 → (Marked out e ↔ want (W.owner 1 r e))) (by
      intro r hr
      have hlen := (hW.lengths r 1 hr (by omega)).1
      have hin : eachEqTo (s (k + 2) r 0) ((W.rank r).classDim 1) (wrapSigned 8 dim) =
          some (((W.rank r).classDim 1).map (fun x => b2i (x = (dim : Int)))) := by
        unfold eachEqTo
        rw [wrap_dim hW.small]
        exact mapEach_eq _ _ (fun x => b2i (x = (dim : Int))) _ (fun _ _ => rfl)
      obtain ⟨f1, f2, f3⟩ := d2 r hr
      obtain ⟨out, g1, g2, g3, g4⟩ := landMarks_spec (s (k + 2) r 1) (a := edges r) (b := ((W.rank r).classDim 1).map (fun x => b2i (x = (dim : Int))))
        (by rw [f1, List.length_map, hlen]) f2 (by
          intro v hv
          obtain ⟨x, _, rfl⟩ := List.mem_map.1 hv
          unfold b2i; split <;> simp)
      refine ⟨out, ?_, by rw [g2, f1], g3, ?_⟩
      · rw [world_get _ hr, Option.bind_some, hin, Option.bind_some, g1]
      · intro e he
        rw [g4, f3 e he, and_comm]
        refine and_congr_left (fun _ => ?_)
        obtain ⟨c, i, k1, k2⟩ := hW.classes r 1 e hr (by omega) he
        show (((W.rank r).classDim 1).map _)[e]? = some 1 ↔ _
        rw [List.getElem?_map, k1.1, Option.map_some]
        constructor
        · intro h
          have : c = dim := by
            by_contra hne
            simp [b2i, hne] at h
          subst this
          exact ⟨i, k2⟩
        · rintro ⟨i', k3⟩
          have : c = dim := Option.some.inj (k2.1.symm.trans k3.1)
          subst this
          simp [b2i])
    obtain ⟨m, m1, m2, m3⟩ := maxMark_spec (t 1) (rt 1) hn cands (by
      intro r hr v hv; rcases (b2 r hr).2.1 v hv with h | h <;> omega)
    have hres : res = some (if m ≤ 0 then none else some (world n cands)) := by
      show swapPart1 _ _ _ _ _ _ _ _ _ _ _ = _
      unfold swapPart1
      rw [ho, Option.bind_some, hdown, Option.bind_some, b1, Option.bind_some, m1, Option.map_some]
    have hm : m ≤ 0 ↔ ¬ ∃ x, W.IsEntity n 1 x ∧ want x := by
      constructor
      · rintro hm ⟨x, ⟨x1, x2, x3⟩, hx⟩
        have hmk := ((b2 _ x1).2.2 _ x2).2 (by rw [x3]; exact hx)
        have := m2 _ x1 1 (List.mem_of_getElem? hmk)
        omega
      · intro hno
        rcases m3 with h | ⟨r, hr, hv⟩
        · omega
        · rcases (b2 r hr).2.1 m hv with h | h
          · omega
          · subst h
            obtain ⟨e, he⟩ := List.mem_iff_getElem?.1 hv
            have hlt := (List.getElem?_eq_some_iff.1 he).1
            rw [(b2 r hr).1] at hlt
            exact absurd ⟨_, (hW.owners 1 (by omega)).valid r e hr hlt, ((b2 r hr).2.2 e hlt).1 he⟩ hno
    rw [hres]
    refine ⟨by simp [hc], ?_, ?_⟩
    · intro h
      rw [← hm]
      by_contra hc'
      rw [if_neg hc'] at h
      cases h
    · intro c h
      have hpos : ¬ m ≤ 0 := by
        intro h0
        rw [if_pos h0] at h
        cases h
      rw [if_neg hpos] at h
      obtain rfl := Option.some.inj (Option.some.inj h)
      exact ⟨by by_contra hno; exact hpos (hm.2 hno), cands, rfl, b2⟩
  · have hres : res = none := by
      show swapPart1 _ _ _ _ _ _ _ _ _ _ _ = _
      unfold swapPart1
      have : sliverElems s (t 0) (rt 0) (ownersArg n (shared dim) (fun r => (W.rank r).nents dim) (W.owner dim)) (world n dual) (world n quals) ceil k = none := by
        rw [← Option.not_isSome_iff_eq_none]
        exact fun h => hc (c1.1 h)
      rw [this, Option.bind_none]
    rw [hres]
    refine ⟨by simp [hc], ?_, ?_⟩
    · intro h; cases h
    · intro c h; cases h

end

/-! ## What does not hold -/

/-- In a strip of four triangles of which the first is bad, the steps that lead to it from a triangle are even in number exactly if
the number of the triangle is. -/
theorem strip_parity {m k : Nat} {x : Nat × Nat} (h : StepsTo ((stripMesh m).toWorld.Adjacent (fun _ => stripDual m) 2) (fun y => y.2 = 0) k x) :
    (x.2 + k) % 2 = 0 := by
  induction k generalizing x with
  | zero =>
    have h : x.2 = 0 := h
    omega
  | succ k ih =>
    obtain ⟨y, hy, h⟩ := h
    have := ih h
    have hy := stripDual_adjacent.1 hy
    omega

/-- The qualities of a strip of which only the first triangle is bad. -/
def stripQual (x : Nat × Nat) : Int := if x.2 = 0 then 0 else 1

theorem stripQual_ok (m : Nat) : (stripMesh m).toWorld.QualsOk 1 2 (fun r => (List.range m).map (fun e => stripQual (r, e))) stripQual := by
  intro r _
  exact ⟨by rw [List.length_map, List.length_range]; rfl, fun e he => range_get m (fun e => stripQual (r, e)) he⟩

theorem stripQual_bad : (fun x => stripQual x < 1) = (fun y : Nat × Nat => y.2 = 0) := by
  funext x
  unfold stripQual
  split <;> simp_all

/-- The full property: the offered elements are exactly those within the given number of layers of a bad one. -/
def OffersLayers : Prop := ∀ (W : MarkWorld) (n dim : Nat) (shared allUpward : Nat → Bool) (dual : Nat → Graph) (s : Nat → Nat → Nat → Sched)
    (quals : Nat → List Int) (Q : Nat × Nat → Int) (ceil : Int) (k : Nat),
  W.Ok n dim shared allUpward → W.DualOk n dim dual → W.QualsOk n dim quals Q →
  ∃ out, markSliverLayers s (ownersArg n (shared dim) (fun r => (W.rank r).nents dim) (W.owner dim)) (world n dual) (world n quals) ceil k
      = some (world n out) ∧ W.Offers n dim out (WithinLayers (W.Adjacent dual dim) (fun y => Q y < ceil) k)

/-- With four layers, which is the default, an element three layers from a bad one is not offered; with one layer the bad element
itself is not. -/
theorem C63_layers_refuted : ¬ OffersLayers := by
  intro h
  obtain ⟨out, o1, o2⟩ := h _ 1 2 _ _ _ (fun _ _ _ => Sched.serial) _ _ 1 4 (stripMesh_ok 4) (stripDual_ok 4) (stripQual_ok 4)
  obtain ⟨out', p1, p2, _⟩ := C63_layers_partial (stripMesh_ok 4) (stripDual_ok 4) (fun _ _ _ => Sched.serial) _ _ (stripQual_ok 4) 1 4
  have hout : out 0 = out' 0 := by
    have e := Option.some.inj (o1.symm.trans p1)
    have e0 : (world 1 out)[0]? = some (out 0) := world_get _ (by omega)
    rw [e, world_get _ (by omega)] at e0
    exact (Option.some.inj e0).symm
  have hin := ((o2 0 (by omega)).2 3 (show 3 < 4 by omega)).2 ⟨3, by omega,
    (0, 2), stripDual_adjacent.2 ⟨rfl, by decide, by decide, by decide⟩, (0, 1), stripDual_adjacent.2 ⟨rfl, by decide, by decide, by decide⟩,
    (0, 0), stripDual_adjacent.2 ⟨rfl, by decide, by decide, by decide⟩, show stripQual (0, 0) < 1 by decide⟩
  rw [hout, (p2 0 (by omega)).2 3 (show 3 < 4 by omega), stripQual_bad] at hin
  rcases hin with ⟨hl, _⟩ | hin
  · exact hl ⟨(0, 2), stripDual_adjacent.2 ⟨rfl, by decide, by decide, by decide⟩⟩
  · exact absurd (strip_parity hin) (by decide)

/-- With one layer, the bad element itself is not offered. -/
theorem C63_bad_refuted : ∃ out, markSliverLayers (fun _ _ _ => Sched.serial) none [stripDual 2] [[0, 1]] (1 : Int) 1 = some [out] ∧ out = [0, 1] :=
  ⟨_, by decide +kernel, rfl⟩

/-- A good element without neighbours is offered. -/
theorem C63_lone_refuted : ∃ out, markSliverLayers (fun _ _ _ => Sched.serial) none [stripDual 1] [[5]] (1 : Int) 4 = some [out] ∧ out = [-128] :=
  ⟨_, by decide +kernel, rfl⟩

/-- If the only bad element has no neighbours, improving it stops the program. -/
theorem C63_check_refuted : ¬ ∀ (W : MarkWorld) (n dim : Nat) (shared allUpward : Nat → Bool) (dual : Nat → Graph) (s : Nat → Nat → Nat → Sched)
    (t : Nat → Team) (rt : RankTree) (quals : Nat → List Int) (Q : Nat × Nat → Int) (ceil : Int) (k : Nat),
    W.Ok n dim shared allUpward → W.DualOk n dim dual → W.QualsOk n dim quals Q → (∃ x, W.IsEntity n dim x ∧ Q x < ceil) →
    (sliverElems s t rt (ownersArg n (shared dim) (fun r => (W.rank r).nents dim) (W.owner dim)) (world n dual) (world n quals) ceil k).isSome := by
  intro h
  have := h _ 1 2 _ _ _ (fun _ _ _ => Sched.serial) (fun _ => Team.serial) RankTree.left _ _ 1 4 (stripMesh_ok 1) (stripDual_ok 1) (stripQual_ok 1)
    ⟨(0, 0), ⟨by decide, by decide, rfl⟩, by decide⟩
  rw [(C63_check_partial (stripMesh_ok 1) (stripDual_ok 1) _ _ _ (by omega) _ _ (stripQual_ok 1) 1 4).1] at this
  obtain ⟨x, ⟨_, hx, _⟩, _, h1 | h1⟩ := this
  · cases h1
  · apply h1
    rintro ⟨y, hy⟩
    have hy := stripDual_adjacent.1 hy
    omega

/-- The graph of neighbours of the strip is what the mesh makes of its sides. -/
example : askDual (fun _ => Sched.reversed) 2 9 ((stripMesh 4).rank.down 2 1) ((stripMesh 4).rank.up 1 2) = some (stripDual 4) := by decide +kernel

/-- The first two inner edges bound triangles that are offered. -/
example : swapPart1 (fun _ _ _ => Sched.serial) (fun _ _ => Team.serial) (fun _ => RankTree.left) none none 2 [(stripMesh 4).rank] [stripDual 4]
    [[(0 : Int), 1, 1, 1]] 1 0 = some (some [[0, 1, 0, 0, 0, 0, 0, 0, 0]]) := by decide +kernel

/-- Two triangles with a common side. -/
example : Incident 2 3 5 ((stripMesh 2).sub 2 1) ((stripMesh 2).upOf 1 2) ∧
    ∀ t, t < 5 → 2 ≤ ((stripMesh 2).upOf 1 2 t).length → ∃ a b, a ≠ b ∧ (stripMesh 2).upOf 1 2 t = [a, b] := by
  have hb : ∀ e, e < 2 → ∀ i, i < 3 → (stripMesh 2).sub 2 1 e i < 5 := by decide
  refine ⟨⟨fun e i he hi => hb e he i hi, by decide⟩, ?_⟩
  intro t ht h
  have : t = 1 ∨ t ≠ 1 := by omega
  rcases this with rfl | hne
  · exact ⟨0, 1, by decide, by decide⟩
  · exfalso
    revert h
    have : ∀ t, t < 5 → t ≠ 1 → ¬ 2 ≤ ((stripMesh 2).upOf 1 2 t).length := by decide
    exact this t ht hne

end OmegaH
