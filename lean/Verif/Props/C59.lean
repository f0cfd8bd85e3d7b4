import Mathlib.Algebra.Order.Ring.Rat
import Mathlib.Tactic.NormNum
import Verif.Lemmas.Momentum
/-!
# C59: correcting the recorded errors restores the totals
-/
namespace OmegaH
open Spec

variable {K : Type} [Field K] [LinearOrder K]

/-- What the end of adaptation does to a conserved density with `w` components: `D` are the densities and `E` the errors that have
been recorded. -/
def Spec.FluxMesh.densityCorrection (m : FluxMesh K) (s : Nat → Sched) (fuel w : Nat) (D E : Nat → Nat → K) (opts : DiffuseOpts K) : Option (List K) :=
  (diffusionGraph s m.dim m.sideDims m.sideArray m.sideGraph).bind (fun g =>
    correctDensity (fun k => s (k + 3)) fuel m.dim g (tableOf (List.range m.nelems) w D) m.sizes (tableOf (List.range m.nelems) w E) opts)

/-- What it does to a velocity: `D` and `old` are the densities now and before they were corrected, `V` the velocities of the
vertices and `E` the errors of momentum. -/
def Spec.FluxMesh.momentumCorrection (m : FluxMesh K) (s : Nat → Sched) (fuel w : Nat) (flags : Nat → BitVec 8) (D old : Nat → K) (V E : Nat → Nat → K)
    (opts : DiffuseOpts K) : Option (List K) :=
  (diffusionGraph s m.dim m.sideDims m.sideArray m.sideGraph).bind (fun g =>
    correctMomentum (fun k => s (k + 3)) fuel m.dim w m.nverts m.nelems g m.vertArray m.vertGraph ((List.range m.nverts).map flags)
      ((List.range m.nelems).map D) ((List.range m.nelems).map old) m.sizes (tableOf (List.range m.nverts) w V)
      (tableOf (List.range m.nelems) w E) opts)

variable [IsStrictOrderedRing K] {m : FluxMesh K}

theorem densityCorrection_spec (s : Nat → Sched) (hm : m.Sound) (fuel w : Nat) (hw : 0 < w) (D E : Nat → Nat → K) (opts : DiffuseOpts K)
    (hQ : ∀ e c, e < m.nelems → c < w → 0 < weight opts (D e c * m.size e)) :
    (∃ E', Evened m opts w fuel E (fun e c => D e c * m.size e) E' ∧ m.densityCorrection s fuel w D E opts
        = some (tableOf (List.range m.nelems) w (fun e c => (D e c * m.size e - E' e c) / m.size e))) ∨
    ((opts.isNone = false ∧ ∃ c, c < w ∧ ∀ k, k ≤ fuel → ¬ Spread m opts (fun e => E e c) (fun e => D e c * m.size e) k) ∧
      m.densityCorrection s fuel w D E opts = none) := by
  unfold FluxMesh.densityCorrection correctDensity
  rw [diffusionGraph_spec s hm, Option.bind_some]
  unfold FluxMesh.sizes
  rw [multiply_table]
  simp only [bind, Option.bind_some]
  rcases diffuseWeighted_spec (fun k => s (k + 3 + 3)) hm fuel w hw E (fun e c => D e c * m.size e) opts hQ with ⟨E', h1, h2⟩ | ⟨h1, h2⟩
  · left
    refine ⟨E', h1, ?_⟩
    rw [h2, Option.bind_some, subtract_table, Option.bind_some]
    exact divideEach_table _ _ (by simpa using hm.some.ne') _ _ _ (fun e he => (hm.size e (List.mem_range.1 he)).ne')
  · right
    refine ⟨h1, ?_⟩
    rw [h2]; rfl

/-- **C59**, first part: what correction returns. In every material, or any part of the mesh that no interior side leads out of, the
integral of every component of the density is what it was less the errors of that part, and in no element has it changed by more than
the tolerance allows. -/
theorem C59_density_partial (s : Nat → Sched) (hm : m.Sound) (fuel w : Nat) (hw : 0 < w) (D E : Nat → Nat → K) (opts : DiffuseOpts K)
    (hQ : ∀ e c, e < m.nelems → c < w → 0 < weight opts (D e c * m.size e)) (out : List K)
    (h : m.densityCorrection s fuel w D E opts = some out) :
    ∃ D' : Nat → Nat → K, out = tableOf (List.range m.nelems) w D' ∧ ∀ c, c < w →
      (∀ C, m.Closed C → m.total C (fun e => D' e c * m.size e) = m.total C (fun e => D e c * m.size e) - m.total C (fun e => E e c)) ∧
      (opts.isNone = false → ∀ e, e < m.nelems → |D' e c * m.size e - D e c * m.size e| ≤ opts.tolerance * weight opts (D e c * m.size e)) ∧
      (opts.isNone = true → ∀ e, e < m.nelems → D' e c * m.size e = D e c * m.size e - E e c) := by
  rcases densityCorrection_spec s hm fuel w hw D E opts hQ with ⟨E', h1, h2⟩ | ⟨_, h2⟩
  · rw [h2] at h
    obtain rfl := Option.some.inj h
    refine ⟨_, rfl, ?_⟩
    intro c hc
    have hback : ∀ e, e < m.nelems → (D e c * m.size e - E' e c) / m.size e * m.size e = D e c * m.size e - E' e c :=
      fun e he => div_mul_cancel₀ _ (hm.size e he).ne'
    refine ⟨?_, ?_, ?_⟩
    · intro C hC
      rw [total_congr (g := fun e => D e c * m.size e - E' e c) hback]
      show sumOver _ _ _ = _
      rw [sumOver_sub]
      have := h1.total hm hQ hC hc
      rw [← this]
      rfl
    · intro hn e he
      show |(D e c * m.size e - E' e c) / m.size e * m.size e - _| ≤ _
      rw [hback e he, sub_sub_cancel_left, abs_neg]
      exact h1.small hQ hn he hc
    · intro hn e he
      show (D e c * m.size e - E' e c) / m.size e * m.size e = _
      rw [hback e he]
      rcases h1 with ⟨_, h1⟩ | ⟨h1, _⟩
      · rw [h1]
      · rw [hn] at h1; simp at h1
  · rw [h2] at h; simp at h

/-- Enough rounds for all components. -/
theorem enough_rounds [Archimedean K] (hm : m.Sound) (w : Nat) (E Q : Nat → Nat → K) (opts : DiffuseOpts K)
    (hQ : ∀ e c, e < m.nelems → c < w → 0 < weight opts (Q e c))
    (hE : opts.isNone = false → ∀ e c, e < m.nelems → c < w → ∃ C, m.Body C ∧ C e = true ∧
      |m.total C (fun e => E e c)| < opts.tolerance * m.total C (fun e => weight opts (Q e c))) :
    ∃ T, ∀ fuel, T ≤ fuel → ¬ (opts.isNone = false ∧ ∃ c, c < w ∧ ∀ k, k ≤ fuel → ¬ Spread m opts (fun e => E e c) (fun e => Q e c) k) := by
  have hone : ∀ c, c < w → True → ∃ k, opts.isNone = false → ∃ j, j ≤ k ∧ Spread m opts (fun e => E e c) (fun e => Q e c) j := by
    intro c hc _
    cases hn : opts.isNone
    · obtain ⟨k, hk⟩ := exists_small hm (W := fun e => weight opts (Q e c)) (fun e he => hQ e c he hc)
        (relative opts (fun e => E e c) (fun e => Q e c)) opts.tolerance (by
          intro e he
          obtain ⟨C, h1, h2, h3⟩ := hE hn e c he hc
          refine ⟨C, h1, h2, ?_⟩
          rw [total_congr (g := fun e => E e c) (fun e he => relative_mul (E := fun e => E e c) (Q := fun e => Q e c) (hQ e c he hc))]
          exact h3)
      exact ⟨k, fun _ => ⟨k, le_refl _, hk⟩⟩
    · exact ⟨0, fun h => by simp at h⟩
  obtain ⟨T, hT⟩ := uniform_bound (fun k c => opts.isNone = false → ∃ j, j ≤ k ∧ Spread m opts (fun e => E e c) (fun e => Q e c) j)
    (fun k t c h hkt hn => by obtain ⟨j, h1, h2⟩ := h hn; exact ⟨j, le_trans h1 hkt, h2⟩) w (fun _ => True) hone
  refine ⟨T, ?_⟩
  rintro fuel hf ⟨hn, c, hc, h1⟩
  obtain ⟨j, h3, h4⟩ := hT c hc trivial hn
  exact absurd h4 (h1 j (le_trans h3 hf))

/-- **C59**, second part: correction comes to an end when, in every connected body that reaches the boundary, the errors together are
less than the tolerance allows for the body as a whole. -/
theorem C59_density_ends_partial [Archimedean K] (hm : m.Sound) (w : Nat) (hw : 0 < w) (D E : Nat → Nat → K) (opts : DiffuseOpts K)
    (hQ : ∀ e c, e < m.nelems → c < w → 0 < weight opts (D e c * m.size e))
    (hE : opts.isNone = false → ∀ e c, e < m.nelems → c < w → ∃ C, m.Body C ∧ C e = true ∧
      |m.total C (fun e => E e c)| < opts.tolerance * m.total C (fun e => weight opts (D e c * m.size e))) :
    ∃ rounds, ∀ s fuel, rounds ≤ fuel → (m.densityCorrection s fuel w D E opts).isSome := by
  obtain ⟨T, hT⟩ := enough_rounds hm w E (fun e c => D e c * m.size e) opts hQ hE
  refine ⟨T, ?_⟩
  intro s fuel hf
  rcases densityCorrection_spec s hm fuel w hw D E opts hQ with ⟨E', _, h2⟩ | ⟨h1, _⟩
  · rw [h2]; rfl
  · exact absurd h1 (hT fuel hf)

/-- A round of diffusion is always possible: only the end of the rounds can fail to come. -/
theorem C59_rounds_go_on (s : Nat → Sched) (r : Sched) (hm : m.Sound) (weights x : List K) (hx : x.length = m.nelems)
    (hw : weights.length = m.nelems) (hpos : ∀ y ∈ weights, 0 < y) :
    ∃ g out, diffusionGraph s m.dim m.sideDims m.sideArray m.sideGraph = some g ∧ diffuseOnce r m.dim g x weights = some out ∧
      out.length = m.nelems := by
  have hlist : ∀ l : List K, l.length = m.nelems → l = (List.range m.nelems).map (fun e => l.getD e 0) := by
    intro l hl
    apply List.ext_getElem?
    intro p
    by_cases hp : p < m.nelems
    · rw [range_get _ _ hp, List.getD_eq_getElem?_getD, List.getElem?_eq_getElem (by omega), Option.getD_some]
    · rw [List.getElem?_eq_none (by omega), List.getElem?_eq_none (by simp; omega)]
  refine ⟨_, (List.range m.nelems).map (fluxStep m (fun e => weights.getD e 0) (fun e => x.getD e 0)), diffusionGraph_spec s hm, ?_, by simp⟩
  rw [hlist x hx, hlist weights hw]
  have h := diffuseOnce_spec r hm (W := fun e => weights.getD e 0) (by
    intro e he
    rw [List.getD_eq_getElem?_getD, List.getElem?_eq_getElem (by omega), Option.getD_some]
    exact hpos _ (List.getElem_mem ..)) (fun e => x.getD e 0)
  rw [← hlist x hx, ← hlist weights hw] at h ⊢
  exact h

/-- The rounds do not end when the errors of some closed part together are more than the tolerance allows for the part: whatever the
number of rounds, it is not enough. -/
theorem C59_density_ends_refuted (s : Nat → Sched) (hm : m.Sound) (fuel w : Nat) (hw : 0 < w) (D E : Nat → Nat → K) (opts : DiffuseOpts K)
    (hQ : ∀ e c, e < m.nelems → c < w → 0 < weight opts (D e c * m.size e)) (hn : opts.isNone = false)
    (C : Nat → Bool) (hC : m.Closed C) (c : Nat) (hc : c < w)
    (hE : opts.tolerance * m.total C (fun e => weight opts (D e c * m.size e)) < |m.total C (fun e => E e c)|) :
    m.densityCorrection s fuel w D E opts = none := by
  rcases densityCorrection_spec s hm fuel w hw D E opts hQ with ⟨E', h1, h2⟩ | ⟨_, h2⟩
  · exfalso
    rcases h1 with ⟨h1, _⟩ | ⟨_, h1⟩
    · rw [hn] at h1; simp at h1
    · obtain ⟨k, _, h3, _⟩ := h1 c hc
      refine never_small hm (W := fun e => weight opts (D e c * m.size e)) (fun e he => hQ e c he hc) hC
        (relative opts (fun e => E e c) (fun e => D e c * m.size e)) opts.tolerance ?_ k h3
      rw [total_congr (g := fun e => E e c) (fun e he => relative_mul (E := fun e => E e c) (Q := fun e => D e c * m.size e) (hQ e c he hc))]
      exact hE
  · exact h2

theorem momentumCorrection_spec (s : Nat → Sched) (hm : m.Sound) (fuel w : Nat) (hw : 0 < w) (hw3 : w ≤ 3) (flags : Nat → BitVec 8) (D old : Nat → K) (V E : Nat → Nat → K)
    (opts : DiffuseOpts K) (hD : ∀ e, e < m.nelems → 0 < D e)
    (hQ : ∀ e c, e < m.nelems → c < w → 0 < weight opts (m.mean (fun v => V v c) e * (D e * m.size e))) :
    (∃ E', Evened m opts w fuel (fun e c => E e c + (m.mean (fun v => V v c) e * (D e * m.size e) - m.mean (fun v => V v c) e * (old e * m.size e)))
        (fun e c => m.mean (fun v => V v c) e * (D e * m.size e)) E' ∧
      m.momentumCorrection s fuel w flags D old V E opts = some (tableOf (List.range m.nverts) w
        (corrected m flags (fun v => ((m.vertElems v).map (fun e => D e * m.size e)).sum / ((m.dim + 1 : Nat) : K)) E' V))) ∨
    ((opts.isNone = false ∧ ∃ c, c < w ∧ ∀ k, k ≤ fuel → ¬ Spread m opts (fun e => E e c + (m.mean (fun v => V v c) e * (D e * m.size e) -
          m.mean (fun v => V v c) e * (old e * m.size e))) (fun e => m.mean (fun v => V v c) e * (D e * m.size e)) k) ∧
      m.momentumCorrection s fuel w flags D old V E opts = none) := by
  unfold FluxMesh.momentumCorrection correctMomentum
  rw [diffusionGraph_spec s hm, Option.bind_some]
  unfold FluxMesh.sizes
  have hmul : ∀ (s : Sched) (F G : Nat → K), multiplyEachK s ((List.range m.nelems).map F) ((List.range m.nelems).map G) = some ((List.range m.nelems).map (fun e => F e * G e)) := by
    intro s F G
    have := multiply_table s (List.range m.nelems) 1 (fun e _ => F e) G
    rw [tableOf_one, tableOf_one] at this
    exact this
  have hmem : ∀ v, v < m.nverts → ∀ e ∈ m.vertElems v, e < m.nelems := fun v hv e he => ((hm.verts.mem hv).1 he).1
  have hv := vertSum_table (m := m) (s (6 + 3)) (s (7 + 3)) hmem (fun e => D e * m.size e)
  simp only [bind, hmul, Option.bind_some, average_table _ hm hw, multiply_table, subtract_table]
  cases hu : unmap (s (6 + 3)) m.vertGraph.ab2b ((List.range m.nelems).map (fun e => D e * m.size e)) 1 with
  | none => rw [hu] at hv; simp at hv
  | some x =>
    rw [hu, Option.bind_some] at hv
    simp only [Option.bind_some, hv]
    rw [mapEach_eq (s (8 + 3)) _ (fun x => x / ((m.dim + 1 : Nat) : K)) _ (fun _ _ => rfl), List.map_map]
    simp only [Option.bind_some, add_table]
    rcases diffuseWeighted_spec (fun k => s (k + 12 + 3)) hm fuel w hw (fun e c => E e c + (m.mean (fun v => V v c) e * (D e * m.size e) -
      m.mean (fun v => V v c) e * (old e * m.size e))) (fun e c => m.mean (fun v => V v c) e * (D e * m.size e)) opts hQ with ⟨E', h1, h2⟩ | ⟨h1, h2⟩
    · left
      refine ⟨E', h1, ?_⟩
      rw [h2, Option.bind_some]
      have hB : ∀ v, blockOff (fun v => (List.range w).map (corrected m flags (fun v => ((m.vertElems v).map (fun e => D e * m.size e)).sum / ((m.dim + 1 : Nat) : K)) E' V v)) v = v * w := by
        intro v
        simp [blockOff]
      refine parConcat_onto (s (10 + 3)) m.nverts (fun v => (List.range w).map (corrected m flags (fun v => ((m.vertElems v).map (fun e => D e * m.size e)).sum / ((m.dim + 1 : Nat) : K)) E' V v)) _ _ (by
        rw [hB, tableOf_length, List.length_range]) ?_
      intro v hvlt
      rw [hB]
      have hc : (List.range w).mapM (fun comp => correctVelocity m.dim w m.vertArray m.vertGraph ((List.range m.nverts).map flags)
          ((List.range m.nverts).map ((fun x => x / ((m.dim + 1 : Nat) : K)) ∘ fun v => ((m.vertElems v).map (fun e => D e * m.size e)).sum))
          (tableOf (List.range m.nelems) w E') (tableOf (List.range m.nverts) w V) v comp)
          = some ((List.range w).map (corrected m flags (fun v => ((m.vertElems v).map (fun e => D e * m.size e)).sum / ((m.dim + 1 : Nat) : K)) E' V v)) := by
        refine mapM_range_some w _ _ ?_
        intro c hc
        refine correctVelocity_spec hm flags (VM := fun v => ((m.vertElems v).map (fun e => D e * m.size e)).sum / ((m.dim + 1 : Nat) : K)) ?_ E' V hvlt hc (by omega)
        intro v hvlt hne
        exact div_ne_zero (sum_pos_of hne (fun e he => mul_pos (hD e (hmem v hvlt e he)) (hm.size e (hmem v hvlt e he)))).ne' sidesPer_pos.ne'
      rw [hc]
      rfl
    · right
      refine ⟨h1, ?_⟩
      rw [h2]; rfl

/-- **C59**, third part: the velocities that correction returns. For a component in which every element has a free vertex, the momentum
of the mesh with the new densities is what it was with the old ones, less the recorded errors. Components that are held fixed at a
vertex stay as they were. -/
theorem C59_momentum_partial (s : Nat → Sched) (hm : m.Sound) (fuel w : Nat) (hw : 0 < w) (hw3 : w ≤ 3) (flags : Nat → BitVec 8) (D old : Nat → K) (V E : Nat → Nat → K)
    (opts : DiffuseOpts K) (hD : ∀ e, e < m.nelems → 0 < D e)
    (hQ : ∀ e c, e < m.nelems → c < w → 0 < weight opts (m.mean (fun v => V v c) e * (D e * m.size e))) (out : List K)
    (h : m.momentumCorrection s fuel w flags D old V E opts = some out) :
    ∃ V' : Nat → Nat → K, out = tableOf (List.range m.nverts) w V' ∧ ∀ c, c < w →
      ((∀ e, e < m.nelems → m.freeCount flags e c ≠ 0) →
        m.total (fun _ => true) (fun e => D e * m.size e * m.mean (fun v => V' v c) e)
          = m.total (fun _ => true) (fun e => old e * m.size e * m.mean (fun v => V v c) e) - m.total (fun _ => true) (fun e => E e c)) ∧
      ∀ v, fixedAt flags v c = true → V' v c = V v c := by
  rcases momentumCorrection_spec s hm fuel w hw hw3 flags D old V E opts hD hQ with ⟨E', h1, h2⟩ | ⟨_, h2⟩
  · rw [h2] at h
    obtain rfl := Option.some.inj h
    refine ⟨_, rfl, ?_⟩
    intro c hc
    constructor
    · intro hfree
      rw [corrected_total hm flags (fun e => D e * m.size e) (fun e he => mul_pos (hD e he) (hm.size e he)) E' V c]
      have h3 : m.total (fun e => decide (m.freeCount flags e c ≠ 0)) (fun e => E' e c) = m.total (fun _ => true) (fun e => E' e c) :=
        sumOver_congr (fun e he => ⟨by simpa using hfree e (List.mem_range.1 he), fun _ => rfl⟩)
      rw [h3, h1.total hm hQ (C := fun _ => true) (fun _ _ _ _ => rfl) hc]
      show sumOver _ _ _ - sumOver _ _ _ = sumOver _ _ _ - sumOver _ _ _
      rw [← sumOver_sub, ← sumOver_sub]
      refine sumOver_congr (fun e _ => ⟨rfl, fun _ => ?_⟩)
      ring
    · intro v hf
      unfold corrected
      simp [hf]
  · rw [h2] at h; simp at h

/-- **C59**, fourth part: correcting velocities comes to an end under the same condition; the errors are those that were recorded and
what the correction of the densities did to momentum. -/
theorem C59_momentum_ends_partial [Archimedean K] (hm : m.Sound) (w : Nat) (hw : 0 < w) (hw3 : w ≤ 3) (flags : Nat → BitVec 8) (D old : Nat → K) (V E : Nat → Nat → K)
    (opts : DiffuseOpts K) (hD : ∀ e, e < m.nelems → 0 < D e)
    (hQ : ∀ e c, e < m.nelems → c < w → 0 < weight opts (m.mean (fun v => V v c) e * (D e * m.size e)))
    (hE : opts.isNone = false → ∀ e c, e < m.nelems → c < w → ∃ C, m.Body C ∧ C e = true ∧
      |m.total C (fun e => E e c + (m.mean (fun v => V v c) e * (D e * m.size e) - m.mean (fun v => V v c) e * (old e * m.size e)))|
        < opts.tolerance * m.total C (fun e => weight opts (m.mean (fun v => V v c) e * (D e * m.size e)))) :
    ∃ rounds, ∀ s fuel, rounds ≤ fuel → (m.momentumCorrection s fuel w flags D old V E opts).isSome := by
  obtain ⟨T, hT⟩ := enough_rounds hm w (fun e c => E e c + (m.mean (fun v => V v c) e * (D e * m.size e) - m.mean (fun v => V v c) e * (old e * m.size e)))
    (fun e c => m.mean (fun v => V v c) e * (D e * m.size e)) opts hQ hE
  refine ⟨T, ?_⟩
  intro s fuel hf
  rcases momentumCorrection_spec s hm fuel w hw hw3 flags D old V E opts hD hQ with ⟨E', _, h2⟩ | ⟨h1, _⟩
  · rw [h2]; rfl
  · exact absurd h1 (hT fuel hf)

/-- The momentum error of elements whose vertices are all held fixed is lost: if all are, the velocities stay as they were, whatever
the errors. -/
theorem C59_momentum_refuted (s : Nat → Sched) (hm : m.Sound) (fuel w : Nat) (hw : 0 < w) (hw3 : w ≤ 3) (flags : Nat → BitVec 8) (D old : Nat → K) (V E : Nat → Nat → K)
    (opts : DiffuseOpts K) (hD : ∀ e, e < m.nelems → 0 < D e)
    (hQ : ∀ e c, e < m.nelems → c < w → 0 < weight opts (m.mean (fun v => V v c) e * (D e * m.size e))) (out : List K)
    (hf : ∀ v c, v < m.nverts → c < w → fixedAt flags v c = true)
    (h : m.momentumCorrection s fuel w flags D old V E opts = some out) : out = tableOf (List.range m.nverts) w V := by
  rcases momentumCorrection_spec s hm fuel w hw hw3 flags D old V E opts hD hQ with ⟨E', h1, h2⟩ | ⟨_, h2⟩
  · rw [h2] at h
    obtain rfl := Option.some.inj h
    apply tableOf_congr
    intro v hv c hc
    unfold corrected
    simp [hf v c (List.mem_range.1 hv) hc]
  · rw [h2] at h; simp at h

/-! ## Two triangles -/

/-- Two triangles with a common side. -/
def pairMesh : FluxMesh ℚ :=
  { dim := 2, nelems := 2, nsides := 5, nverts := 4, sides := fun e i => e * 2 + i, sideDim := fun t => if t = 2 then 2 else 1,
    sideElems := fun t => if t < 2 then [0] else if t = 2 then [0, 1] else [1], verts := fun e i => e + i,
    vertElems := fun v => if v = 0 then [0] else if v = 3 then [1] else [0, 1], size := fun e => (e : ℚ) + 1 }

theorem pairMesh_sound : pairMesh.Sound where
  some := by decide
  sides := ⟨by intro e i he hi; simp only [pairMesh] at he hi ⊢; omega, by
    have : ∀ t, t < 5 → ((pairMesh.sideElems t).Perm (((places 2 3).filter (fun p => decide (pairMesh.sides p.1 p.2 = t))).map Prod.fst)) := by decide +kernel
    exact this⟩
  verts := ⟨by intro e i he hi; simp only [pairMesh] at he hi ⊢; omega, by
    have : ∀ t, t < 4 → ((pairMesh.vertElems t).Perm (((places 2 3).filter (fun p => decide (pairMesh.verts p.1 p.2 = t))).map Prod.fst)) := by decide +kernel
    exact this⟩
  two := by
    intro t ht h
    have : ∀ t, t < 5 → pairMesh.interior t = true → t = 2 := by decide +kernel
    obtain rfl := this t ht h
    exact ⟨0, 1, by decide, rfl⟩
  size := by
    intro e _
    show (0 : ℚ) < (e : ℚ) + 1
    positivity

theorem pairMesh_body : pairMesh.Body (fun _ => true) where
  closed := fun _ _ _ _ => rfl
  connected := ⟨0, by decide, rfl, ⟨0, by decide, by decide +kernel⟩, by
    intro e he _
    have : e = 0 ∨ e = 1 := by have : e < 2 := he; omega
    rcases this with rfl | rfl
    · exact ⟨0, rfl⟩
    · exact ⟨1, Or.inr ⟨0, by decide +kernel, rfl⟩⟩⟩

/-- A tolerance of a tenth. -/
def tenth : DiffuseOpts ℚ := ⟨false, 1 / 10, 1 / 1000⟩

/-- Correction ends for an error in one triangle and none in the other… -/
example : ∃ rounds, ∀ s fuel, rounds ≤ fuel → (pairMesh.densityCorrection s fuel 1 (fun _ _ => 1) (fun e _ => if e = 0 then 1 / 5 else 0) tenth).isSome := by
  refine C59_density_ends_partial pairMesh_sound 1 (by decide) _ _ tenth ?_ ?_
  · intro e c _ _
    exact lt_of_lt_of_le (by norm_num [tenth]) (le_max_right _ _)
  · intro _ e c _ _
    refine ⟨fun _ => true, pairMesh_body, rfl, ?_⟩
    decide +kernel

/-- …and leaves the total it should: `9/10 + 2 * 19/20 = 3 - 1/5`. -/
example : pairMesh.densityCorrection (fun _ => Sched.reversed) 5 1 (fun _ _ => 1) (fun e _ => if e = 0 then 1 / 5 else 0) tenth
    = some [9 / 10, 19 / 20] := by decide +kernel

/-- It never ends for errors that add up to more than a tenth of the total. -/
example : ∀ s fuel, pairMesh.densityCorrection s fuel 1 (fun _ _ => 1) (fun e _ => if e = 0 then 2 / 5 else 0) tenth = none := by
  intro s fuel
  refine C59_density_ends_refuted s pairMesh_sound fuel 1 (by decide) _ _ tenth ?_ rfl (fun _ => true) (fun _ _ _ _ => rfl) 0 (by decide) ?_
  · intro e c _ _
    exact lt_of_lt_of_le (by norm_num [tenth]) (le_max_right _ _)
  · decide +kernel

/-- Correcting the velocities ends too. -/
example : ∃ rounds, ∀ s fuel, rounds ≤ fuel → (pairMesh.momentumCorrection s fuel 2 (fun v => if v = 1 then 0 else 3) (fun _ => 2) (fun _ => 2)
    (fun v _ => (v : ℚ)) (fun e _ => if e = 0 then 1 / 5 else 0) tenth).isSome := by
  refine C59_momentum_ends_partial pairMesh_sound 2 (by decide) (by decide) _ _ _ _ _ tenth (fun _ _ => by norm_num) ?_ ?_
  · intro e c _ _
    exact lt_of_lt_of_le (by norm_num [tenth]) (le_max_right _ _)
  · intro _ e c _ _
    refine ⟨fun _ => true, pairMesh_body, rfl, ?_⟩
    decide +kernel

/-- Momentum is restored when vertex 1 is free… -/
example : pairMesh.momentumCorrection (fun _ => Sched.serial) 20 2 (fun v => if v = 1 then 0 else 3) (fun _ => 2) (fun _ => 2)
    (fun v _ => (v : ℚ)) (fun e _ => if e = 0 then 1 / 5 else 0) tenth = some [0, 0, 9 / 10, 9 / 10, 2, 2, 3, 3] := by decide +kernel

/-- …and lost when all the vertices are fixed. -/
example : pairMesh.momentumCorrection (fun _ => Sched.serial) 20 2 (fun _ => 3) (fun _ => 2) (fun _ => 2)
    (fun v _ => (v : ℚ)) (fun e _ => if e = 0 then 1 / 5 else 0) tenth = some [0, 0, 1, 1, 2, 2, 3, 3] := by decide +kernel

end OmegaH
