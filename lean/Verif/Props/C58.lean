import Verif.Lemmas.Ledger
import Mathlib.Data.List.Nodup
import Mathlib.Algebra.Order.Ring.Rat
/-!
# C58: conservation errors are accounted for
-/
namespace OmegaH
open Spec

section
variable {K : Type} [Field K] [LinearOrder K] [IsStrictOrderedRing K]

/-- What `conserveErrors` computes, and what that does to the accounts. -/
theorem conserveErrors_spec (flags : ConservedBools × ConservedBools × ConservedBools) (w : Nat) (b : MassChange) (σ σ' : MassState K)
    (hb : b.Sound σ.mesh σ'.mesh) (hd : DensitiesAs flags w b σ σ') (hz : NoErrorWhereAlways flags w b σ) (s : Nat → Sched) (fuel : Nat) (hf : 128 ≤ fuel) :
    ∃ E', conserveErrors s fuel flags σ.mesh.arrays σ'.mesh.arrays (graphOn (List.range b.nents) b.around) ((List.range b.nents).map b.entDim)
        ((List.range b.nkeys).map b.ent) (graphOn (List.range b.nkeys) b.made).a2ab (graphOn (List.range b.nkeys) b.made).ab2b
        (b.same.map Prod.fst) (b.same.map Prod.snd) (tableOf (List.range σ.mesh.nelems) w σ.density)
        (tableOf (List.range σ'.mesh.nelems) w σ'.density) (tableOf (List.range σ.mesh.nelems) w σ.error) w
      = some (tableOf (List.range σ'.mesh.nelems) w E') ∧
      ∀ (C : Int → Bool) j, j < w → (MassState.mk σ'.mesh σ'.density E').accounted C j = σ.accounted C j := by
  have hoin : ∀ k, k < b.nkeys → ∀ e ∈ b.around (b.ent k), e < σ.mesh.nelems := by
    intro k hk e he
    exact List.mem_range.1 (hb.old_parts.subset (List.mem_append_right _ (List.mem_flatMap.2 ⟨k, List.mem_range.2 hk, he⟩)))
  have hnin : ∀ k, k < b.nkeys → ∀ e ∈ b.made k, e < σ'.mesh.nelems := by
    intro k hk e he
    exact List.mem_range.1 (hb.new_parts.subset (List.mem_append_right _ (List.mem_flatMap.2 ⟨k, List.mem_range.2 hk, he⟩)))
  have hnd := (hb.new_parts.nodup_iff.2 List.nodup_range)
  have hmem : ∀ (q : Nat → Bool), ∀ k ∈ (List.range b.nkeys).filter q, k < b.nkeys :=
    fun q k h => List.mem_range.1 (List.mem_filter.1 h).1
  have hndq : ∀ q : Nat → Bool, (((List.range b.nkeys).filter q).flatMap b.made).Nodup := by
    intro q
    have h1 := List.nodup_flatMap.1 (List.nodup_append.1 hnd).2.1
    refine List.nodup_flatMap.2 ⟨fun k hk => h1.1 k (List.mem_filter.1 hk).1, h1.2.filter _⟩
  have hfull : ∀ k, k < b.nkeys → b.made k = [] → b.around (b.ent k) = [] := by
    intro k hk h
    rw [List.eq_nil_iff_forall_not_mem]
    intro e he
    obtain ⟨e', h1, _⟩ := (hb.materials k hk _).1 ⟨e, he, rfl⟩
    rw [h] at h1
    exact absurd h1 (List.not_mem_nil)
  -- the three situations
  let tk := fun k => (b.around (b.ent k)).any (touchB σ.mesh)
  let bk := fun k => decide (b.entDim (b.ent k) < (σ.mesh.dim : Int))
  have htk : ∀ k, tk k = true ↔ ∃ e ∈ b.around (b.ent k), σ.mesh.touches e := by
    intro k
    show (b.around (b.ent k)).any (touchB σ.mesh) = true ↔ _
    rw [List.any_eq_true]
    simp only [touchB_iff]
  have hbk : ∀ k, bk k = true ↔ b.onBoundary σ.mesh k := fun k => decide_eq_true_iff
  have hbt : ∀ k, k < b.nkeys → bk k = true → tk k = true := fun k hk h => (htk k).2 (hb.boundary_key k hk ((hbk k).1 h))
  have hgood : ∀ q : Nat → Bool, (∀ k, k < b.nkeys → q k = true → bk k = false) →
      GoodPart ((List.range b.nkeys).filter q) (fun k => b.around (b.ent k)) b.made σ.mesh.nelems σ'.mesh.nelems σ'.mesh.size σ.mesh.material σ'.mesh.material := by
    intro q hq
    refine ⟨?_, hndq q, ?_, ?_, fun k hk => hfull k (hmem q k hk), ?_⟩
    · intro e he
      obtain ⟨k, k1, k2⟩ := List.mem_flatMap.1 he
      exact hoin k (hmem q k k1) e k2
    · intro e he
      obtain ⟨k, k1, k2⟩ := List.mem_flatMap.1 he
      exact hnin k (hmem q k k1) e k2
    · intro e he
      obtain ⟨k, k1, k2⟩ := List.mem_flatMap.1 he
      exact hb.sizes e (hnin k (hmem q k k1) e k2)
    · intro k hk
      have h1 := hq k (hmem q k hk) (List.mem_filter.1 hk).2
      obtain ⟨c, hc⟩ := hb.inside_key k (hmem q k hk) (fun h => by rw [(hbk k).2 h] at h1; cases h1)
      refine ⟨c, hc, ?_⟩
      intro e he
      obtain ⟨e', e1, e2⟩ := (hb.materials k (hmem q k hk) _).2 ⟨e, he, rfl⟩
      rw [← e2, hc e' e1]
  have hinit : formInitialCavs s (graphOn (List.range b.nents) b.around) ((List.range b.nkeys).map b.ent)
      (graphOn (List.range b.nkeys) b.made).a2ab (graphOn (List.range b.nkeys) b.made).ab2b
      = some (cavsOn (List.range b.nkeys) (fun k => b.around (b.ent k)) b.made) := by
    have h1 := unmapGraph_on s ((List.range b.nkeys).map b.ent) b.nents b.around (by
      intro e he
      obtain ⟨k, k1, rfl⟩ := List.mem_map.1 he
      exact hb.ents_in k (List.mem_range.1 k1))
    rw [graphOn_map] at h1
    unfold formInitialCavs
    simp only [bind]
    rw [h1]; rfl
  obtain ⟨parts, p1, p2⟩ := separateCavities_on (fun k => s (k + 3)) fuel σ.mesh σ'.mesh b (by omega) hb.verts_in hb.ents_in hoin hnin
    (fun k hk => (hb.few k hk).1) (fun k hk => (hb.few k hk).2)
  have hsc : SameColors ((List.range b.nkeys).filter bk) (fun k => b.around (b.ent k)) b.made σ.mesh.material σ'.mesh.material :=
    fun k hk c => hb.materials k (hmem _ k hk) c
  have hparts : ∀ p ∈ parts, GoodPart ((List.range b.nkeys).filter bk) p.1 p.2 σ.mesh.nelems σ'.mesh.nelems σ'.mesh.size σ.mesh.material σ'.mesh.material := by
    intro p hp
    have hsubo : ∀ k ∈ (List.range b.nkeys).filter bk, ∀ e ∈ p.1 k, e ∈ b.around (b.ent k) :=
      fun k hk e he => (p2.old_perm k hk).subset (List.mem_flatMap.2 ⟨p, hp, he⟩)
    have hsubn : ∀ k ∈ (List.range b.nkeys).filter bk, ∀ e ∈ p.2 k, e ∈ b.made k :=
      fun k hk e he => (p2.new_perm k hk).subset (List.mem_flatMap.2 ⟨p, hp, he⟩)
    refine ⟨?_, ?_, ?_, ?_, fun k hk => p2.full hsc p hp k hk, fun k hk => p2.pure hsc p hp k hk⟩
    · intro e he
      obtain ⟨k, k1, k2⟩ := List.mem_flatMap.1 he
      exact hoin k (hmem _ k k1) e (hsubo k k1 e k2)
    · have h1 := List.nodup_flatMap.1 (hndq bk)
      refine List.nodup_flatMap.2 ⟨?_, ?_⟩
      · intro k hk
        have h2 := (p2.new_perm k hk).nodup_iff.2 (h1.1 k hk)
        exact (List.nodup_flatMap.1 h2).1 p hp
      · refine List.Pairwise.imp_of_mem ?_ h1.2
        intro k k' hk hk' hdis x hx hx'
        exact hdis (hsubn k hk x hx) (hsubn k' hk' x hx')
    · intro e he
      obtain ⟨k, k1, k2⟩ := List.mem_flatMap.1 he
      exact hnin k (hmem _ k k1) e (hsubn k k1 e k2)
    · intro e he
      obtain ⟨k, k1, k2⟩ := List.mem_flatMap.1 he
      exact hb.sizes e (hnin k (hmem _ k k1) e (hsubn k k1 e k2))
  -- the elements that are kept
  have hu : unmap (s 3000) (b.same.map Prod.fst) (tableOf (List.range σ.mesh.nelems) w σ.error) w
      = some (tableOf b.same w (fun p j => σ.error p.1 j)) := by
    rw [unmap_table, tableOf_map]
    intro e he
    exact List.mem_range.1 (hb.old_parts.subset (List.mem_append_left _ he))
  have hm := mapInto_table (s 3001) b.same w σ'.mesh.nelems (fun p j => σ.error p.1 j) (List.nodup_append.1 hnd).1 (by
    intro p hp
    exact List.mem_range.1 (hb.new_parts.subset (List.mem_append_left _ (List.mem_map.2 ⟨p, hp, rfl⟩))))
  obtain ⟨E1, a1, a2⟩ := transferStatus_spec (fun k => s (k + 2 + 3000)) σ.mesh.arrays σ'.mesh.arrays ((List.range b.nkeys).filter (fun k => ! tk k))
    σ.mesh.size σ'.mesh.size w σ.mesh.nelems σ'.mesh.nelems σ.density σ'.density σ.error σ.mesh.material σ'.mesh.material hb.some_elems rfl rfl rfl
    [(fun k => b.around (b.ent k), b.made)] (fun k => b.around (b.ent k)) b.made
    (by
      intro p hp
      obtain rfl := List.mem_singleton.1 hp
      refine hgood _ ?_
      intro k hk h
      cases hbb : bk k with
      | false => rfl
      | true => rw [hbt k hk hbb] at h; cases h)
    (fun k _ => by simp) (fun k _ => by simp) flags.1
    (fun e j => ((b.same.filter (fun p => decide (p.2 = e))).map (fun p => σ.error p.1 j)).sum)
  obtain ⟨E2, b1, b2⟩ := transferStatus_spec (fun k => s (k + 20 + 3000)) σ.mesh.arrays σ'.mesh.arrays
    ((List.range b.nkeys).filter (fun k => tk k && ! bk k))
    σ.mesh.size σ'.mesh.size w σ.mesh.nelems σ'.mesh.nelems σ.density σ'.density σ.error σ.mesh.material σ'.mesh.material hb.some_elems rfl rfl rfl
    [(fun k => b.around (b.ent k), b.made)] (fun k => b.around (b.ent k)) b.made
    (by
      intro p hp
      obtain rfl := List.mem_singleton.1 hp
      refine hgood _ ?_
      intro k hk h
      rw [Bool.and_eq_true] at h
      simpa using h.2)
    (fun k _ => by simp) (fun k _ => by simp) flags.2.1 E1
  obtain ⟨E3, c1, c2⟩ := transferStatus_spec (fun k => s (k + 40 + 3000)) σ.mesh.arrays σ'.mesh.arrays ((List.range b.nkeys).filter bk)
    σ.mesh.size σ'.mesh.size w σ.mesh.nelems σ'.mesh.nelems σ.density σ'.density σ.error σ.mesh.material σ'.mesh.material hb.some_elems rfl rfl rfl
    parts (fun k => b.around (b.ent k)) b.made hparts p2.old_perm p2.new_perm flags.2.2 E2
  refine ⟨E3, ?_, ?_⟩
  · unfold conserveErrors
    simp only [bind]
    rw [hinit]
    simp only [Option.bind_some]
    rw [p1]
    simp only [Option.bind_some]
    unfold transferIntegError
    simp only [bind]
    rw [hu]
    simp only [Option.bind_some]
    rw [show σ'.mesh.arrays.nelems = σ'.mesh.nelems from rfl, hm]
    simp only [Option.bind_some]
    rw [show [cavsOn ((List.range b.nkeys).filter (fun k => ! tk k)) (fun k => b.around (b.ent k)) b.made]
      = [((fun k => b.around (b.ent k)), b.made)].map (fun p => cavsOn ((List.range b.nkeys).filter (fun k => ! tk k)) p.1 p.2) from rfl, a1]
    simp only [Option.bind_some]
    rw [show [cavsOn ((List.range b.nkeys).filter (fun k => tk k && ! bk k)) (fun k => b.around (b.ent k)) b.made]
      = [((fun k => b.around (b.ent k)), b.made)].map (fun p => cavsOn ((List.range b.nkeys).filter (fun k => tk k && ! bk k)) p.1 p.2) from rfl, b1]
    simp only [Option.bind_some]
    exact c1
  · intro C j hj
    have hsplit : ∀ (P : Nat → Bool) (f : Nat → K) (R : Nat → List Nat), sumOver P f ((List.range b.nkeys).flatMap R)
        = sumOver P f (((List.range b.nkeys).filter (fun k => ! tk k)).flatMap R)
          + sumOver P f (((List.range b.nkeys).filter (fun k => tk k && ! bk k)).flatMap R)
          + sumOver P f (((List.range b.nkeys).filter bk).flatMap R) := by
      intro P f R
      have h1 := sumOver_split P f (List.range b.nkeys) tk R
      have h2 := sumOver_split P f ((List.range b.nkeys).filter tk) bk R
      rw [List.filter_filter, List.filter_filter] at h2
      have h3 : (List.range b.nkeys).filter (fun k => bk k && tk k) = (List.range b.nkeys).filter bk := by
        apply List.filter_congr
        intro k hk
        cases hbb : bk k with
        | false => rfl
        | true => rw [hbt k (List.mem_range.1 hk) hbb]; rfl
      have h4 : (List.range b.nkeys).filter (fun k => (! bk k) && tk k) = (List.range b.nkeys).filter (fun k => tk k && ! bk k) := by
        apply List.filter_congr
        intro k _
        rw [Bool.and_comm]
      rw [h3, h4] at h2
      rw [h1, h2]; ring
    -- densities that are conserved, and errors that are not there
    have hcons : ∀ (q : Nat → Bool) (t : BdryCase), (∀ k, k < b.nkeys → q k = true → b.inCase σ.mesh k t) → (flagsFor flags t).thisTime = true →
        sumOver (fun e => C (σ'.mesh.material e)) (fun e => σ'.density e j * σ'.mesh.size e) (((List.range b.nkeys).filter q).flatMap b.made)
          = sumOver (fun e => C (σ.mesh.material e)) (fun e => σ.density e j * σ.mesh.size e)
            (((List.range b.nkeys).filter q).flatMap (fun k => b.around (b.ent k))) := by
      intro q t hq ht
      rw [sumOver_flatMap, sumOver_flatMap]
      congr 1
      apply List.map_congr_left
      intro k hk
      exact hd.conserved k (hmem q k hk) t (hq k (hmem q k hk) (List.mem_filter.1 hk).2) ht C j hj
    have hzero : ∀ (q : Nat → Bool) (t : BdryCase), (∀ k, k < b.nkeys → q k = true → b.inCase σ.mesh k t) → (flagsFor flags t).always = true →
        sumOver (fun e => C (σ.mesh.material e)) (fun e => σ.error e j) (((List.range b.nkeys).filter q).flatMap (fun k => b.around (b.ent k))) = 0 := by
      intro q t hq ht
      have h0 : ∀ e ∈ ((List.range b.nkeys).filter q).flatMap (fun k => b.around (b.ent k)), σ.error e j = 0 := by
        intro e he
        obtain ⟨k, k1, k2⟩ := List.mem_flatMap.1 he
        exact hz k (hmem q k k1) t (hq k (hmem q k k1) (List.mem_filter.1 k1).2) ht e k2 j hj
      have h1 : sumOver (fun e => C (σ.mesh.material e)) (fun e => σ.error e j) (((List.range b.nkeys).filter q).flatMap (fun k => b.around (b.ent k)))
          = sumOver (fun e => C (σ.mesh.material e)) (fun e => 0 * σ.error e j) (((List.range b.nkeys).filter q).flatMap (fun k => b.around (b.ent k))) :=
        sumOver_congr (fun e he => ⟨rfl, fun _ => by rw [h0 e he]; ring⟩)
      rw [h1, sumOver_mul, zero_mul]
    have q0 : ∀ k, k < b.nkeys → (! tk k) = true → b.inCase σ.mesh k .inside := by
      intro k _ h hc
      rw [(htk k).2 hc] at h; cases h
    have q1 : ∀ k, k < b.nkeys → (tk k && ! bk k) = true → b.inCase σ.mesh k .touching := by
      intro k _ h
      rw [Bool.and_eq_true] at h
      refine ⟨fun hc => ?_, (htk k).1 h.1⟩
      rw [(hbk k).2 hc] at h; cases h.2
    have q2 : ∀ k, k < b.nkeys → bk k = true → b.inCase σ.mesh k .onBdry := fun k _ h => (hbk k).1 h
    have step : ∀ (q : Nat → Bool) (t : BdryCase) (fl : ConservedBools), fl = flagsFor flags t →
        (∀ k, k < b.nkeys → q k = true → b.inCase σ.mesh k t) →
        (if fl.thisTime then 0 else sumOver (fun e => C (σ'.mesh.material e)) (fun e => σ'.density e j * σ'.mesh.size e)
            (((List.range b.nkeys).filter q).flatMap b.made)
            - sumOver (fun e => C (σ.mesh.material e)) (fun e => σ.density e j * σ.mesh.size e)
              (((List.range b.nkeys).filter q).flatMap (fun k => b.around (b.ent k))))
          + (if fl.always then 0 else sumOver (fun e => C (σ.mesh.material e)) (fun e => σ.error e j)
              (((List.range b.nkeys).filter q).flatMap (fun k => b.around (b.ent k))))
        = sumOver (fun e => C (σ'.mesh.material e)) (fun e => σ'.density e j * σ'.mesh.size e) (((List.range b.nkeys).filter q).flatMap b.made)
          - sumOver (fun e => C (σ.mesh.material e)) (fun e => σ.density e j * σ.mesh.size e)
              (((List.range b.nkeys).filter q).flatMap (fun k => b.around (b.ent k)))
          + sumOver (fun e => C (σ.mesh.material e)) (fun e => σ.error e j) (((List.range b.nkeys).filter q).flatMap (fun k => b.around (b.ent k))) := by
      intro q t fl hfl hq
      subst hfl
      congr 1
      · split
        next h => rw [hcons q t hq h]; ring
        next => rfl
      · split
        next h => rw [hzero q t hq h]
        next => rfl
    have hg := sumOver_gather (fun e => C (σ'.mesh.material e)) b.same (fun p => σ.error p.1 j) σ'.mesh.nelems (by
      intro p hp
      exact List.mem_range.1 (hb.new_parts.subset (List.mem_append_left _ (List.mem_map.2 ⟨p, hp, rfl⟩))))
    have s0 := step _ .inside flags.1 rfl q0
    have s1 := step _ .touching flags.2.1 rfl q1
    have s2 := step _ .onBdry flags.2.2 rfl q2
    have r0 := a2 C j hj
    have r1 := b2 C j hj
    have r2 := c2 C j hj
    show sumOver (fun e => C (σ'.mesh.material e)) (fun e => σ'.density e j * σ'.mesh.size e - E3 e j) (List.range σ'.mesh.nelems)
      = sumOver (fun e => C (σ.mesh.material e)) (fun e => σ.density e j * σ.mesh.size e - σ.error e j) (List.range σ.mesh.nelems)
    rw [sumOver_sub, sumOver_sub, r2, r1, r0, hg, ← sumOver_perm _ _ hb.new_parts, ← sumOver_perm _ _ hb.old_parts,
      ← sumOver_perm _ (fun e => σ.error e j) hb.old_parts]
    simp only [sumOver_append, sumOver_map]
    rw [hsplit, hsplit, hsplit]
    have k1 : sumOver (fun p : Nat × Nat => C (σ'.mesh.material p.2)) (fun p => σ'.density p.2 j * σ'.mesh.size p.2) b.same
        = sumOver (fun p : Nat × Nat => C (σ.mesh.material p.1)) (fun p => σ.density p.1 j * σ.mesh.size p.1) b.same :=
      sumOver_congr (fun p hp => ⟨by rw [(hb.kept p hp).2], fun _ => by rw [hd.kept p hp j hj, (hb.kept p hp).1]⟩)
    have k2 : sumOver (fun p : Nat × Nat => C (σ'.mesh.material p.2)) (fun p => σ.error p.1 j) b.same
        = sumOver (fun p : Nat × Nat => C (σ.mesh.material p.1)) (fun p => σ.error p.1 j) b.same :=
      sumOver_congr (fun p hp => ⟨by rw [(hb.kept p hp).2], fun _ => rfl⟩)
    rw [k1, k2]
    linear_combination (-1 : K) * s0 - s1 - s2

/-- The errors can be computed, and whatever the schedule the integral minus the errors stays what it was, for every component
and every set of materials. -/
theorem C58_step (flags : ConservedBools × ConservedBools × ConservedBools) (w : Nat) (b : MassChange) (σ : MassState K) (m : MassMesh K)
    (d : Nat → Nat → K) (e₀ : Nat → Nat → K) (hb : b.Sound σ.mesh m) (hd : DensitiesAs flags w b σ ⟨m, d, e₀⟩) (hz : NoErrorWhereAlways flags w b σ)
    (s : Nat → Sched) (fuel : Nat) (hf : 128 ≤ fuel) :
    ∃ E, conserveErrors s fuel flags σ.mesh.arrays m.arrays (graphOn (List.range b.nents) b.around) ((List.range b.nents).map b.entDim)
        ((List.range b.nkeys).map b.ent) (graphOn (List.range b.nkeys) b.made).a2ab (graphOn (List.range b.nkeys) b.made).ab2b
        (b.same.map Prod.fst) (b.same.map Prod.snd) (tableOf (List.range σ.mesh.nelems) w σ.density)
        (tableOf (List.range m.nelems) w d) (tableOf (List.range σ.mesh.nelems) w σ.error) w
      = some (tableOf (List.range m.nelems) w E) ∧
      ∀ (C : Int → Bool) j, j < w → (MassState.mk m d E).accounted C j = σ.accounted C j :=
  conserveErrors_spec flags w b σ ⟨m, d, e₀⟩ hb hd hz s fuel hf

theorem recorded_accounted {flags : ConservedBools × ConservedBools × ConservedBools} {w : Nat} {b : MassChange} {σ σ' : MassState K}
    (hb : b.Sound σ.mesh σ'.mesh) (hd : DensitiesAs flags w b σ σ') (hz : NoErrorWhereAlways flags w b σ) (hr : Recorded flags w b σ σ')
    (C : Int → Bool) (j : Nat) (hj : j < w) : σ'.accounted C j = σ.accounted C j := by
  obtain ⟨s, fuel, hf, h⟩ := hr
  obtain ⟨E, e1, e2⟩ := conserveErrors_spec flags w b σ σ' hb hd hz s fuel hf
  have h1 := tableOf_inj (Option.some.inj (h.symm.trans e1))
  rw [← e2 C j hj]
  exact sumOver_congr (P := fun e => C (σ'.mesh.material e)) (fun e he => ⟨rfl, fun _ => by rw [h1 e (List.mem_range.1 he) j hj]⟩)

/-- Momenta: after every history of refinement, coarsening, swapping and motion, the integral minus the errors is what it was at first. -/
theorem C58_momentum (w : Nat) (σ σ' : MassState K) (h : History momentumFlags w σ σ') (C : Int → Bool) (j : Nat) (hj : j < w) :
    σ'.accounted C j = σ.accounted C j := by
  induction h with
  | none => rfl
  | step op b _ hb hd hr ih =>
    rw [recorded_accounted hb hd ?_ hr C j hj, ih]
    intro k _ t _ ht
    cases op <;> cases t <;> cases ht

/-- So, if there were no errors at first, the errors say by how much the integral has changed. -/
theorem C58_momentum_total (w : Nat) (σ σ' : MassState K) (h : History momentumFlags w σ σ') (h0 : ∀ e j, σ.error e j = 0) (C : Int → Bool) (j : Nat)
    (hj : j < w) : σ'.amount C j (List.range σ'.mesh.nelems)
      = σ.amount C j (List.range σ.mesh.nelems) + σ'.recorded C j := by
  have h1 := C58_momentum w σ σ' h C j hj
  have h2 : σ'.accounted C j = σ'.amount C j (List.range σ'.mesh.nelems)
      - σ'.recorded C j := sumOver_sub _ _ _ _
  have h3 : σ.accounted C j = σ.amount C j (List.range σ.mesh.nelems) :=
    sumOver_congr (P := fun e => C (σ.mesh.material e)) (fun e _ => ⟨rfl, fun _ => by rw [h0 e j, sub_zero]⟩)
  rw [h2, h3] at h1
  rw [← h1]; ring

/-- Densities: the same, as long as there are no errors around the keys inside the model, where they are taken to be conserved always.
Without that it fails: see `C58_density_refuted`. -/
theorem C58_density_partial (w : Nat) (σ σ' : MassState K) (h : CleanHistory densityFlags w σ σ') (C : Int → Bool) (j : Nat) (hj : j < w) :
    σ'.accounted C j = σ.accounted C j := by
  induction h with
  | none => rfl
  | step op b _ hb hd hz hr ih => rw [recorded_accounted hb hd hz hr C j hj, ih]

end
end OmegaH
