import Verif.Props.C56World
/-!
# C56 — which edges are collapsed: the choice at every vertex
-/
namespace OmegaH
open Spec
variable {K : Type} [LinearOrder K]

/-! ## The choice on one rank -/

/-- What is chosen at vertex `v`, with the accepted directions `B` and their qualities `Q`. -/
def ChoiceAt (m : CollapseRank K) (ne : Nat) (R : Nat → Nat → List Nat) (minusOne : K) (B : Nat → Nat → Prop)
    (Q : Nat → Nat → K → Prop) (v : Nat) (out : Option (Int × K × Int)) : Prop :=
  (out = some (0, minusOne, -1) ∧ ∀ e i, e < ne → (R 1 e)[i]? = some v → ¬ B e i) ∨
  ∃ e i g len q, e < ne ∧ (R 1 e)[i]? = some v ∧ B e i ∧
    m.edgeGlobals[e]? = some g ∧ m.lengths[e]? = some len ∧ Q e i q ∧ out = some (1, q, g) ∧
    ∀ e' i' len' q', e' < ne → (R 1 e')[i']? = some v → B e' i' → m.lengths[e']? = some len' → Q e' i' q' →
      len < len' ∨ (len = len' ∧ q' ≤ q)

theorem chooseRails_spec (s1 s2 : Sched) {m : CollapseRank K} {D : Nat} {nents : Nat → Nat} {R : Nat → Nat → List Nat}
    (hm : CollapseMesh m D nents R) {cands codes : List Nat} {B : Nat → Nat → Prop}
    (h : Cands (nents 1) cands codes B) (h0 : ∀ c ∈ codes, c ≠ 0) {quals : List K} {Q : Nat → Nat → K → Prop}
    (hq : QualsFor cands B quals Q) (hQ : ∀ e i q q', Q e i q → Q e i q' → q = q') (minusOne : K) :
    ∃ out, chooseRails s1 s2 m minusOne cands codes quals = some out ∧ out.length = nents 0 ∧
      ∀ v, v < nents 0 → ChoiceAt m (nents 1) R minusOne B Q v (out[v]?) := by
  obtain ⟨e2c, i1, i2, i3, i4⟩ := C03_invert_injective_map s1 cands (nents 1) h.range h.inj
  obtain ⟨veCodes, hve⟩ := Option.isSome_iff_exists.1 hm.vertEdgesCodes
  obtain ⟨out, o1, o2, o3⟩ := parVals_spec s2 m.nverts (fun v => do
      let ves ← fanMembers m.v2e.a2ab v
      let best ← ves.foldlM (railStep m e2c codes quals veCodes) ⟨false, -1, minusOne, minusOne⟩
      if best.isCand ∧ best.global = -1 then none
      else pure [(v, (b2i best.isCand, best.qual, best.global))])
    (fun v x => ChoiceAt m (nents 1) R minusOne B Q v (some x)) (Mem.alloc m.nverts) List.length_replicate (by
    intro v hv
    rw [hm.nverts] at hv
    obtain ⟨L, hL, hin, hall⟩ := hm.vertEdges v hv
    obtain ⟨veCodes', lo, c1, c2, c3⟩ := adjRow_members hL
    obtain rfl := Option.some.inj (hve.symm.trans c1)
    -- the step on pairs of edge and code
    let g : RailBest K → Nat × Int → Option (RailBest K) := fun best x => do
      let cand ← e2c[x.1]?
      if cand = -1 then pure best
      else if 0 ≤ cand then do
        let eev := codeWhichDown x.2
        let code ← codes[cand.toNat]?
        if code = 0 then none
        else if 0 ≤ eev then
          if collapses code eev.toNat then do
            let global ← m.edgeGlobals[x.1]?
            let length ← m.lengths[x.1]?
            let qual ← quals[cand.toNat * 2 + eev.toNat]?
            if best.global = -1 ∨ length < best.length ∨ (length = best.length ∧ best.qual < qual) then
              pure ⟨true, global, length, qual⟩
            else pure best
          else pure best
        else none
      else none
    -- the place of the vertex in the edges of the list
    let A : Nat × Int → Nat → Prop := fun x i => codeWhichDown x.2 = (i : Int) ∧ B x.1 i
    obtain ⟨best, b1, b2⟩ := foldlM_list g (fun pre best =>
        (best = ⟨false, -1, minusOne, minusOne⟩ ∧ ∀ x ∈ pre, ∀ i, ¬ A x i) ∨
        ∃ x i gl len q, x ∈ pre ∧ A x i ∧ m.edgeGlobals[x.1]? = some gl ∧ m.lengths[x.1]? = some len ∧ Q x.1 i q ∧
          best = ⟨true, gl, len, q⟩ ∧ ∀ x' i' len' q', x' ∈ pre → A x' i' → m.lengths[x'.1]? = some len' →
            Q x'.1 i' q' → len < len' ∨ (len = len' ∧ q' ≤ q)) L ⟨false, -1, minusOne, minusOne⟩
      (Or.inl ⟨rfl, by simp⟩) (by
        intro pre x post hx best hbest
        have hxL : x ∈ L := by rw [hx]; simp
        obtain ⟨x1, i, x2, x3⟩ := hin x hxL
        obtain ⟨p, q, hR, _⟩ := hm.edge x.1 x1
        have hi : i < 2 := by
          have := (List.getElem?_eq_some_iff.1 x3).1
          rw [hR] at this; exact this
        -- nothing changes if the direction is not accepted
        have keep : (∀ i, ¬ A x i) → ∀ b : RailBest K, ((b = ⟨false, -1, minusOne, minusOne⟩ ∧ ∀ x ∈ pre, ∀ i, ¬ A x i) ∨
            ∃ x i gl len q, x ∈ pre ∧ A x i ∧ m.edgeGlobals[x.1]? = some gl ∧ m.lengths[x.1]? = some len ∧ Q x.1 i q ∧
              b = ⟨true, gl, len, q⟩ ∧ ∀ x' i' len' q', x' ∈ pre → A x' i' → m.lengths[x'.1]? = some len' →
              Q x'.1 i' q' → len < len' ∨ (len = len' ∧ q' ≤ q)) →
            ((b = ⟨false, -1, minusOne, minusOne⟩ ∧ ∀ y ∈ pre ++ [x], ∀ i, ¬ A y i) ∨
            ∃ y i gl len q, y ∈ pre ++ [x] ∧ A y i ∧ m.edgeGlobals[y.1]? = some gl ∧ m.lengths[y.1]? = some len ∧ Q y.1 i q ∧
              b = ⟨true, gl, len, q⟩ ∧ ∀ x' i' len' q', x' ∈ pre ++ [x] → A x' i' → m.lengths[x'.1]? = some len' →
              Q x'.1 i' q' → len < len' ∨ (len = len' ∧ q' ≤ q)) := by
          intro hno b hb
          rcases hb with ⟨hb, hb'⟩ | ⟨y, i, gl, len, q, y1, y2, y3, y4, y5, y6, y7⟩
          · refine Or.inl ⟨hb, ?_⟩
            intro y hy
            rw [List.mem_append, List.mem_singleton] at hy
            rcases hy with hy | rfl
            · exact hb' y hy
            · exact hno
          · refine Or.inr ⟨y, i, gl, len, q, by simp [y1], y2, y3, y4, y5, y6, ?_⟩
            intro x' i' len' q' h1 h2 h3 h4
            rw [List.mem_append, List.mem_singleton] at h1
            rcases h1 with h1 | rfl
            · exact y7 x' i' len' q' h1 h2 h3 h4
            · exact absurd h2 (hno i')
        by_cases hmem : x.1 ∈ cands
        · obtain ⟨k, hk⟩ := List.getElem?_of_mem hmem
          have hkl := (List.getElem?_eq_some_iff.1 hk).1
          obtain ⟨code, hcode⟩ : ∃ c, codes[k]? = some c := ⟨_, List.getElem?_eq_getElem (by rw [h.len]; exact hkl)⟩
          have hne0 := h0 code (List.mem_of_getElem? hcode)
          have hbit := h.bits k x.1 code hk hcode i hi
          show ∃ y, (e2c[x.1]?).bind _ = some y ∧ _
          rw [i3 k x.1 hk, Option.bind_some, if_neg (by omega), if_pos (by omega)]
          dsimp only
          rw [Int.toNat_natCast, hcode]
          show ∃ y, (if code = 0 then _ else _) = some y ∧ _
          rw [if_neg hne0, x2, if_pos (by omega), Int.toNat_natCast]
          by_cases hb : collapses code i = true
          · rw [if_pos hb]
            have hB : B x.1 i := hbit.1 hb
            obtain ⟨gl, hgl⟩ : ∃ gl, m.edgeGlobals[x.1]? = some gl := ⟨_, List.getElem?_eq_getElem (by rw [hm.globals.1]; exact x1)⟩
            obtain ⟨len, hlen⟩ : ∃ l, m.lengths[x.1]? = some l := ⟨_, List.getElem?_eq_getElem (by rw [hm.lengths]; exact x1)⟩
            obtain ⟨q, q1, q2⟩ := hq.2 k x.1 i hk hi hB
            simp only [bind, hgl, hlen, q1, Option.bind_some, pure]
            have hAx : A x i := ⟨x2, hB⟩
            have huniq : ∀ i' len' q', A x i' → m.lengths[x.1]? = some len' → Q x.1 i' q' → len' = len ∧ q' = q := by
              rintro i' len' q' ⟨a1, _⟩ a2 a3
              have : i' = i := by rw [x2] at a1; omega
              subst this
              exact ⟨Option.some.inj (a2.symm.trans hlen), hQ _ _ _ _ a3 q2⟩
            rcases hbest with ⟨rfl, hnone⟩ | ⟨y, j, gl0, len0, q0, y1, y2, y3, y4, y5, rfl, y7⟩
            · rw [if_pos (Or.inl rfl)]
              refine ⟨_, rfl, Or.inr ⟨x, i, gl, len, q, by simp, hAx, hgl, hlen, q2, rfl, ?_⟩⟩
              intro x' i' len' q' g1 g2 g3 g4
              rw [List.mem_append, List.mem_singleton] at g1
              rcases g1 with g1 | rfl
              · exact absurd g2 (hnone x' g1 i')
              · obtain ⟨rfl, rfl⟩ := huniq i' len' q' g2 g3 g4
                exact Or.inr ⟨rfl, le_refl _⟩
            · have hgl0 : gl0 ≠ -1 := by
                have := hm.globals.2 gl0 (List.mem_of_getElem? y3); omega
              dsimp only
              by_cases hcond : len < len0 ∨ (len = len0 ∧ q0 < q)
              · rw [if_pos (Or.inr hcond)]
                refine ⟨_, rfl, Or.inr ⟨x, i, gl, len, q, by simp, hAx, hgl, hlen, q2, rfl, ?_⟩⟩
                intro x' i' len' q' g1 g2 g3 g4
                rw [List.mem_append, List.mem_singleton] at g1
                rcases g1 with g1 | rfl
                · rcases y7 x' i' len' q' g1 g2 g3 g4 with c | ⟨c1, c2⟩
                  · rcases hcond with d | ⟨d1, d2⟩
                    · exact Or.inl (lt_trans d c)
                    · exact Or.inl (by rw [d1]; exact c)
                  · rcases hcond with d | ⟨d1, d2⟩
                    · exact Or.inl (by rw [← c1]; exact d)
                    · exact Or.inr ⟨d1.trans c1, le_trans c2 (le_of_lt d2)⟩
                · obtain ⟨rfl, rfl⟩ := huniq i' len' q' g2 g3 g4
                  exact Or.inr ⟨rfl, le_refl _⟩
              · rw [if_neg (by rintro (c | c); exact hgl0 c; exact hcond c)]
                refine ⟨_, rfl, Or.inr ⟨y, j, gl0, len0, q0, by simp [y1], y2, y3, y4, y5, rfl, ?_⟩⟩
                intro x' i' len' q' g1 g2 g3 g4
                rw [List.mem_append, List.mem_singleton] at g1
                rcases g1 with g1 | rfl
                · exact y7 x' i' len' q' g1 g2 g3 g4
                · obtain ⟨rfl, rfl⟩ := huniq i' len' q' g2 g3 g4
                  rcases lt_trichotomy len0 len' with c | c | c
                  · exact Or.inl c
                  · refine Or.inr ⟨c, ?_⟩
                    rw [← not_lt]
                    exact fun d => hcond (Or.inr ⟨c.symm, d⟩)
                  · exact absurd (Or.inl c) hcond
          · rw [if_neg hb]
            refine ⟨best, rfl, keep ?_ best hbest⟩
            rintro i' ⟨a1, a2⟩
            have : i' = i := by rw [x2] at a1; omega
            subst this
            exact hb (hbit.2 a2)
        · show ∃ y, (e2c[x.1]?).bind _ = some y ∧ _
          rw [i4 x.1 x1 (fun ⟨a, ha⟩ => hmem (List.mem_of_getElem? ha)), Option.bind_some, if_pos rfl]
          refine ⟨best, rfl, keep ?_ best hbest⟩
          rintro i' ⟨a1, a2⟩
          have : i' = i := by rw [x2] at a1; omega
          subst this
          exact hmem (h.all x.1 i' x1 hi a2))
    have hfold : (List.range' lo L.length).foldlM (railStep m e2c codes quals veCodes) ⟨false, -1, minusOne, minusOne⟩ =
        some best := by
      rw [← b1]
      refine foldlM_members (ab2b := m.v2e.ab2b) (codes := veCodes) _ g ?_ L lo _ c3
      intro acc ve x h1 h2
      unfold railStep
      simp only [h1, h2, bind, Option.bind_some]
      rfl
    -- an end of an edge at the vertex is in the list
    have hplace : ∀ e i, e < nents 1 → (R 1 e)[i]? = some v → B e i → ∃ x ∈ L, x.1 = e ∧ A x i := by
      intro e i he hi hB
      obtain ⟨code, hcode⟩ := hall e he (List.mem_of_getElem? hi)
      obtain ⟨_, j, j1, j2⟩ := hin _ hcode
      obtain ⟨p, q, hR, hpq, _⟩ := hm.edge e he
      have hnd : (R 1 e).Nodup := by rw [hR]; simp [hpq]
      have : i = j := (List.getElem?_inj (List.getElem?_eq_some_iff.1 hi).1 hnd).1 (hi.trans j2.symm)
      exact ⟨_, hcode, rfl, by rw [this]; exact j1, hB⟩
    simp only [bind, c2, Option.bind_some, hfold]
    rcases b2 with ⟨rfl, hnone⟩ | ⟨x, i, gl, len, q, x1, x2, x3, x4, x5, rfl, x7⟩
    · rw [if_neg (by simp)]
      refine ⟨_, rfl, Or.inl ⟨rfl, ?_⟩⟩
      intro e i he hi hB
      obtain ⟨x, x1, _, x2⟩ := hplace e i he hi hB
      exact hnone x x1 i x2
    · have hgl0 : gl ≠ -1 := by
        have := hm.globals.2 gl (List.mem_of_getElem? x3); omega
      rw [if_neg (fun hh => hgl0 hh.2)]
      obtain ⟨y1, j, y2, y3⟩ := hin x x1
      have : i = j := by have := x2.1; rw [y2] at this; omega
      subst this
      refine ⟨_, rfl, Or.inr ⟨x.1, i, gl, len, q, y1, y3, x2.2, x3, x4, x5, rfl, ?_⟩⟩
      intro e' i' len' q' g1 g2 g3 g4 g5
      obtain ⟨x', z1, z2, z3⟩ := hplace e' i' g1 g2 g3
      subst z2
      exact x7 x' i' len' q' z1 z3 g4 g5)
  refine ⟨out, ?_, by rw [o2, hm.nverts], ?_⟩
  · unfold chooseRails
    rw [hm.nedges]
    simp only [bind, i1, hve, Option.bind_some]
    exact o1
  · intro v hv
    obtain ⟨x, x1, x2⟩ := o3 v (by rw [hm.nverts]; exact hv)
    rw [x1]; exact x2

/-! ## The whole computation -/

theorem start_spec (s : Nat → Nat → Sched) {n : Nat} {ne : Nat → Nat} {owner : Nat → Nat → Nat × Nat} (edgeCodes : Nat → List Nat)
    (hlen : ∀ r, r < n → (edgeCodes r).length = ne r) (hlt : ∀ r, r < n → ∀ c ∈ edgeCodes r, c < 4)
    (B : Nat → Nat → Nat → Prop)
    (hB : ∀ r e i, r < n → e < ne r → i < 2 → (B r e i ↔ ∃ c, (edgeCodes r)[e]? = some c ∧ c.testBit i = true))
    (hagree : ∀ r e i, r < n → e < ne r → i < 2 → (B r e i ↔ B (owner r e).1 (owner r e).2 i)) :
    ∃ st, onRanks (world n edgeCodes) (fun r codes => do
        let marks ← mapEach (s r 0) (fun c => some (b2i (decide (c ≠ 0)))) codes
        let cands ← collectMarked (s r 1) marks
        let cc ← unmap (s r 2) cands codes 1
        pure (cands, cc)) = some (world n st) ∧ CandsW n ne owner st B := by
  obtain ⟨st, a1, a2⟩ := onRanks_spec edgeCodes (fun r codes => do
        let marks ← mapEach (s r 0) (fun c => some (b2i (decide (c ≠ 0)))) codes
        let cands ← collectMarked (s r 1) marks
        let cc ← unmap (s r 2) cands codes 1
        pure (cands, cc)) (fun r x => Cands (ne r) x.1 x.2 (B r)) (n := n) (by
    intro r hr
    obtain ⟨n2o, m1, m2⟩ := C03_collect_marked (s r 1) ((edgeCodes r).map (fun c => b2i (decide (c ≠ 0)))) (by
      intro m hm
      obtain ⟨c, _, rfl⟩ := List.mem_map.1 hm
      by_cases hc : c = 0 <;> simp [hc, b2i])
    obtain ⟨i1, i2, i3⟩ := collected_of m2
    rw [List.length_map] at i2
    have i3' : ∀ k, k ∈ n2o ↔ ∃ c, (edgeCodes r)[k]? = some c ∧ c ≠ 0 := by
      intro k
      rw [i3, List.getElem?_map]
      cases hk : (edgeCodes r)[k]? with
      | none => simp
      | some c => by_cases hc : c = 0 <;> simp [hc, b2i]
    obtain ⟨codes', d1, d2, d3⟩ := C05_unmap (s r 2) n2o (edgeCodes r) 1 (edgeCodes r).length (by omega) i2
    rw [Nat.mul_one] at d2
    have d3' : ∀ k old : Nat, n2o[k]? = some old → codes'[k]? = (edgeCodes r)[old]? := by
      intro k old hk
      have := d3 k old 0 hk (by omega)
      rwa [entry_one, entry_one] at this
    rw [mapEach_eq (s r 0) _ (fun c => b2i (decide (c ≠ 0))) (edgeCodes r) (fun _ _ => rfl)]
    simp only [bind, Option.bind_some, m1, d1, pure]
    refine ⟨_, rfl, i1, by rw [← hlen r hr]; exact i2, d2, ?_, ?_, ?_⟩
    · intro c hc
      obtain ⟨k, hk⟩ := List.getElem?_of_mem hc
      have hkl : k < codes'.length := (List.getElem?_eq_some_iff.1 hk).1
      have := d3' k _ (List.getElem?_eq_getElem (by omega))
      rw [hk] at this
      exact hlt r hr c (List.mem_of_getElem? this.symm)
    · intro k e c h1 h2 i hi
      have hc := (d3' k e h1).symm.trans h2
      rw [hB r e i hr (by rw [← hlen r hr]; exact (List.getElem?_eq_some_iff.1 hc).1) hi]
      constructor
      · intro hb; exact ⟨c, hc, hb⟩
      · rintro ⟨c', g1, g2⟩
        obtain rfl := Option.some.inj (hc.symm.trans g1)
        exact g2
    · intro e i he hi hBe
      obtain ⟨c, g1, g2⟩ := (hB r e i hr he hi).1 hBe
      refine (i3' e).2 ⟨c, g1, ?_⟩
      rintro rfl
      simp at g2)
  exact ⟨st, a1, a2, hagree⟩

theorem all_empty {n : Nat} {α : Type} (st : Nat → List Nat × α) :
    ((world n st).all (fun c => c.1.isEmpty) = true) ↔ ∀ r, r < n → (st r).1 = [] := by
  rw [List.all_eq_true]
  constructor
  · intro h r hr
    exact List.isEmpty_iff.1 (h _ (List.mem_of_getElem? (world_get st hr)))
  · intro h x hx
    obtain ⟨r, hr, rfl⟩ := List.mem_map.1 hx
    rw [h r (List.mem_range.1 hr)]; rfl

/-- The directions that the offered codes contain. -/
def offeredBy (edgeCodes : Nat → List Nat) (r e i : Nat) : Prop :=
  ∃ c, (edgeCodes r)[e]? = some c ∧ c.testBit i = true

/-- **C56.** On any number of ranks, for any schedule, `coarsen_ghosted` considers exactly the offered
collapses that keep the boundaries, make no edge too long and no element too bad, each judged where the
edge or vertex is owned. If there is none on any rank it says so; otherwise every vertex is told the
shortest such edge of its owner, and of several shortest ones one with the best quality. -/
theorem C56_candidates (s : Nat → Nat → Nat → Sched) (W : CollapseWorld K) (n : Nat) (shared : Bool) (o : CollapseOpts K)
    (h : W.Ok n shared o) (edgeCodes : Nat → List Nat) (hlen : ∀ r, r < n → (edgeCodes r).length = W.nents r 1)
    (hlt : ∀ r, r < n → ∀ c ∈ edgeCodes r, c < 4)
    (hagree : ∀ r e, r < n → e < W.nents r 1 →
      (edgeCodes r)[e]? = (edgeCodes (W.edgeOwner r e).1)[(W.edgeOwner r e).2]?) :
    ∃ res, coarsenGhosted s (ownersArg n shared (fun r => W.nents r 1) W.edgeOwner)
        (ownersArg n shared (fun r => W.nents r 0) W.vertOwner) (world n W.rank) o (world n edgeCodes) = some res ∧
      (res = none ↔ ∀ r e i, r < n → e < W.nents r 1 → i < 2 → ¬ W.Accepted o (offeredBy edgeCodes) r e i) ∧
      ∀ out, res = some out → ∃ outs, out = world n outs ∧ ∀ r, r < n → (outs r).length = W.nents r 0 ∧
        ∀ v, v < W.nents r 0 →
          W.Choice o (offeredBy edgeCodes) (W.vertOwner r v).1 (W.vertOwner r v).2 ((outs r)[v]?) := by
  have hne : ∀ r, r < n → (W.rank r).nedges = W.nents r 1 := fun r hr => (h.mesh r hr).nedges
  -- the owners as the model computes them
  have hofine : OwnersFine n shared (fun r => (W.rank r).nedges) W.edgeOwner := by
    refine ⟨?_, ?_⟩
    · intro r i hr hi
      rw [hne r hr] at hi
      obtain ⟨v1, v2, v3⟩ := h.edges.valid r i hr hi
      exact ⟨v1, by show _ < (W.rank _).nedges; rw [hne _ v1]; exact v2, v3⟩
    · intro hs r i hr hi
      rw [hne r hr] at hi
      exact h.edges.alone hs r i hr hi
  have hoarg : ownersArg n shared (fun r => W.nents r 1) W.edgeOwner =
      ownersArg n shared (fun r => (W.rank r).nedges) W.edgeOwner := by
    unfold ownersArg
    congr 2
    refine List.map_congr_left (fun r hr => ?_)
    unfold remotesOf
    dsimp only
    rw [hne r (List.mem_range.1 hr)]
  rw [hoarg]
  -- the directions after each check
  let B0 := offeredBy edgeCodes
  let P1 : Nat → Nat → Nat → Prop := fun r e i => KeepsBoundaries (W.rank r) o.dim (W.nents r) (W.R r) e i
  let P2 : Nat → Nat → Nat → Prop := fun r e i => ShortEnough (W.rank r) o.maxLength (W.nents r) (W.R r) e i
  let Q : Nat → Nat → Nat → K → Prop := fun r e i q =>
    WorstQuality (W.rank (W.edgeOwner r e).1) o.one o.dim (W.nents (W.edgeOwner r e).1) (W.R (W.edgeOwner r e).1)
      (W.edgeOwner r e).2 i q
  have hQ : ∀ r e i q q', Q r e i q → Q r e i q' → q = q' := fun r e i q q' a b => worst_unique a b
  obtain ⟨st0, a1, a2⟩ := start_spec (s 0) (ne := fun r => (W.rank r).nedges) (owner := W.edgeOwner) edgeCodes
    (fun r hr => by rw [hlen r hr, hne r hr]) hlt B0 (fun r e i _ _ _ => Iff.rfl) (by
      intro r e i hr he _
      show (∃ c, _) ↔ (∃ c, _)
      rw [hagree r e hr (by rw [← hne r hr]; exact he)])
  obtain ⟨st1, b1, b2⟩ := checkCands_spec W.rank h.size hofine (s 1) (exposureAll o.dim) P1 (by
    intro r hr e c he hc
    rw [hne r hr] at he
    exact exposureAll_spec (h.mesh r hr) e he c hc) st0 B0 a2
  obtain ⟨st2, c1, c2, _⟩ := filterAll_spec (s 2) b2
  obtain ⟨st3, d1, d2⟩ := checkCands_spec W.rank h.size hofine (s 3) (fun m => overshootCode m o.maxLength) P2 (by
    intro r hr e c he hc
    rw [hne r hr] at he
    exact overshootCode_spec (h.mesh r hr) o.maxLength e he c hc) st2 _ c2
  obtain ⟨st4, e1, e2, e3⟩ := filterAll_spec (s 4) d2
  let B4 : Nat → Nat → Nat → Prop := fun r e i => (B0 r e i ∧ P1 (W.edgeOwner r e).1 (W.edgeOwner r e).2 i) ∧
    P2 (W.edgeOwner r e).1 (W.edgeOwner r e).2 i
  have e2' : CandsW n (fun r => (W.rank r).nedges) W.edgeOwner st4 B4 := e2
  have hper : ∀ r, r < n → Cands (W.nents r 1) (st4 r).1 (st4 r).2 (B4 r) := fun r hr => by
    rw [← hne r hr]; exact e2'.per r hr
  have hacc4 : ∀ r e i, W.Accepted o B0 r e i → B4 r e i := fun r e i hA => ⟨⟨hA.1, hA.2.1⟩, hA.2.2.1⟩
  unfold coarsenGhosted
  simp only [bind] at a1 ⊢
  simp only [a1, b1, c1, d1, e1, Option.bind_some]
  by_cases hem : (world n st4).all (fun c => c.1.isEmpty) = true
  · rw [if_pos hem]
    refine ⟨none, rfl, iff_of_true rfl ?_, by intro _ hh; exact absurd hh (by simp)⟩
    intro r e i hr he hi hA
    exact (empty_iff (hper r hr) (e3 r hr)).1 ((all_empty st4).1 hem r hr) e i he hi (hacc4 r e i hA)
  rw [if_neg hem]
  -- qualities
  obtain ⟨q0, f1, f2⟩ := onRanks_spec W.rank (fun r m => ((world n st4)[r]?).bind (fun c =>
      coarsenQualities (s 5 r 0) m o.one o.minusOne o.dim c.1 c.2))
    (fun r x => QualsFor (st4 r).1 (B4 r) x (WorstQuality (W.rank r) o.one o.dim (W.nents r) (W.R r))) (n := n) (by
    intro r hr
    rw [world_get _ hr, Option.bind_some]
    exact coarsenQualities_spec (s 5 r 0) (h.mesh r hr) o.one o.minusOne (hper r hr))
  obtain ⟨q, g1, g2⟩ := syncSubset_spec h.size hofine (s 6) 2 (by omega) o.minusOne (fun r => (st4 r).1)
    (fun r hr => (e2'.per r hr).inj) (fun r hr => (e2'.per r hr).range) q0 (fun r hr => (f2 r hr).1)
  have hq : ∀ r, r < n → QualsFor (st4 r).1 (B4 r) (q r) (Q r) := by
    intro r hr
    refine ⟨(g2 r hr).1, ?_⟩
    intro k e i hk hi hB
    have he := (e2'.per r hr).range e (List.mem_of_getElem? hk)
    obtain ⟨v1, v2, v3⟩ := hofine.valid r e hr he
    have hBo := (e2'.agree r e i hr he hi).1 hB
    obtain ⟨k', hk'⟩ := List.getElem?_of_mem ((e2'.per _ v1).all _ i v2 hi hBo)
    obtain ⟨x, x1, x2⟩ := (f2 _ v1).2 k' _ i hk' hi hBo
    refine ⟨x, ?_, x2⟩
    have := ((g2 r hr).2 k e hk i hi).1 k' hk'
    unfold entry at this
    rw [this, x1]
  rw [f1, Option.bind_some, world_map, world_map, g1, Option.bind_some]
  -- the smallest quality allowed
  obtain ⟨c5, i1, i2⟩ := onRanks_spec st4 (fun r c => ((world n q)[r]?).bind (fun q =>
      filterMinQual (s 7 r 0) (s 7 r 1) c.2 q o.minQual))
    (fun r x => Cands (W.nents r 1) (st4 r).1 x (fun e i => B4 r e i ∧ ∃ q, Q r e i q ∧ o.minQual ≤ q)) (n := n) (by
    intro r hr
    rw [world_get _ hr, Option.bind_some]
    exact filterMinQual_spec (s 7 r 0) (s 7 r 1) (hper r hr) (hq r hr) (hQ r) o.minQual)
  rw [i1, Option.bind_some]
  -- improvement
  have himp : ∃ c6, (if o.improve then (onRanks (world n W.rank) (fun r m => vertOldQuals (s 8 r 0) (s 8 r 1) o.top m)).bind (fun old0 =>
      (syncValues (s 9) (ownersArg n shared (fun r => W.nents r 0) W.vertOwner) 1 old0).bind (fun old =>
        onRanks (world n W.rank) (fun r m => ((world n st4)[r]?).bind (fun c => ((world n c5)[r]?).bind (fun codes =>
          ((world n q)[r]?).bind (fun q => (old[r]?).bind (fun vo =>
            filterImprove (fun k => s 10 r k) m c.1 codes q vo)))))))
      else pure (world n c5)) = some (world n c6) ∧
      ∀ r, r < n → Cands (W.nents r 1) (st4 r).1 (c6 r) (W.Accepted o B0 r) := by
    by_cases hi : o.improve = true
    · rw [if_pos hi]
      obtain ⟨old0, j1, j2⟩ := onRanks_spec W.rank (fun r m => vertOldQuals (s 8 r 0) (s 8 r 1) o.top m)
        (fun r out => out.length = W.nents r 0 ∧ ∀ v, v < W.nents r 0 → ∃ x, out[v]? = some x ∧ ∀ q, q ≤ o.top → (x < q ↔
          ∃ c old, c < W.nents r o.dim ∧ v ∈ W.R r o.dim c ∧ (W.rank r).elemQuals[c]? = some old ∧ old < q)) (n := n)
        (fun r hr => vertOldQuals_spec (s 8 r 0) (s 8 r 1) (h.mesh r hr) o.top)
      obtain ⟨old, k1, k2⟩ := syncValues_spec h.size h.verts (s 9) 1 (by omega) old0
        (fun r hr => by rw [(j2 r hr).1, Nat.mul_one])
      obtain ⟨c6, l1, l2⟩ := onRanks_spec W.rank (fun r m => ((world n st4)[r]?).bind (fun c => ((world n c5)[r]?).bind (fun codes =>
          ((world n q)[r]?).bind (fun q => ((world n old)[r]?).bind (fun vo =>
            filterImprove (fun k => s 10 r k) m c.1 codes q vo)))))
        (fun r x => Cands (W.nents r 1) (st4 r).1 x (fun e i => (B4 r e i ∧ ∃ q, Q r e i q ∧ o.minQual ≤ q) ∧
          ∃ q v x, Q r e i q ∧ (W.R r 1 e)[i]? = some v ∧ (old r)[v]? = some x ∧ x < q)) (n := n) (by
        intro r hr
        rw [world_get _ hr, Option.bind_some, world_get _ hr, Option.bind_some, world_get _ hr, Option.bind_some,
          world_get _ hr, Option.bind_some]
        refine filterImprove_spec _ (h.mesh r hr) (i2 r hr) ?_ (hQ r) (old r) (by rw [(k2 r hr).1, Nat.mul_one])
        exact ⟨(hq r hr).1, fun k e i h1 h2 h3 => (hq r hr).2 k e i h1 h2 h3.1⟩)
      refine ⟨c6, by rw [j1, Option.bind_some, k1, Option.bind_some, l1], ?_⟩
      intro r hr
      refine cands_congr (l2 r hr) ?_
      intro e i he hi2
      -- the old quality of the vertex that goes away
      have hold : ∀ v x q, (W.R r 1 e)[i]? = some v → (old r)[v]? = some x → q ≤ o.one → (x < q ↔
          ∃ c old, c < W.nents (W.vertOwner r v).1 o.dim ∧ (W.vertOwner r v).2 ∈ W.R (W.vertOwner r v).1 o.dim c ∧
            (W.rank (W.vertOwner r v).1).elemQuals[c]? = some old ∧ old < q) := by
        intro v x q hv hx hq1
        have hvl : v < W.nents r 0 := by
          have := (List.getElem?_eq_some_iff.1 hx).1
          rw [(k2 r hr).1, Nat.mul_one] at this; exact this
        obtain ⟨w1, w2, _⟩ := h.verts.valid r v hr hvl
        have hsync := (k2 r hr).2 v hvl 0 (by omega)
        rw [entry_one, entry_one] at hsync
        obtain ⟨y, y1, y2⟩ := (j2 _ w1).2 _ w2
        rw [hsync, y1] at hx
        obtain rfl := Option.some.inj hx
        exact y2 q (le_trans hq1 h.top)
      constructor
      · rintro ⟨⟨⟨⟨b0, p1⟩, p2⟩, q1, w1, w2⟩, q2, v, x, w3, w4, w5, w6⟩
        have := hQ r e i q1 q2 w1 w3
        subst this
        obtain ⟨c, od, y1, y2, y3, y4⟩ := (hold v x q1 w4 w5 w1.2.1).1 w6
        exact ⟨b0, p1, p2, q1, w1, w2, fun _ => ⟨v, c, od, w4, y1, y2, y3, y4⟩⟩
      · rintro ⟨b0, p1, p2, q1, w1, w2, w3⟩
        obtain ⟨v, c, od, y0, y1, y2, y3, y4⟩ := w3 hi
        obtain ⟨v', t, z1, _, _, _, _, z2, _⟩ := edge_ends (h.mesh r hr) e he i hi2
        obtain rfl := Option.some.inj (y0.symm.trans z1)
        obtain ⟨x, hx⟩ : ∃ x, (old r)[v]? = some x :=
          ⟨_, List.getElem?_eq_getElem (by rw [(k2 r hr).1, Nat.mul_one]; exact z2)⟩
        exact ⟨⟨⟨⟨b0, p1⟩, p2⟩, q1, w1, w2⟩, q1, v, x, w1, y0, hx, (hold v x q1 y0 hx w1.2.1).2 ⟨c, od, y1, y2, y3, y4⟩⟩
    · rw [if_neg hi]
      refine ⟨c5, rfl, ?_⟩
      intro r hr
      refine cands_congr (i2 r hr) ?_
      intro e i he hi2
      constructor
      · rintro ⟨⟨⟨b0, p1⟩, p2⟩, q1, w1, w2⟩
        exact ⟨b0, p1, p2, q1, w1, w2, fun hh => absurd hh hi⟩
      · rintro ⟨b0, p1, p2, q1, w1, w2, _⟩
        exact ⟨⟨⟨b0, p1⟩, p2⟩, q1, w1, w2⟩
  obtain ⟨c6, j1, j2⟩ := himp
  have j1' : (if o.improve = true then
        (onRanks (world n W.rank) fun r m => vertOldQuals (s 8 r 0) (s 8 r 1) o.top m).bind fun old0 =>
          (syncValues (s 9) (ownersArg n shared (fun r => W.nents r 0) W.vertOwner) 1 old0).bind fun old =>
            onRanks (world n W.rank) fun r m =>
              (world n st4)[r]?.bind fun c =>
                (world n c5)[r]?.bind fun codes =>
                  (world n q)[r]?.bind fun q =>
                    old[r]?.bind fun vo => filterImprove (fun k => s 10 r k) m c.1 codes q vo
      else pure (world n c5)) = some (world n c6) := j1
  rw [j1', Option.bind_some]
  -- the last filter
  obtain ⟨st7, k1, k2⟩ := onRanks_spec st4 (fun r c => ((world n c6)[r]?).bind (fun codes => ((world n q)[r]?).bind (fun q =>
      (filterCands (fun k => s 11 r k) c.1 codes).bind (fun x =>
        (unmap (s 11 r 9) x.1 q 2).map (fun q' => (x.2.1, x.2.2, q'))))))
    (fun r x => Cands (W.nents r 1) x.1 x.2.1 (W.Accepted o B0 r) ∧ (∀ c ∈ x.2.1, c ≠ 0) ∧
      QualsFor x.1 (W.Accepted o B0 r) x.2.2 (Q r)) (n := n) (by
    intro r hr
    rw [world_get _ hr, Option.bind_some, world_get _ hr, Option.bind_some]
    obtain ⟨n2o, cands', codes', l1, l2, l3, l4, l5, l6⟩ := filterCands_spec (fun k => s 11 r k) (j2 r hr)
    obtain ⟨q', m1, m2, m3⟩ := C05_unmap (s 11 r 9) n2o (q r) 2 (st4 r).1.length (by rw [(hq r hr).1]) l5
    refine ⟨(cands', codes', q'), by rw [l1, Option.bind_some, m1]; rfl, l2, l3, by rw [m2, l4], ?_⟩
    intro k e i hk hi hA
    have hkl : k < cands'.length := (List.getElem?_eq_some_iff.1 hk).1
    obtain ⟨old, hold⟩ : ∃ old, n2o[k]? = some old := ⟨_, List.getElem?_eq_getElem (by omega)⟩
    have hk' : (st4 r).1[old]? = some e := (l6 k old hold).symm.trans hk
    obtain ⟨x, x1, x2⟩ := (hq r hr).2 old e i hk' hi (hacc4 r e i hA)
    refine ⟨x, ?_, x2⟩
    have := m3 k old i hold hi
    unfold entry at this
    rw [this, x1])
  rw [k1, Option.bind_some]
  by_cases hem7 : (world n st7).all (fun c => c.1.isEmpty) = true
  · rw [if_pos hem7]
    refine ⟨none, rfl, iff_of_true rfl ?_, by intro _ hh; exact absurd hh (by simp)⟩
    intro r e i hr he hi hA
    exact (empty_iff (k2 r hr).1 (k2 r hr).2.1).1 ((all_empty st7).1 hem7 r hr) e i he hi hA
  rw [if_neg hem7]
  obtain ⟨rails, l1, l2⟩ := onRanks_spec W.rank (fun r m => ((world n st7)[r]?).bind (fun c =>
      chooseRails (s 12 r 0) (s 12 r 1) m o.minusOne c.1 c.2.1 c.2.2))
    (fun r x => x.length = W.nents r 0 ∧ ∀ v, v < W.nents r 0 →
      ChoiceAt (W.rank r) (W.nents r 1) (W.R r) o.minusOne (W.Accepted o B0 r) (Q r) v (x[v]?)) (n := n) (by
    intro r hr
    rw [world_get _ hr, Option.bind_some]
    exact chooseRails_spec (s 12 r 0) (s 12 r 1) (h.mesh r hr) (k2 r hr).1 (k2 r hr).2.1 (k2 r hr).2.2 (hQ r) o.minusOne)
  obtain ⟨outs, m1, m2⟩ := syncValues_spec h.size h.verts (s 13) 1 (by omega) rails
    (fun r hr => by rw [(l2 r hr).1, Nat.mul_one])
  rw [l1, Option.bind_some, m1, Option.bind_some]
  refine ⟨some (world n outs), rfl, iff_of_false (by simp) ?_, ?_⟩
  · intro hno
    refine hem7 ((all_empty st7).2 ?_)
    intro r hr
    exact (empty_iff (k2 r hr).1 (k2 r hr).2.1).2 (fun e i he hi => hno r e i hr he hi)
  · intro out ho
    obtain rfl := Option.some.inj ho
    refine ⟨outs, rfl, ?_⟩
    intro r hr
    refine ⟨by rw [(m2 r hr).1, Nat.mul_one], ?_⟩
    intro v hv
    obtain ⟨w1, w2, _⟩ := h.verts.valid r v hr hv
    have := (m2 r hr).2 v hv 0 (by omega)
    rw [entry_one, entry_one] at this
    rw [this]
    exact (l2 _ w1).2 _ w2

/-! ## The chosen edges again -/

omit [LinearOrder K] in
theorem findRail_spec {m : CollapseRank K} (g : Int) (codes : List Int) :
    ∀ (L : List (Nat × Int)) (lo : Nat),
      (∀ (j : Nat) (x : Nat × Int), L[j]? = some x → m.v2e.ab2b[lo + j]? = some x.1 ∧ codes[lo + j]? = some x.2) →
      (∀ x ∈ L, (m.edgeGlobals[x.1]?).isSome) → (∃ x ∈ L, m.edgeGlobals[x.1]? = some g) →
      ∃ x ∈ L, m.edgeGlobals[x.1]? = some g ∧
        findRail m.v2e.ab2b codes m.edgeGlobals g (List.range' lo L.length) = some (x.1, codeWhichDown x.2) := by
  intro L
  induction L with
  | nil => rintro lo _ _ ⟨x, hx, _⟩; simp at hx
  | cons y L ih =>
    intro lo hL hs hex
    obtain ⟨h1, h2⟩ := hL 0 y rfl
    rw [Nat.add_zero] at h1 h2
    obtain ⟨gy, hgy⟩ := Option.isSome_iff_exists.1 (hs y (by simp))
    rw [List.length_cons, List.range'_succ]
    unfold findRail
    simp only [h1, hgy, bind, Option.bind_some]
    by_cases hg : gy = g
    · subst hg
      exact ⟨y, by simp, hgy, by rw [if_pos rfl, h2]; rfl⟩
    · rw [if_neg hg]
      obtain ⟨x, x1, x2, x3⟩ := ih (lo + 1) (by
        intro j z hz
        have := hL (j + 1) z hz
        rw [show lo + (j + 1) = lo + 1 + j by omega] at this
        exact this) (fun z hz => hs z (by simp [hz])) (by
        obtain ⟨z, z1, z2⟩ := hex
        rw [List.mem_cons] at z1
        rcases z1 with rfl | z1
        · rw [hgy] at z2
          exact absurd (Option.some.inj z2) hg
        · exact ⟨z, z1, z2⟩)
      exact ⟨x, by simp [x1], x2, x3⟩

omit [LinearOrder K] in
/-- **C56, rails.** If the global numbers of edges differ, `find_rails` returns for every chosen vertex
the edge whose number was chosen for it and the place of the vertex in that edge. -/
theorem C56_rails (s : Sched) (m : CollapseRank K) (D : Nat) (nents : Nat → Nat) (R : Nat → Nat → List Nat)
    (h : CollapseMesh m D nents R) (keys : List Nat) (hkeys : InRange keys (nents 0)) (rails : List Int)
    (hdiff : ∀ e e' g : Nat, m.edgeGlobals[e]? = some (g : Int) → m.edgeGlobals[e']? = some (g : Int) → e = e')
    (edge : Nat → Nat) (hedge : ∀ v ∈ keys, edge v < nents 1 ∧ v ∈ R 1 (edge v) ∧
      ∃ g, rails[v]? = some g ∧ m.edgeGlobals[edge v]? = some g) :
    ∃ out, findRails s m.v2e m.edgeGlobals keys rails = some out ∧ out.length = keys.length ∧
      ∀ k v : Nat, keys[k]? = some v → ∃ i : Nat, out[k]? = some ((edge v : Int), (i : Int)) ∧ (R 1 (edge v))[i]? = some v := by
  obtain ⟨codes, hcodes⟩ := Option.isSome_iff_exists.1 h.vertEdgesCodes
  obtain ⟨out, o1, o2, o3⟩ := parVals_spec s keys.length (fun key => do
      let v ← keys[key]?
      let rail ← rails[v]?
      let ves ← fanMembers m.v2e.a2ab v
      let x ← findRail m.v2e.ab2b codes m.edgeGlobals rail ves
      pure [(key, ((x.1 : Int), x.2))])
    (fun k x => ∃ v i : Nat, keys[k]? = some v ∧ x = ((edge v : Int), (i : Int)) ∧ (R 1 (edge v))[i]? = some v)
    (Mem.filled keys.length (-1, -1)) List.length_replicate (by
    intro k hk
    obtain ⟨v, hv⟩ : ∃ v, keys[k]? = some v := ⟨_, List.getElem?_eq_getElem hk⟩
    have hvm := List.mem_of_getElem? hv
    obtain ⟨e1, e2, g, e3, e4⟩ := hedge v hvm
    obtain ⟨L, hL, hin, hall⟩ := h.vertEdges v (hkeys v hvm)
    obtain ⟨codes', lo, c1, c2, c3⟩ := adjRow_members hL
    obtain rfl := Option.some.inj (hcodes.symm.trans c1)
    obtain ⟨x, x1, x2, x3⟩ := findRail_spec (m := m) g codes L lo c3 (by
      intro x hx
      rw [List.getElem?_eq_getElem (by rw [h.globals.1]; exact (hin x hx).1)]; rfl) (by
      obtain ⟨code, hcode⟩ := hall _ e1 e2
      exact ⟨_, hcode, e4⟩)
    have hxe : x.1 = edge v := by
      have hg := h.globals.2 g (List.mem_of_getElem? x2)
      exact hdiff _ _ g.toNat (by rw [Int.toNat_of_nonneg hg]; exact x2) (by rw [Int.toNat_of_nonneg hg]; exact e4)
    obtain ⟨_, i, i1, i2⟩ := hin x x1
    simp only [bind, hv, e3, c2, x3, Option.bind_some]
    refine ⟨_, rfl, v, i, rfl, by rw [hxe, i1], by rw [← hxe]; exact i2⟩)
  refine ⟨out, ?_, o2, ?_⟩
  · unfold findRails
    rw [hcodes]
    exact o1
  · intro k v hk
    obtain ⟨x, x1, v', i, y1, y2, y3⟩ := o3 k (List.getElem?_eq_some_iff.1 hk).1
    obtain rfl := Option.some.inj (hk.symm.trans y1)
    exact ⟨i, by rw [x1, y2], y3⟩

/-! ## An example

Two ranks hold the four triangles around vertex 0 in the square 1, 2, 3, 4. Rank 0 owns the edges at
vertex 0 and all vertices, rank 1 the outer edges. -/

def pickRows : Nat → Nat → List Nat
  | 0, v => [v]
  | 1, e => [[0, 1], [0, 2], [0, 3], [0, 4], [1, 2], [2, 3], [3, 4], [4, 1]][e]?.getD []
  | 2, c => [[0, 1, 2], [0, 2, 3], [0, 3, 4], [0, 4, 1]][c]?.getD []
  | _, _ => []

def pickNents (d : Nat) : Nat := [5, 8, 4][d]?.getD 0

def pickUp (e : Nat) : List (Nat × Int) :=
  [[(0, 0), (3, 18)], [(0, 18), (1, 0)], [(1, 18), (2, 0)], [(2, 18), (3, 0)], [(0, 8)], [(1, 8)], [(2, 8)], [(3, 8)]][e]?.getD []

def pickVertEdges (v : Nat) : List (Nat × Int) :=
  [[(0, 0), (1, 0), (2, 0), (3, 0)], [(0, 8), (4, 0), (7, 8)], [(1, 8), (4, 8), (5, 0)], [(2, 8), (5, 8), (6, 0)],
    [(3, 8), (6, 8), (7, 0)]][v]?.getD []

def pickVertCells (v : Nat) : List (Nat × Int) :=
  [[(0, 0), (1, 0), (2, 0), (3, 0)], [(0, 8), (3, 16)], [(0, 16), (1, 8)], [(1, 16), (2, 8)], [(2, 16), (3, 8)]][v]?.getD []

/-- The outer edges are on the boundary of the model and the outer vertices on its corners. -/
def pickRank : CollapseRank Int where
  nverts := 5
  nedges := 8
  classDim := fun d => [[2, 0, 0, 0, 0], [2, 2, 2, 2, 1, 1, 1, 1], [2, 2, 2, 2]][d]?.getD []
  ev2v := [0, 1, 0, 2, 0, 3, 0, 4, 1, 2, 2, 3, 3, 4, 4, 1]
  v2e := adjOfRows 5 pickVertEdges
  upEdge := fun _ => adjOfRows 8 pickUp
  down := fun _ => [0, 4, 1, 1, 5, 2, 2, 6, 3, 3, 7, 0]
  v2c := adjOfRows 5 pickVertCells
  cv2v := [0, 1, 2, 0, 2, 3, 0, 3, 4, 0, 4, 1]
  edgeGlobals := [10, 11, 12, 13, 14, 15, 16, 17]
  lengths := [5, 4, 4, 5, 9, 9, 9, 9]
  elemQuals := [2, 3, 4, 5]
  lengthOf := fun p q => some (p + q : Int)
  qualityOf := fun l => some (l.sum : Int)

theorem pickRank_ok : CollapseMesh pickRank 2 pickNents pickRows where
  dim := Or.inl rfl
  nverts := rfl
  nedges := rfl
  classLen := by decide
  edge := by
    have key : ∀ e, e < 8 → pickRows 1 e = [pickRank.ev2v[e * 2]?.getD 9, pickRank.ev2v[e * 2 + 1]?.getD 9] ∧
        pickRank.ev2v[e * 2]?.getD 9 ≠ pickRank.ev2v[e * 2 + 1]?.getD 9 ∧ pickRank.ev2v[e * 2]?.getD 9 < 5 ∧
        pickRank.ev2v[e * 2 + 1]?.getD 9 < 5 ∧ pickRank.ev2v[e * 2]? = some (pickRank.ev2v[e * 2]?.getD 9) ∧
        pickRank.ev2v[e * 2 + 1]? = some (pickRank.ev2v[e * 2 + 1]?.getD 9) := by decide
    intro e he
    exact ⟨_, _, key e he⟩
  simple := by
    have key : ∀ e, e < 8 → ∀ e', e' < 8 → (∀ v ∈ pickRows 1 e, v ∈ pickRows 1 e') → e = e' := by decide
    exact fun e e' h1 h2 => key e h1 e' h2
  cell := by
    intro d h1 h2
    obtain rfl : d = 2 := by omega
    decide
  up := by
    intro d h1 h2
    obtain rfl : d = 2 := by omega
    intro e he
    refine ⟨pickUp e, (adjOfRows_spec 8 pickUp).2.2.2 e he, ?_, ?_⟩
    · have key : ∀ e, e < 8 → ∀ x ∈ pickUp e, x.1 < 4 ∧ ∃ w ∈ List.range 3, ∃ r ∈ List.range 2,
          x.2 = 8 * (w : Int) + 2 * (r : Int) ∧
          (pickRows 2 x.1)[(simplexDownTemplate 2 1 (w : Int) (r : Int)).toNat]? = (pickRows 1 e)[0]? ∧
          (pickRows 2 x.1)[(simplexDownTemplate 2 1 (w : Int) ((1 - r : Nat) : Int)).toNat]? = (pickRows 1 e)[1]? := by
        decide +kernel
      intro x hx
      obtain ⟨k1, w, hw, r, hr, k2, k3, k4⟩ := key e he x hx
      refine ⟨k1, ?_⟩
      intro p q hpq
      rw [hpq] at k3 k4
      rw [List.mem_range] at hw hr
      refine ⟨w, r, ?_, hr, k2, k3, k4⟩
      show (w : Int) < 3
      omega
    · have key : ∀ e, e < 8 → ∀ c, c < 4 → (∀ v ∈ pickRows 1 e, v ∈ pickRows 2 c) → c ∈ (pickUp e).map Prod.fst := by decide
      intro c hc hv
      obtain ⟨x, x1, x2⟩ := List.mem_map.1 (key e he c hc hv)
      exact ⟨x.2, by rw [← x2]; exact x1⟩
  side := by
    intro d h1 h2
    obtain rfl : d = 2 := by omega
    have key : ∀ c, c < 4 → ∀ i : Nat, i < 3 → ∃ x, x < 8 ∧ (pickRank.down 2)[c * 3 + i]? = some x ∧
        ((∀ v ∈ pickRows 1 x, ∃ j ∈ List.range 2, (pickRows 2 c)[(simplexDownTemplate 2 1 (i : Int) (j : Int)).toNat]? = some v) ∧
        ∀ j ∈ List.range 2, ∀ v ∈ ((pickRows 2 c)[(simplexDownTemplate 2 1 (i : Int) (j : Int)).toNat]?).toList,
          v ∈ pickRows 1 x) := by decide +kernel
    intro c hc i hi
    obtain ⟨x, x1, x2, x3⟩ := key c hc i hi
    exact ⟨x, x2, x1, side_mem_iff (pickRows 1 x) (pickRows 2 c) 2
      (fun j => (simplexDownTemplate 2 1 (i : Int) (j : Int)).toNat) x3⟩
  vertEdges := by
    intro v hv
    refine ⟨pickVertEdges v, (adjOfRows_spec 5 pickVertEdges).2.2.2 v hv, ?_, ?_⟩
    · have key : ∀ v, v < 5 → ∀ x ∈ pickVertEdges v, x.1 < 8 ∧ ∃ i, i < 2 ∧ codeWhichDown x.2 = ((i : Nat) : Int) ∧
          (pickRows 1 x.1)[i]? = some v := by decide
      intro x hx
      obtain ⟨k1, i, _, k2, k3⟩ := key v hv x hx
      exact ⟨k1, i, k2, k3⟩
    · have key : ∀ v, v < 5 → ∀ e, e < 8 → v ∈ pickRows 1 e → e ∈ (pickVertEdges v).map Prod.fst := by decide
      intro c hc hv'
      obtain ⟨x, x1, x2⟩ := List.mem_map.1 (key v hv c hc hv')
      exact ⟨x.2, by rw [← x2]; exact x1⟩
  vertCells := by
    intro v hv
    refine ⟨pickVertCells v, (adjOfRows_spec 5 pickVertCells).2.2.2 v hv, ?_, ?_⟩
    · have key : ∀ v, v < 5 → ∀ x ∈ pickVertCells v, x.1 < 4 ∧ ∃ i, i < 3 ∧ codeWhichDown x.2 = ((i : Nat) : Int) ∧
          (pickRows 2 x.1)[i]? = some v := by decide
      intro x hx
      obtain ⟨k1, i, _, k2, k3⟩ := key v hv x hx
      exact ⟨k1, i, k2, k3⟩
    · have key : ∀ v, v < 5 → ∀ c, c < 4 → v ∈ pickRows 2 c → c ∈ (pickVertCells v).map Prod.fst := by decide
      intro c hc hv'
      obtain ⟨x, x1, x2⟩ := List.mem_map.1 (key v hv c hc hv')
      exact ⟨x.2, by rw [← x2]; exact x1⟩
  vertCellsFan := by
    refine ⟨⟨by decide, ?_⟩, by decide, by decide, by decide⟩
    have key : ∀ i, i < 6 → ∀ lo ∈ pickRank.v2c.a2ab, ∀ hi ∈ pickRank.v2c.a2ab, pickRank.v2c.a2ab[i]? = some lo →
      pickRank.v2c.a2ab[i + 1]? = some hi → lo ≤ hi := by decide
    intro i lo hi h1 h2
    exact key i (List.getElem?_eq_some_iff.1 h1).1 lo (List.mem_of_getElem? h1) hi (List.mem_of_getElem? h2) h1 h2
  vertEdgesCodes := rfl
  cellVerts := by decide
  edgeVertsLen := rfl
  globals := by decide
  lengths := rfl
  quals := rfl
  lengthOf := fun _ _ _ _ => rfl
  qualityOf := fun _ _ _ => rfl

def pickWorld : CollapseWorld Int where
  rank := fun _ => pickRank
  nents := fun _ => pickNents
  R := fun _ => pickRows
  edgeOwner := fun _ e => if e < 4 then (0, e) else (1, e)
  vertOwner := fun _ v => (0, v)

/-- Edges shorter than 8 and elements of quality at least 5 are wanted. -/
def pickOpts : CollapseOpts Int := ⟨2, 8, 5, true, 100, -1, 1000⟩

theorem pickWorld_ok : pickWorld.Ok 2 true pickOpts where
  size := by decide
  mesh := fun _ _ => pickRank_ok
  edges := by
    have key : ∀ r, r < 2 → ∀ i, i < 8 → (pickWorld.edgeOwner r i).1 < 2 ∧ (pickWorld.edgeOwner r i).2 < 8 ∧
      pickWorld.edgeOwner (pickWorld.edgeOwner r i).1 (pickWorld.edgeOwner r i).2 = pickWorld.edgeOwner r i := by decide
    exact ⟨fun r i h1 h2 => key r h1 i h2, fun h => absurd h (by decide)⟩
  verts := by
    have key : ∀ r, r < 2 → ∀ i, i < 5 → (pickWorld.vertOwner r i).1 < 2 ∧ (pickWorld.vertOwner r i).2 < 5 ∧
      pickWorld.vertOwner (pickWorld.vertOwner r i).1 (pickWorld.vertOwner r i).2 = pickWorld.vertOwner r i := by decide
    exact ⟨fun r i h1 h2 => key r h1 i h2, fun h => absurd h (by decide)⟩
  top := by decide

/-- The directions from vertex 0 and from vertex 1 are offered. -/
example (s : Nat → Nat → Nat → Sched) := C56_candidates s pickWorld 2 true pickOpts pickWorld_ok
  (fun _ => [3, 1, 1, 1, 1, 0, 0, 2]) (by decide) (by decide)
  (by
    have key : ∀ r, r < 2 → ∀ e, e < 8 → [3, 1, 1, 1, 1, 0, 0, 2][e]? = [3, 1, 1, 1, 1, 0, 0, 2][(pickWorld.edgeOwner r e).2]? := by
      decide
    exact fun r e h1 h2 => key r h1 e h2)

/-- Vertex 0 collapses along the edge with number 11: it is as short as the one with number 12 and makes
better elements. Vertex 1 collapses along 14: 17 is equally good but comes later, and the shorter edge
with number 10 would pull two outer edges inside. -/
example : coarsenGhosted (fun _ _ _ => Sched.reversed) (ownersArg 2 true (fun _ => 8) pickWorld.edgeOwner)
    (ownersArg 2 true (fun _ => 5) pickWorld.vertOwner) [pickRank, pickRank] pickOpts
    [[3, 1, 1, 1, 1, 0, 0, 2], [3, 1, 1, 1, 1, 0, 0, 2]] =
    some (some [[(1, 7, 11), (1, 6, 14), (0, -1, -1), (0, -1, -1), (0, -1, -1)],
      [(1, 7, 11), (1, 6, 14), (0, -1, -1), (0, -1, -1), (0, -1, -1)]]) := by
  decide +kernel

/-- Where the edges with these numbers are found again. -/
example (s : Sched) := C56_rails s pickRank 2 pickNents pickRows pickRank_ok [0, 1] (by unfold InRange; decide) [11, 14, -1, -1, -1]
  (by
    have key : ∀ e, e < 8 → ∀ e', e' < 8 → pickRank.edgeGlobals[e]? = pickRank.edgeGlobals[e']? → e = e' := by decide
    intro e e' g h1 h2
    exact key e (List.getElem?_eq_some_iff.1 h1).1 e' (List.getElem?_eq_some_iff.1 h2).1 (h1.trans h2.symm))
  (fun v => if v = 0 then 1 else 4) (by
    intro v hv
    simp only [List.mem_cons, List.not_mem_nil, or_false] at hv
    rcases hv with rfl | rfl
    · exact ⟨by decide, by decide, 11, rfl, rfl⟩
    · exact ⟨by decide, by decide, 14, rfl, rfl⟩)

example : findRails Sched.serial pickRank.v2e pickRank.edgeGlobals [0, 1] [11, 14, -1, -1, -1] = some [(1, 0), (4, 0)] := by
  decide +kernel

/-- Vertices 0 and 1 are marked. -/
example (s : Sched) := C56_offered s [1, 1, 0, 0, 0] pickRank.ev2v 8 rfl (by unfold InRange; decide)

example : edgeCodesOfMarks Sched.reversed [1, 1, 0, 0, 0] pickRank.ev2v 8 = some [3, 1, 1, 1, 1, 0, 0, 2] := by decide +kernel

/-- Only vertex 0 may go: the others are corners of the model. -/
example (s : Sched) := C56_class s [2, 0, 0, 0, 0] [2, 2, 2, 2, 1, 1, 1, 1] pickRank.ev2v [0, 1, 4] [3, 1, 1] 8 rfl
  (by unfold InRange; decide) rfl (by unfold InRange; decide) rfl (by decide)

example : candKernel Sched.reversed (classCode [2, 0, 0, 0, 0] [2, 2, 2, 2, 1, 1, 1, 1] pickRank.ev2v) [0, 1, 4] [3, 1, 1] =
    some [1, 1, 0] := by decide +kernel

end OmegaH
