import Verif.Lemmas.RefineQual
import Verif.Lemmas.Tables
import Verif.Props.C03
import Verif.Props.C05
import Mathlib.Algebra.Order.Ring.Int
/-!
# C72 — an edge is split only if the cells this makes are good enough
-/
namespace OmegaH
open Spec

variable {K V M : Type}

theorem mapM_value {α β : Type} {l : List α} {g : α → Option β} : ∀ {L : List β}, l.mapM g = some L →
    ∀ x ∈ l, ∃ y, g x = some y ∧ y ∈ L := by
  induction l with
  | nil => intro L _ x hx; simp at hx
  | cons a l ih =>
    intro L h
    rw [List.mapM_cons] at h
    simp only [bind, Option.bind_eq_some_iff, pure, Option.some.injEq] at h
    obtain ⟨x, hx, r, hr, rfl⟩ := h
    intro y hy
    rcases List.mem_cons.1 hy with rfl | hy
    · exact ⟨x, hx, by simp⟩
    · obtain ⟨z, h1, h2⟩ := ih hr y hy
      exact ⟨z, h1, by simp [h2]⟩

/-- The cells that key `k` makes, with their qualities, and what the kernel found at its edge. -/
theorem edge_made [LinearOrder K] {d : QualData K V M} (one : K) {coords newCoords : List V} {metrics newMetrics midms : List M}
    {mesh : RefineMesh} {dim : Nat} (hdim : dim = 2 ∨ dim = 3) (hm : metrics.length = coords.length) {cands : List Nat} {c e : Nat}
    (hc : cands[c]? = some e) (he : SplittableEdge mesh dim coords.length e) {keys2edges keys2mids old2new : List Nat}
    (ho : old2new.length = coords.length)
    (hca : SplitCarried d coords metrics mesh keys2edges keys2mids old2new newCoords newMetrics) {k m : Nat} (hk : keys2edges[k]? = some e)
    (hkm : keys2mids[k]? = some m)
    (hmid : ∀ (a b : Nat) (x y : M), (mesh.vertsOf 1)[e * 2]? = some a → (mesh.vertsOf 1)[e * 2 + 1]? = some b → metrics[a]? = some x →
      metrics[b]? = some y → midms[c]? = some (d.avg x y)) :
    ∃ (fan : List Nat) (T : Nat → Nat → List Nat) (Q : Nat → Nat → K), fanMembers (mesh.upOffsets dim) e = some fan ∧
      splitQuality d one coords metrics midms mesh dim cands c = some ((fan.flatMap (fun ed => [Q ed 0, Q ed 1])).foldl min one) ∧
      ∀ ed ∈ fan, ∃ dom code, (mesh.upEnts dim)[ed]? = some dom ∧ (mesh.upCodes dim)[ed]? = some code ∧ ∀ i, i < 2 →
        pairVerts (mesh.vertsOf dim) old2new dim dom code m i = some (T ed i) ∧ (T ed i).length = dim + 1 ∧
        measureQuality d newCoords newMetrics (T ed i) = some (Q ed i) := by
  obtain ⟨a, b, p, q, x, y, fan, h1, h2, h3, h4, h5, h6, h7, h8⟩ := edge_qual (d := d) one (midms := midms) hdim hm hc he
  obtain ⟨Q, q1, q2⟩ := h8 (hmid a b x y h1 h2 h5 h6)
  obtain ⟨c1, c2⟩ := hca.made k e m a b p q x y hk hkm h1 h2 h3 h4 h5 h6
  have hex : ∀ ed i, ∃ row : List Nat, ed ∈ fan → i < 2 → ∃ dom code, (mesh.upEnts dim)[ed]? = some dom ∧
      (mesh.upCodes dim)[ed]? = some code ∧ pairVerts (mesh.vertsOf dim) old2new dim dom code m i = some row ∧ row.length = dim + 1 ∧
      measureQuality d newCoords newMetrics row = some (Q ed i) := by
    intro ed i
    by_cases hh : ed ∈ fan ∧ i < 2
    · obtain ⟨dom, code, n1, n2, n3⟩ := q2 ed hh.1
      obtain ⟨n4, vs, n5, n6, n7⟩ := n3 i hh.2
      obtain ⟨row, q', r1, r2, r3, r4⟩ := half_made (d := d) hdim n5 n6 (fun v hv => ⟨n7 v hv, by have := n7 v hv; omega,
        by have := n7 v hv; omega⟩) hca.kept c1 c2
      obtain rfl := Option.some.inj (n4.symm.trans r3)
      exact ⟨row, fun _ _ => ⟨dom, code, n1, n2, r1, r2, r4⟩⟩
    · exact ⟨[], fun u v => absurd ⟨u, v⟩ hh⟩
  choose T hT using hex
  refine ⟨fan, T, Q, h7, q1, ?_⟩
  intro ed hed
  obtain ⟨dom, code, n1, n2, n3, n4, n5⟩ := hT ed 0 hed (by omega)
  obtain ⟨dom', code', m1, m2, m3, m4, m5⟩ := hT ed 1 hed (by omega)
  obtain rfl := Option.some.inj (n1.symm.trans m1)
  obtain rfl := Option.some.inj (n2.symm.trans m2)
  refine ⟨dom, code, n1, n2, ?_⟩
  intro i hi
  rcases (show i = 0 ∨ i = 1 by omega) with rfl | rfl
  · exact ⟨n3, n4, n5⟩
  · exact ⟨m3, m4, m5⟩

theorem mapM_pairs {α β : Type} (f : α → Option β) (T : Nat → Nat → α) (Q : Nat → Nat → β) (l : List Nat)
    (h : ∀ ed ∈ l, ∀ i, i < 2 → f (T ed i) = some (Q ed i)) :
    (l.flatMap (fun ed => [T ed 0, T ed 1])).mapM f = some (l.flatMap (fun ed => [Q ed 0, Q ed 1])) := by
  induction l with
  | nil => rfl
  | cons ed l ih =>
    have e := ih (fun x hx => h x (by simp [hx]))
    rw [List.flatMap_cons, List.flatMap_cons]
    simp only [List.cons_append, List.nil_append, List.mapM_cons]
    rw [h ed (by simp) 0 (by omega), h ed (by simp) 1 (by omega), e]
    rfl

/-- **C72, prediction.** The qualities of the candidates are computed for every schedule. Whichever of the candidates are then split, the
quality found for each of these is the least of one and the qualities that its new cells have in the new mesh. -/
theorem C72_predicted [LinearOrder K] (s1 s2 : Sched) (s : Nat → Sched) (d : QualData K V M) (one : K) (coords : List V) (metrics : List M)
    (mesh : RefineMesh) (dim : Nat) (hdim : dim = 2 ∨ dim = 3) (hm : metrics.length = coords.length) (hne : mesh.upOffsets dim ≠ [])
    (cands : List Nat) (hc : ∀ e ∈ cands, SplittableEdge mesh dim coords.length e) :
    ∃ quals, refineQualities s1 s2 d one coords metrics mesh dim cands = some quals ∧ quals.length = cands.length ∧
      ∀ (keys2edges keys2mids old2new : List Nat) (newCoords : List V) (newMetrics : List M), (∀ e ∈ keys2edges, e ∈ cands) →
        keys2mids.length = keys2edges.length → old2new.length = coords.length →
        SplitCarried d coords metrics mesh keys2edges keys2mids old2new newCoords newMetrics →
        ∃ rows out, refineProducts s mesh dim dim keys2edges keys2mids old2new = some out ∧ ProductLayout keys2edges.length rows out ∧
          (∀ k, k < keys2edges.length → ∀ r ∈ rows k, r.length = dim + 1) ∧
          ∀ k c e : Nat, keys2edges[k]? = some e → cands[c]? = some e →
            ∃ qs x, (rows k).mapM (measureQuality d newCoords newMetrics) = some qs ∧ quals[c]? = some x ∧ LeastOf one qs x := by
  obtain ⟨midms, m1, m2, m3⟩ := midMetrics_spec s1 d metrics (mesh.vertsOf 1) cands (by
    intro c e hce
    obtain ⟨a, b, lo, hi, h1, h2, h3, h4, _⟩ := hc e (List.mem_of_getElem? hce)
    exact ⟨a, b, _, _, h1, h2, List.getElem?_eq_getElem (by omega), List.getElem?_eq_getElem (by omega)⟩)
  have hmid : ∀ c e : Nat, cands[c]? = some e → ∀ (a b : Nat) (x y : M), (mesh.vertsOf 1)[e * 2]? = some a →
      (mesh.vertsOf 1)[e * 2 + 1]? = some b → metrics[a]? = some x → metrics[b]? = some y → midms[c]? = some (d.avg x y) :=
    fun c e hce a b x y h1 h2 h3 h4 => m3 c e a b x y hce h1 h2 h3 h4
  obtain ⟨quals, q1, q2, q3⟩ := parEach s2 cands.length (splitQuality d one coords metrics midms mesh dim cands) (by
    intro c hcl
    have ec := List.getElem?_eq_getElem hcl
    obtain ⟨a, b, p, q, x, y, fan, h1, h2, _, _, h5, h6, _, h8⟩ := edge_qual (d := d) one (midms := midms) hdim hm ec
      (hc _ (List.mem_of_getElem? ec))
    obtain ⟨Q, hQ, _⟩ := h8 (hmid c _ ec a b x y h1 h2 h5 h6)
    rw [hQ]; rfl)
  refine ⟨quals, by unfold refineQualities; rw [m1]; exact q1, q2, ?_⟩
  intro keys2edges keys2mids old2new newCoords newMetrics hk hkm ho hca
  have hex : ∀ k : Nat, ∃ R : List Nat × (Nat → Nat → List Nat), ∀ e m : Nat, keys2edges[k]? = some e → keys2mids[k]? = some m →
      fanMembers (mesh.upOffsets dim) e = some R.1 ∧
      (∀ ed ∈ R.1, ∃ dom code, (mesh.upEnts dim)[ed]? = some dom ∧ (mesh.upCodes dim)[ed]? = some code ∧ ∀ i, i < 2 →
        pairVerts (mesh.vertsOf dim) old2new dim dom code m i = some (R.2 ed i) ∧ (R.2 ed i).length = dim + 1) ∧
      ∀ c : Nat, cands[c]? = some e → ∃ Q : Nat → Nat → K,
        splitQuality d one coords metrics midms mesh dim cands c = some ((R.1.flatMap (fun ed => [Q ed 0, Q ed 1])).foldl min one) ∧
        ∀ ed ∈ R.1, ∀ i, i < 2 → measureQuality d newCoords newMetrics (R.2 ed i) = some (Q ed i) := by
    intro k
    by_cases hh : k < keys2edges.length
    · have ek := List.getElem?_eq_getElem hh
      have em := List.getElem?_eq_getElem (show k < keys2mids.length by omega)
      obtain ⟨c0, hc0⟩ := List.mem_iff_getElem?.1 (hk _ (List.mem_of_getElem? ek))
      obtain ⟨fan, T, Q, f1, _, f3⟩ := edge_made (d := d) one hdim hm hc0 (hc _ (List.mem_of_getElem? hc0)) ho hca ek em (hmid c0 _ hc0)
      refine ⟨(fan, T), ?_⟩
      intro e m he hmm
      obtain rfl := Option.some.inj (ek.symm.trans he)
      obtain rfl := Option.some.inj (em.symm.trans hmm)
      refine ⟨f1, ?_, ?_⟩
      · intro ed hed
        obtain ⟨dom, code, n1, n2, n3⟩ := f3 ed hed
        exact ⟨dom, code, n1, n2, fun i hi => ⟨(n3 i hi).1, (n3 i hi).2.1⟩⟩
      · intro c hce
        obtain ⟨fan', T', Q', g1, g2, g3⟩ := edge_made (d := d) one hdim hm hce (hc _ (List.mem_of_getElem? hce)) ho hca ek em (hmid c _ hce)
        obtain rfl := Option.some.inj (f1.symm.trans g1)
        refine ⟨Q', g2, ?_⟩
        intro ed hed i hi
        obtain ⟨dom, code, n1, n2, n3⟩ := f3 ed hed
        obtain ⟨dom', code', o1, o2, o3⟩ := g3 ed hed
        obtain rfl := Option.some.inj (n1.symm.trans o1)
        obtain rfl := Option.some.inj (n2.symm.trans o2)
        have := Option.some.inj ((n3 i hi).1.symm.trans (o3 i hi).1)
        show measureQuality d newCoords newMetrics (T ed i) = _
        rw [this]
        exact (o3 i hi).2.2
    · exact ⟨([], fun _ _ => []), fun e m he => absurd (List.getElem?_eq_some_iff.1 he).1 hh⟩
  choose R hR using hex
  have hfan : KeyFans (mesh.upOffsets dim) keys2edges (fun k => (R k).1) := by
    intro k e he
    have hkl := (List.getElem?_eq_some_iff.1 he).1
    obtain ⟨r1, _, _⟩ := hR k e _ he (List.getElem?_eq_getElem (show k < keys2mids.length by omega))
    obtain ⟨a, b, lo, hi, _, _, _, _, h5, h6, h7, _⟩ := hc e (hk e (List.mem_of_getElem? he))
    refine ⟨lo, hi, h5, h6, h7, ?_⟩
    unfold fanMembers at r1
    rw [h5, h6] at r1
    exact (Option.some.inj r1).symm
  obtain ⟨k2p, p1, p2, p3⟩ := refineDomainsToPairs_layout (s 0) (s 1) (s 2) (s 3) dim (mesh.vertsOf dim) (mesh.upOffsets dim)
    (mesh.upEnts dim) (mesh.upCodes dim) keys2edges keys2mids old2new (fun k => (R k).1) hfan hne hkm (fun k ed i => (R k).2 ed i) (by
      intro k m hkl hmm ed hed
      exact (hR k _ m (List.getElem?_eq_getElem hkl) hmm).2.1 ed hed)
  refine ⟨fun k => (R k).1.flatMap (fun ed => [(R k).2 ed 0, (R k).2 ed 1]), (k2p, _), ?_, ⟨p2, p3, rfl⟩, ?_, ?_⟩
  · unfold refineProducts refineToPairs
    rw [if_neg (by omega), p1]
    simp only [bind, Option.bind_some]
    rw [if_pos trivial]; rfl
  · intro k hkl r hr
    obtain ⟨ed, hed, hr⟩ := List.mem_flatMap.1 hr
    obtain ⟨dom, code, _, _, h⟩ := (hR k _ _ (List.getElem?_eq_getElem hkl) (List.getElem?_eq_getElem (show k < keys2mids.length by omega))).2.1
      ed hed
    rcases List.mem_cons.1 hr with rfl | hr
    · exact (h 0 (by omega)).2
    · rw [List.mem_singleton] at hr; subst hr; exact (h 1 (by omega)).2
  · intro k c e he hce
    have hkl := (List.getElem?_eq_some_iff.1 he).1
    obtain ⟨_, _, r3⟩ := hR k e _ he (List.getElem?_eq_getElem (show k < keys2mids.length by omega))
    obtain ⟨Q, z1, z2⟩ := r3 c hce
    refine ⟨(R k).1.flatMap (fun ed => [Q ed 0, Q ed 1]), _, ?_, (q3 c (List.getElem?_eq_some_iff.1 hce).1).trans z1, foldl_min_least _ one⟩
    exact mapM_pairs _ _ Q _ z2

theorem flatten_rows_unique {w : Nat} (hw : 0 < w) : ∀ (L R : List (List Nat)), (∀ r ∈ L, r.length = w) → (∀ r ∈ R, r.length = w) →
    L.flatten = R.flatten → L = R := by
  intro L
  induction L with
  | nil =>
    intro R _ hR h
    cases R with
    | nil => rfl
    | cons r R =>
      have h1 := hR r (by simp)
      have := congrArg List.length h
      simp only [List.flatten_nil, List.flatten_cons, List.length_append, List.length_nil] at this
      omega
  | cons l L ih =>
    intro R hL hR h
    cases R with
    | nil =>
      have h1 := hL l (by simp)
      have := congrArg List.length h
      simp only [List.flatten_nil, List.flatten_cons, List.length_append, List.length_nil] at this
      omega
    | cons r R =>
      rw [List.flatten_cons, List.flatten_cons] at h
      obtain ⟨h1, h2⟩ := List.append_inj h (by rw [hL l (by simp), hR r (by simp)])
      rw [h1, ih R (fun x hx => hL x (by simp [hx])) (fun x hx => hR x (by simp [hx])) h2]

/-- Splitting one edge makes cells with only one list of qualities. -/
theorem splitAlone_unique {d : QualData K V M} {coords : List V} {metrics : List M} {mesh : RefineMesh} {dim e : Nat} {qs qs' : List K}
    (h : SplitAlone d coords metrics mesh dim e qs) (h' : SplitAlone d coords metrics mesh dim e qs') : qs = qs' := by
  obtain ⟨a, b, p, q, x, y, out, cells, h1, h2, h3, h4, h5, h6, h7, h8, h9, h10⟩ := h
  obtain ⟨a', b', p', q', x', y', out', cells', g1, g2, g3, g4, g5, g6, g7, g8, g9, g10⟩ := h'
  obtain rfl := Option.some.inj (h1.symm.trans g1)
  obtain rfl := Option.some.inj (h2.symm.trans g2)
  obtain rfl := Option.some.inj (h3.symm.trans g3)
  obtain rfl := Option.some.inj (h4.symm.trans g4)
  obtain rfl := Option.some.inj (h5.symm.trans g5)
  obtain rfl := Option.some.inj (h6.symm.trans g6)
  obtain rfl := Option.some.inj (h7.symm.trans g7)
  obtain rfl := flatten_rows_unique (Nat.succ_pos dim) cells cells' h9 g9 (h8.symm.trans g8)
  exact Option.some.inj (h10.symm.trans g10)

/-- The quality found for a candidate is the least of one and those of the cells that splitting it alone makes. -/
theorem predicted_alone [LinearOrder K] (s1 s2 : Sched) (d : QualData K V M) (one : K) (coords : List V) (metrics : List M)
    (mesh : RefineMesh) (dim : Nat) (hdim : dim = 2 ∨ dim = 3) (hm : metrics.length = coords.length) (hne : mesh.upOffsets dim ≠ [])
    (cands : List Nat) (hc : ∀ e ∈ cands, SplittableEdge mesh dim coords.length e) {quals : List K}
    (hq : refineQualities s1 s2 d one coords metrics mesh dim cands = some quals) :
    ∀ c e : Nat, cands[c]? = some e → ∃ qs x, SplitAlone d coords metrics mesh dim e qs ∧ quals[c]? = some x ∧ LeastOf one qs x := by
  intro c e hce
  obtain ⟨quals', q1, _, q3⟩ := C72_predicted s1 s2 (fun _ => .serial) d one coords metrics mesh dim hdim hm hne cands hc
  obtain rfl := Option.some.inj (q1.symm.trans hq)
  have hs := hc e (List.mem_of_getElem? hce)
  have hs' := hs
  obtain ⟨a, b, lo, hi, h1, h2, h3, h4, _⟩ := hs'
  have ep := List.getElem?_eq_getElem h3
  have eq := List.getElem?_eq_getElem h4
  have ex := List.getElem?_eq_getElem (show a < metrics.length by omega)
  have ey := List.getElem?_eq_getElem (show b < metrics.length by omega)
  obtain ⟨rows, out, r1, ⟨_, _, r2⟩, r3, r4⟩ := q3 [e] [coords.length] (List.range coords.length) (coords ++ [d.mid coords[a] coords[b]])
    (metrics ++ [d.avg (metrics[a]'(by omega)) (metrics[b]'(by omega))])
    (by intro x hx; rw [List.mem_singleton] at hx; subst hx; exact List.mem_of_getElem? hce) rfl (List.length_range) (by
      refine ⟨?_, ?_⟩
      · intro v n hv
        have hl := (List.getElem?_eq_some_iff.1 hv).1
        rw [List.length_range] at hl
        rw [List.getElem?_range hl] at hv
        obtain rfl := Option.some.inj hv
        exact ⟨List.getElem?_append_left hl, List.getElem?_append_left (by omega)⟩
      · intro k e' m a' b' p q x y k1 k2 k3 k4 k5 k6 k7 k8
        rcases k with _ | k
        · obtain rfl : e = e' := by simpa using k1
          obtain rfl : coords.length = m := by simpa using k2
          obtain rfl := Option.some.inj (h1.symm.trans k3)
          obtain rfl := Option.some.inj (h2.symm.trans k4)
          obtain rfl := Option.some.inj (ep.symm.trans k5)
          obtain rfl := Option.some.inj (eq.symm.trans k6)
          obtain rfl := Option.some.inj (ex.symm.trans k7)
          obtain rfl := Option.some.inj (ey.symm.trans k8)
          refine ⟨by simp, ?_⟩
          rw [← hm]; simp
        · simp at k1)
  obtain ⟨qs, x, y1, y2, y3⟩ := r4 0 c e rfl hce
  refine ⟨qs, x, ⟨a, b, _, _, _, _, out, rows 0, h1, h2, ep, eq, ex, ey, r1, ?_, r3 0 (by simp), y1⟩, y2, y3⟩
  rw [r2]
  simp

/-- An edge may be split: the quality of no cell that splitting it makes is below the allowed one, nor is the best possible quality. -/
def Spec.MaySplit [LE K] (d : QualData K V M) (one allowed : K) (coords : List V) (metrics : List M) (mesh : RefineMesh) (dim e : Nat) : Prop :=
  allowed ≤ one ∧ ∃ qs, SplitAlone d coords metrics mesh dim e qs ∧ ∀ q ∈ qs, allowed ≤ q

theorem least_ge [LinearOrder K] {one allowed x : K} {qs : List K} (h : LeastOf one qs x) :
    allowed ≤ x ↔ allowed ≤ one ∧ ∀ q ∈ qs, allowed ≤ q := by
  obtain ⟨h1, h2, h3⟩ := h
  constructor
  · exact fun h => ⟨le_trans h h1, fun q hq => le_trans h (h2 q hq)⟩
  · rintro ⟨a, b⟩
    rcases h3 with rfl | h3
    · exact a
    · exact b x h3

theorem collected_injective {marks : List Int} {out : List Nat} (h : IsCollected marks out) : Spec.Injective out := by
  intro i j b hi hj
  obtain ⟨hil, hi⟩ := List.getElem?_eq_some_iff.1 hi
  obtain ⟨hjl, hj⟩ := List.getElem?_eq_some_iff.1 hj
  rcases Nat.lt_trichotomy i j with hlt | heq | hlt
  · have := List.pairwise_iff_getElem.1 h.1 i j hil hjl hlt
    omega
  · exact heq
  · have := List.pairwise_iff_getElem.1 h.1 j i hjl hil hlt
    omega

/-- **C72, selection.** For all marks and schedules: if no marked edge may be split, nothing is done; otherwise the edges offered to the
choice of keys are exactly the marked edges that may be split, and each comes with the least quality that splitting it makes. -/
theorem C72_initial [LinearOrder K] (s : Nat → Sched) (d : QualData K V M) (one zero allowed : K) (coords : List V) (metrics : List M)
    (mesh : RefineMesh) (dim : Nat) (hdim : dim = 2 ∨ dim = 3) (hm : metrics.length = coords.length) (hne : mesh.upOffsets dim ≠ [])
    (marks : List Int) (hmk : IsMarks marks) (hc : ∀ e, Marked marks e → SplittableEdge mesh dim coords.length e) :
    ((∀ e, Marked marks e → ¬ MaySplit d one allowed coords metrics mesh dim e) ∧
      refineInitial s d one zero allowed coords metrics mesh dim marks = some none) ∨
    ((∃ e, Marked marks e ∧ MaySplit d one allowed coords metrics mesh dim e) ∧
      ∃ initial quals, refineInitial s d one zero allowed coords metrics mesh dim marks = some (some (initial, quals)) ∧
        initial.length = marks.length ∧ quals.length = marks.length ∧ IsMarks initial ∧
        (∀ e, Marked initial e ↔ Marked marks e ∧ MaySplit d one allowed coords metrics mesh dim e) ∧
        ∀ e, Marked marks e → ∃ qs x, SplitAlone d coords metrics mesh dim e qs ∧ quals[e]? = some x ∧ LeastOf one qs x) := by
  obtain ⟨cands, c1, c2⟩ := C03_collect_marked (s 0) marks hmk
  have hcm : ∀ e ∈ cands, SplittableEdge mesh dim coords.length e := fun e he => hc e ((c2.2 e).1 he)
  obtain ⟨quals, q1, q2, _⟩ := C72_predicted (s 1) (s 2) s d one coords metrics mesh dim hdim hm hne cands hcm
  have hal := predicted_alone (s 1) (s 2) d one coords metrics mesh dim hdim hm hne cands hcm q1
  obtain ⟨good, g1, g2, g3⟩ := mapEach_total (s 3) (fun q : K => b2i (decide (allowed ≤ q))) quals
  have hgood : ∀ c e : Nat, cands[c]? = some e → ∃ f : Int, good[c]? = some f ∧ (f = 0 ∨ f = 1) ∧
      (f = 1 ↔ MaySplit d one allowed coords metrics mesh dim e) := by
    intro c e hce
    obtain ⟨qs, x, a1, a2, a3⟩ := hal c e hce
    refine ⟨_, g3 c x a2, ?_, ?_⟩
    · show b2i (decide (allowed ≤ x)) = 0 ∨ b2i (decide (allowed ≤ x)) = 1
      unfold b2i; split <;> simp
    · have : b2i (decide (allowed ≤ x)) = 1 ↔ allowed ≤ x := by
        unfold b2i; by_cases hx : allowed ≤ x <;> simp [hx]
      rw [this, least_ge a3]
      constructor
      · exact fun h => ⟨h.1, qs, a1, h.2⟩
      · rintro ⟨h, qs', b1, b2⟩
        exact ⟨h, splitAlone_unique b1 a1 ▸ b2⟩
  have hin : InRange cands marks.length := by
    intro e he
    exact (List.getElem?_eq_some_iff.1 ((c2.2 e).1 he)).1
  have hinj := collected_injective c2
  have hle : cands.length ≤ marks.length := by
    have hnd : cands.Nodup := c2.1.imp (fun h => Nat.ne_of_lt h)
    have := (List.subperm_of_subset hnd (fun e he => List.mem_range.2 (hin e he))).length_le
    rwa [List.length_range] at this
  by_cases hone : (1 : Int) ∈ good
  · right
    obtain ⟨c, hcg⟩ := List.mem_iff_getElem?.1 hone
    have hcl := (List.getElem?_eq_some_iff.1 hcg).1
    have ec := List.getElem?_eq_getElem (show c < cands.length by omega)
    obtain ⟨f, f1, _, f3⟩ := hgood c _ ec
    obtain rfl := Option.some.inj (f1.symm.trans hcg)
    refine ⟨⟨_, (c2.2 _).1 (List.mem_of_getElem? ec), f3.1 rfl⟩, ?_⟩
    obtain ⟨initial, i1, i2, i3, i4⟩ := C05_map_onto (s 4) good cands marks.length 0 1 (by omega) (by omega) hin hinj
    obtain ⟨eq, e1, e2, e3, e4⟩ := C05_map_onto (s 5) quals cands marks.length zero 1 (by omega) (by omega) hin hinj
    unfold entry at i3 i4 e3 e4
    refine ⟨initial, eq, ?_, by omega, by omega, ?_, ?_, ?_⟩
    · unfold refineInitial
      rw [c1, Option.bind_some, q1, Option.bind_some, g1, Option.bind_some, if_pos hone, i1, Option.bind_some, e1]
      rfl
    · intro v hv
      obtain ⟨e, he⟩ := List.mem_iff_getElem?.1 hv
      have hel := (List.getElem?_eq_some_iff.1 he).1
      by_cases him : InImage cands e
      · obtain ⟨c, hce⟩ := him
        obtain ⟨f, f1, f2, _⟩ := hgood c e hce
        have := i3 c e 0 hce (by omega)
        simp only [Nat.mul_one, Nat.add_zero] at this
        obtain rfl := Option.some.inj (f1.symm.trans (this.symm.trans he))
        exact f2
      · have := i4 e 0 (by omega) him (by omega)
        simp only [Nat.mul_one, Nat.add_zero] at this
        exact Or.inl (Option.some.inj (he.symm.trans this))
    · intro e
      constructor
      · intro he
        have hel := (List.getElem?_eq_some_iff.1 he).1
        by_cases him : InImage cands e
        · obtain ⟨c, hce⟩ := him
          obtain ⟨f, f1, _, f3⟩ := hgood c e hce
          have := i3 c e 0 hce (by omega)
          simp only [Nat.mul_one, Nat.add_zero] at this
          exact ⟨(c2.2 e).1 (List.mem_of_getElem? hce), f3.1 (Option.some.inj (f1.symm.trans (this.symm.trans he)))⟩
        · have := i4 e 0 (by omega) him (by omega)
          simp only [Nat.mul_one, Nat.add_zero] at this
          exact absurd (Option.some.inj (he.symm.trans this)) (by decide)
      · rintro ⟨h1, h2⟩
        obtain ⟨c, hce⟩ := List.mem_iff_getElem?.1 ((c2.2 e).2 h1)
        obtain ⟨f, f1, _, f3⟩ := hgood c e hce
        have := i3 c e 0 hce (by omega)
        simp only [Nat.mul_one, Nat.add_zero] at this
        exact this.trans (f1.trans (congrArg some (f3.2 h2)))
    · intro e he
      obtain ⟨c, hce⟩ := List.mem_iff_getElem?.1 ((c2.2 e).2 he)
      obtain ⟨qs, x, a1, a2, a3⟩ := hal c e hce
      have := e3 c e 0 hce (by omega)
      simp only [Nat.mul_one, Nat.add_zero] at this
      exact ⟨qs, x, a1, this.trans a2, a3⟩
  · left
    refine ⟨?_, ?_⟩
    · intro e he hms
      obtain ⟨c, hce⟩ := List.mem_iff_getElem?.1 ((c2.2 e).2 he)
      obtain ⟨f, f1, _, f3⟩ := hgood c e hce
      exact hone (f3.2 hms ▸ List.mem_of_getElem? f1)
    · unfold refineInitial
      rw [c1, Option.bind_some, q1, Option.bind_some, g1, Option.bind_some, if_neg hone]

/-- **C72, result.** Whichever of the offered edges are split, together, with any numbering of the new mesh: every cell that this makes has
at least the allowed quality there. -/
theorem C72_made [LinearOrder K] (s s' : Nat → Sched) (d : QualData K V M) (one zero allowed : K) (coords : List V) (metrics : List M)
    (mesh : RefineMesh) (dim : Nat) (hdim : dim = 2 ∨ dim = 3) (hm : metrics.length = coords.length) (hne : mesh.upOffsets dim ≠ [])
    (marks : List Int) (hmk : IsMarks marks) (hc : ∀ e, Marked marks e → SplittableEdge mesh dim coords.length e)
    {initial : List Int} {quals : List K}
    (hi : refineInitial s d one zero allowed coords metrics mesh dim marks = some (some (initial, quals)))
    (keys2edges keys2mids old2new : List Nat) (newCoords : List V) (newMetrics : List M) (hk : ∀ e ∈ keys2edges, Marked initial e)
    (hkm : keys2mids.length = keys2edges.length) (ho : old2new.length = coords.length)
    (hca : SplitCarried d coords metrics mesh keys2edges keys2mids old2new newCoords newMetrics) :
    ∃ rows out, refineProducts s' mesh dim dim keys2edges keys2mids old2new = some out ∧ ProductLayout keys2edges.length rows out ∧
      ∀ k, k < keys2edges.length → ∀ r ∈ rows k, r.length = dim + 1 ∧ ∃ q, measureQuality d newCoords newMetrics r = some q ∧ allowed ≤ q := by
  rcases C72_initial s d one zero allowed coords metrics mesh dim hdim hm hne marks hmk hc with ⟨_, h⟩ | ⟨_, initial', quals', h, _, _, _, hini, _⟩
  · rw [h] at hi; simp at hi
  rw [h] at hi
  simp only [Option.some.injEq, Prod.mk.injEq] at hi
  obtain ⟨rfl, rfl⟩ := hi
  obtain ⟨cands, c1, c2⟩ := C03_collect_marked (s 0) marks hmk
  have hcm : ∀ e ∈ cands, SplittableEdge mesh dim coords.length e := fun e he => hc e ((c2.2 e).1 he)
  obtain ⟨cq, q1, q2, q3⟩ := C72_predicted (s 1) (s 2) s' d one coords metrics mesh dim hdim hm hne cands hcm
  have hal := predicted_alone (s 1) (s 2) d one coords metrics mesh dim hdim hm hne cands hcm q1
  have hkc : ∀ e ∈ keys2edges, e ∈ cands := fun e he => (c2.2 e).2 ((hini e).1 (hk e he)).1
  obtain ⟨rows, out, r1, r2, r3, r4⟩ := q3 keys2edges keys2mids old2new newCoords newMetrics hkc hkm ho hca
  refine ⟨rows, out, r1, r2, ?_⟩
  intro k hkl r hr
  refine ⟨r3 k hkl r hr, ?_⟩
  have ek := List.getElem?_eq_getElem hkl
  have hme := List.mem_of_getElem? ek
  obtain ⟨c, hce⟩ := List.mem_iff_getElem?.1 (hkc _ hme)
  obtain ⟨qs, x, a1, a2, a3⟩ := r4 k c _ ek hce
  obtain ⟨qs', x', b1, b2, b3⟩ := hal c _ hce
  obtain rfl := Option.some.inj (a2.symm.trans b2)
  obtain ⟨m1, qs'', m2, m3⟩ := ((hini _).1 (hk _ hme)).2
  obtain rfl := splitAlone_unique b1 m2
  have hge := (least_ge b3).2 ⟨m1, m3⟩
  obtain ⟨q, hq1, hq2⟩ := mapM_value a1 r hr
  exact ⟨q, hq1, le_trans hge (a3.2.1 q hq2)⟩

/-! ## A concrete mesh

The square of C36 with side 4. Twice the area of a triangle is taken for its quality, and metrics are numbers that add to it. -/
def squareQual : QualData Int (Int × Int) Int where
  mid p q := ((p.1 + q.1) / 2, (p.2 + q.2) / 2)
  avg x y := (x + y) / 2
  quality ps ms := (match ps with
    | [p, q, r] => (q.1 - p.1) * (r.2 - p.2) - (q.2 - p.2) * (r.1 - p.1)
    | _ => 0) + ms.sum

def squareCoords : List (Int × Int) := [(0, 0), (4, 0), (4, 4), (0, 4)]

-- all four halves at the diagonal have twice the area 8, and two of them no vertex with a metric other than 0
example : refineQualities .serial .reversed squareQual 100 squareCoords [0, 2, 0, 0] squareMesh 2 [1] = some [8] := by decide +kernel
example : refineQualities .serial .serial squareQual 100 squareCoords [0, 2, 0, 0] squareMesh 2 [0, 1] = some [9, 8] := by decide +kernel
example : refineInitial (fun _ => .serial) squareQual 100 0 8 squareCoords [0, 2, 0, 0] squareMesh 2 [0, 1, 0, 0, 0] =
    some (some ([0, 1, 0, 0, 0], [0, 8, 0, 0, 0])) := by decide +kernel
example : refineInitial (fun _ => .serial) squareQual 100 0 9 squareCoords [0, 2, 0, 0] squareMesh 2 [0, 1, 0, 0, 0] = some none := by
  decide +kernel
example : refineInitial (fun _ => .reversed) squareQual 100 0 9 squareCoords [0, 2, 0, 0] squareMesh 2 [1, 1, 0, 0, 0] =
    some (some ([1, 0, 0, 0, 0], [9, 8, 0, 0, 0])) := by decide +kernel

-- it meets the hypotheses of the theorems
theorem square_splittable : SplittableEdge squareMesh 2 squareCoords.length 1 := by
  refine ⟨0, 2, 1, 3, by decide, by decide, by decide, by decide, by decide, by decide, by decide, ?_⟩
  intro ed h1 h2
  rcases (show ed = 1 ∨ ed = 2 by omega) with rfl | rfl
  · refine ⟨0, 18, [0, 1, 2], by decide, by decide, by decide, by decide, ?_, 2, 1, by decide, by decide, by decide, by decide, by decide⟩
    intro i hi
    rcases (show i = 0 ∨ i = 1 ∨ i = 2 by omega) with rfl | rfl | rfl <;> decide
  · refine ⟨1, 16, [2, 3, 0], by decide, by decide, by decide, by decide, ?_, 2, 0, by decide, by decide, by decide, by decide, by decide⟩
    intro i hi
    rcases (show i = 0 ∨ i = 1 ∨ i = 2 by omega) with rfl | rfl | rfl <;> decide

example : squareMesh.upOffsets 2 ≠ [] ∧ IsMarks [0, 1, 0, 0, 0] ∧
    ∀ e, Marked [0, 1, 0, 0, 0] e → SplittableEdge squareMesh 2 squareCoords.length e := by
  refine ⟨by decide, by unfold IsMarks; decide, ?_⟩
  intro e he
  have hl := (List.getElem?_eq_some_iff.1 he).1
  unfold Marked at he
  rcases (show e = 0 ∨ e = 1 ∨ e = 2 ∨ e = 3 ∨ e = 4 by simp at hl; omega) with rfl | rfl | rfl | rfl | rfl
  · simp at he
  · exact square_splittable
  all_goals simp at he

-- the diagonal split with new vertex 4: points and metrics as carried over
example : SplitCarried squareQual squareCoords [0, 2, 0, 0] squareMesh [1] [4] [0, 1, 2, 3] (squareCoords ++ [(2, 2)]) [0, 2, 0, 0, 0] := by
  refine ⟨?_, ?_⟩
  · intro v n hv
    have hl := (List.getElem?_eq_some_iff.1 hv).1
    rcases (show v = 0 ∨ v = 1 ∨ v = 2 ∨ v = 3 by simp at hl; omega) with rfl | rfl | rfl | rfl <;>
      (simp at hv; subst hv; exact ⟨rfl, rfl⟩)
  · intro k e m a b p q x y h1 h2 h3 h4 h5 h6 h7 h8
    rcases k with _ | k
    · obtain rfl : 1 = e := by simpa using h1
      obtain rfl : 4 = m := by simpa using h2
      obtain rfl : 0 = a := Option.some.inj ((by decide : (squareMesh.vertsOf 1)[1 * 2]? = some 0).symm.trans h3)
      obtain rfl : 2 = b := Option.some.inj ((by decide : (squareMesh.vertsOf 1)[1 * 2 + 1]? = some 2).symm.trans h4)
      obtain rfl : ((0, 0) : Int × Int) = p := Option.some.inj ((by decide : squareCoords[0]? = some (0, 0)).symm.trans h5)
      obtain rfl : ((4, 4) : Int × Int) = q := Option.some.inj ((by decide : squareCoords[2]? = some (4, 4)).symm.trans h6)
      obtain rfl : (0 : Int) = x := by simpa using h7
      obtain rfl : (0 : Int) = y := by simpa using h8
      exact ⟨by decide, by decide⟩
    · simp at h1

/-! ## Qualities that are not numbers -/

/-- Numbers with NaN, which is `none`: every comparison with it is false. -/
abbrev NanInt := Option Int

/-- `min2` is `(b < a) ? b : a`: src/Omega_h_scalar.hpp:111-114. -/
local instance nanMin : Min NanInt where
  min a b := match a, b with
    | some x, some y => if y < x then b else a
    | _, _ => a

/-- The theorems above are about qualities that are numbers. If every cell has quality NaN, for example because a metric has a NaN, then
every edge with valid ends and cells is found to be of the best quality. -/
theorem C72_nan_accepted (s1 s2 : Sched) (mid : V → V → V) (avg : M → M → M) (one : NanInt) (coords : List V) (metrics : List M)
    (mesh : RefineMesh) (dim : Nat) (hdim : dim = 2 ∨ dim = 3) (hm : metrics.length = coords.length) (cands : List Nat)
    (hc : ∀ e ∈ cands, SplittableEdge mesh dim coords.length e) :
    refineQualities (K := NanInt) s1 s2 ⟨mid, avg, fun _ _ => none⟩ one coords metrics mesh dim cands = some (cands.map (fun _ => one)) := by
  obtain ⟨midms, m1, m2, m3⟩ := midMetrics_spec s1 (⟨mid, avg, fun _ _ => none⟩ : QualData NanInt V M) metrics (mesh.vertsOf 1) cands (by
    intro c e hce
    obtain ⟨a, b, lo, hi, h1, h2, h3, h4, _⟩ := hc e (List.mem_of_getElem? hce)
    exact ⟨a, b, _, _, h1, h2, List.getElem?_eq_getElem (by omega), List.getElem?_eq_getElem (by omega)⟩)
  have hG : ∀ c, c < cands.length → splitQuality (K := NanInt) ⟨mid, avg, fun _ _ => none⟩ one coords metrics midms mesh dim cands c = some one := by
    intro c hcl
    have ec := List.getElem?_eq_getElem hcl
    obtain ⟨a, b, lo, hi, h1, h2, h3, h4, h5, h6, h7, h8⟩ := hc _ (List.mem_of_getElem? ec)
    have ex := List.getElem?_eq_getElem (show a < metrics.length by omega)
    have ey := List.getElem?_eq_getElem (show b < metrics.length by omega)
    have hmid := m3 c _ a b _ _ ec h1 h2 ex ey
    have ef : fanMembers (mesh.upOffsets dim) cands[c] = some (List.range' lo (hi - lo)) := by unfold fanMembers; rw [h5, h6]
    unfold splitQuality
    rw [ec, Option.bind_some, h1, Option.bind_some, h2, Option.bind_some, List.getElem?_eq_getElem h3, Option.bind_some,
      List.getElem?_eq_getElem h4, Option.bind_some, hmid, Option.bind_some, ef, Option.bind_some]
    rw [mapM_map (List.range' lo (hi - lo)) _ (fun _ => [none, none]) (by
      intro ed hed
      rw [List.mem_range'_1] at hed
      obtain ⟨dom, code, N, n1, n2, n3, n4, n5, n6⟩ := h8 ed hed.1 (by omega)
      obtain ⟨vs, v1, v2, v3⟩ := sideVerts_total hdim n3 n5 n6 (show 0 < 2 by omega)
      obtain ⟨us, u1, u2, u3⟩ := sideVerts_total hdim n3 n5 n6 (show 1 < 2 by omega)
      have nanHalf : ∀ (i : Nat) (ws : List Nat), sideVerts (mesh.vertsOf dim) dim dom code i = some ws → ws.length = dim → (∀ v ∈ ws, v ∈ N) →
          ∀ (p : V) (x : M), halfQuality (⟨mid, avg, fun _ _ => none⟩ : QualData NanInt V M) coords metrics (mesh.vertsOf dim) dim dom code i p x =
            some none := by
        intro i ws w1 w2 w3 p x
        obtain ⟨q, hq⟩ := half_total (d := (⟨mid, avg, fun _ _ => none⟩ : QualData NanInt V M)) (coords := coords) (metrics := metrics) hdim p x w1 w2
          (fun v hv => ⟨n4 v (w3 v hv), by have := n4 v (w3 v hv); omega⟩)
        rw [hq]
        unfold halfQuality at hq
        simp only [Option.bind_eq_some_iff, Option.map_eq_some_iff] at hq
        obtain ⟨_, _, _, _, _, _, _, _, _, _, rfl⟩ := hq
        rfl
      rw [n1, Option.bind_some, n2, Option.bind_some, nanHalf 0 vs v1 v2 v3, Option.bind_some, nanHalf 1 us u1 u2 u3]; rfl)]
    rw [Option.map_some]
    congr 1
    generalize List.range' lo (hi - lo) = l
    have : ∀ l : List Nat, (l.map (fun _ => ([none, none] : List NanInt))).flatten.foldl min one = one := by
      intro l
      induction l with
      | nil => rfl
      | cons a l ih =>
        have hn : ∀ z : NanInt, min z none = z := by intro z; cases z <;> rfl
        rw [List.map_cons, List.flatten_cons, List.foldl_append, List.foldl_cons, List.foldl_cons, List.foldl_nil, hn, hn, ih]
    exact this l
  obtain ⟨quals, q1, q2, q3⟩ := parEach s2 cands.length
    (splitQuality (K := NanInt) ⟨mid, avg, fun _ _ => none⟩ one coords metrics midms mesh dim cands)
    (fun c hcl => by rw [hG c hcl]; rfl)
  unfold refineQualities
  rw [m1, Option.bind_some, q1]
  congr 1
  refine List.ext_getElem? (fun c => ?_)
  by_cases hcl : c < cands.length
  · rw [q3 c hcl, hG c hcl, List.getElem?_map, List.getElem?_eq_getElem hcl]; rfl
  · rw [List.getElem?_eq_none (by omega), List.getElem?_eq_none (by simp; omega)]

end OmegaH
