import Verif.Props.C37
import Verif.Props.C56Choice
import Verif.Props.C72
import Verif.Spec.CollapseMade
/-!
# C73 — a vertex is collapsed only if the elements and edges this makes are good enough
-/
namespace OmegaH
open Spec

variable {K : Type} [LinearOrder K]

theorem rowAt_entry {α : Type} {data : List α} {w i : Nat} {l : List α} (h : rowAt data w i = some l) {j : Nat} (hj : j < w) :
    data[i * w + j]? = l[j]? := by
  unfold rowAt at h
  split at h
  · obtain rfl := Option.some.inj h
    rw [List.getElem?_take, if_pos hj, List.getElem?_drop]
  · cases h

/-- The mesh as the collapse sees it. -/
def coarsenMeshOf (m : CollapseRank K) (nents : Nat → Nat) : CoarsenMesh := ⟨nents, m.upEdge, m.down⟩

omit [LinearOrder K] in
theorem railMesh_of {m : CollapseRank K} {D : Nat} {nents : Nat → Nat} {R : Nat → Nat → List Nat} (h : CollapseMesh m D nents R)
    {rails dirs : List Nat} (hk : ∀ k, k < rails.length → ∃ e i, rails[k]? = some e ∧ dirs[k]? = some i ∧ i ≤ 1 ∧ e < nents 1) :
    ∃ U, RailMesh (coarsenMeshOf m nents) D rails dirs R U := by
  have hmem : ∀ e ∈ rails, e < nents 1 := by
    intro e he
    obtain ⟨k, hk'⟩ := List.mem_iff_getElem?.1 he
    obtain ⟨e', i, h1, _, _, h4⟩ := hk k (List.getElem?_eq_some_iff.1 hk').1
    exact Option.some.inj (h1.symm.trans hk') ▸ h4
  have hex : ∀ d e, ∃ L : List (Nat × Int), 2 ≤ d → d ≤ D → e < nents 1 → AdjRow (m.upEdge d) e L ∧
      (∀ x ∈ L, x.1 < nents d ∧ ∀ p q, R 1 e = [p, q] → EdgePlaceIn d x.2 (R d x.1) p q) ∧
      ∀ c, c < nents d → (∀ v ∈ R 1 e, v ∈ R d c) → ∃ code, (c, code) ∈ L := by
    intro d e
    by_cases hh : 2 ≤ d ∧ d ≤ D ∧ e < nents 1
    · obtain ⟨L, hL⟩ := h.up d hh.1 hh.2.1 e hh.2.2
      exact ⟨L, fun _ _ _ => hL⟩
    · exact ⟨[], fun a b c => absurd ⟨a, b, c⟩ hh⟩
  choose U hU using hex
  refine ⟨U, ?_, ?_, ?_, ?_, ?_, ?_⟩
  · intro k hk'
    obtain ⟨e, i, h1, h2, h3, h4⟩ := hk k hk'
    obtain ⟨p, q, h5, _⟩ := h.edge e h4
    exact ⟨e, i, p, q, h1, h2, h3, h4, h5⟩
  · intro e he x hx hv
    exact (h.simple e x (hmem e he) hx hv).symm
  · intro d h1 h2 c hc
    exact ⟨(h.cell d h1 h2 c hc).1, (h.cell d h1 h2 c hc).2.1⟩
  · intro d h1 h2 e he
    exact ⟨(hU d e h1 h2 (hmem e he)).1, (hU d e h1 h2 (hmem e he)).2.1⟩
  · intro d h1 h2 e he
    exact (hU d e h1 h2 (hmem e he)).2.2
  · exact h.side

omit [LinearOrder K] in
/-- The entities of dimension `d` made by a collapse. -/
theorem collapse_run {m : CollapseRank K} {D : Nat} {nents : Nat → Nat} {R : Nat → Nat → List Nat} (h : CollapseMesh m D nents R)
    {rails dirs keys2verts keys2onto old2new : List Nat} {col onto N : Nat → Nat}
    (hk : CollapseKeys D nents R rails dirs keys2verts keys2onto old2new col onto N) (s0 s1 : Nat → Sched) (s2 : Sched) (d : Nat)
    (hd : d = 1 ∨ d = D) (v2x : Adj) (xv2v : List Nat) (hne : v2x.a2ab ≠ []) (hcodes : v2x.codes.isSome)
    (hup : ∀ v, v < nents 0 → ∃ L, AdjRow v2x v L ∧ (∀ x ∈ L, x.1 < nents d ∧ VertCodeIn x.2 (R d x.1) v) ∧
      ∀ c, c < nents d → v ∈ R d c → ∃ code, (c, code) ∈ L)
    (hrows : ∀ c, c < nents d → (R d c).length = d + 1 ∧ (R d c).Nodup ∧ (∀ v ∈ R d c, v < nents 0) ∧
      ∀ j, j < d + 1 → xv2v[c * (d + 1) + j]? = (R d c)[j]?) :
    ∃ dead doms, ∃ cells : Nat → List Nat, markDeadEnts s0 (coarsenMeshOf m nents) D rails dirs d = some dead ∧
      findCoarsenDomains s1 keys2verts v2x dead = some doms ∧
      coarsenTopology s2 keys2onto xv2v (d + 1) doms old2new = some ((List.range rails.length).flatMap (fun k =>
        (cells k).flatMap (fun c => (substVert (col k) (onto k) (R d c)).map N))) ∧
      ∀ k, k < rails.length → ∀ c, (c ∈ cells k → c < nents d ∧ col k ∈ R d c ∧ onto k ∉ R d c) ∧
        (d = D → c < nents d → col k ∈ R d c → onto k ∉ R d c → c ∈ cells k) := by
  have hD : D = 2 ∨ D = 3 := h.dim
  obtain ⟨U, hU⟩ := railMesh_of h (rails := rails) (dirs := dirs) (fun k hk' => by
    obtain ⟨e, i, h1, h2, h3, h4, _⟩ := hk.ends k hk'
    exact ⟨e, i, h1, h2, h3, h4⟩)
  -- the two ends
  have hends : ∀ k, k < rails.length → ∃ e, rails[k]? = some e ∧ e < nents 1 ∧ col k ≠ onto k ∧ col k < nents 0 ∧ onto k < nents 0 ∧
      (R 1 e).Perm [col k, onto k] := by
    intro k hk'
    obtain ⟨e, i, h1, h2, h3, h4, h5, h6⟩ := hk.ends k hk'
    obtain ⟨p, q, e1, e2, e3, e4, _⟩ := h.edge e h4
    refine ⟨e, h1, h4, ?_⟩
    rw [e1] at h5 h6 ⊢
    rcases (show i = 0 ∨ i = 1 by omega) with rfl | rfl
    · obtain rfl : p = col k := by simpa using h5
      obtain rfl : q = onto k := by simpa using h6
      exact ⟨e2, e3, e4, List.Perm.refl _⟩
    · obtain rfl : q = col k := by simpa using h5
      obtain rfl : p = onto k := by simpa using h6
      exact ⟨e2.symm, e4, e3, List.Perm.swap _ _ _⟩
  have hstay : ∀ k, k < rails.length → ∀ l, l < rails.length → onto k ≠ col l := by
    intro k hk' l hl he
    obtain ⟨e, _, e2, e3, _, _, e6⟩ := hends k hk'
    have := hk.apart k l 1 e hk' hl (Or.inl rfl) e2 (e6.mem_iff.2 (by simp)) (he ▸ e6.mem_iff.2 (by simp))
    subst this
    exact e3 he.symm
  have hex : ∀ k, ∃ L : List (Nat × Int), k < rails.length → AdjRow v2x (col k) L ∧
      (∀ x ∈ L, x.1 < nents d ∧ VertCodeIn x.2 (R d x.1) (col k)) ∧ ∀ c, c < nents d → col k ∈ R d c → ∃ code, (c, code) ∈ L := by
    intro k
    by_cases hk' : k < rails.length
    · obtain ⟨e, _, _, _, e4, _, _⟩ := hends k hk'
      obtain ⟨L, hL⟩ := hup (col k) e4
      exact ⟨L, fun _ => hL⟩
    · exact ⟨[], fun a => absurd a hk'⟩
  choose L hL using hex
  obtain ⟨dead, doms, c1, c2, L', c3, c4, c5⟩ := C37_collapse s0 s1 s2 (coarsenMeshOf m nents) D rails dirs keys2verts keys2onto R U hU
    (by omega) d (by omega) (by omega) v2x xv2v old2new L col onto N (by rw [hk.verts]; simp) (by rw [hk.ontos]; simp)
    (by
      intro k hk'
      obtain ⟨e, e1, e2, e3, e4, e5, e6⟩ := hends k hk'
      refine ⟨?_, ?_, e3, e, e1, e6⟩
      · rw [hk.verts, List.getElem?_map, List.getElem?_range hk']; rfl
      · rw [hk.ontos, List.getElem?_map, List.getElem?_range hk']; rfl)
    hne hcodes
    (fun k hk' => ⟨(hL k hk').1, (hL k hk').2.1⟩)
    (fun c hc => ⟨(hrows c hc).1, (hrows c hc).2.1, (hrows c hc).2.2.2⟩)
    (by
      intro k hk'
      obtain ⟨e, e1, e2, e3, e4, e5, e6⟩ := hends k hk'
      refine ⟨hk.stay _ e5 (fun l hl => hstay k hk' l hl), ?_⟩
      intro x hx _ v hv hvc
      obtain ⟨x1, i, _, x3⟩ := (hL k hk').2.1 x hx
      refine hk.stay v ((hrows x.1 x1).2.2.1 v hv) ?_
      intro l hl he
      subst he
      have := hk.apart k l d x.1 hk' hl hd x1 (List.mem_of_getElem? x3) hv
      exact hvc (this ▸ rfl))
    hk.different
  refine ⟨dead, doms, fun k => (L' k).map Prod.fst, c1, c2, ?_, ?_⟩
  · rw [c4]
    congr 2
    funext k
    rw [List.flatMap_map]
  · intro k hk' c
    obtain ⟨e, e1, e2, e3, e4, e5, e6⟩ := hends k hk'
    constructor
    · intro hc
      obtain ⟨x, hx, rfl⟩ := List.mem_map.1 hc
      obtain ⟨x1, x2⟩ := ((c3 k hk').2 x).1 hx
      obtain ⟨y1, i, _, y3⟩ := (hL k hk').2.1 x x1
      refine ⟨y1, List.mem_of_getElem? y3, ?_⟩
      intro ho
      refine x2 (Or.inl ⟨e, List.mem_of_getElem? e1, ?_⟩)
      intro v hv
      have := e6.mem_iff.1 hv
      simp only [List.mem_cons, List.not_mem_nil, or_false] at this
      rcases this with rfl | rfl
      · exact List.mem_of_getElem? y3
      · exact ho
    · intro hdD hc hcol hon
      obtain ⟨code, hx⟩ := (hL k hk').2.2 c hc hcol
      refine List.mem_map.2 ⟨(c, code), ((c3 k hk').2 _).2 ⟨hx, ?_⟩, rfl⟩
      rintro (⟨e', he', hv⟩ | ⟨hlt, _⟩)
      · obtain ⟨l, hl⟩ := List.mem_iff_getElem?.1 he'
        have hll := (List.getElem?_eq_some_iff.1 hl).1
        obtain ⟨e'', f1, f2, f3, f4, f5, f6⟩ := hends l hll
        obtain rfl := Option.some.inj (hl.symm.trans f1)
        have hcl := hv _ (f6.mem_iff.2 (by simp : col l ∈ [col l, onto l]))
        have := hk.apart k l d c hk' hll hd hc hcol hcl
        subst this
        exact hon (hv _ (f6.mem_iff.2 (by simp)))
      · omega

omit [LinearOrder K] in
theorem substVert_stays {m : CollapseRank K} {D : Nat} {nents : Nat → Nat} {R : Nat → Nat → List Nat} (h : CollapseMesh m D nents R)
    {rails dirs keys2verts keys2onto old2new : List Nat} {col onto N : Nat → Nat}
    (hk : CollapseKeys D nents R rails dirs keys2verts keys2onto old2new col onto N) {d c k : Nat} (hd : d = 1 ∨ d = D)
    (hc : c < nents d) (hr : ∀ v ∈ R d c, v < nents 0) (hkl : k < rails.length) (hcol : col k ∈ R d c) :
    ∀ v ∈ substVert (col k) (onto k) (R d c), v < nents 0 ∧ ∀ l, l < rails.length → v ≠ col l := by
  intro v hv
  obtain ⟨e, i, h1, h2, h3, h4, h5, h6⟩ := hk.ends k hkl
  obtain ⟨p, q, e1, e2, e3, e4, _⟩ := h.edge e h4
  unfold substVert at hv
  obtain ⟨u, hu, rfl⟩ := List.mem_map.1 hv
  by_cases hu' : u = col k
  · rw [if_pos hu']
    constructor
    · have := List.mem_of_getElem? h6
      rw [e1] at this
      simp only [List.mem_cons, List.not_mem_nil, or_false] at this
      rcases this with h | h <;> rw [h] <;> assumption
    · intro l hl he
      have := hk.apart k l 1 e hkl hl (Or.inl rfl) h4 (List.mem_of_getElem? h5) (he ▸ List.mem_of_getElem? h6)
      subst this
      rw [e1] at h5 h6
      rcases (show i = 0 ∨ i = 1 by omega) with rfl | rfl
      · simp at h5 h6; omega
      · simp at h5 h6; omega
  · rw [if_neg hu']
    refine ⟨hr u hu, ?_⟩
    intro l hl he
    subst he
    have := hk.apart k l d c hkl hl hd hc hcol hu
    exact hu' (this ▸ rfl)

/-- **C73, elements.** Whichever vertices are collapsed together, the elements this makes are exactly those around a collapsed vertex
without its target, with the target in its place; and what was computed when the collapse was judged is the least of one and their
qualities in the new mesh. -/
theorem C73_elements {m : CollapseRank K} {D : Nat} {nents : Nat → Nat} {R : Nat → Nat → List Nat} (h : CollapseMesh m D nents R)
    (hcodes : m.v2c.codes.isSome) {rails dirs keys2verts keys2onto old2new : List Nat} {col onto N : Nat → Nat}
    (hk : CollapseKeys D nents R rails dirs keys2verts keys2onto old2new col onto N) (s0 s1 : Nat → Sched) (s2 : Sched)
    {newQuality : List Nat → Option K} {newLength : Nat → Nat → Option K}
    (hn : MeasuresKept m nents rails.length col N newQuality newLength) (one : K) :
    ∃ dead doms, ∃ rows : Nat → List (List Nat), markDeadEnts s0 (coarsenMeshOf m nents) D rails dirs D = some dead ∧
      findCoarsenDomains s1 keys2verts m.v2c dead = some doms ∧
      coarsenTopology s2 keys2onto m.cv2v (D + 1) doms old2new = some ((List.range rails.length).flatMap (fun k => (rows k).flatten)) ∧
      ∀ k, k < rails.length → (∀ r ∈ rows k, r.length = D + 1) ∧ ∃ qs q, (rows k).mapM newQuality = some qs ∧ LeastOf one qs q ∧
        collapseQuality m one D (col k) (onto k) = some q := by
  have hD := h.dim
  have hcv : ∀ c, c < nents D → (R D c).length = D + 1 ∧ (R D c).Nodup ∧ (∀ v ∈ R D c, v < nents 0) ∧
      ∀ j, j < D + 1 → m.cv2v[c * (D + 1) + j]? = (R D c)[j]? := by
    intro c hc
    obtain ⟨c1, c2, c3⟩ := h.cell D (by omega) (Nat.le_refl _) c hc
    exact ⟨c1, c2, c3, fun j hj => rowAt_entry (h.cellVerts c hc) hj⟩
  obtain ⟨dead, doms, cells, d1, d2, d3, d4⟩ := collapse_run h hk s0 s1 s2 D (Or.inr rfl) m.v2c m.cv2v (by
      have := h.vertCellsFan.2.1
      intro h0
      rw [h0] at this; simp at this) hcodes h.vertCells hcv
  refine ⟨dead, doms, fun k => (cells k).map (fun c => (substVert (col k) (onto k) (R D c)).map N), d1, d2, ?_, ?_⟩
  · rw [d3]; congr 2
  · intro k hkl
    have hq : ∀ c ∈ cells k, ∃ q, newQuality ((substVert (col k) (onto k) (R D c)).map N) = some q ∧
        m.qualityOf (substVert (col k) (onto k) (R D c)) = some q := by
      intro c hc
      obtain ⟨c1, c2, c3⟩ := (d4 k hkl c).1 hc
      have hst := substVert_stays h hk (Or.inr rfl) c1 (hcv c c1).2.2.1 hkl c2
      rw [hn.quality _ hst]
      obtain ⟨q, hq⟩ := Option.isSome_iff_exists.1 (h.qualityOf (substVert (col k) (onto k) (R D c))
        (by unfold substVert; rw [List.length_map, (hcv c c1).1]) (fun v hv => (hst v hv).1))
      exact ⟨q, hq, hq⟩
    refine ⟨?_, ?_⟩
    · intro r hr
      obtain ⟨c, hc, rfl⟩ := List.mem_map.1 hr
      unfold substVert
      rw [List.length_map, List.length_map, (hcv c ((d4 k hkl c).1 hc).1).1]
    · obtain ⟨e, i, e1, e2, e3, e4, e5, e6⟩ := hk.ends k hkl
      obtain ⟨v, t, q, w1, w2, w3, w4⟩ := collapseQuality_spec h one e e4 i (by omega)
      obtain ⟨v', t', y1, y2, y3, y4, _⟩ := edge_ends h e e4 i (by omega)
      obtain rfl : v = col k := by rw [← Option.some.injEq, ← w1, y3, ← y1, e5]
      obtain rfl : t = onto k := by rw [← Option.some.injEq, ← w2, y4, ← y2, e6]
      obtain ⟨qs, q1, _⟩ := mapM_total ((cells k).map (fun c => (substVert (col k) (onto k) (R D c)).map N)) newQuality (by
        intro r hr
        obtain ⟨c, hc, rfl⟩ := List.mem_map.1 hr
        obtain ⟨q, hq, _⟩ := hq c hc
        rw [hq]; rfl)
      have hto : ∀ x ∈ qs, NewQuality m D nents R e i x := by
        intro x hx
        obtain ⟨r, hr, hx'⟩ := mapM_mem_source q1 x hx
        obtain ⟨c, hc, rfl⟩ := List.mem_map.1 hr
        obtain ⟨c1, c2, c3⟩ := (d4 k hkl c).1 hc
        obtain ⟨q', h1, h2⟩ := hq c hc
        obtain rfl := Option.some.inj (h1.symm.trans hx')
        exact ⟨col k, onto k, c, e5, e6, c1, c2, c3, h2⟩
      refine ⟨qs, q, q1, ⟨w4.2.1, fun x hx => w4.2.2 x (hto x hx), ?_⟩, w3⟩
      rcases w4.1 with h1 | ⟨v, t, c, h1, h2, h3, h4, h5, h6⟩
      · exact Or.inl h1
      · obtain rfl := Option.some.inj (h1.symm.trans e5)
        obtain rfl := Option.some.inj (h2.symm.trans e6)
        have hc := (d4 k hkl c).2 rfl h3 h4 h5
        obtain ⟨q', h7, h8⟩ := hq c hc
        obtain rfl := Option.some.inj (h6.symm.trans h8)
        obtain ⟨y, z1, z2⟩ := mapM_value q1 _ (List.mem_map.2 ⟨c, hc, rfl⟩)
        obtain rfl := Option.some.inj (z1.symm.trans h7)
        exact Or.inr z2

/-- **C73.** If every collapse passed the checks of its quality and of its lengths, every element it makes has at least the
allowed quality in the new mesh and every edge it makes is shorter there than the limit. -/
theorem C73_made {m : CollapseRank K} {D : Nat} {nents : Nat → Nat} {R : Nat → Nat → List Nat} (h : CollapseMesh m D nents R)
    (hcodes : m.v2c.codes.isSome) (hve : m.v2e.a2ab ≠ []) {rails dirs keys2verts keys2onto old2new : List Nat} {col onto N : Nat → Nat}
    (hk : CollapseKeys D nents R rails dirs keys2verts keys2onto old2new col onto N) (s0 s1 : Nat → Sched) (s2 : Sched)
    {newQuality : List Nat → Option K} {newLength : Nat → Nat → Option K}
    (hn : MeasuresKept m nents rails.length col N newQuality newLength) (one minQual maxLength : K)
    (hq : ∀ k e i : Nat, rails[k]? = some e → dirs[k]? = some i → ∃ q, WorstQuality m one D nents R e i q ∧ minQual ≤ q)
    (hl : ∀ k e i : Nat, rails[k]? = some e → dirs[k]? = some i → ShortEnough m maxLength nents R e i) :
    (∃ dead doms, ∃ elems : List (List Nat), markDeadEnts s0 (coarsenMeshOf m nents) D rails dirs D = some dead ∧
      findCoarsenDomains s1 keys2verts m.v2c dead = some doms ∧
      coarsenTopology s2 keys2onto m.cv2v (D + 1) doms old2new = some elems.flatten ∧
      ∀ r ∈ elems, r.length = D + 1 ∧ ∃ q, newQuality r = some q ∧ minQual ≤ q) ∧
    ∃ dead doms, ∃ edges : List (Nat × Nat), markDeadEnts s0 (coarsenMeshOf m nents) D rails dirs 1 = some dead ∧
      findCoarsenDomains s1 keys2verts m.v2e dead = some doms ∧
      coarsenTopology s2 keys2onto m.ev2v 2 doms old2new = some (edges.flatMap (fun e => [e.1, e.2])) ∧
      ∀ e ∈ edges, ∃ len, newLength e.1 e.2 = some len ∧ len < maxLength := by
  have hD := h.dim
  constructor
  · obtain ⟨dead, doms, rows, d1, d2, d3, d4⟩ := C73_elements h hcodes hk s0 s1 s2 hn one
    refine ⟨dead, doms, (List.range rails.length).flatMap rows, d1, d2, ?_, ?_⟩
    · rw [d3]
      congr 1
      simp only [List.flatMap_def, List.map_map, List.flatten_flatten]
      rfl
    · intro r hr
      obtain ⟨k, hkm, hr⟩ := List.mem_flatMap.1 hr
      have hkl := List.mem_range.1 hkm
      obtain ⟨r1, qs, q, r2, r3, r4⟩ := d4 k hkl
      refine ⟨r1 r hr, ?_⟩
      obtain ⟨x, hx, hxm⟩ := mapM_value r2 r hr
      refine ⟨x, hx, ?_⟩
      obtain ⟨e, i, e1, e2, e3, e4, e5, e6⟩ := hk.ends k hkl
      obtain ⟨q', w1, w2⟩ := hq k e i e1 e2
      obtain ⟨v, t, q'', u1, u2, u3, u4⟩ := collapseQuality_spec h one e e4 i (by omega)
      obtain ⟨v', t', y1, y2, y3, y4, _⟩ := edge_ends h e e4 i (by omega)
      obtain rfl : v = col k := by rw [← Option.some.injEq, ← u1, y3, ← y1, e5]
      obtain rfl : t = onto k := by rw [← Option.some.injEq, ← u2, y4, ← y2, e6]
      obtain rfl := Option.some.inj (u3.symm.trans r4)
      have : q' = q'' := by
        apply le_antisymm
        · rcases u4.1 with h1 | h1
          · rw [h1]; exact w1.2.1
          · exact w1.2.2 _ h1
        · rcases w1.1 with h1 | h1
          · rw [h1]; exact u4.2.1
          · exact u4.2.2 _ h1
      subst this
      exact le_trans w2 (r3.2.1 x hxm)
  · have hev : ∀ c, c < nents 1 → (R 1 c).length = 1 + 1 ∧ (R 1 c).Nodup ∧ (∀ v ∈ R 1 c, v < nents 0) ∧
        ∀ j, j < 1 + 1 → m.ev2v[c * (1 + 1) + j]? = (R 1 c)[j]? := by
      intro c hc
      obtain ⟨p, q, h1, h2, h3, h4, h5, h6⟩ := h.edge c hc
      rw [h1]
      refine ⟨rfl, by simp [h2], by simp [h3, h4], ?_⟩
      intro j hj
      rcases (show j = 0 ∨ j = 1 by omega) with rfl | rfl
      · exact h5
      · exact h6
    obtain ⟨dead, doms, es, d1, d2, d3, d4⟩ := collapse_run h hk s0 s1 s2 1 (Or.inl rfl) m.v2e m.ev2v hve h.vertEdgesCodes h.vertEdges hev
    have hrow : ∀ k c, ∃ ab : Nat × Nat, k < rails.length → c ∈ es k →
        substVert (col k) (onto k) (R 1 c) = [ab.1, ab.2] ∧ ∃ len, newLength (N ab.1) (N ab.2) = some len ∧ len < maxLength := by
      intro k c
      by_cases hh : k < rails.length ∧ c ∈ es k
      · obtain ⟨hkl, hc⟩ := hh
        obtain ⟨c1, c2, c3⟩ := (d4 k hkl c).1 hc
        obtain ⟨p, q, h1, h2, h3, h4, h5, h6⟩ := h.edge c c1
        have hst := substVert_stays h hk (Or.inl rfl) c1 (hev c c1).2.2.1 hkl c2
        have hex : ∃ a b, substVert (col k) (onto k) (R 1 c) = [a, b] := by rw [h1]; exact ⟨_, _, rfl⟩
        obtain ⟨a, b, hab⟩ := hex
        rw [hab] at hst
        obtain ⟨a1, a2⟩ := hst a (by simp)
        obtain ⟨b1, b2⟩ := hst b (by simp)
        obtain ⟨len, hlen⟩ := Option.isSome_iff_exists.1 (h.lengthOf a b a1 b1)
        obtain ⟨e, i, e1, e2, e3, e4, e5, e6⟩ := hk.ends k hkl
        refine ⟨(a, b), fun _ _ => ⟨hab, len, ?_, ?_⟩⟩
        · rw [hn.length a b a1 b1 (fun l hl' => ⟨a2 l hl', b2 l hl'⟩)]; exact hlen
        · refine hl k e i e1 e2 (col k) (onto k) c a b len e5 e6 c1 ?_ c2 hab hlen
          rintro rfl
          exact c3 (List.mem_of_getElem? e6)
      · exact ⟨(0, 0), fun a b => absurd ⟨a, b⟩ hh⟩
    choose ab hab using hrow
    refine ⟨dead, doms, (List.range rails.length).flatMap (fun k => (es k).map (fun c => (N (ab k c).1, N (ab k c).2))), d1, d2, ?_, ?_⟩
    · rw [d3, List.flatMap_assoc]
      congr 1
      refine List.flatMap_congr ?_
      intro k hkm
      rw [List.flatMap_map]
      refine List.flatMap_congr ?_
      intro c hc
      rw [(hab k c (List.mem_range.1 hkm) hc).1]
      rfl
    · intro x hx
      obtain ⟨k, hkm, hx⟩ := List.mem_flatMap.1 hx
      obtain ⟨c, hc, rfl⟩ := List.mem_map.1 hx
      exact (hab k c (List.mem_range.1 hkm) hc).2

/-- The ranks of a mesh that is on one rank only. -/
def oneRankWorld (m : CollapseRank K) (nents : Nat → Nat) (R : Nat → Nat → List Nat) : CollapseWorld K :=
  ⟨fun _ => m, fun _ => nents, fun _ => R, fun r e => (r, e), fun r v => (r, v)⟩

/-- **C73, the whole pass on one rank.** If `coarsen_ghosted` chose edges, the vertices `keys` are among those it chose one for and no
two of them are in one edge or element, then the edges are found again, and collapsing all of them makes only elements of at least
the allowed quality and edges shorter than the limit. -/
theorem C73_pass (s : Nat → Nat → Nat → Sched) (s0 s1 : Nat → Sched) (s2 s3 s4 : Sched) {m : CollapseRank K} {o : CollapseOpts K}
    {nents : Nat → Nat} {R : Nat → Nat → List Nat} (h : CollapseMesh m o.dim nents R) (htop : o.one ≤ o.top)
    (hcodes : m.v2c.codes.isSome) (hve : m.v2e.a2ab ≠ [])
    (hdiff : ∀ e e' g : Nat, m.edgeGlobals[e]? = some (g : Int) → m.edgeGlobals[e']? = some (g : Int) → e = e')
    {edgeCodes : List Nat} (hlen : edgeCodes.length = nents 1) (hlt : ∀ c ∈ edgeCodes, c < 4) {out : List (Int × K × Int)}
    (hrun : coarsenGhosted s none none [m] o [edgeCodes] = some (some [out]))
    {keys : List Nat} (hin : ∀ v ∈ keys, v < nents 0 ∧ ∃ q g, out[v]? = some (1, q, g)) (hnd : keys.Nodup)
    (hapart : ∀ v ∈ keys, ∀ w ∈ keys, ∀ d x, d = 1 ∨ d = o.dim → x < nents d → v ∈ R d x → w ∈ R d x → v = w)
    {old2new : List Nat} {N : Nat → Nat} (hstay : ∀ v, v < nents 0 → v ∉ keys → old2new[v]? = some (N v))
    (hN : ∀ u v, old2new[u]? = some (N u) → old2new[v]? = some (N v) → N u = N v → u = v)
    {newQuality : List Nat → Option K} {newLength : Nat → Nat → Option K}
    (hq : ∀ l : List Nat, (∀ v ∈ l, v < nents 0 ∧ v ∉ keys) → newQuality (l.map N) = m.qualityOf l)
    (hl : ∀ a b, a < nents 0 → b < nents 0 → a ∉ keys → b ∉ keys → newLength (N a) (N b) = m.lengthOf a b) :
    ∃ rails dirs onto : List Nat,
      findRails s3 m.v2e m.edgeGlobals keys (out.map (fun x => x.2.2)) = some ((rails.zip dirs).map (fun x => ((x.1 : Int), (x.2 : Int)))) ∧
      getVertsOnto s4 m.ev2v rails dirs = some (onto.map Int.ofNat) ∧
      (∃ dead doms, ∃ elems : List (List Nat), markDeadEnts s0 (coarsenMeshOf m nents) o.dim rails dirs o.dim = some dead ∧
        findCoarsenDomains s1 keys m.v2c dead = some doms ∧
        coarsenTopology s2 onto m.cv2v (o.dim + 1) doms old2new = some elems.flatten ∧
        ∀ r ∈ elems, r.length = o.dim + 1 ∧ ∃ q, newQuality r = some q ∧ o.minQual ≤ q) ∧
      ∃ dead doms, ∃ edges : List (Nat × Nat), markDeadEnts s0 (coarsenMeshOf m nents) o.dim rails dirs 1 = some dead ∧
        findCoarsenDomains s1 keys m.v2e dead = some doms ∧
        coarsenTopology s2 onto m.ev2v 2 doms old2new = some (edges.flatMap (fun e => [e.1, e.2])) ∧
        ∀ e ∈ edges, ∃ len, newLength e.1 e.2 = some len ∧ len < o.maxLength := by
  -- what was chosen
  have hok : (oneRankWorld m nents R).Ok 1 false o := by
    refine ⟨by decide, fun _ _ => h, ⟨?_, fun _ _ _ _ _ => rfl⟩, ⟨?_, fun _ _ _ _ _ => rfl⟩, htop⟩
    · exact fun r i hr hi => ⟨hr, hi, rfl⟩
    · exact fun r i hr hi => ⟨hr, hi, rfl⟩
  obtain ⟨res, r1, _, r3⟩ := C56_candidates s (oneRankWorld m nents R) 1 false o hok (fun _ => edgeCodes) (fun _ _ => hlen)
    (fun _ _ => hlt) (fun _ _ _ _ => rfl)
  obtain rfl := Option.some.inj (r1.symm.trans hrun)
  obtain ⟨outs, o1, o2⟩ := r3 _ rfl
  have ho : out = outs 0 := by
    have : [out] = [outs 0] := o1
    simpa using this
  subst ho
  have hch : ∀ v, ∃ e i, v ∈ keys → e < nents 1 ∧ (R 1 e)[i]? = some v ∧
      (oneRankWorld m nents R).Accepted o (offeredBy fun _ => edgeCodes) 0 e i ∧ ∃ q g, (outs 0)[v]? = some (1, q, g) ∧ m.edgeGlobals[e]? = some g := by
    intro v
    by_cases hv : v ∈ keys
    · obtain ⟨h1, q, g, h2⟩ := hin v hv
      rcases (o2 0 (by decide)).2 v h1 with ⟨h3, _⟩ | ⟨e, i, g', len, q', h3, h4, h5, h6, h7, h8, h9, _⟩
      · rw [h2] at h3
        have := congrArg Prod.fst (Option.some.inj h3)
        simp at this
      · exact ⟨e, i, fun _ => ⟨h3, h4, h5, q', g', h9, h6⟩⟩
    · exact ⟨0, 0, fun a => absurd a hv⟩
  choose edge place hch using hch
  obtain ⟨fr, f1, f2, f3⟩ := C56_rails s3 m o.dim nents R h keys (fun v hv => (hin v hv).1) ((outs 0).map (fun x => x.2.2)) hdiff edge (by
    intro v hv
    obtain ⟨h1, h2, _, q, g, h3, h4⟩ := hch v hv
    refine ⟨h1, List.mem_of_getElem? h2, g, ?_, h4⟩
    rw [List.getElem?_map, h3]; rfl)
  -- the place found is the one that was judged
  have hplace : ∀ v ∈ keys, place v ≤ 1 ∧ ∃ t, (R 1 (edge v))[1 - place v]? = some t ∧ t < nents 0 ∧
      m.ev2v[edge v * 2 + (1 - place v)]? = some t ∧ ∀ i : Nat, (R 1 (edge v))[i]? = some v → i = place v := by
    intro v hv
    obtain ⟨h1, h2, _⟩ := hch v hv
    obtain ⟨p, q, h3, h4, h5, h6, h7, h8⟩ := h.edge (edge v) h1
    have hlt2 : place v < 2 := by
      have := (List.getElem?_eq_some_iff.1 h2).1
      rw [h3] at this; exact this
    rw [h3] at h2 ⊢
    refine ⟨by omega, ?_⟩
    rcases (show place v = 0 ∨ place v = 1 by omega) with hp | hp <;> rw [hp] at h2 ⊢
    · refine ⟨q, rfl, h6, h8, ?_⟩
      intro i hi
      have hil := (List.getElem?_eq_some_iff.1 hi).1
      rcases (show i = 0 ∨ i = 1 by simp at hil; omega) with rfl | rfl
      · rfl
      · simp at h2 hi; omega
    · refine ⟨p, rfl, h5, h7, ?_⟩
      intro i hi
      have hil := (List.getElem?_eq_some_iff.1 hi).1
      rcases (show i = 0 ∨ i = 1 by simp at hil; omega) with rfl | rfl
      · simp at h2 hi; omega
      · rfl
  have hto : ∀ v, ∃ t, v ∈ keys → (R 1 (edge v))[1 - place v]? = some t ∧ t < nents 0 ∧ m.ev2v[edge v * 2 + (1 - place v)]? = some t := by
    intro v
    by_cases hv : v ∈ keys
    · obtain ⟨_, t, h1, h2, h3, _⟩ := hplace v hv
      exact ⟨t, fun _ => ⟨h1, h2, h3⟩⟩
    · exact ⟨0, fun a => absurd a hv⟩
  choose target hto using hto
  have hfr : fr = ((keys.map edge).zip (keys.map place)).map (fun x => ((x.1 : Int), (x.2 : Int))) := by
    apply List.ext_getElem?
    intro k
    rw [List.zip_map', List.map_map, List.getElem?_map]
    cases hk : keys[k]? with
    | none =>
      rw [Option.map_none]
      rw [List.getElem?_eq_none_iff] at hk ⊢
      omega
    | some v =>
      obtain ⟨i, h1, h2⟩ := f3 k v hk
      rw [h1, (hplace v (List.mem_of_getElem? hk)).2.choose_spec.2.2.2 i h2]
      rfl
  -- the keys
  have hget : ∀ k, k < keys.length → ∃ v, keys[k]? = some v ∧ v ∈ keys := by
    intro k hk
    exact ⟨_, List.getElem?_eq_getElem hk, List.getElem_mem hk⟩
  let col : Nat → Nat := fun k => (keys[k]?).getD 0
  have hcol : ∀ k v, keys[k]? = some v → col k = v := fun k v hk => by show (keys[k]?).getD 0 = v; rw [hk]; rfl
  have hrange : ∀ f : Nat → Nat, keys.map f = (List.range keys.length).map (fun k => f (col k)) := by
    intro f
    apply List.ext_getElem?
    intro k
    rw [List.getElem?_map, List.getElem?_map]
    by_cases hk : k < keys.length
    · obtain ⟨v, h1, _⟩ := hget k hk
      rw [h1, List.getElem?_range hk, Option.map_some, Option.map_some, hcol k v h1]
    · rw [List.getElem?_eq_none_iff.2 (by omega), List.getElem?_eq_none_iff.2 (by rw [List.length_range]; omega)]
      rfl
  have honto : getVertsOnto s4 m.ev2v (keys.map edge) (keys.map place) = some ((keys.map target).map Int.ofNat) := by
    have hpq : ∀ v, ∃ p q, v ∈ keys → m.ev2v[edge v * 2]? = some p ∧ m.ev2v[edge v * 2 + 1]? = some q := by
      intro v
      by_cases hv : v ∈ keys
      · obtain ⟨p, q, _, _, _, _, h7, h8⟩ := h.edge (edge v) (hch v hv).1
        exact ⟨p, q, fun _ => ⟨h7, h8⟩⟩
      · exact ⟨0, 0, fun a => absurd a hv⟩
    choose p q hpq using hpq
    have := C37_verts_onto s4 m.ev2v (keys.map edge) (keys.map place) (fun k => p (col k)) (fun k => q (col k)) (by
      intro k hk
      rw [List.length_map] at hk
      obtain ⟨v, h1, h2⟩ := hget k hk
      rw [hcol k v h1]
      exact ⟨edge v, place v, by rw [List.getElem?_map, h1]; rfl, by rw [List.getElem?_map, h1]; rfl, (hplace v h2).1, hpq v h2⟩)
    rw [this, List.length_map, hrange target, List.map_map]
    congr 1
    refine List.map_congr_left ?_
    intro k hk
    obtain ⟨v, h1, h2⟩ := hget k (List.mem_range.1 hk)
    obtain ⟨_, _, h3⟩ := hto v h2
    obtain ⟨h4, h5⟩ := hpq v h2
    rw [List.getElem?_map, h1, Function.comp_apply, hcol k v h1, Option.map_some]
    rcases (show place v = 0 ∨ place v = 1 by have := (hplace v h2).1; omega) with hp | hp <;> rw [hp] at h3 ⊢
    · rw [if_pos rfl]
      exact congrArg Int.ofNat (Option.some.inj (h5.symm.trans h3))
    · rw [if_neg (by decide)]
      exact congrArg Int.ofNat (Option.some.inj (h4.symm.trans h3))
  refine ⟨keys.map edge, keys.map place, keys.map target, by rw [f1, hfr], honto, ?_⟩
  have hck : CollapseKeys o.dim nents R (keys.map edge) (keys.map place) keys (keys.map target) old2new col (fun k => target (col k)) N := by
    refine ⟨by simp, ?_, ?_, ?_, ?_, ?_, hN⟩
    · rw [List.length_map]
      have := hrange id
      simpa using this
    · rw [List.length_map]; exact hrange target
    · intro k hk
      rw [List.length_map] at hk
      obtain ⟨v, h1, h2⟩ := hget k hk
      refine ⟨edge v, place v, by rw [List.getElem?_map, h1]; rfl, by rw [List.getElem?_map, h1]; rfl, (hplace v h2).1, (hch v h2).1, ?_, ?_⟩
      · rw [hcol k v h1]; exact (hch v h2).2.1
      · rw [hcol k v h1]; exact (hto v h2).1
    · intro k l d x hk hl' hd hx h1 h2
      rw [List.length_map] at hk hl'
      obtain ⟨v, a1, a2⟩ := hget k hk
      obtain ⟨w, b1, b2⟩ := hget l hl'
      rw [hcol k v a1] at h1
      rw [hcol l w b1] at h2
      obtain rfl := hapart v a2 w b2 d x hd hx h1 h2
      exact (List.getElem?_inj hk hnd).1 (a1.trans b1.symm)
    · intro v hv hk
      refine hstay v hv ?_
      intro hv'
      obtain ⟨k, hk'⟩ := List.mem_iff_getElem?.1 hv'
      exact hk k (by rw [List.length_map]; exact (List.getElem?_eq_some_iff.1 hk').1) (hcol k v hk').symm
  have hout : ∀ v, (∀ k, k < (keys.map edge).length → v ≠ col k) → v ∉ keys := by
    intro v hk hv'
    obtain ⟨k, hk'⟩ := List.mem_iff_getElem?.1 hv'
    exact hk k (by rw [List.length_map]; exact (List.getElem?_eq_some_iff.1 hk').1) (hcol k v hk').symm
  have hms : MeasuresKept m nents (keys.map edge).length col N newQuality newLength :=
    ⟨fun l hl' => hq l (fun v hv => ⟨(hl' v hv).1, hout v (hl' v hv).2⟩),
      fun a b h1 h2 h3 => hl a b h1 h2 (hout a (fun k hk => (h3 k hk).1)) (hout b (fun k hk => (h3 k hk).2))⟩
  have hacc : ∀ k e i : Nat, (keys.map edge)[k]? = some e → (keys.map place)[k]? = some i →
      (oneRankWorld m nents R).Accepted o (offeredBy fun _ => edgeCodes) 0 e i := by
    intro k e i h1 h2
    rw [List.getElem?_map] at h1 h2
    obtain ⟨v, v1, v2⟩ := Option.map_eq_some_iff.1 h1
    rw [v1, Option.map_some, Option.some.injEq] at h2
    rw [← v2, ← h2]
    exact (hch v (List.mem_of_getElem? v1)).2.2.1
  refine C73_made h hcodes hve hck s0 s1 s2 hms o.one o.minQual o.maxLength ?_ ?_
  · intro k e i h1 h2
    obtain ⟨_, _, _, q, h3, h4, _⟩ := hacc k e i h1 h2
    exact ⟨q, h3, h4⟩
  · intro k e i h1 h2
    exact (hacc k e i h1 h2).2.2.1

/-! ## A case

The square with its centre, vertex 0, of `C56`: the edge with number 11 was chosen for vertex 0, so it goes to vertex 2. -/

theorem pick_apart : ∀ v ∈ [0], ∀ w ∈ [0], ∀ d x, d = 1 ∨ d = 2 → x < pickNents d → v ∈ pickRows d x → w ∈ pickRows d x → v = w := by
  intro v hv w hw _ _ _ _ _ _
  rw [List.mem_singleton] at hv hw
  rw [hv, hw]

example (s0 s1 : Nat → Sched) (s2 s3 s4 : Sched) := C73_pass (fun _ _ _ => Sched.reversed) s0 s1 s2 s3 s4
  (o := pickOpts) pickRank_ok (by decide) (by decide) (by decide)
  (by
    have key : ∀ e, e < 8 → ∀ e', e' < 8 → pickRank.edgeGlobals[e]? = pickRank.edgeGlobals[e']? → e = e' := by decide
    intro e e' g h1 h2
    exact key e (List.getElem?_eq_some_iff.1 h1).1 e' (List.getElem?_eq_some_iff.1 h2).1 (h1.trans h2.symm))
  (edgeCodes := [3, 1, 1, 1, 1, 0, 0, 2]) (by decide) (by decide)
  (out := [(1, 7, 11), (1, 6, 14), (0, -1, -1), (0, -1, -1), (0, -1, -1)]) (by decide +kernel)
  (keys := [0]) (by
    intro v hv
    obtain rfl := List.mem_singleton.1 hv
    exact ⟨by decide, 7, 11, rfl⟩) (by decide) pick_apart
  (old2new := [9, 0, 1, 2, 3]) (N := fun v => v - 1) (by
    have key : ∀ v, v < 5 → v ∉ [0] → [9, 0, 1, 2, 3][v]? = some (v - 1) := by decide
    exact key) (by
    have key : ∀ u, u < 5 → ∀ v, v < 5 → [9, 0, 1, 2, 3][u]? = some (u - 1) → [9, 0, 1, 2, 3][v]? = some (v - 1) → u - 1 = v - 1 → u = v := by
      decide
    intro u v h1 h2
    exact key u (List.getElem?_eq_some_iff.1 h1).1 v (List.getElem?_eq_some_iff.1 h2).1 h1 h2)
  (newQuality := fun l => some (Int.ofNat (l.map (fun v => v + 1)).sum)) (newLength := fun a b => some ((a + 1 : Int) + (b + 1))) (by
    intro l hl
    show some (Int.ofNat ((l.map (fun v => v - 1)).map (fun v => v + 1)).sum) = some (Int.ofNat l.sum)
    rw [List.map_map]
    have : l.map ((fun v => v + 1) ∘ fun v => v - 1) = l.map id := List.map_congr_left (fun v hv => by
      have := (hl v hv).2
      rw [List.mem_singleton] at this
      show v - 1 + 1 = v
      omega)
    rw [this, List.map_id]) (by
    intro a b _ _ h1 h2
    rw [List.mem_singleton] at h1 h2
    show some _ = some ((a : Int) + b)
    congr 1
    omega)

/-- The elements made, under the new numbers: old `2 3 4` and `2 4 1`, of qualities 9 and 7. -/
example : markDeadEnts (fun _ => Sched.serial) (coarsenMeshOf pickRank pickNents) 2 [1] [0] 2 = some [1, 1, 0, 0] ∧
    findCoarsenDomains (fun _ => Sched.serial) [0] pickRank.v2c [1, 1, 0, 0] = some ⟨[0, 2], [2, 3], some [0, 0]⟩ ∧
    coarsenTopology Sched.serial [2] pickRank.cv2v 3 ⟨[0, 2], [2, 3], some [0, 0]⟩ [9, 0, 1, 2, 3] = some [1, 2, 3, 1, 3, 0] ∧
    collapseQuality pickRank 100 2 0 2 = some 7 := by decide +kernel

end OmegaH
