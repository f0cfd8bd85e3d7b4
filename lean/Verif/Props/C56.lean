import Verif.Spec.Collapse
import Verif.Props.C26
import Verif.Props.C37
import Verif.Props.C43
import Verif.Lemmas.CopyDist
import Mathlib.Data.Nat.Bitwise
import Mathlib.Order.Lattice
/-!
# C56 — which edges are collapsed: the checks on one edge
-/
namespace OmegaH
open Spec

/-! ## Codes -/

theorem testBit_dont (c i j : Nat) : (dontCollapse c i).testBit j = (c.testBit j && decide (j ≠ i)) := by
  unfold dontCollapse
  rw [Nat.testBit_xor, Nat.testBit_and, Nat.testBit_two_pow]
  by_cases h : i = j
  · subst h; simp
  · have h' : j ≠ i := fun e => h e.symm
    simp [h, h']

theorem testBit_do (c i j : Nat) : (doCollapse c i).testBit j = (c.testBit j || decide (j = i)) := by
  unfold doCollapse
  rw [Nat.testBit_or, Nat.testBit_two_pow]
  by_cases h : i = j
  · subst h; simp
  · have h' : j ≠ i := fun e => h e.symm
    simp [h, h']

theorem dont_lt {c i : Nat} (hc : c < 4) : dontCollapse c i < 4 := by
  unfold dontCollapse
  exact Nat.xor_lt_two_pow (n := 2) hc (Nat.lt_of_le_of_lt Nat.and_le_left hc)

theorem code_zero_iff {c : Nat} (hc : c < 4) : c = 0 ↔ ∀ i, i < 2 → c.testBit i = false := by
  constructor
  · rintro rfl i _; simp
  · intro h
    have h0 := h 0 (by omega)
    have h1 := h 1 (by omega)
    have : c = 0 ∨ c = 1 ∨ c = 2 ∨ c = 3 := by omega
    rcases this with rfl | rfl | rfl | rfl
    · rfl
    · exact absurd h0 (by decide)
    · exact absurd h1 (by decide)
    · exact absurd h0 (by decide)

theorem code_ext {c c' : Nat} (hc : c < 4) (hc' : c' < 4) (h : ∀ i, i < 2 → c.testBit i = c'.testBit i) : c = c' := by
  have h0 := h 0 (by omega)
  have h1 := h 1 (by omega)
  have e1 : c = 0 ∨ c = 1 ∨ c = 2 ∨ c = 3 := by omega
  have e2 : c' = 0 ∨ c' = 1 ∨ c' = 2 ∨ c' = 3 := by omega
  rcases e1 with rfl | rfl | rfl | rfl <;> rcases e2 with rfl | rfl | rfl | rfl <;>
    first
      | rfl
      | exact absurd h0 (by decide)
      | exact absurd h1 (by decide)

/-- `c'` is `c` without the directions that fail `P`. -/
def Restricts (P : Nat → Prop) (c c' : Nat) : Prop :=
  c' < 4 ∧ ∀ i, i < 2 → (c'.testBit i = true ↔ c.testBit i = true ∧ P i)

theorem restricts_refl {P : Nat → Prop} {c : Nat} (hc : c < 4) (h : ∀ i, i < 2 → c.testBit i = true → P i) :
    Restricts P c c := ⟨hc, fun i hi => ⟨fun h' => ⟨h', h i hi h'⟩, fun h' => h'.1⟩⟩

/-- A loop over the two directions. -/
theorem dirs_spec (g : Nat → Nat → Option Nat) (P : Nat → Prop) (c : Nat) (hc : c < 4)
    (h : ∀ col, col < 2 → ∀ c, c < 4 → ∃ c', g c col = some c' ∧ Restricts (fun j => j = col → P j) c c') :
    ∃ c', [0, 1].foldlM g c = some c' ∧ Restricts P c c' := by
  obtain ⟨c1, a1, a2, a3⟩ := h 0 (by omega) c hc
  obtain ⟨c2, b1, b2, b3⟩ := h 1 (by omega) c1 a2
  refine ⟨c2, ?_, b2, ?_⟩
  · rw [List.foldlM_cons, a1]
    show ([1].foldlM g c1) = _
    rw [List.foldlM_cons, b1]; rfl
  · intro i hi
    rw [b3 i hi, a3 i hi]
    have : i = 0 ∨ i = 1 := by omega
    rcases this with rfl | rfl <;> simp

theorem restricts_dont {P : Nat → Prop} {c col : Nat} (hc : c < 4) (h : ¬ P col) :
    Restricts (fun j => j = col → P j) c (dontCollapse c col) := by
  refine ⟨dont_lt hc, ?_⟩
  intro i hi
  rw [testBit_dont]
  by_cases e : i = col
  · subst e; simp [h]
  · simp [e]

theorem restricts_keep {P : Nat → Prop} {c col : Nat} (hc : c < 4) (h : c.testBit col = true → P col) :
    Restricts (fun j => j = col → P j) c c :=
  restricts_refl hc (fun i _ hi e => by subst e; exact h hi)

/-! ## Loops with one store per turn -/

theorem parVals {α : Type} (s : Sched) (n : Nat) (W : Nat → Option (List (Nat × α))) (v : Nat → α) (m : Mem α)
    (hm : m.length = n) (hW : ∀ i, i < n → W i = some [(i, v i)]) :
    (parScatter s n W m).bind Mem.toArray? = some ((List.range n).map v) := by
  rw [parScatter_full s n W (fun i => [(i, v i)]) v m hW (by
    intro i hi p x hx
    rw [List.mem_singleton, Prod.mk.injEq] at hx
    obtain ⟨rfl, rfl⟩ := hx
    exact ⟨by omega, rfl⟩) (by
    intro p hp
    exact ⟨p, by omega, v p, by simp⟩), hm]
  exact Mem.toArray?_ofList _

theorem parVals_spec {α : Type} (s : Sched) (n : Nat) (W : Nat → Option (List (Nat × α))) (Q : Nat → α → Prop) (m : Mem α)
    (hm : m.length = n) (hW : ∀ i, i < n → ∃ v, W i = some [(i, v)] ∧ Q i v) :
    ∃ out, (parScatter s n W m).bind Mem.toArray? = some out ∧ out.length = n ∧
      ∀ i, i < n → ∃ v, out[i]? = some v ∧ Q i v := by
  by_cases hn : n = 0
  · subst hn
    have hm' : m = [] := List.length_eq_zero_iff.1 hm
    subst hm'
    refine ⟨[], ?_, rfl, fun i hi => absurd hi (by omega)⟩
    have hp : s.permute ([] : List (Nat × α)) = [] := List.length_eq_zero_iff.1 (s.permute_perm []).length_eq
    show (Mem.writes [] (s.permute [])).bind _ = _
    rw [hp]; rfl
  · obtain ⟨v0, _⟩ := hW 0 (by omega)
    have : ∀ i, ∃ v, i < n → W i = some [(i, v)] ∧ Q i v := by
      intro i
      by_cases hi : i < n
      · obtain ⟨v, hv⟩ := hW i hi; exact ⟨v, fun _ => hv⟩
      · exact ⟨v0, fun h => absurd h hi⟩
    obtain ⟨v, hv⟩ := Classical.skolem.1 this
    refine ⟨_, parVals s n W v m hm (fun i hi => (hv i hi).1), by simp, ?_⟩
    intro i hi
    exact ⟨v i, by simp [hi], (hv i hi).2⟩

/-! ## Marks and classification -/

/-- **C56, marks.** `coarsen_verts` offers the collapse of exactly the marked ends of every edge. -/
theorem C56_offered (s : Sched) (vertMarks : List Int) (ev2v : List Nat) (nedges : Nat)
    (hl : ev2v.length = nedges * 2) (hr : InRange ev2v vertMarks.length) :
    ∃ codes, edgeCodesOfMarks s vertMarks ev2v nedges = some codes ∧ codes.length = nedges ∧
      ∀ e, e < nedges → ∃ c, codes[e]? = some c ∧ c < 4 ∧
        ∀ i, i < 2 → (c.testBit i = true ↔ ∃ v m, ev2v[e * 2 + i]? = some v ∧ vertMarks[v]? = some m ∧ m ≠ 0) := by
  refine parVals_spec s nedges _ (fun e c => c < 4 ∧
        ∀ i, i < 2 → (c.testBit i = true ↔ ∃ v m, ev2v[e * 2 + i]? = some v ∧ vertMarks[v]? = some m ∧ m ≠ 0)) _
    List.length_replicate ?_
  intro e he
  obtain ⟨v0, e0⟩ : ∃ v, ev2v[e * 2 + 0]? = some v := ⟨_, List.getElem?_eq_getElem (by omega)⟩
  obtain ⟨v1, e1⟩ : ∃ v, ev2v[e * 2 + 1]? = some v := ⟨_, List.getElem?_eq_getElem (by omega)⟩
  obtain ⟨m0, f0⟩ : ∃ m, vertMarks[v0]? = some m := ⟨_, List.getElem?_eq_getElem (hr _ (List.mem_of_getElem? e0))⟩
  obtain ⟨m1, f1⟩ : ∃ m, vertMarks[v1]? = some m := ⟨_, List.getElem?_eq_getElem (hr _ (List.mem_of_getElem? e1))⟩
  unfold vertMarksCode
  simp only [List.foldlM_cons, List.foldlM_nil, bind, e0, e1, f0, f1, Option.bind_some, Option.map_some, pure]
  refine ⟨_, rfl, ?_, ?_⟩
  · split <;> split <;> decide
  · intro i hi
    have : i = 0 ∨ i = 1 := by omega
    rw [Nat.add_zero] at e0
    by_cases h0 : m0 = 0 <;> by_cases h1 : m1 = 0 <;> rcases this with rfl | rfl <;>
      simp [-Nat.testBit_zero, e0, e1, f0, f1, h0, h1, testBit_do]

/-- **C56, classification.** `check_collapse_class` keeps exactly the directions in which the vertex that
goes away is on an entity of the model of the same dimension as the edge. -/
theorem C56_class (s : Sched) (vertClass edgeClass : List Int) (ev2v cands codes : List Nat) (nedges : Nat)
    (hl : ev2v.length = nedges * 2) (hr : InRange ev2v vertClass.length) (he : edgeClass.length = nedges)
    (hc : InRange cands nedges) (hcodes : codes.length = cands.length) (h4 : ∀ c ∈ codes, c < 4) :
    ∃ codes', candKernel s (classCode vertClass edgeClass ev2v) cands codes = some codes' ∧
      codes'.length = cands.length ∧
      ∀ k e c : Nat, cands[k]? = some e → codes[k]? = some c → ∃ c', codes'[k]? = some c' ∧ c' < 4 ∧
        ∀ i, i < 2 → (c'.testBit i = true ↔ c.testBit i = true ∧
          ∃ v, ev2v[e * 2 + i]? = some v ∧ vertClass[v]? = edgeClass[e]?) := by
  obtain ⟨out, o1, o2, o3⟩ := parVals_spec s cands.length (fun cand => (codes[cand]?).bind (fun code =>
      (cands[cand]?).bind (fun e => (classCode vertClass edgeClass ev2v e code).map (fun c => [(cand, c)]))))
    (fun k c' => ∃ e c : Nat, cands[k]? = some e ∧ codes[k]? = some c ∧ c' < 4 ∧
        ∀ i, i < 2 → (c'.testBit i = true ↔ c.testBit i = true ∧
          ∃ v, ev2v[e * 2 + i]? = some v ∧ vertClass[v]? = edgeClass[e]?)) (Mem.alloc cands.length)
    List.length_replicate (by
      intro k hk
      obtain ⟨e, g1⟩ : ∃ e, cands[k]? = some e := ⟨_, List.getElem?_eq_getElem hk⟩
      obtain ⟨c, g2⟩ : ∃ c, codes[k]? = some c := ⟨_, List.getElem?_eq_getElem (by omega)⟩
      have hen := hc e (List.mem_of_getElem? g1)
      have hc4 := h4 c (List.mem_of_getElem? g2)
      obtain ⟨v0, e0⟩ : ∃ v, ev2v[e * 2 + 0]? = some v := ⟨_, List.getElem?_eq_getElem (by omega)⟩
      obtain ⟨v1, e1⟩ : ∃ v, ev2v[e * 2 + 1]? = some v := ⟨_, List.getElem?_eq_getElem (by omega)⟩
      obtain ⟨m0, f0⟩ : ∃ m, vertClass[v0]? = some m := ⟨_, List.getElem?_eq_getElem (hr _ (List.mem_of_getElem? e0))⟩
      obtain ⟨m1, f1⟩ : ∃ m, vertClass[v1]? = some m := ⟨_, List.getElem?_eq_getElem (hr _ (List.mem_of_getElem? e1))⟩
      obtain ⟨me, fe⟩ : ∃ m, edgeClass[e]? = some m := ⟨_, List.getElem?_eq_getElem (by omega)⟩
      unfold classCode
      simp only [g1, g2, Option.bind_some, bind, pure, e0, e1, f0, f1, fe]
      by_cases h01 : m0 = m1
      · subst h01
        rw [if_pos rfl]
        refine ⟨_, rfl, e, c, rfl, rfl, ?_, ?_⟩
        · split <;> omega
        · intro i hi
          have : i = 0 ∨ i = 1 := by omega
          rw [Nat.add_zero] at e0
          by_cases h0 : m0 = me <;> rcases this with rfl | rfl <;>
            simp [-Nat.testBit_zero, e0, e1, f0, f1, fe, h0]
      · rw [if_neg h01]
        refine ⟨_, rfl, e, c, rfl, rfl, ?_, ?_⟩
        · split_ifs <;> first | exact hc4 | exact dont_lt hc4 | exact dont_lt (dont_lt hc4)
        · intro i hi
          have : i = 0 ∨ i = 1 := by omega
          unfold collapses
          rw [Nat.add_zero] at e0
          clear * - this e0 e1 f0 f1 fe
          by_cases h0 : m0 = me <;> by_cases h1 : m1 = me <;> by_cases b0 : c.testBit 0 <;>
            by_cases b1 : c.testBit 1 <;> rcases this with rfl | rfl <;>
            simp [-Nat.testBit_zero, testBit_dont, e0, e1, f0, f1, fe, h0, h1, b0, b1])
  refine ⟨out, o1, o2, ?_⟩
  intro k e c h1 h2
  obtain ⟨c', x1, e', c'', y1, y2, y3⟩ := o3 k (List.getElem?_eq_some_iff.1 h1).1
  obtain rfl := Option.some.inj (h1.symm.trans y1)
  obtain rfl := Option.some.inj (h2.symm.trans y2)
  exact ⟨c', x1, y3⟩

/-! ## Reading adjacencies -/

theorem adjRow_members {adj : Adj} {a : Nat} {L : List (Nat × Int)} (h : AdjRow adj a L) :
    ∃ codes lo, adj.codes = some codes ∧ fanMembers adj.a2ab a = some (List.range' lo L.length) ∧
      ∀ (j : Nat) (x : Nat × Int), L[j]? = some x → adj.ab2b[lo + j]? = some x.1 ∧ codes[lo + j]? = some x.2 := by
  obtain ⟨codes, lo, hi, h1, h2, h3, h4, h5⟩ := h
  refine ⟨codes, lo, h1, ?_, h5⟩
  unfold fanMembers
  rw [h2, h3]
  show some (List.range' lo (hi - lo)) = _
  rw [show hi - lo = L.length by omega]

theorem foldlM_members {β : Type} {ab2b : List Nat} {codes : List Int} (f : β → Nat → Option β)
    (g : β → Nat × Int → Option β)
    (hfg : ∀ acc ve x, ab2b[ve]? = some x.1 → codes[ve]? = some x.2 → f acc ve = g acc x) :
    ∀ (L : List (Nat × Int)) (lo : Nat) (acc : β),
      (∀ (j : Nat) (x : Nat × Int), L[j]? = some x → ab2b[lo + j]? = some x.1 ∧ codes[lo + j]? = some x.2) →
      (List.range' lo L.length).foldlM f acc = L.foldlM g acc := by
  intro L
  induction L with
  | nil => intro lo acc _; rfl
  | cons x L ih =>
    intro lo acc h
    obtain ⟨h1, h2⟩ := h 0 x rfl
    rw [List.length_cons, List.range'_succ, List.foldlM_cons, List.foldlM_cons, hfg acc lo x h1 h2]
    congr 1
    funext y
    exact ih (lo + 1) y (by
      intro j z hz
      have := h (j + 1) z hz
      rw [show lo + (j + 1) = lo + 1 + j by omega] at this
      exact this)

theorem restricts_trans {P Q : Nat → Prop} {a b c : Nat} (h1 : Restricts P a b) (h2 : Restricts Q b c) :
    Restricts (fun i => P i ∧ Q i) a c :=
  ⟨h2.1, fun i hi => by rw [h2.2 i hi, h1.2 i hi, and_assoc]⟩

theorem restricts_congr {P Q : Nat → Prop} {a b : Nat} (h : Restricts P a b)
    (hPQ : ∀ i, i < 2 → (P i ↔ Q i)) : Restricts Q a b :=
  ⟨h.1, fun i hi => by rw [h.2 i hi, hPQ i hi]⟩

theorem fold_restricts {β : Type} (g : Nat → β → Option Nat) (P : β → Nat → Prop) :
    ∀ (L : List β) (c : Nat), c < 4 →
      (∀ x ∈ L, ∀ c, c < 4 → ∃ c', g c x = some c' ∧ Restricts (P x) c c') →
      ∃ c', L.foldlM g c = some c' ∧ Restricts (fun i => ∀ x ∈ L, P x i) c c' := by
  intro L
  induction L with
  | nil => intro c hc _; exact ⟨c, rfl, restricts_refl hc (by simp)⟩
  | cons x L ih =>
    intro c hc h
    obtain ⟨c1, a1, a2⟩ := h x (by simp) c hc
    obtain ⟨c2, b1, b2⟩ := ih c1 a2.1 (fun y hy => h y (by simp [hy]))
    refine ⟨c2, by rw [List.foldlM_cons, a1]; exact b1, restricts_congr (restricts_trans a2 b2) ?_⟩
    intro i _
    simp

/-! ## Exposure -/

section
variable {K : Type}

theorem oppositeSide_spec {m : CollapseRank K} {D : Nat} {nents : Nat → Nat} {R : Nat → Nat → List Nat}
    (h : CollapseMesh m D nents R) (d : Nat) (hd2 : 2 ≤ d) (hD : d ≤ D) (c : Nat) (hc : c < nents d) (code : Int)
    (e p q : Nat) (hR : R 1 e = [p, q]) (hcode : EdgePlaceIn d code (R d c) p q) (col : Nat) (hcol : col < 2)
    (t : Nat) (ht : (R 1 e)[1 - col]? = some t) :
    (∀ v ∈ R 1 e, v ∈ R d c) ∧ ∃ s j, oppositeSide d (m.down d) c code col = some s ∧ s < nents (d - 1) ∧
      j < (simplexDegree d ((d : Int) - 1)).toNat ∧
      (m.down d)[c * (simplexDegree d ((d : Int) - 1)).toNat + j]? = some s ∧ t ∉ R (d - 1) s ∧
      ∀ j' s', j' < (simplexDegree d ((d : Int) - 1)).toNat →
        (m.down d)[c * (simplexDegree d ((d : Int) - 1)).toNat + j']? = some s' → t ∉ R (d - 1) s' → s' = s := by
  have hd3 : d = 2 ∨ d = 3 := by have := h.dim; omega
  have hdim' : d ∈ [2, 3] := by rcases hd3 with rfl | rfl <;> decide
  obtain ⟨w, r, hw, hr, hcode, hp, hq⟩ := hcode
  obtain ⟨l1, l2, _⟩ := h.cell d hd2 hD c hc
  have hw' : w ∈ List.range (simplexDegree (d : Int) 1).toNat := by rw [List.mem_range]; omega
  obtain ⟨f1, f2⟩ := edgeCode_fields w r hr
  have hx' : r ^^^ (1 - col) = if col = 1 then r else 1 - r :=
    xor_dir r (List.mem_range.2 hr) col (List.mem_range.2 (by omega))
  let u : Nat := (simplexDownTemplate d 1 (w : Int) ((r ^^^ (1 - col) : Nat) : Int)).toNat
  have hu0 : 0 ≤ simplexDownTemplate d 1 (w : Int) ((r ^^^ (1 - col) : Nat) : Int) := by
    refine edge_template_lt d hdim' w hw' _ (List.mem_range.2 ?_)
    rw [hx']; split <;> omega
  have ht' : t = if col = 1 then p else q := by
    have : col = 0 ∨ col = 1 := by omega
    rw [hR] at ht
    rcases this with rfl | rfl
    · exact (Option.some.inj ht).symm
    · exact (Option.some.inj ht).symm
  have hu : (R d c)[u]? = some t := by
    show (R d c)[(simplexDownTemplate d 1 (w : Int) ((r ^^^ (1 - col) : Nat) : Int)).toNat]? = some t
    rw [hx', ht']
    by_cases e1 : col = 1
    · rw [if_pos e1, if_pos e1]; exact hp
    · rw [if_neg e1, if_neg e1]; exact hq
  have hul : u < d + 1 := by
    have := (List.getElem?_eq_some_iff.1 hu).1; omega
  obtain ⟨t1, t2, t3⟩ := opposite_table d hdim' u (List.mem_range.2 hul)
  have hu' : simplexDownTemplate d 1 (w : Int) ((r ^^^ (1 - col) : Nat) : Int) = (u : Int) :=
    (Int.toNat_of_nonneg hu0).symm
  obtain ⟨s, s1, s2, s3⟩ := h.side d hd2 hD c hc _ t2
  refine ⟨?_, s, _, ?_, s2, t2, s1, ?_, ?_⟩
  · intro v hv
    rw [hR] at hv
    simp only [List.mem_cons, List.not_mem_nil, or_false] at hv
    rcases hv with rfl | rfl
    · exact List.mem_of_getElem? hp
    · exact List.mem_of_getElem? hq
  · unfold oppositeSide
    rw [hcode]
    simp only [f1, f2, Int.toNat_natCast]
    rw [hu', if_pos t1]
    exact s1
  · intro hts
    obtain ⟨j, j1, j2⟩ := (s3 t).1 hts
    have := (List.getElem?_inj (by
      have := (List.getElem?_eq_some_iff.1 hu).1; exact this) l2).1 (hu.trans j2.symm)
    exact (t3 _ (List.mem_range.2 t2)).1 ⟨j, List.mem_range.2 j1, this.symm⟩ rfl
  · intro i' s' hi' hs' hts'
    by_cases hii : i' = (simplexOppositeTemplate d 0 (u : Int)).toNat
    · rw [hii, s1] at hs'
      exact (Option.some.inj hs').symm
    · exfalso
      obtain ⟨j, j1, j2⟩ := (t3 i' (List.mem_range.2 hi')).2 hii
      obtain ⟨s'', y1, _, y3⟩ := h.side d hd2 hD c hc i' hi'
      obtain rfl : s'' = s' := Option.some.inj (y1.symm.trans hs')
      exact hts' ((y3 t).2 ⟨j, List.mem_range.1 j1, by rw [j2]; exact hu⟩)

/-- The boundaries that cells of dimension `d` could expose. -/
def KeepsAt (m : CollapseRank K) (nents : Nat → Nat) (R : Nat → Nat → List Nat) (e d i : Nat) : Prop :=
  ∀ c j s t, c < nents d → (∀ v ∈ R 1 e, v ∈ R d c) →
    j < (simplexDegree d ((d : Int) - 1)).toNat →
    (m.down d)[c * (simplexDegree d ((d : Int) - 1)).toNat + j]? = some s →
    (R 1 e)[1 - i]? = some t → t ∉ R (d - 1) s → (m.classDim (d - 1))[s]? = (m.classDim d)[c]?

theorem exposureCode_spec {m : CollapseRank K} {D : Nat} {nents : Nat → Nat} {R : Nat → Nat → List Nat}
    (h : CollapseMesh m D nents R) (d : Nat) (hd2 : 2 ≤ d) (hD : d ≤ D) (e : Nat) (he : e < nents 1) (code : Nat)
    (hcode : code < 4) :
    ∃ c', exposureCode d (m.upEdge d) (m.down d) (m.classDim d) (m.classDim (d - 1)) e code = some c' ∧
      Restricts (KeepsAt m nents R e d) code c' := by
  obtain ⟨p, q, hR, hpq, hp, hq, _, _⟩ := h.edge e he
  obtain ⟨L, hL, hin, hall⟩ := h.up d hd2 hD e he
  obtain ⟨codes, lo, c1, c2, c3⟩ := adjRow_members hL
  let g : Nat → Nat × Int → Option Nat := fun code x => (m.classDim d)[x.1]?.bind (fun cd =>
    [0, 1].foldlM (fun code col =>
      if collapses code col then do
        let s ← oppositeSide d (m.down d) x.1 x.2 col
        let sd ← (m.classDim (d - 1))[s]?
        pure (if sd ≠ cd then dontCollapse code col else code)
      else pure code) code)
  let P : Nat × Int → Nat → Prop := fun x i => ∀ j s t, j < (simplexDegree d ((d : Int) - 1)).toNat →
    (m.down d)[x.1 * (simplexDegree d ((d : Int) - 1)).toNat + j]? = some s →
    (R 1 e)[1 - i]? = some t → t ∉ R (d - 1) s → (m.classDim (d - 1))[s]? = (m.classDim d)[x.1]?
  obtain ⟨c', b1, b2⟩ := fold_restricts g P L code hcode (by
    intro x hx c hc
    obtain ⟨x1, x2⟩ := hin x hx
    obtain ⟨cd, hcd⟩ : ∃ cd, (m.classDim d)[x.1]? = some cd :=
      ⟨_, List.getElem?_eq_getElem (by rw [h.classLen d hD]; exact x1)⟩
    show ∃ c', ((m.classDim d)[x.1]?.bind _) = some c' ∧ _
    rw [hcd, Option.bind_some]
    refine dirs_spec _ (P x) c hc ?_
    intro col hcol c hc
    obtain ⟨t, ht⟩ : ∃ t, (R 1 e)[1 - col]? = some t :=
      ⟨_, List.getElem?_eq_getElem (by rw [hR]; simp; omega)⟩
    obtain ⟨_, s, j, o1, o2, o3, o4, o5, o6⟩ := oppositeSide_spec h d hd2 hD x.1 x1 x.2 e p q hR (x2 p q hR) col hcol t ht
    obtain ⟨sd, hsd⟩ : ∃ sd, (m.classDim (d - 1))[s]? = some sd :=
      ⟨_, List.getElem?_eq_getElem (by rw [h.classLen (d - 1) (by omega)]; exact o2)⟩
    by_cases hb : collapses c col = true
    · rw [if_pos hb, o1]
      simp only [bind, Option.bind_some, hsd, pure]
      by_cases hne : sd = cd
      · rw [if_neg (by simpa using hne)]
        refine ⟨c, rfl, restricts_keep hc (fun _ => ?_)⟩
        intro j' s' t' h1 h2 h3 h4
        obtain rfl := Option.some.inj (ht.symm.trans h3)
        rw [o6 j' s' h1 h2 h4, hsd, hcd, hne]
      · rw [if_pos hne]
        refine ⟨_, rfl, restricts_dont hc ?_⟩
        intro hP
        have := hP j s t o3 o4 ht o5
        rw [hsd, hcd] at this
        exact hne (Option.some.inj this)
    · rw [if_neg hb]
      exact ⟨c, rfl, restricts_keep hc (fun hb' => absurd hb' hb)⟩)
  refine ⟨c', ?_, restricts_congr b2 ?_⟩
  · unfold exposureCode
    simp only [c1, c2, bind, Option.bind_some]
    rw [← b1]
    refine foldlM_members (ab2b := (m.upEdge d).ab2b) (codes := codes) _ g ?_ L lo code c3
    intro acc ve x h1 h2
    simp only [h1, h2, Option.bind_some]
    rfl
  · intro i hi
    constructor
    · intro hP c j s t h1 h2 h3 h4 h5 h6
      obtain ⟨cc, hcc⟩ := hall c h1 h2
      exact hP _ hcc j s t h3 h4 h5 h6
    · intro hK x hx j s t h1 h2 h3 h4
      obtain ⟨x1, x2⟩ := hin x hx
      exact hK x.1 j s t x1 (oppositeSide_spec h d hd2 hD x.1 x1 x.2 e p q hR (x2 p q hR) i hi t h3).1 h1 h2 h3 h4

theorem exposureAll_spec {m : CollapseRank K} {D : Nat} {nents : Nat → Nat} {R : Nat → Nat → List Nat}
    (h : CollapseMesh m D nents R) (e : Nat) (he : e < nents 1) (code : Nat) (hcode : code < 4) :
    ∃ c', exposureAll D m e code = some c' ∧ Restricts (KeepsBoundaries m D nents R e) code c' := by
  obtain ⟨c', a1, a2⟩ := fold_restricts (fun code d =>
      exposureCode d (m.upEdge d) (m.down d) (m.classDim d) (m.classDim (d - 1)) e code)
    (fun d => KeepsAt m nents R e d) (List.range' 2 (D - 1)) code hcode (by
      intro d hd c hc
      rw [List.mem_range'_1] at hd
      exact exposureCode_spec h d (by omega) (by omega) e he c hc)
  refine ⟨c', a1, restricts_congr a2 ?_⟩
  intro i _
  constructor
  · intro hP d c j s t h1 h2 h3 h4 h5 h6 h7 h8
    exact hP d (by rw [List.mem_range'_1]; have := h.dim; omega) c j s t h3 h4 h5 h6 h7 h8
  · intro hK d hd c j s t h3 h4 h5 h6 h7 h8
    rw [List.mem_range'_1] at hd
    exact hK d c j s t (by omega) (by have := h.dim; omega) h3 h4 h5 h6 h7 h8

end

/-! ## Overshoot -/

section
variable {K : Type} [LinearOrder K]

theorem substVert_self {v t : Nat} {l : List Nat} (h : v ∉ l) : substVert v t l = l := by
  unfold substVert
  conv_rhs => rw [← List.map_id l]
  refine List.map_congr_left (fun x hx => ?_)
  exact if_neg (fun e : x = v => h (e ▸ hx))

theorem substVert_set {v t : Nat} : ∀ {l : List Nat} {i : Nat}, l.Nodup → l[i]? = some v → substVert v t l = l.set i t := by
  intro l
  induction l with
  | nil => intro i _ h; simp at h
  | cons a l ih =>
    intro i hn h
    rw [List.nodup_cons] at hn
    cases i with
    | zero =>
      obtain rfl : a = v := by simpa using h
      rw [List.set_cons_zero]
      show (if a = a then t else a) :: substVert a t l = _
      rw [if_pos rfl, substVert_self hn.1]
    | succ i =>
      rw [List.getElem?_cons_succ] at h
      rw [List.set_cons_succ, ← ih hn.2 h]
      show (if a = v then t else a) :: substVert v t l = _
      rw [if_neg (fun e : a = v => hn.1 (e ▸ List.mem_of_getElem? h))]

theorem anyTooLong_spec {m : CollapseRank K} {D : Nat} {nents : Nat → Nat} {R : Nat → Nat → List Nat}
    (h : CollapseMesh m D nents R) (maxLength : K) (codes : List Int) (e v t : Nat) (ht : t < nents 0) :
    ∀ (L : List (Nat × Int)) (lo : Nat),
      (∀ (j : Nat) (x : Nat × Int), L[j]? = some x → m.v2e.ab2b[lo + j]? = some x.1 ∧ codes[lo + j]? = some x.2) →
      (∀ x ∈ L, x.1 < nents 1 ∧ VertCodeIn x.2 (R 1 x.1) v) →
      ∃ b, anyTooLong m maxLength codes e t (List.range' lo L.length) = some b ∧
        (b = true ↔ ∃ x ∈ L, x.1 ≠ e ∧ ∃ a b len, substVert v t (R 1 x.1) = [a, b] ∧
          m.lengthOf a b = some len ∧ maxLength ≤ len) := by
  intro L
  induction L with
  | nil => intro lo _ _; exact ⟨false, rfl, by simp⟩
  | cons x L ih =>
    intro lo hL hx
    obtain ⟨h1, h2⟩ := hL 0 x rfl
    rw [Nat.add_zero] at h1 h2
    obtain ⟨x1, i, x2, x3⟩ := hx x (by simp)
    obtain ⟨b, b1, b2⟩ := ih (lo + 1) (by
      intro j z hz
      have := hL (j + 1) z hz
      rw [show lo + (j + 1) = lo + 1 + j by omega] at this
      exact this) (fun y hy => hx y (by simp [hy]))
    rw [List.length_cons, List.range'_succ]
    unfold anyTooLong
    simp only [h1, bind, Option.bind_some]
    by_cases hxe : x.1 = e
    · rw [if_pos hxe]
      exact ⟨b, b1, by rw [b2]; simp [hxe]⟩
    · rw [if_neg hxe, h2, Option.bind_some, x2]
      obtain ⟨p, q, e1, e2, e3, e4, e5, e6⟩ := h.edge x.1 x1
      have hi : i = 0 ∨ i = 1 := by
        have := (List.getElem?_eq_some_iff.1 x3).1
        rw [e1] at this
        have : i < 2 := this
        omega
      have key : ∀ a b' len, substVert v t (R 1 x.1) = [a, b'] → m.lengthOf a b' = some len →
          ∃ b, (if maxLength ≤ len then some true
            else anyTooLong m maxLength codes e t (List.range' (lo + 1) L.length)) = some b ∧
          (b = true ↔ ∃ y ∈ x :: L, y.1 ≠ e ∧ ∃ a b len, substVert v t (R 1 y.1) = [a, b] ∧
            m.lengthOf a b = some len ∧ maxLength ≤ len) := by
        intro a b' len ha hlen
        by_cases hle : maxLength ≤ len
        · rw [if_pos hle]
          exact ⟨true, rfl, iff_of_true rfl ⟨x, by simp, hxe, a, b', len, ha, hlen, hle⟩⟩
        · rw [if_neg hle]
          refine ⟨b, b1, b2.trans ?_⟩
          simp only [List.mem_cons]
          constructor
          · rintro ⟨y, hy, hh⟩; exact ⟨y, Or.inr hy, hh⟩
          · rintro ⟨y, rfl | hy, hh⟩
            · obtain ⟨_, a2, b2, len2, g1, g2, g3⟩ := hh
              rw [ha] at g1
              injection g1 with g1 g1'
              injection g1' with g1' _
              subst g1 g1'
              rw [hlen] at g2
              obtain rfl := Option.some.inj g2
              exact absurd g3 hle
            · exact ⟨y, hy, hh⟩
      rcases hi with rfl | rfl
      · rw [e1] at x3
        obtain rfl : p = v := by simpa using x3
        have hs : substVert p t (R 1 x.1) = [t, q] := by
          rw [e1, substVert_set (i := 0) (by simp [e2]) (by simp)]; rfl
        obtain ⟨len, hlen⟩ := Option.isSome_iff_exists.1 (h.lengthOf t q ht e4)
        rw [if_pos ⟨by decide, by decide⟩]
        have : (1 - ((0 : Nat) : Int)).toNat = 1 := by decide
        rw [this, e6, Option.bind_some, if_pos (by decide), hlen, Option.bind_some]
        exact key t q len hs hlen
      · rw [e1] at x3
        obtain rfl : q = v := by simpa using x3
        have hs : substVert q t (R 1 x.1) = [p, t] := by
          rw [e1, substVert_set (i := 1) (by simp [e2]) (by simp)]; rfl
        obtain ⟨len, hlen⟩ := Option.isSome_iff_exists.1 (h.lengthOf p t e3 ht)
        rw [if_pos ⟨by decide, by decide⟩]
        have : (1 - ((1 : Nat) : Int)).toNat = 0 := by decide
        rw [this, Nat.add_zero, e5, Option.bind_some, if_neg (by decide), hlen, Option.bind_some]
        exact key p t len hs hlen

omit [LinearOrder K] in
/-- The two ends of an edge, as the program reads them. -/
theorem edge_ends {m : CollapseRank K} {D : Nat} {nents : Nat → Nat} {R : Nat → Nat → List Nat}
    (h : CollapseMesh m D nents R) (e : Nat) (he : e < nents 1) (i : Nat) (hi : i < 2) :
    ∃ v t, (R 1 e)[i]? = some v ∧ (R 1 e)[1 - i]? = some t ∧ m.ev2v[e * 2 + i]? = some v ∧
      m.ev2v[e * 2 + (1 - i)]? = some t ∧ v ≠ t ∧ v < nents 0 ∧ t < nents 0 ∧ v ∈ R 1 e ∧ t ∈ R 1 e := by
  obtain ⟨p, q, hR, hpq, hp, hq, e0, e1⟩ := h.edge e he
  have : i = 0 ∨ i = 1 := by omega
  rcases this with rfl | rfl
  · exact ⟨p, q, by rw [hR]; rfl, by rw [hR]; rfl, e0, e1, hpq, hp, hq, by simp [hR], by simp [hR]⟩
  · exact ⟨q, p, by rw [hR]; rfl, by rw [hR]; rfl, e1, e0, fun x => hpq x.symm, hq, hp, by simp [hR], by simp [hR]⟩

theorem overshootCode_spec {m : CollapseRank K} {D : Nat} {nents : Nat → Nat} {R : Nat → Nat → List Nat}
    (h : CollapseMesh m D nents R) (maxLength : K) (e : Nat) (he : e < nents 1) (code : Nat) (hcode : code < 4) :
    ∃ c', overshootCode m maxLength e code = some c' ∧ Restricts (ShortEnough m maxLength nents R e) code c' := by
  refine dirs_spec _ _ code hcode ?_
  intro col hcol c hc
  by_cases hb : collapses c col = true
  · rw [if_pos hb]
    obtain ⟨v, t, r1, r2, r3, r4, r5, r6, r7, r8, r9⟩ := edge_ends h e he col hcol
    obtain ⟨L, hL, hin, hall⟩ := h.vertEdges v r6
    obtain ⟨codes, lo, c1, c2, c3⟩ := adjRow_members hL
    obtain ⟨b, b1, b2⟩ := anyTooLong_spec h maxLength codes e v t r7 L lo c3 hin
    simp only [r3, r4, c1, c2, b1, bind, Option.bind_some, pure]
    cases b with
    | true =>
      refine ⟨_, rfl, restricts_dont hc ?_⟩
      intro hS
      obtain ⟨x, x1, x2, a, b, len, x3, x4, x5⟩ := b2.1 rfl
      obtain ⟨y1, i, y2, y3⟩ := hin x x1
      exact absurd (hS v t x.1 a b len r1 r2 y1 x2 (List.mem_of_getElem? y3) x3 x4) (not_lt.2 x5)
    | false =>
      refine ⟨_, rfl, restricts_keep hc (fun _ => ?_)⟩
      intro v' t' e' a b len h1 h2 h3 h4 h5 h6 h7
      obtain rfl := Option.some.inj (r1.symm.trans h1)
      obtain rfl := Option.some.inj (r2.symm.trans h2)
      obtain ⟨cc, hcc⟩ := hall e' h3 h5
      rw [← not_le]
      intro hle
      exact absurd (b2.2 ⟨_, hcc, h4, a, b, len, h6, h7, hle⟩) (by decide)
  · rw [if_neg hb]
    exact ⟨c, rfl, restricts_keep hc (fun hb' => absurd hb' hb)⟩

/-! ## Qualities -/

theorem collapseQuality_spec {m : CollapseRank K} {D : Nat} {nents : Nat → Nat} {R : Nat → Nat → List Nat}
    (h : CollapseMesh m D nents R) (one : K) (e : Nat) (he : e < nents 1) (i : Nat) (hi : i < 2) :
    ∃ v t q, m.ev2v[e * 2 + i]? = some v ∧ m.ev2v[e * 2 + (1 - i)]? = some t ∧
      collapseQuality m one D v t = some q ∧ WorstQuality m one D nents R e i q := by
  obtain ⟨v, t, r1, r2, r3, r4, r5, r6, r7, r8, r9⟩ := edge_ends h e he i hi
  obtain ⟨L, hL, hin, hall⟩ := h.vertCells v r6
  obtain ⟨codes, lo, c1, c2, c3⟩ := adjRow_members hL
  let g : K → Nat × Int → Option K := fun minqual x => do
    let ccvCol := codeWhichDown x.2
    let verts ← rowAt m.cv2v (D + 1) x.1
    if (List.range (D + 1)).any (fun ccv => decide ((ccv : Int) ≠ ccvCol) && decide (verts[ccv]? = some t)) then
      pure minqual
    else if 0 ≤ ccvCol ∧ ccvCol < (D : Int) + 1 then do
      let qual ← m.qualityOf (verts.set ccvCol.toNat t)
      pure (min minqual qual)
    else none
  let N : Nat × Int → K → Prop := fun x q => t ∉ R D x.1 ∧ m.qualityOf (substVert v t (R D x.1)) = some q
  obtain ⟨q, q1, q2, q3, q4⟩ := foldlM_list g (fun pre q => (q = one ∨ ∃ x ∈ pre, N x q) ∧ q ≤ one ∧
      ∀ x ∈ pre, ∀ q', N x q' → q ≤ q') L one ⟨Or.inl rfl, le_refl _, by simp⟩ (by
    intro pre x post hx y ⟨y1, y2, y3⟩
    have hxL : x ∈ L := by rw [hx]; simp
    obtain ⟨x1, k, x2, x3⟩ := hin x hxL
    obtain ⟨d1, d2, d3⟩ := h.cell D (by have := h.dim; omega) (le_refl _) x.1 x1
    have hk : k < D + 1 := by have := (List.getElem?_eq_some_iff.1 x3).1; omega
    have hany : ((List.range (D + 1)).any (fun ccv => decide ((ccv : Int) ≠ codeWhichDown x.2) &&
        decide ((R D x.1)[ccv]? = some t)) = true) ↔ t ∈ R D x.1 := by
      rw [List.any_eq_true]
      constructor
      · rintro ⟨j, _, hj⟩
        rw [Bool.and_eq_true, decide_eq_true_eq, decide_eq_true_eq] at hj
        exact List.mem_of_getElem? hj.2
      · intro hm
        obtain ⟨j, hj, hj'⟩ := List.mem_iff_getElem.1 hm
        refine ⟨j, List.mem_range.2 (by omega), ?_⟩
        rw [Bool.and_eq_true, decide_eq_true_eq, decide_eq_true_eq]
        refine ⟨?_, by rw [List.getElem?_eq_getElem hj, hj']⟩
        rw [x2]
        intro hjk
        have hjk' : j = k := by omega
        subst hjk'
        rw [List.getElem?_eq_getElem hj, hj'] at x3
        exact r5 (Option.some.inj x3).symm
    show ∃ y', ((rowAt m.cv2v (D + 1) x.1).bind _) = some y' ∧ _
    rw [h.cellVerts x.1 x1, Option.bind_some]
    by_cases ht : t ∈ R D x.1
    · rw [if_pos (hany.2 ht)]
      refine ⟨y, rfl, ?_, y2, ?_⟩
      · rcases y1 with y1 | ⟨z, z1, z2⟩
        · exact Or.inl y1
        · exact Or.inr ⟨z, by simp [z1], z2⟩
      · intro z hz q' hq'
        rw [List.mem_append, List.mem_singleton] at hz
        rcases hz with hz | rfl
        · exact y3 z hz q' hq'
        · exact absurd ht hq'.1
    · rw [if_neg (fun hh => ht (hany.1 hh)), if_pos (by rw [x2]; omega), x2, Int.toNat_natCast,
        ← substVert_set d2 x3]
      obtain ⟨q0, hq0⟩ := Option.isSome_iff_exists.1 (h.qualityOf (substVert v t (R D x.1))
        (by rw [show (substVert v t (R D x.1)).length = (R D x.1).length from List.length_map _]; exact d1) (by
          intro w hw
          obtain ⟨u, u1, u2⟩ := List.mem_map.1 hw
          have : w = if u = v then t else u := u2.symm
          rw [this]
          split
          · exact r7
          · exact d3 u u1))
      rw [hq0]
      refine ⟨min y q0, rfl, ?_, le_trans (min_le_left _ _) y2, ?_⟩
      · rcases le_total y q0 with hle | hle
        · rw [min_eq_left hle]
          rcases y1 with y1 | ⟨z, z1, z2⟩
          · exact Or.inl y1
          · exact Or.inr ⟨z, by simp [z1], z2⟩
        · rw [min_eq_right hle]
          exact Or.inr ⟨x, by simp, ht, hq0⟩
      · intro z hz q' hq'
        rw [List.mem_append, List.mem_singleton] at hz
        rcases hz with hz | rfl
        · exact le_trans (min_le_left _ _) (y3 z hz q' hq')
        · have : q0 = q' := Option.some.inj (hq0.symm.trans hq'.2)
          rw [← this]; exact min_le_right _ _)
  refine ⟨v, t, q, r3, r4, ?_, ?_, q3, ?_⟩
  · unfold collapseQuality
    simp only [c1, c2, bind, Option.bind_some]
    rw [← q1]
    refine foldlM_members (ab2b := m.v2c.ab2b) (codes := codes) _ g ?_ L lo one c3
    intro acc ve x h1 h2
    simp only [h1, h2, Option.bind_some]
    rfl
  · rcases q2 with q2 | ⟨x, x1, x2, x3⟩
    · exact Or.inl q2
    · obtain ⟨y1, k, y2, y3⟩ := hin x x1
      exact Or.inr ⟨v, t, x.1, r1, r2, y1, List.mem_of_getElem? y3, x2, x3⟩
  · rintro q' ⟨v', t', c, h1, h2, h3, h4, h5, h6⟩
    obtain rfl := Option.some.inj (r1.symm.trans h1)
    obtain rfl := Option.some.inj (r2.symm.trans h2)
    obtain ⟨cc, hcc⟩ := hall c h3 h4
    exact q4 _ hcc q' ⟨h5, h6⟩

/-- The smallest quality is one number. -/
theorem worst_unique {m : CollapseRank K} {one : K} {D : Nat} {nents : Nat → Nat} {R : Nat → Nat → List Nat}
    {e i : Nat} {q q' : K} (h : WorstQuality m one D nents R e i q) (h' : WorstQuality m one D nents R e i q') :
    q = q' := by
  have key : ∀ {a b : K}, WorstQuality m one D nents R e i a → WorstQuality m one D nents R e i b → a ≤ b := by
    rintro a b ⟨_, a2, a3⟩ ⟨b1 | b1, b2, b3⟩
    · rw [b1]; exact a2
    · exact a3 b b1
  exact le_antisymm (key h h') (key h' h)

end
end OmegaH
