import Verif.Model.UnmapMesh
import Verif.Spec.Parents
import Verif.Props.C11
import Verif.Props.C42

/-!
# C50: parents and children of adapted meshes stay consistent
-/
namespace OmegaH
open Spec

theorem parentDim_iff (code : Int) (d : Nat) : codeParentDim code = d ↔ ParentDim code d := by
  unfold codeParentDim ParentDim
  have := Int.emod_nonneg code (show (4 : Int) ≠ 0 by omega)
  omega

theorem mem_segment {α : Type} {a : List α} {lo hi : Nat} {x : α} : x ∈ segment a lo hi ↔ ∃ k, lo ≤ k ∧ k < hi ∧ a[k]? = some x := by
  unfold segment
  constructor
  · intro h
    obtain ⟨i, hi'⟩ := List.getElem?_of_mem h
    rw [List.getElem?_drop, List.getElem?_take] at hi'
    by_cases hlt : lo + i < hi
    · rw [if_pos hlt] at hi'; exact ⟨lo + i, by omega, hlt, hi'⟩
    · rw [if_neg hlt] at hi'; cases hi'
  · rintro ⟨k, h1, h2, h3⟩
    apply List.mem_of_getElem? (i := k - lo)
    rw [List.getElem?_drop, List.getElem?_take, show lo + (k - lo) = k by omega, if_pos h2, h3]

theorem filterParents_spec (s : Sched) (codes : List Int) (d : Nat) :
    ∃ out, filterParents s codes d = some out ∧ IsMarks out ∧
      ∀ c : Nat, out[c]? = some 1 ↔ ∃ code, codes[c]? = some code ∧ ParentDim code d := by
  obtain ⟨out, h1, h2, h3⟩ := parEach s codes.length (fun i => (codes[i]?).map (fun c => if codeParentDim c = d then (1 : Int) else 0))
    (by intro i hi; simp [hi])
  have hget : ∀ c : Nat, out[c]? = (codes[c]?).map (fun c => if codeParentDim c = d then (1 : Int) else 0) := by
    intro c
    by_cases hc : c < codes.length
    · exact h3 c hc
    · simp [hc, h2]
  refine ⟨out, h1, ?_, ?_⟩
  · intro m hm
    obtain ⟨i, hi⟩ := List.getElem?_of_mem hm
    rw [hget] at hi
    obtain ⟨c, _, hc⟩ := Option.map_eq_some_iff.1 hi
    split at hc
    · exact Or.inr hc.symm
    · exact Or.inl hc.symm
  · intro c
    rw [hget]
    cases hc : codes[c]? with
    | none => simp
    | some code =>
      simp only [Option.map_some, Option.some.injEq, exists_eq_left']
      rw [← parentDim_iff]
      by_cases h : codeParentDim code = d
      · simp [h]
      · simp [h]

/-- `ask_children`, when the entities that claim a parent of this dimension have one: for every schedule the result lists exactly the
children, ascending, with their codes. This is so for dimensions 1 to 3 in a mesh whose entities without a parent have code 0. -/
theorem C50_children_partial (s : Nat → Sched) (parentIdx codes : List Int) (d nparents : Nat) (hl : parentIdx.length = codes.length)
    (hp : ParentsExist parentIdx codes d nparents) :
    ∃ up ccodes, invertParents s parentIdx codes d nparents = some up ∧ up.codes = some ccodes ∧
      IsChildren parentIdx codes d nparents up.a2ab up.ab2b ccodes := by
  obtain ⟨filter, f1, f2, f3⟩ := filterParents_spec (s 0) codes d
  obtain ⟨rc, r1, r2, r3⟩ := C03_collect_marked (s 1) filter f2
  have hrc : ∀ c, c ∈ rc ↔ ∃ code, codes[c]? = some code ∧ ParentDim code d := fun c => (r3 c).trans (f3 c)
  have hrcR : InRange rc codes.length := by
    intro c hc
    obtain ⟨code, h1, _⟩ := (hrc c).1 hc
    exact (List.getElem?_eq_some_iff.1 h1).1
  have hrcN : rc.Nodup := r2.imp (fun h => Nat.ne_of_lt h)
  obtain ⟨ps, p1, p2, p3⟩ := C05_unmap (s 2) rc parentIdx 1 codes.length (by omega) hrcR
  rw [Nat.mul_one] at p2
  have hps : ∀ i c : Nat, rc[i]? = some c → ∃ p : Nat, p < nparents ∧ ps[i]? = some (p : Int) ∧ parentIdx[c]? = some (p : Int) := by
    intro i c hi
    obtain ⟨code, h1, h2⟩ := (hrc c).1 (List.mem_of_getElem? hi)
    obtain ⟨p, q1, q2⟩ := hp c code h1 h2
    have := p3 i c 0 hi (by omega)
    rw [entry_one, entry_one] at this
    exact ⟨p, q1, this.trans q2, q2⟩
  have hrc_at : ∀ i, i < ps.length → ∃ c, rc[i]? = some c := fun i hi => ⟨_, List.getElem?_eq_getElem (by omega)⟩
  obtain ⟨pn, n1, n2⟩ := toIndices?_of_nonneg ps (by
    intro x hx
    obtain ⟨i, hi⟩ := List.getElem?_of_mem hx
    obtain ⟨c, hc⟩ := hrc_at i (List.getElem?_eq_some_iff.1 hi).1
    obtain ⟨p, _, h2, _⟩ := hps i c hc
    rw [hi] at h2
    have := Option.some.inj h2
    omega)
  have hpnl : pn.length = rc.length := by rw [← p2, n2, List.length_map]
  have hpn : ∀ i c p : Nat, rc[i]? = some c → (pn[i]? = some p ↔ parentIdx[c]? = some (p : Int)) := by
    intro i c p hi
    obtain ⟨q, _, h2, h3⟩ := hps i c hi
    rw [n2, List.getElem?_map] at h2
    obtain ⟨q', e1, e2⟩ := Option.map_eq_some_iff.1 h2
    rw [e1, h3]
    have e2' : (q' : Int) = (q : Int) := e2
    have : q' = q := by omega
    subst this
    simp
  obtain ⟨g, g1, g2⟩ := C04_invert_by_atomics (s 3) (s 4) (s 5) pn nparents (by
    intro p hpm
    obtain ⟨i, hi⟩ := List.getElem?_of_mem hpm
    obtain ⟨c, hc⟩ := hrc_at i (by rw [p2, ← hpnl]; exact (List.getElem?_eq_some_iff.1 hi).1)
    obtain ⟨q, h1, _, h3⟩ := hps i c hc
    have := (hpn i c p hc).1 hi
    rw [h3] at this
    have := Option.some.inj this
    omega)
  obtain ⟨glen, gfan, glast, gperm, gmem⟩ := g2
  rw [hpnl] at gperm
  obtain ⟨pc, c1, c2, c3⟩ := C05_unmap (s 6) g.ab2b rc 1 rc.length (by omega) gperm.2.1
  rw [Nat.mul_one] at c2
  have hpc : ∀ k a : Nat, g.ab2b[k]? = some a → pc[k]? = rc[a]? := by
    intro k a hk
    have := c3 k a 0 hk (by omega)
    rw [entry_one, entry_one] at this
    exact this
  have hab : ∀ k, k < pc.length → ∃ a c : Nat, g.ab2b[k]? = some a ∧ rc[a]? = some c ∧ pc[k]? = some c := by
    intro k hk
    have h1 : k < g.ab2b.length := by omega
    have ha := gperm.2.1 _ (List.getElem_mem h1)
    refine ⟨_, _, List.getElem?_eq_getElem h1, List.getElem?_eq_getElem ha, ?_⟩
    rw [hpc k _ (List.getElem?_eq_getElem h1), List.getElem?_eq_getElem ha]
  obtain ⟨pk, k1, k2, k3⟩ := C05_unmap (s 7) pc codes 1 codes.length (by omega) (by
    intro c hc
    obtain ⟨k, hk⟩ := List.getElem?_of_mem hc
    obtain ⟨a, c', _, h2, h3⟩ := hab k (List.getElem?_eq_some_iff.1 hk).1
    rw [hk] at h3; cases h3
    exact hrcR c (List.mem_of_getElem? h2))
  rw [Nat.mul_one] at k2
  let z := pc.zip pk
  have hzlen : z.length = rc.length := by
    show (pc.zip pk).length = _
    rw [List.length_zip, k2, c2, gperm.1, Nat.min_self]
  have hunz : unz z = (pc, pk) := by
    unfold unz
    rw [List.map_fst_zip (Nat.le_of_eq k2.symm), List.map_snd_zip (Nat.le_of_eq k2)]
  have hz : ∀ (k c : Nat) (x : Int), z[k]? = some (c, x) → pc[k]? = some c ∧ codes[c]? = some x := by
    intro k c x hk
    obtain ⟨h1, h2⟩ := List.getElem?_zip_eq_some.1 hk
    have := k3 k c 0 h1 (by omega)
    rw [entry_one, entry_one] at this
    exact ⟨h1, this.symm.trans h2⟩
  obtain ⟨y, y1, y2, y3⟩ := sortByHighIndex_spec (s 8) g.a2ab gfan z (by
    rw [glen, Nat.add_sub_cancel, glast, hzlen, hpnl])
  have hgl : g.a2ab[g.a2ab.length - 1]? = some y.length := by rw [glen, Nat.add_sub_cancel, glast, y2, hzlen, hpnl]
  -- what the sorted entries are
  have hy : ∀ (p k c : Nat) (x : Int), InFan g.a2ab p k → y[k]? = some (c, x) →
      codes[c]? = some x ∧ c ∈ rc ∧ parentIdx[c]? = some (p : Int) := by
    rintro p k c x ⟨lo, hi, h1, h2, h3, h4⟩ hk
    obtain ⟨q1, _⟩ := y3 p lo hi h1 h2
    obtain ⟨k', l1, l2, l3⟩ := mem_segment.1 (q1.mem_iff.1 (mem_segment.2 ⟨k, h3, h4, hk⟩))
    obtain ⟨e1, e2⟩ := hz k' c x l3
    obtain ⟨a, c', a1, a2, a3⟩ := hab k' (List.getElem?_eq_some_iff.1 e1).1
    rw [e1] at a3; cases a3
    have := (gmem k' a p a1).1 ⟨lo, hi, h1, h2, l1, l2⟩
    exact ⟨e2, List.mem_of_getElem? a2, (hpn a c p a2).1 this⟩
  refine ⟨⟨g.a2ab, (unz y).1, some (unz y).2⟩, (unz y).2, ?_, rfl, glen, gfan, ?_, ?_, ?_, ?_, ?_⟩
  · unfold invertParents
    rw [f1, Option.bind_some, r1, Option.bind_some, p1, Option.bind_some, n1, Option.bind_some, g1, Option.bind_some, c1,
      Option.bind_some, k1, Option.bind_some, ← hunz, y1]
    rfl
  · rw [List.getLast?_eq_getElem?, hgl]
    show _ = some (y.map Prod.fst).length
    rw [List.length_map]
  · show (y.map Prod.snd).length = (y.map Prod.fst).length
    rw [List.length_map, List.length_map]
  · intro p c
    constructor
    · rintro ⟨k, hin, hk⟩
      have hk' : (y.map Prod.fst)[k]? = some c := hk
      rw [List.getElem?_map] at hk'
      obtain ⟨⟨c', x⟩, e1, rfl⟩ := Option.map_eq_some_iff.1 hk'
      obtain ⟨h1, h2, h3⟩ := hy p k c' x hin e1
      refine ⟨?_, (hrc c').1 h2, h3⟩
      obtain ⟨lo, hi, _, q2, _⟩ := hin
      have : p + 1 < g.a2ab.length := (List.getElem?_eq_some_iff.1 q2).1
      omega
    · rintro ⟨hpn', ⟨code, q1, q2⟩, q3⟩
      obtain ⟨a, ha⟩ := List.getElem?_of_mem ((hrc c).2 ⟨code, q1, q2⟩)
      have hpa := (hpn a c p ha).2 q3
      have hal := (List.getElem?_eq_some_iff.1 ha).1
      obtain ⟨k, hk⟩ := isPermutation_surj gperm a hal
      obtain ⟨lo, hi, h1, h2, h3, h4⟩ := (gmem k a p hk).2 hpa
      have hpk : pc[k]? = some c := by rw [hpc k a hk, ha]
      have hkl : k < z.length := by rw [hzlen, ← gperm.1]; exact (List.getElem?_eq_some_iff.1 hk).1
      obtain ⟨⟨c', x⟩, hzk⟩ : ∃ w, z[k]? = some w := ⟨_, List.getElem?_eq_getElem hkl⟩
      have hc' := (hz k c' x hzk).1
      rw [hpk] at hc'; cases hc'
      obtain ⟨w1, _⟩ := y3 p lo hi h1 h2
      obtain ⟨k', l1, l2, l3⟩ := mem_segment.1 (w1.mem_iff.2 (mem_segment.2 ⟨k, h3, h4, hzk⟩))
      refine ⟨k', ⟨lo, hi, h1, h2, l1, l2⟩, ?_⟩
      show (y.map Prod.fst)[k']? = some c
      rw [List.getElem?_map, l3]; rfl
  · intro k c hk
    have hk' : (y.map Prod.fst)[k]? = some c := hk
    rw [List.getElem?_map] at hk'
    obtain ⟨⟨c', x⟩, e1, rfl⟩ := Option.map_eq_some_iff.1 hk'
    obtain ⟨p, lo, hi, i1, i2, i3, i4⟩ := inFan_cover gfan hgl (List.getElem?_eq_some_iff.1 e1).1
    rw [(hy p k c' x ⟨lo, hi, i1, i2, i3, i4⟩ e1).1]
    show (y.map Prod.snd)[k]? = _
    rw [List.getElem?_map, e1]; rfl
  · rintro p k k' c c' ⟨lo, hi, h1, h2, h3, h4⟩ ⟨lo', hi', h1', h2', h3', h4'⟩ hlt hk hk'
    rw [h1] at h1'; cases h1'
    rw [h2] at h2'; cases h2'
    obtain ⟨q1, q2⟩ := y3 p lo hi h1 h2
    have hkk : (y.map Prod.fst)[k]? = some c := hk
    have hkk' : (y.map Prod.fst)[k']? = some c' := hk'
    have hseg : ∀ w : List (Nat × Int), (segment w lo hi).map Prod.fst = segment (w.map Prod.fst) lo hi := by
      intro w; unfold segment; rw [List.map_drop, List.map_take]
    have hnd : (segment (y.map Prod.fst) lo hi).Nodup := by
      rw [← hseg]
      rw [(q1.map Prod.fst).nodup_iff, hseg]
      have hzf : z.map Prod.fst = pc := by
        have := congrArg Prod.fst hunz
        exact this
      rw [hzf]
      unfold segment
      refine List.Nodup.sublist ((List.drop_sublist _ _).trans (List.take_sublist _ _)) ?_
      rw [List.nodup_iff_getElem?_ne_getElem?]
      intro i j hij hj heq
      obtain ⟨a, u, a1, a2, a3⟩ := hab i (by omega)
      obtain ⟨b, v, b1, b2, b3⟩ := hab j hj
      rw [a3, b3] at heq
      cases heq
      have hal := (List.getElem?_eq_some_iff.1 a2).1
      have hab' : a = b := (List.getElem?_inj hal hrcN).1 (a2.trans b2.symm)
      subst hab'
      have hil := (List.getElem?_eq_some_iff.1 a1).1
      have : i = j := (List.getElem?_inj hil (gperm.2.2.nodup)).1 (a1.trans b1.symm)
      omega
    have hpw : (segment (y.map Prod.fst) lo hi).Pairwise (· < ·) := by
      have hle : (segment (y.map Prod.fst) lo hi).Pairwise (· ≤ ·) := by
        rw [← hseg, List.pairwise_map]; exact q2
      exact (hle.and hnd).imp (fun h => Nat.lt_of_le_of_ne h.1 h.2)
    have g1' : (segment (y.map Prod.fst) lo hi)[k - lo]? = some c := by
      unfold segment
      rw [List.getElem?_drop, List.getElem?_take, show lo + (k - lo) = k by omega, if_pos h4, hkk]
    have g2' : (segment (y.map Prod.fst) lo hi)[k' - lo]? = some c' := by
      unfold segment
      rw [List.getElem?_drop, List.getElem?_take, show lo + (k' - lo) = k' by omega, if_pos h4', hkk']
    obtain ⟨i1, i2⟩ := List.getElem?_eq_some_iff.1 g1'
    obtain ⟨j1, j2⟩ := List.getElem?_eq_some_iff.1 g2'
    have := List.pairwise_iff_getElem.1 hpw (k - lo) (k' - lo) i1 j1 (by omega)
    rw [i2, j2] at this
    exact this

/-- The children of vertices are undefined as soon as an entity without a parent exists: its code 0 says that its parent is a vertex, and
its index is -1. -/
theorem C50_vertex_children_refuted (s : Nat → Sched) (nparents : Nat) : invertParents s [-1] [0] 0 nparents = none := by
  obtain ⟨filter, f1, f2, f3⟩ := filterParents_spec (s 0) [0] 0
  obtain ⟨rc, r1, r2, r3⟩ := C03_collect_marked (s 1) filter f2
  have h0 : 0 ∈ rc := (r3 0).2 ((f3 0).2 ⟨0, rfl, rfl⟩)
  have hR : InRange rc 1 := by
    intro c hc
    obtain ⟨code, h1, _⟩ := (f3 c).1 ((r3 c).1 hc)
    exact (List.getElem?_eq_some_iff.1 h1).1
  obtain ⟨ps, p1, p2, p3⟩ := C05_unmap (s 2) rc [-1] 1 1 (by simp) hR
  unfold invertParents
  rw [f1, Option.bind_some, r1, Option.bind_some, p1, Option.bind_some]
  obtain ⟨i, hi⟩ := List.getElem?_of_mem h0
  have e := p3 i 0 0 hi (by omega)
  rw [entry_one, entry_one] at e
  have hbad : toIndices? ps = none := by
    have hm : (-1 : Int) ∈ ps := List.mem_of_getElem? e
    have key : ∀ l : List Int, (-1 : Int) ∈ l → toIndices? l = none := by
      intro l
      induction l with
      | nil => intro h; cases h
      | cons a l ih =>
        intro h
        unfold toIndices? at ih ⊢
        rw [List.mapM_cons]
        rcases List.mem_cons.1 h with rfl | h
        · rfl
        · rw [ih h]
          cases Int.toNat? a <;> rfl
    exact key ps hm
  rw [hbad, Option.bind_none]

/-- `unmap_mesh` keeps the parents of entities of dimension 1 and up: `maps` are the new indices of the entities of this rank. -/
theorem C50_unmap_parents_partial (s : Sched) (kept : List Nat) (keptOf : Nat → List Nat) (nents : Nat → Nat) (dim : Nat)
    (parentIdx codes : List Int) (maps : List (List Int)) (hR : InRange kept parentIdx.length) (hl : codes.length = parentIdx.length)
    (hp : ∀ c : Nat, ∀ x code, parentIdx[c]? = some x → codes[c]? = some code → 0 ≤ x →
      ∃ d, d ≤ dim ∧ ParentDim code d ∧ x < nents d)
    (hmap : ∀ d, d ≤ dim → ∃ m, maps[d]? = some m ∧ ∀ e, e < nents d → ∃ x, m[e]? = some x ∧ NewIndex (keptOf d) e x)
    (hinj : ∀ d, Injective (keptOf d)) :
    ∃ new, unmapParents s kept parentIdx codes maps = some new ∧ ParentsKept kept keptOf parentIdx codes new := by
  let G : Nat → Option (Int × Int) := fun i => (kept[i]?).bind (fun old => (parentIdx[old]?).bind (fun p => (codes[old]?).bind (fun c =>
      if p > -1 then (maps[codeParentDim c]?).bind (fun m => (m[p.toNat]?).map (fun x => if x > -1 then (x, c) else (x, 0)))
      else some ((-1 : Int), (0 : Int)))))
  have hG : ∀ i e : Nat, ∀ p c, kept[i]? = some e → parentIdx[e]? = some p → codes[e]? = some c →
      (p < 0 → G i = some (-1, 0)) ∧ (∀ q : Nat, p = (q : Int) → ∃ d x, ParentDim c d ∧ NewIndex (keptOf d) q x ∧
        G i = some (if x > -1 then (x, c) else (x, 0))) := by
    intro i e p c h1 h2 h3
    have hGi : G i = if p > -1 then (maps[codeParentDim c]?).bind (fun m => (m[p.toNat]?).map (fun x => if x > -1 then (x, c) else (x, 0)))
      else some ((-1 : Int), (0 : Int)) := by
      show (kept[i]?).bind _ = _
      rw [h1, Option.bind_some, h2, Option.bind_some, h3, Option.bind_some]
    constructor
    · intro hn; rw [hGi, if_neg (by omega)]
    · rintro q rfl
      obtain ⟨d, d1, d2, d3⟩ := hp e q c h2 h3 (by omega)
      obtain ⟨m, m1, m2⟩ := hmap d d1
      obtain ⟨x, x1, x2⟩ := m2 q (by omega)
      refine ⟨d, x, d2, x2, ?_⟩
      rw [hGi, if_pos (by omega), (parentDim_iff c d).2 d2, m1, Option.bind_some, Int.toNat_natCast, x1]
      rfl
  have hsome : ∀ i, i < kept.length → (G i).isSome := by
    intro i hi
    have he := hR _ (List.getElem_mem hi)
    have h1 := List.getElem?_eq_getElem hi
    have h2 := List.getElem?_eq_getElem he
    have h3 := List.getElem?_eq_getElem (show kept[i] < codes.length by omega)
    obtain ⟨g1, g2⟩ := hG i _ _ _ h1 h2 h3
    by_cases hneg : parentIdx[kept[i]] < 0
    · rw [g1 hneg]; rfl
    · obtain ⟨_, _, _, _, e⟩ := g2 (parentIdx[kept[i]]).toNat (by omega)
      rw [e]; rfl
  obtain ⟨new, n1, n2, n3⟩ := parEach s kept.length G hsome
  have hlt : ∀ i e : Nat, kept[i]? = some e → i < kept.length := fun i e h => (List.getElem?_eq_some_iff.1 h).1
  have hcode : ∀ e : Nat, ∀ x, parentIdx[e]? = some x → ∃ c, codes[e]? = some c := fun e x h =>
    ⟨_, List.getElem?_eq_getElem (by rw [hl]; exact (List.getElem?_eq_some_iff.1 h).1)⟩
  have hdim : ∀ (c : Int) (d d' : Nat), ParentDim c d → ParentDim c d' → d = d' := by
    intro c d d' h1 h2; unfold ParentDim at h1 h2; omega
  refine ⟨new, n1, n2, ?_, ?_, ?_⟩
  · intro i e hi x hx hneg
    obtain ⟨c, hc⟩ := hcode e x hx
    rw [n3 i (hlt i e hi)]
    exact (hG i e x c hi hx hc).1 hneg
  · intro i e p d code hi hx hc hd hno
    rw [n3 i (hlt i e hi)]
    obtain ⟨d', x, h1, h2, h3⟩ := (hG i e p code hi hx hc).2 p rfl
    obtain rfl := hdim code d d' hd h1
    rw [h3]
    rcases h2 with ⟨k, hk, _⟩ | ⟨_, rfl⟩
    · exact absurd (List.mem_of_getElem? hk) hno
    · rfl
  · intro i e p d k code hi hx hc hd hk
    rw [n3 i (hlt i e hi)]
    obtain ⟨d', x, h1, h2, h3⟩ := (hG i e p code hi hx hc).2 p rfl
    obtain rfl := hdim code d d' hd h1
    rw [h3]
    rcases h2 with ⟨k', hk', rfl⟩ | ⟨hno, _⟩
    · obtain rfl := hinj d k' k p hk' hk
      rw [if_pos (by omega)]
    · exact absurd (List.mem_of_getElem? hk) hno

/-- Whatever the mesh, after `unmap_mesh` no vertex has a parent. -/
theorem C50_unmap_vertices (s : Nat → Sched) (maps : List (List Int)) (parents : Nat → List Int × List Int) (kept : Nat → List Nat)
    (dim : Nat) {out : List (Option (List (Int × Int)))} (h : unmapAllParents s dim kept parents maps = some out) (nverts : Nat) :
    ∃ p, out[0]? = some p ∧ askParents nverts p = List.replicate nverts (-1, 0) := by
  unfold unmapAllParents at h
  refine ⟨none, ?_, rfl⟩
  rw [List.range_succ_eq_map, List.mapM_cons, if_pos rfl] at h
  cases hr : (List.map Nat.succ (List.range dim)).mapM (fun d =>
      if d = 0 then some none else (unmapParents (s d) (kept d) (parents d).1 (parents d).2 maps).map some) with
  | none => rw [hr] at h; cases h
  | some rest => rw [hr] at h; cases h; rfl

/-- An edge with its two halves: vertex 2 is the child of edge 0, edges 1 and 2 are children of edge 0. -/
def halvedEdge : Nat → List Int × List Int := fun d => if d = 0 then ([-1, -1, 0], [0, 0, 1]) else ([-1, 0, 0], [0, 1, 5])

/-- When every entity of the halved edge is kept, the middle vertex should keep its parent; for no schedule it does. -/
theorem C50_vertex_parents_refuted (s : Nat → Sched) {out : List (Option (List (Int × Int)))}
    (h : unmapAllParents s 1 (fun _ => [0, 1, 2]) halvedEdge [[0, 1, 2], [0, 1, 2]] = some out) :
    ∃ p, out[0]? = some p ∧ ¬ ParentsKept [0, 1, 2] (fun _ => [0, 1, 2]) (halvedEdge 0).1 (halvedEdge 0).2 (askParents 3 p) := by
  obtain ⟨p, h1, h2⟩ := C50_unmap_vertices s _ _ _ 1 h 3
  refine ⟨p, h1, fun hk => ?_⟩
  have := hk.keep 2 2 0 1 0 1 rfl rfl rfl rfl rfl
  rw [h2] at this
  cases this

example : unmapAllParents (fun _ => Sched.serial) 1 (fun _ => [0, 1, 2]) halvedEdge [[0, 1, 2], [0, 1, 2]] =
    some [none, some [(-1, 0), (0, 1), (0, 5)]] := by decide +kernel

/-- The hypotheses of `C50_children_partial` hold of the edges of the halved edge. -/
example : ParentsExist (halvedEdge 1).1 (halvedEdge 1).2 1 3 := by
  intro c code h1 h2
  match c, h1 with
  | 0, h1 => cases h1; cases h2
  | 1, _ => exact ⟨0, by omega, rfl⟩
  | 2, _ => exact ⟨0, by omega, rfl⟩

example : invertParents (fun _ => Sched.reversed) [-1, 0, 0] [0, 1, 5] 1 3 = some ⟨[0, 2, 2, 2], [1, 2], some [1, 5]⟩ := by decide +kernel

/-- `unmap_leaves`: a kept entity becomes a leaf exactly when it was one or has no child of its dimension left. -/
theorem C50_leaves (s : Sched) (leaf : List Int) (hm : IsMarks leaf) {parentIdx codes ccodes : List Int} {d : Nat} {children : Adj}
    (hc : IsChildren parentIdx codes d leaf.length children.a2ab children.ab2b ccodes) :
    ∃ out, unmapLeaves s leaf children = some out ∧ out.length = leaf.length ∧ IsMarks out ∧
      ∀ e, e < leaf.length → (out[e]? = some 1 ↔ leaf[e]? = some 1 ∨ ∀ c, ¬ IsChild parentIdx codes d e c) := by
  have hoff : ∀ i, i < leaf.length → ∃ lo hi : Nat, children.a2ab[i]? = some lo ∧ children.a2ab[i + 1]? = some hi := fun i hi =>
    ⟨_, _, List.getElem?_eq_getElem (by rw [hc.len]; omega), List.getElem?_eq_getElem (by rw [hc.len]; omega)⟩
  let G : Nat → Option Int := fun i => (leaf[i]?).bind (fun l => (children.a2ab[i + 1]?).bind (fun hi => (children.a2ab[i]?).map (fun lo =>
      if hi = lo ∧ l = 0 then (1 : Int) else l)))
  have hG : ∀ i l lo hi, leaf[i]? = some l → children.a2ab[i]? = some lo → children.a2ab[i + 1]? = some hi →
      G i = some (if hi = lo ∧ l = 0 then (1 : Int) else l) := by
    intro i l lo hi h1 h2 h3
    show (leaf[i]?).bind _ = _
    rw [h1, Option.bind_some, h3, Option.bind_some, h2]; rfl
  obtain ⟨out, o1, o2, o3⟩ := parEach s leaf.length G (by
    intro i hi
    obtain ⟨lo, h, h1, h2⟩ := hoff i hi
    rw [hG i _ lo h (List.getElem?_eq_getElem hi) h1 h2]; rfl)
  refine ⟨out, o1, o2, ?_, ?_⟩
  · intro m hmem
    obtain ⟨i, hi⟩ := List.getElem?_of_mem hmem
    have hil : i < leaf.length := by rw [← o2]; exact (List.getElem?_eq_some_iff.1 hi).1
    obtain ⟨lo, h, h1, h2⟩ := hoff i hil
    rw [o3 i hil, hG i _ lo h (List.getElem?_eq_getElem hil) h1 h2] at hi
    have := Option.some.inj hi
    have h01 := hm _ (List.getElem_mem hil)
    rw [← this]
    split
    · exact Or.inr rfl
    · exact h01
  · intro e he
    obtain ⟨lo, hi, h1, h2⟩ := hoff e he
    have hle := hc.fan.2 e lo hi h1 h2
    have h01 := hm _ (List.getElem_mem he)
    rw [o3 e he, hG e _ lo hi (List.getElem?_eq_getElem he) h1 h2, List.getElem?_eq_getElem he]
    have hch : hi = lo ↔ ∀ c, ¬ IsChild parentIdx codes d e c := by
      constructor
      · intro heq c hcc
        obtain ⟨k, ⟨lo', hi', q1, q2, q3, q4⟩, _⟩ := (hc.child e c).2 ⟨he, hcc⟩
        rw [h1] at q1; rw [h2] at q2
        cases q1; cases q2
        omega
      · intro hno
        by_contra hne
        have hlast := fan_le hc.fan (show e + 1 ≤ children.a2ab.length - 1 by rw [hc.len]; omega) h2
          (by rw [← List.getLast?_eq_getElem?]; exact hc.last)
        have hk : lo < children.ab2b.length := by omega
        have := (hc.child e children.ab2b[lo]).1 ⟨lo, ⟨lo, hi, h1, h2, by omega, by omega⟩, List.getElem?_eq_getElem hk⟩
        exact hno _ this.2
    rw [← hch]
    rcases h01 with h | h
    · rw [h]
      by_cases hq : hi = lo
      · simp [hq]
      · simp [hq]
    · rw [h]
      simp

/-- Edge 0 has children, edge 1 is a leaf, edge 2 lost its children. -/
example : unmapLeaves Sched.serial [0, 1, 0] ⟨[0, 2, 2, 2], [3, 4], some [1, 5]⟩ = some [0, 1, 1] := by decide +kernel

end OmegaH
