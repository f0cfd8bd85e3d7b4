import Verif.Spec.Approach
import Verif.Props.C66
import Mathlib.Tactic.FieldSimp
import Mathlib.Algebra.Order.Archimedean.Basic
/-! # C67: moving a mesh by steps -/
namespace OmegaH
open Spec

section
variable {α β γ : Type}

theorem onRanks_each (l : List α) (g : Nat → α → Option β) (Q : Nat → β → Prop) (h : ∀ (r : Nat) (x : α), l[r]? = some x → ∃ y, g r x = some y ∧ Q r y) :
    ∃ out, onRanks l g = some out ∧ out.length = l.length ∧ ∀ (r : Nat) (y : β), out[r]? = some y → Q r y := by
  unfold onRanks
  have key : ∀ r, r < l.length → ∃ y, (l[r]?).bind (g r) = some y ∧ Q r y := by
    intro r hr
    obtain ⟨y, h1, h2⟩ := h r l[r] (List.getElem?_eq_getElem hr)
    exact ⟨y, by rw [List.getElem?_eq_getElem hr]; exact h1, h2⟩
  obtain ⟨out, h1, h2, _, h3⟩ := mapM_list_spec (List.range l.length) (fun r => (l[r]?).bind (g r)) (by
    intro r hr
    obtain ⟨y, h1, _⟩ := key r (List.mem_range.1 hr)
    rw [h1]; rfl)
  refine ⟨out, h1, by rw [h2, List.length_range], ?_⟩
  intro r y hy
  have hr : r < l.length := by
    have := (List.getElem?_eq_some_iff.1 hy).1
    rwa [h2, List.length_range] at this
  have := h3 r r (by rw [List.getElem?_range hr])
  obtain ⟨z, z1, z2⟩ := key r hr
  rw [hy, z1] at this
  rw [Option.some.inj this]
  exact z2

theorem zipRanks_each (a : List α) (n : Nat) (b : Nat → β) (hn : a.length = n) (g : Nat → α → β → Option γ) (Q : Nat → γ → Prop)
    (h : ∀ (r : Nat) (x : α), r < n → a[r]? = some x → ∃ y, g r x (b r) = some y ∧ Q r y) :
    ∃ out, zipRanks a (world n b) g = some out ∧ out.length = n ∧ ∀ (r : Nat) (y : γ), out[r]? = some y → Q r y := by
  unfold zipRanks
  subst hn
  refine onRanks_each a _ Q ?_
  intro r x hx
  have hr : r < a.length := (List.getElem?_eq_some_iff.1 hx).1
  rw [world_get _ hr, Option.bind_some]
  exact h r x hr hx

theorem mapM_fails {l : List α} {f : α → Option β} {x : α} (hx : x ∈ l) (h : f x = none) : l.mapM f = none := by
  induction l with
  | nil => simp at hx
  | cons a l ih =>
    rw [List.mapM_cons]
    rcases List.mem_cons.1 hx with rfl | hx
    · rw [h]; rfl
    · cases f a with
      | none => rfl
      | some y => rw [ih hx]; rfl

theorem eq_of_each {l : List α} {n : Nat} {f : Nat → α} (hn : l.length = n) (h : ∀ (r : Nat) (x : α), l[r]? = some x → x = f r) : l = world n f := by
  apply List.ext_getElem (by rw [hn]; unfold world; simp)
  intro i h1 h2
  rw [h i l[i] (List.getElem?_eq_getElem h1)]
  have := world_get f (show i < n by omega)
  rw [List.getElem?_eq_getElem h2] at this
  exact (Option.some.inj this).symm

end

section
variable {K : Type}

theorem rows_slots (w : Nat) (vs : List Nat) (X : Nat → Nat → K) :
    rows w vs X = (vs.flatMap (fun v => (List.range w).map (fun c => (v, c)))).map (fun s => X s.1 s.2) := by
  unfold rows
  rw [List.map_flatMap]
  congr 1
  funext v
  rw [List.map_map]
  rfl

theorem rows_map (w : Nat) (vs : List Nat) (X : Nat → Nat → K) (f : K → K) : (rows w vs X).map f = rows w vs (fun v c => f (X v c)) := by
  rw [rows_slots, rows_slots, List.map_map]
  rfl

theorem rows_zip (w : Nat) (vs : List Nat) (X Y : Nat → Nat → K) (f : K → K → K) :
    List.zipWith f (rows w vs X) (rows w vs Y) = rows w vs (fun v c => f (X v c) (Y v c)) := by
  rw [rows_slots, rows_slots, rows_slots, List.zipWith_map, List.zipWith_self]

theorem rows_length (w : Nat) (vs : List Nat) (X : Nat → Nat → K) : (rows w vs X).length = vs.length * w := by
  unfold rows
  induction vs with
  | nil => simp
  | cons v vs ih => rw [List.flatMap_cons, List.length_append, ih]; simp; ring

theorem canSetTag_rows (m : MovedRank K) (w : Nat) (vs : List Nat) (X : Nat → Nat → K) (hm : m.nverts = vs.length) (hv : vs ≠ []) :
    canSetTag m (rows w vs X) = true := by
  have : vs.length ≠ 0 := fun h => hv (List.length_eq_zero_iff.1 h)
  simp [canSetTag, hm, this, rows_length]

end

section
variable {K : Type} [Field K] [LinearOrder K] {d : Domain K} {ms : Measures K} {o : MoveOpts K} {small big : K}
variable {X M : Nat → Nat → K} {W T : Option (Nat → Nat → K)} {mesh : List (MovedRank K)}

omit [Field K] in
theorem okay_spec [Field K] (hf : d.Fits ms) (h1 : o.minQualityAllowed ≤ big) (h2 : small ≤ o.maxLengthAllowed) (h : d.Is X M W T mesh)
    (t : Nat → Nat → Team) (rt : Nat → RankTree) :
    ∃ b mesh', okay t rt small big ms o mesh = some (b, mesh') ∧ d.Is X M W T mesh' ∧ (b = true ↔ d.Within o X M) := by
  obtain ⟨q, q1, q2, q3⟩ := onRanks_each mesh (fun r m => some (askQuals ms r m))
    (fun r x => (x.1.nverts = (d.verts r).length ∧ x.1.coords = rows d.dim (d.verts r) X ∧ x.1.metric = rows d.ncomps (d.verts r) M ∧
      x.1.warp = W.map (rows d.dim (d.verts r)) ∧ x.1.target = T.map (rows d.ncomps (d.verts r)) ∧
      (∀ q, x.1.quals = some q → q = (d.elems r).map (d.quality X M)) ∧
      (∀ l, x.1.lengths = some l → l = (d.edges r).map (d.length X M)) ∧
      (∀ z, x.1.sizes = some z → z = (d.elems r).map (d.size X))) ∧ x.2 = (d.elems r).map (d.quality X M)) (by
      intro r m hm
      have hr : r < d.nranks := by rw [← h.ranks]; exact (List.getElem?_eq_some_iff.1 hm).1
      refine ⟨_, rfl, ?_⟩
      obtain ⟨a1, a2, a3, a4, a5, a6, a7, a8⟩ := h.each r m hm
      unfold askQuals
      cases hq : m.quals with
      | some q => exact ⟨⟨a1, a2, a3, a4, a5, a6, a7, a8⟩, a6 q hq⟩
      | none =>
        have e : ms.quals r m.coords m.metric = (d.elems r).map (d.quality X M) := by rw [a2, a3]; exact hf.quals r hr X M
        exact ⟨⟨a1, a2, a3, a4, a5, fun q hq => by rw [← Option.some.inj hq]; exact e, a7, a8⟩, e⟩)
  rw [h.ranks] at q2
  have hqs : q.map Prod.snd = world d.nranks (fun r => (d.elems r).map (d.quality X M)) := by
    refine eq_of_each (by rw [List.length_map, q2]) ?_
    intro r x hx
    rw [List.getElem?_map, Option.map_eq_some_iff] at hx
    obtain ⟨y, hy, rfl⟩ := hx
    exact (q3 r y hy).2
  have hqi : d.Is X M W T (q.map Prod.fst) := by
    refine ⟨by rw [List.length_map, q2], ?_⟩
    intro r x hx
    rw [List.getElem?_map, Option.map_eq_some_iff] at hx
    obtain ⟨y, hy, rfl⟩ := hx
    exact (q3 r y hy).1
  obtain ⟨minq, m1, m2⟩ := globalMin_spec hf.elems (t 0) (rt 0) big (d.quality X M)
  unfold okay
  rw [q1, Option.bind_some, hqs, m1, Option.bind_some]
  by_cases c : minq < o.minQualityAllowed
  · rw [if_pos c]
    refine ⟨false, _, rfl, hqi, ?_⟩
    constructor
    · intro h; simp at h
    · intro hw
      exact absurd ((m2 _ h1).2 hw.1) (not_le.2 c)
  · rw [if_neg c]
    obtain ⟨l, l1, l2, l3⟩ := onRanks_each (q.map Prod.fst) (fun r m => some (askLengths ms r m))
      (fun r x => (x.1.nverts = (d.verts r).length ∧ x.1.coords = rows d.dim (d.verts r) X ∧ x.1.metric = rows d.ncomps (d.verts r) M ∧
        x.1.warp = W.map (rows d.dim (d.verts r)) ∧ x.1.target = T.map (rows d.ncomps (d.verts r)) ∧
        (∀ q, x.1.quals = some q → q = (d.elems r).map (d.quality X M)) ∧
        (∀ l, x.1.lengths = some l → l = (d.edges r).map (d.length X M)) ∧
        (∀ z, x.1.sizes = some z → z = (d.elems r).map (d.size X))) ∧ x.2 = (d.edges r).map (d.length X M)) (by
        intro r m hm
        have hr : r < d.nranks := by rw [← hqi.ranks]; exact (List.getElem?_eq_some_iff.1 hm).1
        refine ⟨_, rfl, ?_⟩
        obtain ⟨a1, a2, a3, a4, a5, a6, a7, a8⟩ := hqi.each r m hm
        unfold askLengths
        cases hl : m.lengths with
        | some l => exact ⟨⟨a1, a2, a3, a4, a5, a6, a7, a8⟩, a7 l hl⟩
        | none =>
          have e : ms.lengths r m.coords m.metric = (d.edges r).map (d.length X M) := by rw [a2, a3]; exact hf.lengths r hr X M
          exact ⟨⟨a1, a2, a3, a4, a5, a6, fun q hq => by rw [← Option.some.inj hq]; exact e, a8⟩, e⟩)
    rw [hqi.ranks] at l2
    have hls : l.map Prod.snd = world d.nranks (fun r => (d.edges r).map (d.length X M)) := by
      refine eq_of_each (by rw [List.length_map, l2]) ?_
      intro r x hx
      rw [List.getElem?_map, Option.map_eq_some_iff] at hx
      obtain ⟨y, hy, rfl⟩ := hx
      exact (l3 r y hy).2
    obtain ⟨maxl, x1, x2⟩ := globalMax_spec hf.edges (t 1) (rt 1) small (d.length X M)
    rw [l1, Option.bind_some, hls, x1, Option.map_some]
    refine ⟨_, _, rfl, ⟨by rw [List.length_map, l2], ?_⟩, ?_⟩
    · intro r x hx
      rw [List.getElem?_map, Option.map_eq_some_iff] at hx
      obtain ⟨y, hy, rfl⟩ := hx
      exact (l3 r y hy).1
    · rw [Bool.not_eq_true', decide_eq_false_iff_not]
      unfold Domain.Within
      rw [← m2 _ h1, ← x2 _ h2]
      exact ⟨fun h => ⟨not_lt.1 c, not_lt.1 h⟩, fun h => not_lt.2 h.2⟩

omit [Field K] [LinearOrder K] in
theorem setCoords_spec (hd : o.dim = d.dim) (hv : ∀ r, r < d.nranks → d.verts r ≠ []) (h : d.Is X M W T mesh) (X' : Nat → Nat → K) :
    ∃ mesh', zipRanks mesh (world d.nranks (fun r => rows d.dim (d.verts r) X')) (fun _ m a => setCoords o.dim a m) = some mesh' ∧ d.Is X' M W T mesh' := by
  obtain ⟨out, h1, h2, h3⟩ := zipRanks_each mesh d.nranks (fun r => rows d.dim (d.verts r) X') h.ranks (fun _ m a => setCoords o.dim a m)
    (fun r m => m.nverts = (d.verts r).length ∧ m.coords = rows d.dim (d.verts r) X' ∧ m.metric = rows d.ncomps (d.verts r) M ∧
      m.warp = W.map (rows d.dim (d.verts r)) ∧ m.target = T.map (rows d.ncomps (d.verts r)) ∧
      (∀ q, m.quals = some q → q = (d.elems r).map (d.quality X' M)) ∧
      (∀ l, m.lengths = some l → l = (d.edges r).map (d.length X' M)) ∧
      (∀ z, m.sizes = some z → z = (d.elems r).map (d.size X'))) (by
      intro r m hr hm
      obtain ⟨a1, a2, a3, a4, a5, a6, a7, a8⟩ := h.each r m hm
      unfold setCoords
      rw [if_pos (by rw [rows_length, a1, hd]), if_pos (canSetTag_rows m _ _ _ a1 (hv r hr))]
      exact ⟨_, rfl, a1, rfl, a3, a4, a5, (fun _ h => nomatch h), (fun _ h => nomatch h), (fun _ h => nomatch h)⟩)
  exact ⟨out, h1, h2, h3⟩

omit [Field K] [LinearOrder K] in
theorem setMetric_spec (hv : ∀ r, r < d.nranks → d.verts r ≠ []) (h : d.Is X M W T mesh) (M' : Nat → Nat → K) :
    ∃ mesh', zipRanks mesh (world d.nranks (fun r => rows d.ncomps (d.verts r) M')) (fun _ m a => setMetric a m) = some mesh' ∧ d.Is X M' W T mesh' := by
  obtain ⟨out, h1, h2, h3⟩ := zipRanks_each mesh d.nranks (fun r => rows d.ncomps (d.verts r) M') h.ranks (fun _ m a => setMetric a m)
    (fun r m => m.nverts = (d.verts r).length ∧ m.coords = rows d.dim (d.verts r) X ∧ m.metric = rows d.ncomps (d.verts r) M' ∧
      m.warp = W.map (rows d.dim (d.verts r)) ∧ m.target = T.map (rows d.ncomps (d.verts r)) ∧
      (∀ q, m.quals = some q → q = (d.elems r).map (d.quality X M')) ∧
      (∀ l, m.lengths = some l → l = (d.edges r).map (d.length X M')) ∧
      (∀ z, m.sizes = some z → z = (d.elems r).map (d.size X))) (by
      intro r m hr hm
      obtain ⟨a1, a2, a3, a4, a5, a6, a7, a8⟩ := h.each r m hm
      unfold setMetric
      rw [if_pos (canSetTag_rows m _ _ _ a1 (hv r hr))]
      exact ⟨_, rfl, a1, a2, rfl, a4, a5, (fun _ h => nomatch h), (fun _ h => nomatch h), a8⟩)
  exact ⟨out, h1, h2, h3⟩

omit [Field K] [LinearOrder K] in
theorem setWarp_spec (hv : ∀ r, r < d.nranks → d.verts r ≠ []) (h : d.Is X M W T mesh) (W' : Nat → Nat → K) :
    ∃ mesh', zipRanks mesh (world d.nranks (fun r => rows d.dim (d.verts r) W')) (fun _ m a => setWarp a m) = some mesh' ∧ d.Is X M (some W') T mesh' := by
  obtain ⟨out, h1, h2, h3⟩ := zipRanks_each mesh d.nranks (fun r => rows d.dim (d.verts r) W') h.ranks (fun _ m a => setWarp a m)
    (fun r m => m.nverts = (d.verts r).length ∧ m.coords = rows d.dim (d.verts r) X ∧ m.metric = rows d.ncomps (d.verts r) M ∧
      m.warp = some (rows d.dim (d.verts r) W') ∧ m.target = T.map (rows d.ncomps (d.verts r)) ∧
      (∀ q, m.quals = some q → q = (d.elems r).map (d.quality X M)) ∧
      (∀ l, m.lengths = some l → l = (d.edges r).map (d.length X M)) ∧
      (∀ z, m.sizes = some z → z = (d.elems r).map (d.size X))) (by
      intro r m hr hm
      obtain ⟨a1, a2, a3, a4, a5, a6, a7, a8⟩ := h.each r m hm
      unfold setWarp
      rw [if_pos (canSetTag_rows m _ _ _ a1 (hv r hr))]
      exact ⟨_, rfl, a1, a2, a3, rfl, a5, a6, a7, a8⟩)
  exact ⟨out, h1, h2, h3⟩

omit [Field K] [LinearOrder K] in
theorem noWarp_spec (h : d.Is X M W T mesh) : d.Is X M none T (mesh.map (fun m => { m with warp := none })) := by
  refine ⟨by rw [List.length_map, h.ranks], ?_⟩
  intro r x hx
  rw [List.getElem?_map, Option.map_eq_some_iff] at hx
  obtain ⟨m, hm, rfl⟩ := hx
  obtain ⟨a1, a2, a3, a4, a5, a6, a7, a8⟩ := h.each r m hm
  exact ⟨a1, a2, a3, rfl, a5, a6, a7, a8⟩

omit [Field K] [LinearOrder K] in
theorem noTarget_spec (h : d.Is X M W T mesh) : d.Is X M W none (mesh.map (fun m => { m with target := none })) := by
  refine ⟨by rw [List.length_map, h.ranks], ?_⟩
  intro r x hx
  rw [List.getElem?_map, Option.map_eq_some_iff] at hx
  obtain ⟨m, hm, rfl⟩ := hx
  obtain ⟨a1, a2, a3, a4, a5, a6, a7, a8⟩ := h.each r m hm
  exact ⟨a1, a2, a3, a4, rfl, a6, a7, a8⟩

omit [LinearOrder K] in
theorem add_rows (s : Nat → Sched) (n w : Nat) (vs : Nat → List Nat) (A B : Nat → Nat → K) :
    zipRanks (world n (fun r => rows w (vs r) A)) (world n (fun r => rows w (vs r) B)) (fun r a b => zipEach (s r) (fun x y => some (x + y)) a b) =
      some (world n (fun r => rows w (vs r) (fun v c => A v c + B v c))) := by
  unfold zipRanks
  refine onRanks_total _ _ _ ?_
  intro r hr
  rw [world_get _ hr, Option.bind_some]
  show zipEach _ _ _ _ = _
  rw [zipEach_eq _ _ (fun x y => x + y) _ _ (by rw [rows_length, rows_length]) (fun _ _ _ _ _ => rfl), rows_zip]

omit [Field K] [LinearOrder K] in
theorem tag_rows {w : Nat} (f : MovedRank K → Option (List K)) (A : Nat → Nat → K) (hn : mesh.length = d.nranks)
    (h : ∀ (r : Nat) (m : MovedRank K), mesh[r]? = some m → f m = some (rows w (d.verts r) A)) :
    mesh.mapM f = some (world d.nranks (fun r => rows w (d.verts r) A)) := by
  obtain ⟨out, h1, h2, _, h3⟩ := mapM_list_spec mesh f (by
    intro m hm
    obtain ⟨r, hr⟩ := List.mem_iff_getElem?.1 hm
    rw [h r m hr]; rfl)
  rw [h1]
  congr 1
  refine eq_of_each (by rw [h2, hn]) ?_
  intro r x hx
  have hr : r < mesh.length := by rw [← h2]; exact (List.getElem?_eq_some_iff.1 hx).1
  have := h3 r mesh[r] (List.getElem?_eq_getElem hr)
  rw [hx, h r mesh[r] (List.getElem?_eq_getElem hr)] at this
  exact Option.some.inj this

omit [Field K] [LinearOrder K] in
theorem coords_rows (h : d.Is X M W T mesh) : mesh.map (fun m => m.coords) = world d.nranks (fun r => rows d.dim (d.verts r) X) := by
  refine eq_of_each (by rw [List.length_map, h.ranks]) ?_
  intro r x hx
  rw [List.getElem?_map, Option.map_eq_some_iff] at hx
  obtain ⟨m, hm, rfl⟩ := hx
  exact (h.each r m hm).2.1

omit [Field K] [LinearOrder K] in
theorem metric_rows (h : d.Is X M W T mesh) : mesh.map (fun m => m.metric) = world d.nranks (fun r => rows d.ncomps (d.verts r) M) := by
  refine eq_of_each (by rw [List.length_map, h.ranks]) ?_
  intro r x hx
  rw [List.getElem?_map, Option.map_eq_some_iff] at hx
  obtain ⟨m, hm, rfl⟩ := hx
  exact (h.each r m hm).2.2.1

variable [IsStrictOrderedRing K]

theorem warpLoop_spec (hf : d.Fits ms) (hd : o.dim = d.dim) (hv : ∀ r, r < d.nranks → d.verts r ≠ []) (h1 : o.minQualityAllowed ≤ big)
    (h2 : small ≤ o.maxLengthAllowed) (s : Nat → Nat → Nat → Sched) (t : Nat → Nat → Nat → Team) (rt : Nat → Nat → RankTree) (exit : Bool)
    (W : Nat → Nat → K) (left : Nat) (f : K) (mesh : List (MovedRank K)) (h : d.Is (movedBy X W f) M (some W) T mesh) :
    (∀ k, 1 ≤ k → k ≤ left → d.Within o (movedBy X W (f * (1 / 2) ^ k)) M → (∀ j, 1 ≤ j → j < k → ¬d.Within o (movedBy X W (f * (1 / 2) ^ j)) M) →
      ∃ mesh', warpLoop s t rt small big ms o exit (world d.nranks (fun r => rows d.dim (d.verts r) X)) left
          (world d.nranks (fun r => rows d.dim (d.verts r) (fun v c => f * W v c)))
          (world d.nranks (fun r => rows d.dim (d.verts r) (fun v c => (1 - f) * W v c))) mesh = some (true, mesh') ∧
        d.Is (movedBy X W (f * (1 / 2) ^ k)) M (some (fun v c => (1 - f * (1 / 2) ^ k) * W v c)) T mesh') ∧
    ((∀ k, 1 ≤ k → k ≤ left → ¬d.Within o (movedBy X W (f * (1 / 2) ^ k)) M) →
      if exit then ∃ mesh', warpLoop s t rt small big ms o exit (world d.nranks (fun r => rows d.dim (d.verts r) X)) left
          (world d.nranks (fun r => rows d.dim (d.verts r) (fun v c => f * W v c)))
          (world d.nranks (fun r => rows d.dim (d.verts r) (fun v c => (1 - f) * W v c))) mesh = some (true, mesh') ∧
        d.Is (movedBy X W (f * (1 / 2) ^ left)) M none T mesh'
      else warpLoop s t rt small big ms o exit (world d.nranks (fun r => rows d.dim (d.verts r) X)) left
          (world d.nranks (fun r => rows d.dim (d.verts r) (fun v c => f * W v c)))
          (world d.nranks (fun r => rows d.dim (d.verts r) (fun v c => (1 - f) * W v c))) mesh = none) := by
  induction left generalizing f mesh with
  | zero =>
    refine ⟨fun k k1 k2 => by omega, fun _ => ?_⟩
    cases exit with
    | false => rfl
    | true =>
      refine ⟨_, rfl, ?_⟩
      have := noWarp_spec h
      rwa [pow_zero, mul_one]
  | succ left ih =>
    have hhalf : onRanks (world d.nranks (fun r => rows d.dim (d.verts r) (fun v c => f * W v c)))
        (fun r w => mapEach (s (4 * left) r 0) (fun x => some (x / 2)) w) =
        some (world d.nranks (fun r => rows d.dim (d.verts r) (fun v c => f * (1 / 2) * W v c))) := by
      refine onRanks_total _ _ _ ?_
      intro r _
      rw [mapEach_eq _ _ (fun x => x / 2) _ (fun _ _ => rfl), rows_map]
      congr 2
      funext v c
      ring
    have hrest := add_rows (fun r => s (4 * left + 1) r 0) d.nranks d.dim d.verts (fun v c => (1 - f) * W v c) (fun v c => f * (1 / 2) * W v c)
    have e : (fun v c => (1 - f) * W v c + f * (1 / 2) * W v c) = (fun v c => (1 - f * (1 / 2)) * W v c) := by
      funext v c
      have : (2 : K) ≠ 0 := two_ne_zero
      field_simp
      ring
    rw [e] at hrest
    have hmoved := add_rows (fun r => s (4 * left + 2) r 0) d.nranks d.dim d.verts X (fun v c => f * (1 / 2) * W v c)
    obtain ⟨m2, a1, a2⟩ := setCoords_spec (o := o) hd hv h (movedBy X W (f * (1 / 2)))
    obtain ⟨b, m3, b1, b2, b3⟩ := okay_spec (o := o) (small := small) (big := big) hf h1 h2 a2 (t left) (rt left)
    have hstep : warpLoop s t rt small big ms o exit (world d.nranks (fun r => rows d.dim (d.verts r) X)) (left + 1)
          (world d.nranks (fun r => rows d.dim (d.verts r) (fun v c => f * W v c)))
          (world d.nranks (fun r => rows d.dim (d.verts r) (fun v c => (1 - f) * W v c))) mesh =
        if b then (zipRanks m3 (world d.nranks (fun r => rows d.dim (d.verts r) (fun v c => (1 - f * (1 / 2)) * W v c))) (fun _ m a => setWarp a m)).map
            (fun mesh => (true, mesh))
        else warpLoop s t rt small big ms o exit (world d.nranks (fun r => rows d.dim (d.verts r) X)) left
          (world d.nranks (fun r => rows d.dim (d.verts r) (fun v c => f * (1 / 2) * W v c)))
          (world d.nranks (fun r => rows d.dim (d.verts r) (fun v c => (1 - f * (1 / 2)) * W v c))) m3 := by
      show (onRanks _ _).bind _ = _
      rw [hhalf, Option.bind_some, hrest, Option.bind_some, hmoved, Option.bind_some]
      rw [show (world d.nranks fun r => rows d.dim (d.verts r) (fun v c => X v c + f * (1 / 2) * W v c)) =
        world d.nranks (fun r => rows d.dim (d.verts r) (movedBy X W (f * (1 / 2)))) from rfl, a1, Option.bind_some, b1, Option.bind_some]
    obtain ⟨ih1, ih2⟩ := ih (f * (1 / 2)) m3 b2
    have hp : ∀ k, f * (1 / 2) * (1 / 2) ^ k = f * (1 / 2) ^ (k + 1) := by intro k; rw [pow_succ]; ring
    rw [hstep]
    constructor
    · intro k k1 k2 k3 k4
      by_cases c : b = true
      · have hw := b3.1 c
        have : k = 1 := by
          by_contra hk
          refine k4 1 (Nat.le_refl _) (by omega) ?_
          rwa [pow_one]
        subst this
        rw [if_pos c, pow_one]
        obtain ⟨m4, c1, c2⟩ := setWarp_spec hv b2 (fun v c => (1 - f * (1 / 2)) * W v c)
        rw [c1]
        exact ⟨m4, rfl, c2⟩
      · rw [if_neg c]
        have hk : k ≠ 1 := by
          rintro rfl
          rw [pow_one] at k3
          exact c (b3.2 k3)
        obtain ⟨k, rfl⟩ : ∃ k', k = k' + 1 := ⟨k - 1, by omega⟩
        have := ih1 k (by omega) (by omega) (by rw [hp]; exact k3) (by
          intro j j1 j2
          rw [hp]
          exact k4 (j + 1) (by omega) (by omega))
        rw [hp] at this
        exact this
    · intro hall
      have c : ¬b = true := by
        intro c
        refine hall 1 (Nat.le_refl _) (by omega) ?_
        rw [pow_one]
        exact b3.1 c
      rw [if_neg c]
      have := ih2 (by
        intro k k1 k2
        rw [hp]
        exact hall (k + 1) (by omega) (by omega))
      rw [hp] at this
      exact this

omit [IsStrictOrderedRing K] in
/-- The beginning of a warp. -/
theorem warpStart (hf : d.Fits ms) (hd : o.dim = d.dim) (hv : ∀ r, r < d.nranks → d.verts r ≠ []) (h1 : o.minQualityAllowed ≤ big)
    (h2 : small ≤ o.maxLengthAllowed) (s : Nat → Nat → Nat → Sched) (t : Nat → Nat → Nat → Team) (rt : Nat → Nat → RankTree) (exit : Bool)
    (W : Nat → Nat → K) (maxNiters : Nat) (mesh : List (MovedRank K)) (h : d.Is X M (some W) T mesh) (hw : d.Within o X M) :
    ∃ b m2, d.Is (movedBy X W 1) M (some W) T m2 ∧ (b = true ↔ d.Within o (movedBy X W 1) M) ∧
      warpToLimit s t rt small big ms o exit maxNiters mesh =
        if b then some (true, m2.map (fun m => { m with warp := none }))
        else warpLoop s t rt small big ms o exit (world d.nranks (fun r => rows d.dim (d.verts r) X)) maxNiters
          (world d.nranks (fun r => rows d.dim (d.verts r) (fun v c => (1 : K) * W v c)))
          (world d.nranks (fun r => rows d.dim (d.verts r) (fun v c => (1 - 1 : K) * W v c))) m2 := by
  have hwarp : mesh.mapM (fun m => m.warp) = some (world d.nranks (fun r => rows d.dim (d.verts r) W)) :=
    tag_rows (fun m => m.warp) W h.ranks (fun r m hm => (h.each r m hm).2.2.2.1)
  obtain ⟨b0, m0, a1, a2, a3⟩ := okay_spec (o := o) (small := small) (big := big) hf h1 h2 h (t maxNiters) (rt maxNiters)
  obtain rfl : b0 = true := a3.2 hw
  have hmoved := add_rows (fun r => s (4 * maxNiters) r 0) d.nranks d.dim d.verts X W
  obtain ⟨m1, c1, c2⟩ := setCoords_spec (o := o) hd hv a2 (movedBy X W 1)
  obtain ⟨b, m2, e1, e2, e3⟩ := okay_spec (o := o) (small := small) (big := big) hf h1 h2 c2 (t (maxNiters + 1)) (rt (maxNiters + 1))
  refine ⟨b, m2, e2, e3, ?_⟩
  unfold warpToLimit
  rw [hwarp]
  show (checkOkay _ _ _ _ _ _ _).bind _ = _
  unfold checkOkay
  rw [a1, Option.bind_some, if_pos rfl, Option.bind_some, coords_rows a2, hmoved, Option.bind_some]
  rw [show (world d.nranks fun r => rows d.dim (d.verts r) (fun v c => X v c + W v c)) =
    world d.nranks (fun r => rows d.dim (d.verts r) (movedBy X W 1)) from by unfold movedBy; simp only [one_mul]]
  rw [c1, Option.bind_some, e1, Option.bind_some]
  have z1 : (world d.nranks (fun r => rows d.dim (d.verts r) W)).map (fun w => w.map (fun _ => (0 : K))) =
      world d.nranks (fun r => rows d.dim (d.verts r) (fun v c => (1 - 1 : K) * W v c)) := by
    rw [world_map]
    refine world_congr (fun r _ => ?_)
    rw [rows_map]
    congr 1
    funext v c
    ring
  have z2 : (world d.nranks (fun r => rows d.dim (d.verts r) W)) = world d.nranks (fun r => rows d.dim (d.verts r) (fun v c => (1 : K) * W v c)) := by
    simp only [one_mul]
  rw [z1]
  conv_lhs => rw [z2]

omit [IsStrictOrderedRing K] in
/-- Without a field to move by nothing happens. -/
theorem C67_no_field (h : d.Is X M none T mesh) (hn : 0 < d.nranks) (s : Nat → Nat → Nat → Sched) (t : Nat → Nat → Nat → Team) (rt : Nat → Nat → RankTree)
    (exit : Bool) (maxNiters : Nat) : warpToLimit s t rt small big ms o exit maxNiters mesh = some (false, mesh) := by
  have hr : 0 < mesh.length := by rw [h.ranks]; exact hn
  have : mesh.mapM (fun m => m.warp) = none :=
    mapM_fails (x := mesh[0]) (List.getElem_mem hr) ((h.each 0 _ (List.getElem?_eq_getElem hr)).2.2.2.1)
  unfold warpToLimit
  rw [this]

omit [IsStrictOrderedRing K] in
/-- A mesh that is outside of the limits is not moved: the program ends. -/
theorem C67_outside (hf : d.Fits ms) (h1 : o.minQualityAllowed ≤ big) (h2 : small ≤ o.maxLengthAllowed) (s : Nat → Nat → Nat → Sched)
    (t : Nat → Nat → Nat → Team) (rt : Nat → Nat → RankTree) (exit : Bool) (W : Nat → Nat → K) (maxNiters : Nat) (h : d.Is X M (some W) T mesh)
    (hw : ¬d.Within o X M) : warpToLimit s t rt small big ms o exit maxNiters mesh = none := by
  have hwarp : mesh.mapM (fun m => m.warp) = some (world d.nranks (fun r => rows d.dim (d.verts r) W)) :=
    tag_rows (fun m => m.warp) W h.ranks (fun r m hm => (h.each r m hm).2.2.2.1)
  obtain ⟨b0, m0, a1, a2, a3⟩ := okay_spec (o := o) (small := small) (big := big) hf h1 h2 h (t maxNiters) (rt maxNiters)
  have : ¬b0 = true := fun c => hw (a3.1 c)
  unfold warpToLimit
  rw [hwarp]
  show (checkOkay _ _ _ _ _ _ _).bind _ = _
  unfold checkOkay
  rw [a1, Option.bind_some, if_neg this]
  rfl

/-- If every rank has vertices, a mesh is moved by the first of the parts 1, 1/2, 1/4, … that the limits allow, on all copies alike, and what remains is kept. -/
theorem C67_step_partial (hf : d.Fits ms) (hd : o.dim = d.dim) (hv : ∀ r, r < d.nranks → d.verts r ≠ []) (h1 : o.minQualityAllowed ≤ big)
    (h2 : small ≤ o.maxLengthAllowed) (s : Nat → Nat → Nat → Sched) (t : Nat → Nat → Nat → Team) (rt : Nat → Nat → RankTree) (exit : Bool)
    (W : Nat → Nat → K) (maxNiters : Nat) (h : d.Is X M (some W) T mesh) (hw : d.Within o X M) (k : Nat) (hk : k ≤ maxNiters)
    (hin : d.Within o (movedBy X W ((1 / 2) ^ k)) M) (hfirst : ∀ j, j < k → ¬d.Within o (movedBy X W ((1 / 2) ^ j)) M) :
    ∃ mesh', warpToLimit s t rt small big ms o exit maxNiters mesh = some (true, mesh') ∧
      d.Is (movedBy X W ((1 / 2) ^ k)) M (if k = 0 then none else some (fun v c => (1 - (1 / 2) ^ k) * W v c)) T mesh' := by
  obtain ⟨b, m2, e2, e3, e4⟩ := warpStart hf hd hv h1 h2 s t rt exit W maxNiters mesh h hw
  rw [e4]
  by_cases c : b = true
  · have : k = 0 := by
      by_contra hk
      refine hfirst 0 (by omega) ?_
      rw [pow_zero]
      exact e3.1 c
    subst this
    rw [if_pos c, if_pos rfl, pow_zero]
    exact ⟨_, rfl, noWarp_spec e2⟩
  · have hk0 : k ≠ 0 := by
      rintro rfl
      rw [pow_zero] at hin
      exact c (e3.2 hin)
    rw [if_neg c, if_neg hk0]
    have := (warpLoop_spec hf hd hv h1 h2 s t rt exit W maxNiters 1 m2 e2).1 k (by omega) hk (by rw [one_mul]; exact hin) (by
      intro j _ j2
      rw [one_mul]
      exact hfirst j j2)
    rw [one_mul] at this
    exact this

/-- If no part is allowed, the program ends, or, if asked to go on, the mesh is left moved by the last part tried. -/
theorem C67_stall_partial (hf : d.Fits ms) (hd : o.dim = d.dim) (hv : ∀ r, r < d.nranks → d.verts r ≠ []) (h1 : o.minQualityAllowed ≤ big)
    (h2 : small ≤ o.maxLengthAllowed) (s : Nat → Nat → Nat → Sched) (t : Nat → Nat → Nat → Team) (rt : Nat → Nat → RankTree) (exit : Bool)
    (W : Nat → Nat → K) (maxNiters : Nat) (h : d.Is X M (some W) T mesh) (hw : d.Within o X M)
    (hno : ∀ k, k ≤ maxNiters → ¬d.Within o (movedBy X W ((1 / 2) ^ k)) M) :
    if exit then ∃ mesh', warpToLimit s t rt small big ms o exit maxNiters mesh = some (true, mesh') ∧ d.Is (movedBy X W ((1 / 2) ^ maxNiters)) M none T mesh'
    else warpToLimit s t rt small big ms o exit maxNiters mesh = none := by
  obtain ⟨b, m2, e2, e3, e4⟩ := warpStart hf hd hv h1 h2 s t rt exit W maxNiters mesh h hw
  rw [e4]
  have c : ¬b = true := by
    intro c
    refine hno 0 (Nat.zero_le _) ?_
    rw [pow_zero]
    exact e3.1 c
  rw [if_neg c]
  have := (warpLoop_spec hf hd hv h1 h2 s t rt exit W maxNiters 1 m2 e2).2 (by
    intro k _ k2
    rw [one_mul]
    exact hno k k2)
  rw [one_mul] at this
  exact this

/-- Unless the program is asked to go on after a stall: whenever the mesh has been moved it is within the limits, and what has been moved and what
remains add up to the whole field. -/
theorem C67_nothing_lost_partial (hf : d.Fits ms) (hd : o.dim = d.dim) (hv : ∀ r, r < d.nranks → d.verts r ≠ []) (h1 : o.minQualityAllowed ≤ big)
    (h2 : small ≤ o.maxLengthAllowed) (s : Nat → Nat → Nat → Sched) (t : Nat → Nat → Nat → Team) (rt : Nat → Nat → RankTree)
    (W : Nat → Nat → K) (maxNiters : Nat) (h : d.Is X M (some W) T mesh) (b : Bool) (mesh' : List (MovedRank K))
    (hres : warpToLimit s t rt small big ms o false maxNiters mesh = some (b, mesh')) :
    b = true ∧ ∃ X' R, d.Is X' M R T mesh' ∧ d.Within o X' M ∧
      ∀ v c, X' v c + (match R with | none => 0 | some R => R v c) = X v c + W v c := by
  by_cases hw : d.Within o X M
  · by_cases hex : ∃ k, k ≤ maxNiters ∧ d.Within o (movedBy X W ((1 / 2) ^ k)) M
    · classical
      let p : Nat → Prop := fun k => k ≤ maxNiters ∧ d.Within o (movedBy X W ((1 / 2) ^ k)) M
      have hp : ∃ k, p k := hex
      have hk := Nat.find_spec hp
      obtain ⟨m, m1, m2⟩ := C67_step_partial hf hd hv h1 h2 s t rt false W maxNiters h hw (Nat.find hp) hk.1 hk.2 (by
        intro j hj hin
        exact Nat.find_min hp hj ⟨by have := hk.1; omega, hin⟩)
      rw [m1] at hres
      obtain ⟨rfl, rfl⟩ := Prod.mk.inj (Option.some.inj hres)
      refine ⟨rfl, _, _, m2, hk.2, ?_⟩
      intro v c
      by_cases c0 : Nat.find hp = 0
      · rw [if_pos c0, c0]
        unfold movedBy
        simp
      · rw [if_neg c0]
        unfold movedBy
        ring
    · have := C67_stall_partial hf hd hv h1 h2 s t rt false W maxNiters h hw (fun k hk hin => hex ⟨k, hk, hin⟩)
      rw [if_neg (by decide), hres] at this
      simp at this
  · rw [C67_outside hf h1 h2 s t rt false W maxNiters h hw] at hres
    simp at hres

omit [IsStrictOrderedRing K] in
/-- On a mesh of which a rank has no vertices nothing can be moved: the program ends. -/
theorem C67_empty (hf : d.Fits ms) (h1 : o.minQualityAllowed ≤ big) (h2 : small ≤ o.maxLengthAllowed) {r : Nat}
    (hr : r < d.nranks) (hv : d.verts r = []) (s : Nat → Nat → Nat → Sched) (t : Nat → Nat → Nat → Team) (rt : Nat → Nat → RankTree) (exit : Bool)
    (W : Nat → Nat → K) (maxNiters : Nat) (h : d.Is X M (some W) T mesh) :
    warpToLimit s t rt small big ms o exit maxNiters mesh = none := by
  by_cases hw : d.Within o X M
  · have hwarp : mesh.mapM (fun m => m.warp) = some (world d.nranks (fun r => rows d.dim (d.verts r) W)) :=
      tag_rows (fun m => m.warp) W h.ranks (fun r m hm => (h.each r m hm).2.2.2.1)
    obtain ⟨b0, m0, a1, a2, a3⟩ := okay_spec (o := o) (small := small) (big := big) hf h1 h2 h (t maxNiters) (rt maxNiters)
    obtain rfl : b0 = true := a3.2 hw
    have hmoved := add_rows (fun r => s (4 * maxNiters) r 0) d.nranks d.dim d.verts X W
    unfold warpToLimit
    rw [hwarp]
    show (checkOkay _ _ _ _ _ _ _).bind _ = _
    unfold checkOkay
    rw [a1, Option.bind_some, if_pos rfl, Option.bind_some, coords_rows a2, hmoved, Option.bind_some]
    have hlen : r < m0.length := by rw [a2.ranks]; exact hr
    have : zipRanks m0 (world d.nranks (fun r => rows d.dim (d.verts r) (fun v c => X v c + W v c))) (fun _ m a => setCoords o.dim a m) = none := by
      unfold zipRanks onRanks
      refine mapM_fails (x := r) (List.mem_range.2 hlen) ?_
      rw [List.getElem?_eq_getElem hlen, Option.bind_some]
      show ((world d.nranks _)[r]?).bind _ = none
      rw [world_get _ hr, Option.bind_some]
      show setCoords _ _ _ = none
      have a := (a2.each r _ (List.getElem?_eq_getElem hlen)).1
      rw [hv] at a
      unfold setCoords
      split
      · rw [if_neg (by simp [canSetTag, a])]
      · rfl
    rw [this]
    rfl
  · exact C67_outside hf h1 h2 s t rt exit W maxNiters h hw

omit [LinearOrder K] [IsStrictOrderedRing K] in
theorem interpolate_rows (hf : d.Fits ms) (s : Nat → Sched) (M T : Nat → Nat → K) (f : K) :
    zipRanks (world d.nranks (fun r => rows d.ncomps (d.verts r) M)) (world d.nranks (fun r => rows d.ncomps (d.verts r) T))
      (fun r a b => interpolateMetrics (s r) ms a b f) = some (world d.nranks (fun r => rows d.ncomps (d.verts r) (d.between M T f))) := by
  unfold zipRanks
  refine onRanks_total _ _ _ ?_
  intro r hr
  rw [world_get _ hr, Option.bind_some]
  show interpolateMetrics _ _ _ _ _ = _
  unfold interpolateMetrics
  rw [hf.log r hr, hf.log r hr, zipEach_eq _ _ (fun x y => x * (1 - f) + y * f) _ _ (by rw [rows_length, rows_length]) (fun _ _ _ _ _ => rfl), rows_zip,
    Option.map_some, hf.exp r hr]
  rfl

omit [IsStrictOrderedRing K] in
theorem approachStep_spec (hf : d.Fits ms) (hv : ∀ r, r < d.nranks → d.verts r ≠ []) (h1 : o.minQualityAllowed ≤ big)
    (h2 : small ≤ o.maxLengthAllowed) (s : Nat → Sched) (t : Nat → Nat → Team) (rt : Nat → RankTree) (f : K) {M0 T0 : Nat → Nat → K}
    (h : d.Is X M W T mesh) :
    ∃ b mesh', approachStep s t rt small big ms o (world d.nranks (fun r => rows d.ncomps (d.verts r) M0)) (world d.nranks (fun r => rows d.ncomps (d.verts r) T0))
        f mesh = some (b, mesh') ∧ d.Is X (d.between M0 T0 f) W T mesh' ∧ (b = true ↔ d.Within o X (d.between M0 T0 f)) := by
  obtain ⟨m1, a1, a2⟩ := setMetric_spec hv h (d.between M0 T0 f)
  obtain ⟨b, m2, b1, b2, b3⟩ := okay_spec (o := o) (small := small) (big := big) hf h1 h2 a2 t rt
  refine ⟨b, m2, ?_, b2, b3⟩
  unfold approachStep
  rw [interpolate_rows hf, Option.bind_some, a1, Option.bind_some, b1]

theorem approachLoop_spec (hf : d.Fits ms) (hv : ∀ r, r < d.nranks → d.verts r ≠ []) (h1 : o.minQualityAllowed ≤ big)
    (h2 : small ≤ o.maxLengthAllowed) (s : Nat → Nat → Sched) (t : Nat → Nat → Nat → Team) (rt : Nat → Nat → RankTree) (minStep : K) {M0 T0 : Nat → Nat → K}
    (steps : Nat) (f : K) (h : d.Is X M W T mesh) :
    (∀ k, 1 ≤ k → k ≤ steps → d.Within o X (d.between M0 T0 (f * (1 / 2) ^ k)) →
      (∀ j, 1 ≤ j → j ≤ k → minStep ≤ f * (1 / 2) ^ j) → (∀ j, 1 ≤ j → j < k → ¬d.Within o X (d.between M0 T0 (f * (1 / 2) ^ j))) →
      ∃ mesh', approachLoop s t rt small big minStep ms o (world d.nranks (fun r => rows d.ncomps (d.verts r) M0))
          (world d.nranks (fun r => rows d.ncomps (d.verts r) T0)) steps f mesh = .done mesh' ∧
        d.Is X (d.between M0 T0 (f * (1 / 2) ^ k)) W T mesh') ∧
    (∀ k, 1 ≤ k → k ≤ steps → f * (1 / 2) ^ k < minStep → (∀ j, 1 ≤ j → j < k → ¬d.Within o X (d.between M0 T0 (f * (1 / 2) ^ j))) →
      approachLoop s t rt small big minStep ms o (world d.nranks (fun r => rows d.ncomps (d.verts r) M0))
          (world d.nranks (fun r => rows d.ncomps (d.verts r) T0)) steps f mesh = .failed) := by
  induction steps generalizing f mesh M with
  | zero => exact ⟨fun k k1 k2 => by omega, fun k k1 k2 => by omega⟩
  | succ steps ih =>
    obtain ⟨b, m2, a1, a2, a3⟩ := approachStep_spec (o := o) (small := small) (big := big) hf hv h1 h2 (s steps) (t steps) (rt steps) (f / 2) (M0 := M0) (T0 := T0) h
    obtain ⟨ih1, ih2⟩ := ih (f / 2) a2
    have hp : ∀ k, f / 2 * (1 / 2) ^ k = f * (1 / 2) ^ (k + 1) := by intro k; rw [pow_succ]; ring
    have hp1 : f * (1 / 2) ^ 1 = f / 2 := by rw [pow_one]; ring
    have hstep : approachLoop s t rt small big minStep ms o (world d.nranks (fun r => rows d.ncomps (d.verts r) M0))
          (world d.nranks (fun r => rows d.ncomps (d.verts r) T0)) (steps + 1) f mesh =
        if f / 2 < minStep then .failed else if b then .done m2 else
          approachLoop s t rt small big minStep ms o (world d.nranks (fun r => rows d.ncomps (d.verts r) M0))
          (world d.nranks (fun r => rows d.ncomps (d.verts r) T0)) steps (f / 2) m2 := by
      show (if f / 2 < minStep then Looped.failed else _) = _
      rw [a1]
      cases b <;> rfl
    rw [hstep]
    constructor
    · intro k k1 k2 k3 k4 k5
      rw [if_neg (by rw [← hp1]; exact not_lt.2 (k4 1 (Nat.le_refl _) k1))]
      by_cases c : b = true
      · have : k = 1 := by
          by_contra hk
          refine k5 1 (Nat.le_refl _) (by omega) ?_
          rw [hp1]
          exact a3.1 c
        subst this
        rw [if_pos c, hp1]
        exact ⟨m2, rfl, a2⟩
      · rw [if_neg c]
        have hk : k ≠ 1 := by
          rintro rfl
          rw [hp1] at k3
          exact c (a3.2 k3)
        obtain ⟨k, rfl⟩ : ∃ k', k = k' + 1 := ⟨k - 1, by omega⟩
        have := ih1 k (by omega) (by omega) (by rw [hp]; exact k3) (by
          intro j j1 j2
          rw [hp]
          exact k4 (j + 1) (by omega) (by omega)) (by
          intro j j1 j2
          rw [hp]
          exact k5 (j + 1) (by omega) (by omega))
        rw [hp] at this
        exact this
    · intro k k1 k2 k3 k4
      by_cases c0 : f / 2 < minStep
      · rw [if_pos c0]
      · rw [if_neg c0]
        have hk : k ≠ 1 := by
          rintro rfl
          rw [hp1] at k3
          exact c0 k3
        have c : ¬b = true := by
          intro c
          refine k4 1 (Nat.le_refl _) (by omega) ?_
          rw [hp1]
          exact a3.1 c
        rw [if_neg c]
        obtain ⟨k, rfl⟩ : ∃ k', k = k' + 1 := ⟨k - 1, by omega⟩
        exact ih2 k (by omega) (by omega) (by rw [hp]; exact k3) (by
          intro j j1 j2
          rw [hp]
          exact k4 (j + 1) (by omega) (by omega))

theorem half_pow_anti {i j : Nat} (h : i ≤ j) : ((1 : K) / 2) ^ j ≤ (1 / 2) ^ i := by
  apply pow_le_pow_of_le_one
  · positivity
  · linarith [half_lt_self (zero_lt_one (α := K))]
  · exact h

omit [IsStrictOrderedRing K] in
theorem approachStart_spec (hf : d.Fits ms) (hv : ∀ r, r < d.nranks → d.verts r ≠ []) (h1 : o.minQualityAllowed ≤ big)
    (h2 : small ≤ o.maxLengthAllowed) (t : Nat → Nat → Nat → Team) (rt : Nat → Nat → RankTree) (steps : Nat) {T0 : Nat → Nat → K}
    (h : d.Is X M W (some T0) mesh) (hw : d.Within o X M) :
    ∃ m0 b m2, mesh.mapM (fun m => m.target) = some (world d.nranks (fun r => rows d.ncomps (d.verts r) T0)) ∧
      approachStart t rt small big ms o steps (world d.nranks (fun r => rows d.ncomps (d.verts r) T0)) mesh = some (m0, b, m2) ∧
      m0.map (fun m => m.metric) = world d.nranks (fun r => rows d.ncomps (d.verts r) M) ∧
      d.Is X T0 W (some T0) m2 ∧ (b = true ↔ d.Within o X T0) := by
  have htag : mesh.mapM (fun m => m.target) = some (world d.nranks (fun r => rows d.ncomps (d.verts r) T0)) :=
    tag_rows (fun m => m.target) T0 h.ranks (fun r m hm => (h.each r m hm).2.2.2.2.1)
  obtain ⟨b0, m0, a1, a2, a3⟩ := okay_spec (o := o) (small := small) (big := big) hf h1 h2 h (t steps) (rt steps)
  obtain rfl : b0 = true := a3.2 hw
  obtain ⟨m1, c1, c2⟩ := setMetric_spec hv a2 T0
  obtain ⟨b, m2, e1, e2, e3⟩ := okay_spec (o := o) (small := small) (big := big) hf h1 h2 c2 (t (steps + 1)) (rt (steps + 1))
  refine ⟨m0, b, m2, htag, ?_, metric_rows a2, e2, e3⟩
  unfold approachStart checkOkay
  rw [a1, Option.bind_some, if_pos rfl, Option.bind_some, c1, Option.bind_some, e1]
  rfl

/-- If every rank has vertices, the metric becomes the target if the limits allow it, and otherwise goes the first of the parts 1/2, 1/4, … of the way that
they allow, on all copies alike; the target is kept until it is reached. -/
theorem C67_metric_partial (hf : d.Fits ms) (hv : ∀ r, r < d.nranks → d.verts r ≠ []) (h1 : o.minQualityAllowed ≤ big)
    (h2 : small ≤ o.maxLengthAllowed) (s : Nat → Nat → Sched) (t : Nat → Nat → Nat → Team) (rt : Nat → Nat → RankTree) (minStep : K) (T0 : Nat → Nat → K)
    (h : d.Is X M W (some T0) mesh) (hw : d.Within o X M) (k steps : Nat) (hk : k ≤ steps)
    (hin : d.Within o X (if k = 0 then T0 else d.between M T0 ((1 / 2) ^ k))) (hstep : k = 0 ∨ minStep ≤ (1 / 2) ^ k)
    (hfirst : ∀ j, j < k → ¬d.Within o X (if j = 0 then T0 else d.between M T0 ((1 / 2) ^ j))) :
    ∃ mesh', approachMetric s t rt small big minStep ms o steps mesh = .done (true, mesh') ∧
      d.Is X (if k = 0 then T0 else d.between M T0 ((1 / 2) ^ k)) W (if k = 0 then none else some T0) mesh' := by
  obtain ⟨m0, b, m2, a0, a1, a2, a3, a4⟩ := approachStart_spec hf hv h1 h2 t rt steps h hw
  unfold approachMetric
  simp only [a0, a1]
  cases b with
  | true =>
    have : k = 0 := by
      by_contra hk
      refine hfirst 0 (by omega) ?_
      rw [if_pos rfl]
      exact a4.1 rfl
    subst this
    exact ⟨_, rfl, noTarget_spec a3⟩
  | false =>
    have hk0 : k ≠ 0 := by
      rintro rfl
      rw [if_pos rfl] at hin
      exact absurd (a4.2 hin) (by decide)
    show ∃ mesh', (approachLoop s t rt small big minStep ms o (m0.map (fun m => m.metric)) _ steps 1 m2).map _ = _ ∧ _
    rw [a2]
    rw [if_neg hk0] at hin ⊢
    rw [if_neg hk0]
    obtain ⟨m3, b1, b2⟩ := (approachLoop_spec (M0 := M) (T0 := T0) hf hv h1 h2 s t rt minStep steps 1 a3).1 k (by omega) hk (by rw [one_mul]; exact hin) (by
      intro j _ j2
      rw [one_mul]
      exact le_trans (hstep.resolve_left hk0) (half_pow_anti j2)) (by
      intro j j1 j2
      have := hfirst j j2
      rw [if_neg (by omega)] at this
      rwa [one_mul])
    rw [b1]
    rw [one_mul] at b2
    exact ⟨m3, rfl, b2⟩

/-- If no part that is large enough is allowed, the program ends. -/
theorem C67_metric_stall_partial (hf : d.Fits ms) (hv : ∀ r, r < d.nranks → d.verts r ≠ []) (h1 : o.minQualityAllowed ≤ big)
    (h2 : small ≤ o.maxLengthAllowed) (s : Nat → Nat → Sched) (t : Nat → Nat → Nat → Team) (rt : Nat → Nat → RankTree) [Archimedean K] (minStep : K)
    (hpos : 0 < minStep) (T0 : Nat → Nat → K) (h : d.Is X M W (some T0) mesh) (hw : d.Within o X M) (hT : ¬d.Within o X T0)
    (hno : ∀ k, 1 ≤ k → minStep ≤ (1 / 2) ^ k → ¬d.Within o X (d.between M T0 ((1 / 2) ^ k))) :
    ∃ n, ∀ steps, n ≤ steps → approachMetric s t rt small big minStep ms o steps mesh = .failed := by
  obtain ⟨n, hn⟩ := exists_pow_lt_of_lt_one hpos (show ((1 : K) / 2) < 1 by linarith [half_lt_self (zero_lt_one (α := K))])
  classical
  let p : Nat → Prop := fun k => 1 ≤ k ∧ ((1 : K) / 2) ^ k < minStep
  have hp : ∃ k, p k := ⟨n + 1, by omega, lt_of_le_of_lt (half_pow_anti (by omega)) hn⟩
  have hk := Nat.find_spec hp
  refine ⟨Nat.find hp, fun steps hs => ?_⟩
  obtain ⟨m0, b, m2, a0, a1, a2, a3, a4⟩ := approachStart_spec hf hv h1 h2 t rt steps h hw
  unfold approachMetric
  simp only [a0, a1]
  cases b with
  | true => exact absurd (a4.1 rfl) hT
  | false =>
    show (approachLoop s t rt small big minStep ms o (m0.map (fun m => m.metric)) _ steps 1 m2).map _ = _
    rw [a2]
    rw [(approachLoop_spec (M0 := M) (T0 := T0) hf hv h1 h2 s t rt minStep steps 1 a3).2 (Nat.find hp) hk.1 hs (by rw [one_mul]; exact hk.2) (by
      intro j j1 j2
      rw [one_mul]
      refine hno j j1 (not_lt.1 (fun hlt => Nat.find_min hp j2 ⟨j1, hlt⟩)))]
    rfl

end

/-! A line of two elements on two ranks; the metric scales lengths. -/

def stripDomain (extra : Nat) : Domain ℚ where
  nranks := 2 + extra
  dim := 1
  ncomps := 1
  nElems := 2
  nEdges := 2
  verts := fun r => if r = 0 then [0, 1] else if r = 1 then [1, 2] else []
  elems := fun r => if r = 0 then [0] else if r = 1 then [1] else []
  edges := fun r => if r = 0 then [0] else if r = 1 then [1] else []
  ownedElems := none
  ownedEdges := none
  quality := fun X _ g => X (g + 1) 0 - X g 0
  length := fun X M e => (X (e + 1) 0 - X e 0) * (M e 0 + M (e + 1) 0)
  size := fun X g => X (g + 1) 0 - X g 0
  log := fun M => M
  exp := fun M => M

def stripMeasures : Measures ℚ where
  lengths := fun _ x m => match x, m with | [a, b], [p, q] => [(b - a) * (p + q)] | _, _ => []
  quals := fun _ x _ => match x with | [a, b] => [b - a] | _ => []
  linearize := id
  delinearize := id

theorem strip_owner (extra : Nat) : OneOwner (2 + extra) 2 (fun r => if r = 0 then [0] else if r = 1 then [1] else []) none := by
  refine ⟨by omega, ?_, by simp, ?_, ?_⟩
  · intro r _ g hg
    by_cases c : r = 0
    · rw [if_pos c] at hg; simp at hg; omega
    · rw [if_neg c] at hg
      by_cases c1 : r = 1
      · rw [if_pos c1] at hg; simp at hg; omega
      · rw [if_neg c1] at hg; simp at hg
  · intro g hg
    have : g = 0 ∨ g = 1 := by omega
    rcases this with rfl | rfl
    · exact ⟨0, 0, by omega, rfl, trivial⟩
    · exact ⟨1, 0, by omega, rfl, trivial⟩
  · have key : ∀ g r i : Nat, (if r = 0 then [0] else if r = 1 then [1] else [] : List Nat)[i]? = some g → r = g ∧ i = 0 := by
      intro g r i h
      by_cases c : r = 0
      · rw [if_pos c] at h
        cases i with
        | zero => exact ⟨by rw [c]; exact Option.some.inj h, rfl⟩
        | succ i => simp at h
      · rw [if_neg c] at h
        by_cases c1 : r = 1
        · rw [if_pos c1] at h
          cases i with
          | zero => exact ⟨by rw [c1]; exact Option.some.inj h, rfl⟩
          | succ i => simp at h
        · rw [if_neg c1] at h; simp at h
    intro g r i r' i' _ _ h1 h2 _ _
    obtain ⟨a, b⟩ := key g r i h1
    obtain ⟨a', b'⟩ := key g r' i' h2
    omega

theorem strip_fits (extra : Nat) : (stripDomain extra).Fits stripMeasures := by
  refine ⟨strip_owner extra, strip_owner extra, ?_, ?_, fun _ _ _ => rfl, fun _ _ _ => rfl⟩
  · intro r _ X M
    by_cases c : r = 0
    · subst c; rfl
    · by_cases c1 : r = 1
      · subst c1; rfl
      · simp [stripDomain, stripMeasures, rows, c, c1]
  · intro r _ X M
    by_cases c : r = 0
    · subst c; rfl
    · by_cases c1 : r = 1
      · subst c1; rfl
      · simp [stripDomain, stripMeasures, rows, c, c1]

/-- The ranks' data without anything cached. -/
def Spec.Domain.mesh {K : Type} (d : Domain K) (X M : Nat → Nat → K) (W T : Option (Nat → Nat → K)) : List (MovedRank K) :=
  world d.nranks (fun r => ⟨(d.verts r).length, rows d.dim (d.verts r) X, rows d.ncomps (d.verts r) M, W.map (rows d.dim (d.verts r)),
    T.map (rows d.ncomps (d.verts r)), none, none, none⟩)

theorem mesh_is {K : Type} (d : Domain K) (X M : Nat → Nat → K) (W T : Option (Nat → Nat → K)) : d.Is X M W T (d.mesh X M W T) := by
  refine ⟨by unfold Domain.mesh world; simp, ?_⟩
  intro r m hm
  have hr : r < d.nranks := by
    have := (List.getElem?_eq_some_iff.1 hm).1
    unfold Domain.mesh world at this
    simpa using this
  unfold Domain.mesh at hm
  rw [world_get _ hr] at hm
  obtain rfl := Option.some.inj hm
  exact ⟨rfl, rfl, rfl, rfl, rfl, (fun _ h => nomatch h), (fun _ h => nomatch h), (fun _ h => nomatch h)⟩

/-- Vertices at 0, 1, 2. -/
def stripX : Nat → Nat → ℚ := fun v _ => v

/-- The middle vertex is to move up by one. -/
def stripW : Nat → Nat → ℚ := fun v _ => if v = 1 then 1 else 0

def stripOpts (q : ℚ) : MoveOpts ℚ := ⟨1, q, 6⟩

theorem strip_within (extra : Nat) (q f : ℚ) (hq : q ≤ 1) (h0 : 0 ≤ f) (h1 : f ≤ 1) :
    (stripDomain extra).Within (stripOpts q) (movedBy stripX stripW f) (fun _ _ => 1) ↔ q ≤ 1 - f := by
  unfold Domain.Within
  constructor
  · intro h
    have := h.1 1 (show 1 < 2 by decide)
    simp [stripDomain, stripOpts, movedBy, stripX, stripW] at this
    linarith
  · intro h
    constructor
    · intro g hg
      have hg : g < 2 := hg
      have : g = 0 ∨ g = 1 := by omega
      rcases this with rfl | rfl <;> simp [stripDomain, stripOpts, movedBy, stripX, stripW] <;> linarith
    · intro g hg
      have hg : g < 2 := hg
      have : g = 0 ∨ g = 1 := by omega
      rcases this with rfl | rfl <;> simp [stripDomain, stripOpts, movedBy, stripX, stripW] <;> linarith

theorem strip_start : movedBy stripX stripW 0 = stripX := by
  funext v c
  simp [movedBy]

/-- After a stall the program may go on with a mesh that is outside of the limits, although the mesh was within them before. -/
theorem C67_stall_refuted (maxNiters : Nat) : ∃ (d : Domain ℚ) (ms : Measures ℚ) (o : MoveOpts ℚ) (X M W : Nat → Nat → ℚ) (mesh : List (MovedRank ℚ)),
    d.Fits ms ∧ d.Is X M (some W) none mesh ∧ d.Within o X M ∧ (∀ r, r < d.nranks → d.verts r ≠ []) ∧
    ∀ s t rt, ∃ mesh' X', warpToLimit s t rt (-1000) 1000 ms o true maxNiters mesh = some (true, mesh') ∧ d.Is X' M none none mesh' ∧ ¬d.Within o X' M := by
  have hv : ∀ r, r < (stripDomain 0).nranks → (stripDomain 0).verts r ≠ [] := by
    intro r hr
    have hr : r < 2 := hr
    have : r = 0 ∨ r = 1 := by omega
    rcases this with rfl | rfl <;> simp [stripDomain]
  have hw : (stripDomain 0).Within (stripOpts 1) stripX (fun _ _ => 1) := by
    have := (strip_within 0 1 0 (le_refl _) (le_refl _) (by norm_num)).2 (by norm_num)
    rwa [strip_start] at this
  have hno : ∀ k, ¬(stripDomain 0).Within (stripOpts 1) (movedBy stripX stripW ((1 / 2) ^ k)) (fun _ _ => 1) := by
    intro k h
    have hp : (0 : ℚ) < (1 / 2) ^ k := by positivity
    have hl : ((1 : ℚ) / 2) ^ k ≤ 1 := by simpa using half_pow_anti (K := ℚ) (Nat.zero_le k)
    have := (strip_within 0 1 _ (le_refl _) (le_of_lt hp) hl).1 h
    linarith
  refine ⟨stripDomain 0, stripMeasures, stripOpts 1, stripX, fun _ _ => 1, stripW, (stripDomain 0).mesh stripX (fun _ _ => 1) (some stripW) none,
    strip_fits 0, mesh_is _ _ _ _ _, hw, hv, ?_⟩
  intro s t rt
  have := C67_stall_partial (strip_fits 0) (o := stripOpts 1) (small := -1000) (big := 1000) rfl hv (by show (1 : ℚ) ≤ 1000; norm_num) (by show (-1000 : ℚ) ≤ 6; norm_num) s t rt true stripW
    maxNiters (mesh_is _ stripX (fun _ _ => 1) _ none) hw (fun k _ => hno k)
  rw [if_pos rfl] at this
  obtain ⟨mesh', a1, a2⟩ := this
  exact ⟨mesh', _, a1, a2, hno maxNiters⟩

/-- A mesh that could be moved without any harm is not, and the program ends, because one of the ranks has no part of it. -/
theorem C67_empty_refuted : ∃ (d : Domain ℚ) (ms : Measures ℚ) (o : MoveOpts ℚ) (X M W : Nat → Nat → ℚ) (mesh : List (MovedRank ℚ)),
    d.Fits ms ∧ d.Is X M (some W) none mesh ∧ d.Within o X M ∧ (∀ k, d.Within o (movedBy X W ((1 / 2) ^ k)) M) ∧
    ∀ s t rt exit maxNiters, warpToLimit s t rt (-1000) 1000 ms o exit maxNiters mesh = none := by
  have hw : (stripDomain 1).Within (stripOpts 0) stripX (fun _ _ => 1) := by
    have := (strip_within 1 0 0 (by norm_num) (le_refl _) (by norm_num)).2 (by norm_num)
    rwa [strip_start] at this
  refine ⟨stripDomain 1, stripMeasures, stripOpts 0, stripX, fun _ _ => 1, stripW, (stripDomain 1).mesh stripX (fun _ _ => 1) (some stripW) none,
    strip_fits 1, mesh_is _ _ _ _ _, hw, ?_, ?_⟩
  · intro k
    have hp : (0 : ℚ) < (1 / 2) ^ k := by positivity
    have hl : ((1 : ℚ) / 2) ^ k ≤ 1 := by simpa using half_pow_anti (K := ℚ) (Nat.zero_le k)
    exact (strip_within 1 0 _ (by norm_num) (le_of_lt hp) hl).2 (by linarith)
  · intro s t rt exit maxNiters
    exact C67_empty (strip_fits 1) (o := stripOpts 0) (by show (0 : ℚ) ≤ 1000; norm_num) (by show (-1000 : ℚ) ≤ 6; norm_num) (r := 2) (by decide) rfl s t rt exit stripW maxNiters
      (mesh_is _ stripX (fun _ _ => 1) _ none)

/-- With quality 1/4 required, one halving is enough; half of the way remains. -/
example : (warpToLimit (fun _ _ _ => Sched.reversed) (fun _ _ _ => Team.two) (fun _ _ => RankTree.left) (-1000) 1000 stripMeasures (stripOpts (1 / 4)) false 40
    ((stripDomain 0).mesh stripX (fun _ _ => 1) (some stripW) none)).map (fun x => (x.1, x.2.map (fun m => (m.coords, m.warp)))) =
    some (true, [([0, 3 / 2], some [0, 1 / 2]), ([3 / 2, 2], some [1 / 2, 0])]) := by decide +kernel

/-- The lengths at the target would be 8. -/
example : (approachMetric (fun _ _ => Sched.reversed) (fun _ _ _ => Team.two) (fun _ _ => RankTree.left) (-1000) 1000 (1 / 16) stripMeasures (stripOpts 0) 9
    ((stripDomain 0).mesh stripX (fun _ _ => 1) none (some (fun _ _ => 4)))).map (fun x => (x.1, x.2.map (fun m => (m.metric, m.target)))) =
    .done (true, [([5 / 2, 5 / 2], some [4, 4]), ([5 / 2, 5 / 2], some [4, 4])]) := by decide +kernel

end OmegaH
