import Verif.Lemmas.Reduce
import Verif.Lemmas.Classify
/-!
# C61: classification is derived from what is around an entity
-/
namespace OmegaH
open Spec

theorem proj_fold (relaxed : Bool) (ab2b : List Nat) (high : List (Int × Int)) (hr : ∀ h ∈ ab2b, h < high.length) :
    ∀ (n lo : Nat), lo + n ≤ ab2b.length → ∃ (L : List Nat) (H : List (Int × Int)), L.length = n ∧
      (∀ j h : Nat, L[j]? = some h → ab2b[lo + j]? = some h) ∧ L.mapM (fun h => high[h]?) = some H ∧ (∀ y ∈ H, y ∈ high) ∧
      ∀ st : ProjState, (List.range' lo n).foldlM (fun st lh => (ab2b[lh]?).bind (fun h => (high[h]?).map (projStep relaxed st))) st =
        some (H.foldl (projStep relaxed) st) := by
  intro n
  induction n with
  | zero =>
    intro lo _
    exact ⟨[], [], rfl, fun j h hj => by simp at hj, rfl, fun y hy => by simp at hy, fun st => rfl⟩
  | succ n ih =>
    intro lo hlo
    obtain ⟨L, H, h1, h2, h3, h5, h4⟩ := ih (lo + 1) (by omega)
    have hl : ab2b[lo]? = some ab2b[lo] := List.getElem?_eq_getElem (by omega)
    have hh : ab2b[lo] < high.length := hr _ (List.getElem_mem _)
    have hx : high[ab2b[lo]]? = some high[ab2b[lo]] := List.getElem?_eq_getElem hh
    refine ⟨ab2b[lo] :: L, high[ab2b[lo]] :: H, by rw [List.length_cons, h1], ?_, ?_, ?_, ?_⟩
    · intro j h hj
      rcases j with _ | j
      · obtain rfl := Option.some.inj hj
        exact hl
      · rw [show lo + (j + 1) = lo + 1 + j by omega]
        exact h2 j h hj
    · rw [List.mapM_cons, hx, h3]; rfl
    · intro y hy
      rcases List.mem_cons.1 hy with rfl | hy
      · exact List.getElem_mem _
      · exact h5 y hy
    · intro st
      rw [List.range'_succ, List.foldlM_cons, hl]
      show ((high[ab2b[lo]]?).map (projStep relaxed st)).bind _ = _
      rw [hx]
      show List.foldlM _ _ _ = _
      rw [h4]; rfl

/-- The projection on one rank. -/
theorem projectClassification_spec (s : Sched) (d nl nh : Nat) (relaxed : Bool) (up : Graph) (high low : List (Int × Int))
    (hd : d + 1 ≤ 3) (hup : IsFan up.a2ab ∧ up.a2ab.length = nl + 1 ∧ up.a2ab.getLast? = some up.ab2b.length ∧ ∀ h ∈ up.ab2b, h < nh)
    (hhigh : high.length = nh ∧ ∀ x ∈ high, ((d + 1 : Nat) : Int) ≤ x.1) (hlow : low.length = nl ∧ ∀ c ∈ low, (d : Int) ≤ c.1 ∧ c.1 ≤ 3) :
    ∃ out, projectClassification s d nl relaxed up high low = some out ∧ out.length = nl ∧ ∀ l, l < nl →
      ∃ x c L H, out[l]? = some x ∧ low[l]? = some c ∧ Around up l L ∧ L.mapM (fun h => high[h]?) = some H ∧
        (d : Int) ≤ x.1 ∧ x.1 ≤ c.1 ∧ (∀ y ∈ H, x.1 ≤ y.1) ∧ (relaxed = true ∨ ¬ Mixed c H → Derived d c H x) := by
  obtain ⟨u1, u2, u3, u4⟩ := hup
  obtain ⟨out, o1, o2, o3⟩ := parVals_spec s nl (fun l => (low[l]?).bind (fun c => (projectOne d relaxed up high c l).map (fun x => [(l, x)])))
    (fun l x => ∃ c L H, low[l]? = some c ∧ Around up l L ∧ L.mapM (fun h => high[h]?) = some H ∧
        (d : Int) ≤ x.1 ∧ x.1 ≤ c.1 ∧ (∀ y ∈ H, x.1 ≤ y.1) ∧ (relaxed = true ∨ ¬ Mixed c H → Derived d c H x)) (Mem.ofList low)
    (by rw [Mem.ofList, List.length_map]; exact hlow.1) (by
      intro l hl
      have hc : low[l]? = some low[l] := List.getElem?_eq_getElem (by omega)
      have hlo : up.a2ab[l]? = some up.a2ab[l] := List.getElem?_eq_getElem (by omega)
      have hhi : up.a2ab[l + 1]? = some up.a2ab[l + 1] := List.getElem?_eq_getElem (by omega)
      have hle := u1.2 l _ _ hlo hhi
      have hlast := fan_le u1 (show l + 1 ≤ up.a2ab.length - 1 by omega) hhi (by rw [← List.getLast?_eq_getElem?]; exact u3)
      obtain ⟨L, H, h1, h2, h3, h5, h4⟩ := proj_fold relaxed up.ab2b high (fun h hh => by rw [hhigh.1]; exact u4 h hh)
        (up.a2ab[l + 1] - up.a2ab[l]) up.a2ab[l] (by omega)
      have hone : projectOne d relaxed up high low[l] l = some (projEnd d (H.foldl (projStep relaxed) ⟨low[l].1, low[l].2, 0⟩)) := by
        unfold projectOne
        rw [hlo, Option.bind_some, hhi, Option.bind_some, h4]; rfl
      rw [hc, Option.bind_some, hone]
      refine ⟨_, rfl, low[l], L, H, rfl, ⟨_, _, hlo, hhi, by omega, h2⟩, h3, ?_⟩
      refine projEnd_spec relaxed d low[l] H hd (hlow.2 _ (List.getElem_mem _)) ?_ _ rfl
      intro x hx
      exact hhigh.2 x (h5 x hx))
  refine ⟨out, o1, o2, ?_⟩
  intro l hl
  obtain ⟨x, x1, c, L, H, rest⟩ := o3 l hl
  exact ⟨x, c, L, H, x1, rest⟩

theorem classStart_spec {W : ClassWorld} {n dim : Nat} {shared : Bool} (hW : W.Ok n dim shared) {r d : Nat} (hr : r < n) (hd : d ≤ dim) :
    ∃ out, classStart dim (W.rank r) d = some out ∧ out.length = (W.rank r).nents d ∧
      ∀ e, e < (W.rank r).nents d → ∃ c, out[e]? = some c ∧ classBefore dim (W.rank r) d e c ∧ (d : Int) ≤ c.1 ∧ c.1 ≤ dim := by
  have hsm := hW.small
  obtain ⟨dims, d1, d2, d3⟩ : ∃ dims : List Int, tagOrDefault ((W.rank r).classDim d) ((W.rank r).nents d) (wrapSigned 8 dim) = dims ∧ dims.length = (W.rank r).nents d ∧
      ∀ e, e < (W.rank r).nents d → ∃ c, dims[e]? = some c ∧ (d : Int) ≤ c ∧ c ≤ dim ∧
        (match (W.rank r).classDim d with | some a => a[e]? = some c | none => c = dim) := by
    cases h : (W.rank r).classDim d with
    | some a =>
      obtain ⟨h1, h2⟩ := hW.dims r d a hr hd h
      refine ⟨a, rfl, h1, ?_⟩
      intro e he
      obtain ⟨h3, h4⟩ := h2 a[e] (List.getElem_mem _)
      exact ⟨a[e], List.getElem?_eq_getElem (by omega), h3, h4, List.getElem?_eq_getElem (by omega)⟩
    | none =>
      refine ⟨List.replicate _ _, rfl, List.length_replicate, ?_⟩
      intro e he
      refine ⟨dim, ?_, by omega, le_refl _, rfl⟩
      rw [wrap_small (by omega) (by omega), List.getElem?_replicate, if_pos he]
  obtain ⟨ids, i1, i2, i3⟩ : ∃ ids : List Int, tagOrDefault ((W.rank r).classId d) ((W.rank r).nents d) (-1) = ids ∧ ids.length = (W.rank r).nents d ∧
      ∀ e, e < (W.rank r).nents d → ∃ c, ids[e]? = some c ∧
        (match (W.rank r).classId d with | some a => a[e]? = some c | none => c = -1) := by
    cases h : (W.rank r).classId d with
    | some a =>
      have h1 := hW.ids r d a hr hd h
      refine ⟨a, rfl, h1, ?_⟩
      intro e he
      exact ⟨a[e], List.getElem?_eq_getElem (by omega), List.getElem?_eq_getElem (by omega)⟩
    | none =>
      refine ⟨List.replicate _ _, rfl, List.length_replicate, ?_⟩
      intro e he
      exact ⟨-1, by rw [List.getElem?_replicate, if_pos he], rfl⟩
  refine ⟨dims.zip ids, ?_, by rw [List.length_zip]; omega, ?_⟩
  · unfold classStart
    dsimp only
    rw [d1, i1]
    exact if_pos (by omega)
  · intro e he
    obtain ⟨x, x1, x2, x3, x4⟩ := d3 e he
    obtain ⟨y, y1, y2⟩ := i3 e he
    refine ⟨(x, y), ?_, ⟨x4, y2⟩, x2, x3⟩
    rw [List.getElem?_zip_eq_some]
    exact ⟨x1, y1⟩

theorem finalizeRounds_spec {W : ClassWorld} {n dim : Nat} {shared : Bool} (hW : W.Ok n dim shared) (s : Nat → Nat → Nat → Sched) :
    ∀ k, k ≤ dim → ∃ cls : Nat → Nat → List (Int × Int),
      finalizeRounds s dim (fun d => ownersArg n shared (fun r => (W.rank r).nents d) (W.owner d)) (world n W.rank) k =
        some ((List.range (k + 1)).map (fun j => world n (cls (dim - k + j)))) ∧
      ∀ d, dim - k ≤ d → d ≤ dim → W.Classified n dim cls d := by
  intro k
  induction k with
  | zero =>
    intro _
    obtain ⟨start, a1, a2⟩ := onRanks_spec W.rank (fun _ m => classStart dim m dim) (fun r out => out.length = (W.rank r).nents dim ∧
      ∀ e, e < (W.rank r).nents dim → ∃ c, out[e]? = some c ∧ classBefore dim (W.rank r) dim e c ∧ (dim : Int) ≤ c.1 ∧ c.1 ≤ dim) (n := n)
      (fun r hr => classStart_spec hW hr (le_refl _))
    obtain ⟨out, b1, b2⟩ := syncValues_spec hW.size (hW.owners dim (le_refl _)) (fun r k => s dim r (k + 1)) 1 (by omega) start
      (fun r hr => by rw [(a2 r hr).1, Nat.mul_one])
    refine ⟨fun _ => out, ?_, ?_⟩
    · show (onRanks (world n W.rank) _).bind _ = _
      rw [a1, Option.bind_some, b1]
      rfl
    · intro d hd1 hd2
      obtain rfl : d = dim := by omega
      intro r hr
      refine ⟨by rw [(b2 r hr).1, Nat.mul_one], ?_⟩
      intro e he
      obtain ⟨u1, u2, u3⟩ := (hW.owners d (le_refl _)).valid r e hr he
      obtain ⟨c, c1, c2, c3, c4⟩ := (a2 _ u1).2 _ u2
      have h1 := (b2 r hr).2 e he 0 (by omega)
      rw [entry_one, entry_one] at h1
      have h2 := (b2 _ u1).2 _ u2 0 (by omega)
      rw [entry_one, entry_one, u3] at h2
      exact ⟨c, c, by rw [h1, c1], by rw [h2, c1], c2, c3, le_refl _, c4, fun _ => rfl, fun h => absurd h (lt_irrefl _)⟩
  | succ k ih =>
    intro hk
    obtain ⟨cls, h1, h2⟩ := ih (by omega)
    have hsm := hW.small
    generalize hd : dim - (k + 1) = d
    have hd1 : dim - k = d + 1 := by omega
    obtain ⟨start, a1, a2⟩ := onRanks_spec W.rank (fun _ m => classStart dim m d) (fun r out => out.length = (W.rank r).nents d ∧
      ∀ e, e < (W.rank r).nents d → ∃ c, out[e]? = some c ∧ classBefore dim (W.rank r) d e c ∧ (d : Int) ≤ c.1 ∧ c.1 ≤ dim) (n := n)
      (fun r hr => classStart_spec hW hr (by omega))
    have habove := h2 (d + 1) (by omega) (by omega)
    obtain ⟨new, n1, n2⟩ := onRanks_spec W.rank (fun r m => ((world n start)[r]?).bind (fun low => ((world n (cls (d + 1)))[r]?).bind (fun high =>
        projectClassification (s d r 0) d (m.nents d) false (m.up d) high low)))
      (fun r out => out.length = (W.rank r).nents d ∧ ∀ l, l < (W.rank r).nents d → ∃ x c L H, out[l]? = some x ∧ (start r)[l]? = some c ∧
        Around ((W.rank r).up d) l L ∧ L.mapM (fun h => (cls (d + 1) r)[h]?) = some H ∧
        (d : Int) ≤ x.1 ∧ x.1 ≤ c.1 ∧ (∀ y ∈ H, x.1 ≤ y.1) ∧ (false = true ∨ ¬ Mixed c H → Derived d c H x)) (n := n) (by
      intro r hr
      rw [world_get _ hr, Option.bind_some, world_get _ hr, Option.bind_some]
      refine projectClassification_spec (s d r 0) d ((W.rank r).nents d) ((W.rank r).nents (d + 1)) false ((W.rank r).up d) _ _ (by omega)
        (hW.up r d hr (by omega)) ⟨(habove r hr).1, ?_⟩ ⟨(a2 r hr).1, ?_⟩
      · intro x hx
        obtain ⟨e, he⟩ := List.getElem?_of_mem hx
        obtain ⟨c, x', e1, _, _, e2, _⟩ := (habove r hr).2 e (by rw [← (habove r hr).1]; exact (List.getElem?_eq_some_iff.1 he).1)
        obtain rfl := Option.some.inj (he.symm.trans e1)
        exact e2
      · intro c hc
        obtain ⟨e, he⟩ := List.getElem?_of_mem hc
        obtain ⟨c', e1, _, e2, e3⟩ := (a2 r hr).2 e (by rw [← (a2 r hr).1]; exact (List.getElem?_eq_some_iff.1 he).1)
        obtain rfl := Option.some.inj (he.symm.trans e1)
        exact ⟨e2, by omega⟩)
    obtain ⟨out, b1, b2⟩ := syncValues_spec hW.size (hW.owners d (by omega)) (fun r k => s d r (k + 1)) 1 (by omega) new
      (fun r hr => by rw [(n2 r hr).1, Nat.mul_one])
    refine ⟨fun d' => if d' = d then out else cls d', ?_, ?_⟩
    · show (finalizeRounds s dim _ (world n W.rank) k).bind _ = _
      rw [h1, Option.bind_some, List.range_succ_eq_map, List.map_cons, List.getElem?_cons_zero, Option.bind_some, hd, Nat.add_zero, hd1]
      have : finalizeBelow s dim (fun d => ownersArg n shared (fun r => (W.rank r).nents d) (W.owner d)) (world n W.rank) d
          (world n (cls (d + 1))) = some (world n out) := by
        unfold finalizeBelow
        simp only [bind, a1, Option.bind_some]
        rw [n1, Option.bind_some, b1]
      rw [this, Option.map_some, List.range_succ_eq_map (n := k + 1), List.map_cons, List.range_succ_eq_map (n := k),
        List.map_cons, List.map_cons]
      dsimp only
      rw [if_pos (show d + 0 = d from rfl), if_neg (show ¬ d + 1 = d by omega), List.map_map, List.map_map, List.map_map]
      refine congrArg (fun z => some (world n out :: world n (cls (d + 1)) :: z)) (List.map_congr_left ?_)
      intro j _
      show world n (cls (d + 1 + (j + 1))) = world n (if d + (j + 1 + 1) = d then out else cls (d + (j + 1 + 1)))
      rw [if_neg (by omega), show d + 1 + (j + 1) = d + (j + 1 + 1) by omega]
    · intro d' hd' hd''
      by_cases hdd : d' = d
      · subst hdd
        intro r hr
        simp only [if_true]
        refine ⟨by rw [(b2 r hr).1, Nat.mul_one], ?_⟩
        intro e he
        obtain ⟨u1, u2, u3⟩ := (hW.owners d' (by omega)).valid r e hr he
        obtain ⟨x, c, L, H, x1, x2, x3, x4, x5, x6, x7, x8⟩ := (n2 _ u1).2 _ u2
        obtain ⟨c', c1, c2, c3, c4⟩ := (a2 _ u1).2 _ u2
        obtain rfl := Option.some.inj (x2.symm.trans c1)
        have g1 := (b2 r hr).2 e he 0 (by omega)
        rw [entry_one, entry_one] at g1
        have g2 := (b2 _ u1).2 _ u2 0 (by omega)
        rw [entry_one, entry_one, u3] at g2
        refine ⟨c, x, by rw [g1, x1], by rw [g2, x1], c2, x5, x6, c4, fun h => by omega, fun _ => ⟨L, H, x3, ?_, x7, fun hm => x8 (Or.inr hm)⟩⟩
        rw [if_neg (by omega)]
        exact x4
      · have := h2 d' (by omega) hd''
        unfold Spec.ClassWorld.Classified at this ⊢
        simp only [if_neg hdd, if_neg (show ¬ d' + 1 = d by omega)]
        exact this

/-- Deriving the classification of a mesh gives every entity the class that follows from its surroundings; copies have the class of
their owners; model entities have at least the dimension of the entities on them and at most that of the entities around.
Missing: entities around which the number of the model entity is known for some and not for others, see `C61_order_refuted`. -/
theorem C61_derived_partial (s : Nat → Nat → Nat → Sched) (W : ClassWorld) (n dim : Nat) (shared : Bool) (hW : W.Ok n dim shared) :
    ∃ cls tags, finalizeClassification s true dim (fun d => ownersArg n shared (fun r => (W.rank r).nents d) (W.owner d)) (world n W.rank) =
        some (world n tags) ∧
      (∀ r, r < n → W.Tagged dim cls r (tags r)) ∧ ∀ d, d ≤ dim → W.Classified n dim cls d := by
  obtain ⟨cls, h1, h2⟩ := finalizeRounds_spec hW s dim (le_refl _)
  have hM : ∀ r, r < n → ((List.range (dim + 1)).map (fun j => world n (cls (dim - dim + j)))).mapM (fun a => a[r]?) =
      some ((List.range (dim + 1)).map (fun d => cls d r)) := by
    intro r hr
    rw [List.mapM_map]
    refine mapM_list_of _ (fun d => cls d r) _ ?_
    intro j _
    show (world n (cls (dim - dim + j)))[r]? = some (cls j r)
    rw [world_get _ hr, Nat.sub_self, Nat.zero_add]
  obtain ⟨tags, t1, t2⟩ := onRanks_spec W.rank (fun r m =>
      (((List.range (dim + 1)).map (fun j => world n (cls (dim - dim + j)))).mapM (fun a => a[r]?)).map (classTags dim m))
    (fun r tags => W.Tagged dim cls r tags) (n := n) (by
    intro r hr
    rw [hM r hr]
    refine ⟨_, rfl, ?_, ?_⟩
    · unfold classTags
      rw [List.length_map, List.length_map, List.length_range]
    · intro d hd
      refine ⟨_, if hasAnyIds dim (W.rank r) then some ((cls d r).map Prod.snd) else none, ?_, rfl, ?_, ?_⟩
      · unfold classTags
        rw [List.getElem?_map, List.getElem?_map, List.getElem?_range (by omega)]
        rfl
      · rintro ⟨d', a, h3, h4⟩
        refine if_pos ?_
        unfold hasAnyIds
        rw [List.any_eq_true]
        exact ⟨d', List.mem_range.2 (by omega), by rw [h4]; rfl⟩
      · intro h3
        refine if_neg ?_
        unfold hasAnyIds
        rw [List.any_eq_true]
        rintro ⟨d', h4, h5⟩
        rw [h3 d' (by have := List.mem_range.1 h4; omega)] at h5
        exact absurd h5 (by decide))
  refine ⟨cls, tags, ?_, t2, fun d hd => h2 d (by omega) hd⟩
  unfold finalizeClassification
  rw [if_pos rfl, h1, Option.bind_some, t1]

/-- The class that follows is determined, and does not depend on the order in which the entities around are listed. -/
theorem C61_determined (d : Nat) (c : Int × Int) (L L' : List (Int × Int)) (hp : L.Perm L') (x x' : Int × Int)
    (h : Derived d c L x) (h' : Derived d c L' x') : x = x' := by
  have hmem : ∀ y, y ∈ c :: L' ↔ y ∈ c :: L := fun y => (hp.cons c).symm.mem_iff
  have hat : ∀ m, atDim L' m = atDim L m := fun m => ((hp.symm.filter _).length_eq)
  obtain ⟨m, h1, h2⟩ := h
  obtain ⟨m', g1, g2⟩ := h'
  unfold LowestDim at g1
  unfold AgreedId RegularIn at g2
  simp only [hmem, hat] at g1 g2
  obtain rfl := lowestDim_unique h1 g1
  rcases h2 with ⟨i, h3, h4, rfl⟩ | ⟨h3, rfl⟩
  · rcases g2 with ⟨i', g3, g4, rfl⟩ | ⟨g3, rfl⟩
    · have : i = i' := by
        rcases h3.2 with rfl | h5
        · rcases g3.2 with rfl | g5
          · rfl
          · rcases h3.1 _ g5 with h6 | h6 <;> exact h6.symm
        · rcases g3.1 _ h5 with h6 | h6
          · subst h6
            rcases g3.2 with rfl | g5
            · rfl
            · rcases h3.1 _ g5 with h6 | h6 <;> exact h6.symm
          · exact h6
      rw [this]
    · exact absurd ⟨i, h3, h4⟩ g3
  · rcases g2 with ⟨i', g3, g4, rfl⟩ | ⟨g3, rfl⟩
    · exact absurd ⟨i', g3, g4⟩ h3
    · rfl

/-- The relaxed projection of one dimension gives every entity the class that follows, whether or not numbers are known. -/
theorem C61_relaxed (s : Sched) (d nl nh : Nat) (up : Graph) (high low : List (Int × Int))
    (hd : d + 1 ≤ 3) (hup : IsFan up.a2ab ∧ up.a2ab.length = nl + 1 ∧ up.a2ab.getLast? = some up.ab2b.length ∧ ∀ h ∈ up.ab2b, h < nh)
    (hhigh : high.length = nh ∧ ∀ x ∈ high, ((d + 1 : Nat) : Int) ≤ x.1) (hlow : low.length = nl ∧ ∀ c ∈ low, (d : Int) ≤ c.1 ∧ c.1 ≤ 3) :
    ∃ out, projectClassification s d nl true up high low = some out ∧ out.length = nl ∧ ∀ l, l < nl →
      ∃ x c L H, out[l]? = some x ∧ low[l]? = some c ∧ Around up l L ∧ L.mapM (fun h => high[h]?) = some H ∧ Derived d c H x := by
  obtain ⟨out, h1, h2, h3⟩ := projectClassification_spec s d nl nh true up high low hd hup hhigh hlow
  refine ⟨out, h1, h2, ?_⟩
  intro l hl
  obtain ⟨x, c, L, H, a1, a2, a3, a4, _, _, _, a5⟩ := h3 l hl
  exact ⟨x, c, L, H, a1, a2, a3, a4, a5 (Or.inl rfl)⟩

/-! ## A triangle -/

/-- One triangle of body 1, with the edges around the vertices `ve` in the order given, and numbers of curves for the edges. -/
def triRank (ve : List Nat) (dims ids : List Int) : ClassRank where
  nents := fun d => if d = 2 then 1 else 3
  up := fun d => if d = 0 then ⟨[0, 2, 4, 6], ve⟩ else ⟨[0, 1, 2, 3], [0, 0, 0]⟩
  classDim := fun d => if d = 1 then some dims else none
  classId := fun d => if d = 1 then some ids else if d = 2 then some [1] else none

theorem fan_of_sorted {l : List Nat} (h0 : l[0]? = some 0) (h : l.Pairwise (· ≤ ·)) : IsFan l := by
  refine ⟨h0, ?_⟩
  intro i lo hi h1 h2
  obtain ⟨a1, rfl⟩ := List.getElem?_eq_some_iff.1 h1
  obtain ⟨a2, rfl⟩ := List.getElem?_eq_some_iff.1 h2
  exact List.pairwise_iff_getElem.1 h i (i + 1) a1 a2 (by omega)

theorem triRank_ok (ve : List Nat) (dims ids : List Int) (h1 : ve.length = 6) (h2 : ∀ v ∈ ve, v < 3) (h3 : dims.length = 3)
    (h4 : ∀ x ∈ dims, (1 : Int) ≤ x ∧ x ≤ 2) (h5 : ids.length = 3) :
    (⟨fun _ => triRank ve dims ids, fun _ r e => (r, e)⟩ : ClassWorld).Ok 1 2 false where
  size := by decide
  small := by decide
  owners := fun d _ => ⟨fun r i hr hi => ⟨hr, hi, rfl⟩, fun _ _ _ _ _ => rfl⟩
  up := by
    intro r d _ hd
    obtain rfl | rfl : d = 0 ∨ d = 1 := by omega
    · exact ⟨fan_of_sorted (l := [0, 2, 4, 6]) rfl (by decide), rfl, by show some 6 = some ve.length; rw [h1], h2⟩
    · exact ⟨fan_of_sorted (l := [0, 1, 2, 3]) rfl (by decide), rfl, rfl, by show ∀ h ∈ [0, 0, 0], h < 1; decide⟩
  dims := by
    intro r d a _ hd ha
    have ha : (if d = 1 then some dims else none) = some a := ha
    split at ha
    · next h =>
      subst h
      obtain rfl := Option.some.inj ha
      exact ⟨h3, h4⟩
    · simp at ha
  ids := by
    intro r d a _ hd ha
    have ha : (if d = 1 then some ids else if d = 2 then some [1] else none) = some a := ha
    split at ha
    · next h =>
      subst h
      obtain rfl := Option.some.inj ha
      exact h5
    · split at ha
      · next h =>
        subst h
        obtain rfl := Option.some.inj ha
        rfl
      · simp at ha

example (s : Nat → Nat → Nat → Sched) := C61_derived_partial s _ 1 2 false
  (triRank_ok [0, 2, 0, 1, 1, 2] [1, 1, 1] [7, 7, 9] rfl (by decide) rfl (by decide) rfl)

/-- Two edges are on curve 7, one on curve 9: the vertex between the first two is on curve 7, the others are corners. -/
example : finalizeClassification (fun _ _ _ => Sched.reversed) true 2 (fun _ => none) [triRank [0, 2, 0, 1, 1, 2] [1, 1, 1] [7, 7, 9]] =
    some [[([0, 1, 0], some [-1, 7, -1]), ([1, 1, 1], some [7, 7, 9]), ([2], some [1])]] := by decide +kernel

/-- Two numberings of the edges of one triangle, of which the edge between vertices 0 and 1 is on curve 7 and nothing is known about
the others: `σ` gives the second number of an edge. The vertices 0 and 1 are corners in the first numbering and inside the curve in the second. -/
theorem C61_order_refuted : ∃ (A B : ClassWorld) (σ : Nat → Nat), A.Ok 1 2 false ∧ B.Ok 1 2 false ∧
    (∀ v, v < 3 → ∃ L L', Around ((A.rank 0).up 0) v L ∧ Around ((B.rank 0).up 0) v L' ∧ (L.map σ).Perm L') ∧
    (∀ e, e < 3 → ∃ L, Around ((A.rank 0).up 1) e L ∧ Around ((B.rank 0).up 1) (σ e) L) ∧
    (∀ e, e < 3 → ∀ c, classBefore 2 (A.rank 0) 1 e c ↔ classBefore 2 (B.rank 0) 1 (σ e) c) ∧
    (∀ d e c, d ≠ 1 → (classBefore 2 (A.rank 0) d e c ↔ classBefore 2 (B.rank 0) d e c)) ∧
    (finalizeClassification (fun _ _ _ => Sched.serial) true 2 (fun _ => none) [A.rank 0]).bind (fun x => (x[0]?).bind (fun x => x[0]?)) =
      some ([0, 0, 1], some [-1, -1, -1]) ∧
    (finalizeClassification (fun _ _ _ => Sched.serial) true 2 (fun _ => none) [B.rank 0]).bind (fun x => (x[0]?).bind (fun x => x[0]?)) =
      some ([1, 1, 1], some [7, 7, -1]) := by
  refine ⟨_, _, fun e => 2 - e, triRank_ok [0, 2, 0, 1, 1, 2] [1, 2, 2] [7, -1, -1] rfl (by decide) rfl (by decide) rfl,
    triRank_ok [0, 2, 1, 2, 0, 1] [2, 2, 1] [-1, -1, 7] rfl (by decide) rfl (by decide) rfl, ?_, ?_, ?_, ?_, by decide +kernel, by decide +kernel⟩
  · intro v hv
    have key : ∀ (ve : List Nat) (a b : Nat), ve[2 * v]? = some a → ve[2 * v + 1]? = some b → Around (⟨[0, 2, 4, 6], ve⟩ : Graph) v [a, b] := by
      intro ve a b ha hb
      refine ⟨2 * v, 2 * v + 2, ?_, ?_, rfl, ?_⟩
      · obtain rfl | rfl | rfl : v = 0 ∨ v = 1 ∨ v = 2 := by omega
        all_goals rfl
      · obtain rfl | rfl | rfl : v = 0 ∨ v = 1 ∨ v = 2 := by omega
        all_goals rfl
      · intro j h hj
        rcases j with _ | _ | j
        · obtain rfl := Option.some.inj hj; exact ha
        · obtain rfl := Option.some.inj hj; exact hb
        · simp at hj
    obtain rfl | rfl | rfl : v = 0 ∨ v = 1 ∨ v = 2 := by omega
    · exact ⟨_, _, key _ 0 2 rfl rfl, key _ 0 2 rfl rfl, by decide⟩
    · exact ⟨_, _, key _ 0 1 rfl rfl, key _ 1 2 rfl rfl, by decide⟩
    · exact ⟨_, _, key _ 1 2 rfl rfl, key _ 0 1 rfl rfl, by decide⟩
  · intro e he
    have key : ∀ e, e < 3 → Around (⟨[0, 1, 2, 3], [0, 0, 0]⟩ : Graph) e [0] := by
      intro e he
      refine ⟨e, e + 1, ?_, ?_, rfl, ?_⟩
      · obtain rfl | rfl | rfl : e = 0 ∨ e = 1 ∨ e = 2 := by omega
        all_goals rfl
      · obtain rfl | rfl | rfl : e = 0 ∨ e = 1 ∨ e = 2 := by omega
        all_goals rfl
      · intro j h hj
        rcases j with _ | j
        · obtain rfl := Option.some.inj hj
          obtain rfl | rfl | rfl : e = 0 ∨ e = 1 ∨ e = 2 := by omega
          all_goals rfl
        · simp at hj
    exact ⟨[0], key e he, key (2 - e) (by omega)⟩
  · intro e he c
    obtain rfl | rfl | rfl : e = 0 ∨ e = 1 ∨ e = 2 := by omega
    all_goals exact Iff.rfl
  · intro d e c hd
    unfold classBefore triRank
    simp only [if_neg hd]

end OmegaH
