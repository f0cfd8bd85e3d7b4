import Verif.Model.Swap3d
import Verif.Lemmas.Relabel
import Verif.Lemmas.Blocks
import Verif.Lemmas.Offsets
import Verif.Props.C35
/-!
# C48 — swapping an edge in 3D keeps the outer surface of the tets it replaces
-/
namespace OmegaH
open Spec

/-- Renaming vertices commutes with making the new entities. -/
theorem swap3dProds_map (f : Nat → Nat) (eev verts : List Nat) (config : Nat) :
    swap3dProds (eev.map f) (verts.map f) config = (swap3dProds eev verts config).map
      (fun X => (X.1.map (List.map f), X.2.1.map (List.map f), X.2.2.map (List.map f))) := by
  have hm : ∀ {α : Type} (l : List α) (g : α → Option (List Nat)) ,
      l.mapM (fun x => (g x).map (List.map f)) = (l.mapM g).map (List.map (List.map f)) := by
    intro α l g
    induction l with
    | nil => rfl
    | cons a l ih =>
      rw [List.mapM_cons, List.mapM_cons, ih]
      cases g a with
      | none => rfl
      | some v => cases l.mapM g <;> rfl
  unfold swap3dProds
  simp only [List.length_map, mapM_lookup_map]
  cases h1 : swapMeshSizes[verts.length]? with
  | none => rfl
  | some ntris =>
  cases h2 : swapNedges[verts.length]? with
  | none => rfl
  | some nedges =>
  simp only [bind, Option.bind_some, pure]
  have e1 : (List.range nedges).mapM (fun pe =>
      (edges2Unique verts.length).bind fun a => a[config]?.bind fun b => b[pe]?.bind fun u =>
        (uniqueEdges verts.length).bind fun c => c[u]?.bind fun d =>
          (d.mapM (fun l => verts[l]?)).map (List.map f)) =
      ((List.range nedges).mapM (fun pe =>
      (edges2Unique verts.length).bind fun a => a[config]?.bind fun b => b[pe]?.bind fun u =>
        (uniqueEdges verts.length).bind fun c => c[u]?.bind fun d =>
          (d.mapM (fun l => verts[l]?)))).map (List.map (List.map f)) := by
    rw [← hm]
    congr 1
    funext pe
    simp only [Option.map_bind, Function.comp_def]
  have e2 : (List.range ntris).mapM (fun pt =>
      (swapMeshes verts.length).bind fun a => a[config * ntris + pt]?.bind fun u =>
        (swapTriangles verts.length).bind fun c => c[u]?.bind fun d =>
          (d.mapM (fun l => verts[l]?)).map (List.map f)) =
      ((List.range ntris).mapM (fun pt =>
      (swapMeshes verts.length).bind fun a => a[config * ntris + pt]?.bind fun u =>
        (swapTriangles verts.length).bind fun c => c[u]?.bind fun d =>
          (d.mapM (fun l => verts[l]?)))).map (List.map (List.map f)) := by
    rw [← hm]
    congr 1
    funext pe
    simp only [Option.map_bind, Function.comp_def]
  rw [e1, e2]
  cases (List.range nedges).mapM (fun pe =>
      (edges2Unique verts.length).bind fun a => a[config]?.bind fun b => b[pe]?.bind fun u =>
        (uniqueEdges verts.length).bind fun c => c[u]?.bind fun d =>
          (d.mapM (fun l => verts[l]?))) with
  | none => rfl
  | some E =>
  cases (List.range ntris).mapM (fun pt =>
      (swapMeshes verts.length).bind fun a => a[config * ntris + pt]?.bind fun u =>
        (swapTriangles verts.length).bind fun c => c[u]?.bind fun d =>
          (d.mapM (fun l => verts[l]?))) with
  | none => rfl
  | some T =>
  simp only [Option.map_some, Option.bind_some, List.getElem?_map]
  cases eev[0]? with
  | none => rfl
  | some e0 =>
  cases eev[1]? with
  | none => rfl
  | some e1 =>
  simp only [Option.map_some, Option.bind_some]
  have e3 : (T.map (List.map f)).mapM (planeTets (f e0) (f e1)) =
      (T.mapM (planeTets e0 e1)).map (List.map (List.map (List.map f))) := by
    have h1 : ∀ t : List Nat, planeTets (f e0) (f e1) (t.map f) =
        (planeTets e0 e1 t).map (List.map (List.map f)) := by
      intro t
      match t with
      | [] => rfl
      | [_] => rfl
      | [_, _] => rfl
      | [_, _, _] => rfl
      | _ :: _ :: _ :: _ :: _ => rfl
    induction T with
    | nil => rfl
    | cons t T ih =>
      rw [List.map_cons, List.mapM_cons, List.mapM_cons, ih, h1]
      cases planeTets e0 e1 t with
      | none => rfl
      | some v => cases T.mapM (planeTets e0 e1) <;> rfl
  rw [e3]
  cases T.mapM (planeTets e0 e1) with
  | none => rfl
  | some Q =>
    simp only [Option.map_some, Option.bind_some, Option.some.injEq, Prod.mk.injEq, true_and]
    refine ⟨?_, ?_⟩
    · simp only [List.map_append, List.map_flatMap, List.flatMap_map]
      congr 1
      congr 1
      funext e
      simp
    · simp [List.map_flatten]

/-- Around the edge from `n` to `n + 1` with the loop `0 … n-1`. -/
def fanTets (n : Nat) : List (List Nat) := (cycleEdges (List.range n)).map (fun e => [n, n + 1, e.1, e.2])

private theorem swap_table : ∀ n ∈ List.range' 3 5, ∀ c ∈ List.range (swapMeshCounts.getD n 0),
    (swap3dProds [n, n + 1] (List.range n) c).any (fun X => sameBoundaryB X.2.2 (fanTets n)) = true := by
  decide +kernel

private theorem listed_table : ∀ n ∈ List.range' 3 5, ∀ c ∈ List.range (swapMeshCounts.getD n 0),
    (swap3dProds [n, n + 1] (List.range n) c).any (fun X => decide (TrisListed X.2.1 X.2.2) &&
      decide (FacesAccounted (fanTets n) X.2.1 X.2.2) && decide (EdgesListed (fanTets n) X.1 X.2.2)) = true := by
  decide +kernel

theorem hasAll_map {f : Nat → Nat} (hf : Function.Injective f) (t q : List Nat) :
    HasAll (t.map f) (q.map f) ↔ HasAll t q := by
  unfold HasAll
  simp only [List.mem_map]
  constructor
  · intro h v hv
    obtain ⟨w, hw, e⟩ := h (f v) ⟨v, hv, rfl⟩
    rw [← hf e]; exact hw
  · rintro h _ ⟨v, hv, rfl⟩
    exact ⟨v, h v hv, rfl⟩

theorem countP_hasAll_map {f : Nat → Nat} (hf : Function.Injective f) (t : List Nat) (Q : List (List Nat)) :
    (Q.map (List.map f)).countP (fun q => decide (HasAll (t.map f) q)) =
      Q.countP (fun q => decide (HasAll t q)) := by
  rw [List.countP_map]
  congr 1
  funext q
  simp only [Function.comp_apply, hasAll_map hf]

theorem trisListed_map {f : Nat → Nat} (hf : Function.Injective f) {T Q : List (List Nat)}
    (h : TrisListed T Q) : TrisListed (T.map (List.map f)) (Q.map (List.map f)) := by
  obtain ⟨h1, h2⟩ := h
  refine ⟨?_, ?_⟩
  · intro t' ht'
    obtain ⟨t, ht, rfl⟩ := List.mem_map.1 ht'
    obtain ⟨a, b, c⟩ := h1 t ht
    exact ⟨by rw [List.length_map, a], b.map hf, by rw [countP_hasAll_map hf, c]⟩
  · rw [List.pairwise_map]
    exact h2.imp (fun h => by rw [hasAll_map hf]; exact h)

theorem facesAccounted_map {f : Nat → Nat} (hf : Function.Injective f) {old T Q : List (List Nat)}
    (h : FacesAccounted old T Q) :
    FacesAccounted (old.map (List.map f)) (T.map (List.map f)) (Q.map (List.map f)) := by
  intro q' hq'
  obtain ⟨q, hq, rfl⟩ := List.mem_map.1 hq'
  obtain ⟨a, b, c⟩ := h q hq
  refine ⟨by rw [List.length_map, a], b.map hf, ?_⟩
  intro i hi
  simp only [List.eraseIdx_map]
  rcases c i hi with ⟨t, ht, d⟩ | ⟨d, e⟩
  · left
    exact ⟨t.map f, List.mem_map_of_mem ht, (hasAll_map hf _ _).2 d⟩
  · right
    exact ⟨by rw [countP_hasAll_map hf, d], by rw [countP_hasAll_map hf, e]⟩

theorem edgesListed_map {f : Nat → Nat} (hf : Function.Injective f) {old E Q : List (List Nat)}
    (h : EdgesListed old E Q) :
    EdgesListed (old.map (List.map f)) (E.map (List.map f)) (Q.map (List.map f)) := by
  obtain ⟨h1, h2, h3⟩ := h
  refine ⟨?_, ?_, ?_⟩
  · intro t' ht'
    obtain ⟨t, ht, rfl⟩ := List.mem_map.1 ht'
    obtain ⟨a, b, ⟨q, hq, c⟩, d⟩ := h1 t ht
    refine ⟨by rw [List.length_map, a], b.map hf, ⟨q.map f, List.mem_map_of_mem hq, (hasAll_map hf _ _).2 c⟩, ?_⟩
    intro r' hr'
    obtain ⟨r, hr, rfl⟩ := List.mem_map.1 hr'
    rw [hasAll_map hf]; exact d r hr
  · rw [List.pairwise_map]
    exact h2.imp (fun h => by rw [hasAll_map hf]; exact h)
  · intro q' hq' a' ha' b' hb'
    obtain ⟨q, hq, rfl⟩ := List.mem_map.1 hq'
    obtain ⟨a, ha, rfl⟩ := List.mem_map.1 ha'
    obtain ⟨b, hb, rfl⟩ := List.mem_map.1 hb'
    rcases h3 q hq a ha b hb with h | ⟨e, he, h⟩ | ⟨r, hr, h⟩
    · exact Or.inl (congrArg f h)
    · exact Or.inr (Or.inl ⟨e.map f, List.mem_map_of_mem he, (hasAll_map hf [a, b] e).2 h⟩)
    · exact Or.inr (Or.inr ⟨r.map f, List.mem_map_of_mem hr, (hasAll_map hf [a, b] r).2 h⟩)

theorem sameTet_mem {row tet : List Nat} (h : SameTet row tet) (v : Nat) : v ∈ row ↔ v ∈ tet := by
  obtain ⟨o, h1, h2, h3, h4, h5⟩ := h
  have hol : o.length = 4 := by rw [h1.length_eq]; rfl
  constructor
  · intro h
    obtain ⟨i, hi⟩ := List.mem_iff_getElem?.1 h
    have := (List.getElem?_eq_some_iff.1 hi).1
    rw [h5 i _ (List.getElem?_eq_getElem (show i < o.length by omega))] at hi
    exact List.mem_of_getElem? hi
  · intro h
    obtain ⟨j, hj⟩ := List.mem_iff_getElem?.1 h
    have hj4 := (List.getElem?_eq_some_iff.1 hj).1
    have : j ∈ o := by rw [h1.mem_iff]; simp; omega
    obtain ⟨i, hi⟩ := List.mem_iff_getElem?.1 this
    rw [← h5 i j hi] at hj
    exact List.mem_of_getElem? hj

/-- The tets found around the edge compared with the standard fan on the same names. -/
theorem surrounds_fan {p q : Nat} {l : List Nat} {rows : List (List Nat)} (h : Surrounds p q l rows)
    (k : Nat) : let f := naming (l.rotate k ++ [p, q])
    Function.Injective f ∧ [l.length, l.length + 1].map f = [p, q] ∧
    (List.range l.length).map f = l.rotate k ∧
    SameBoundary ((fanTets l.length).map (List.map f)) rows ∧
    (∀ t : List Nat, ((fanTets l.length).map (List.map f)).countP (fun r => decide (HasAll t r)) =
      rows.countP (fun r => decide (HasAll t r))) := by
  intro f
  obtain ⟨hnd, h3, es, hp, hall⟩ := h
  have hLnd : (l.rotate k ++ [p, q]).Nodup := by
    have : (l.rotate k ++ [p, q]).Perm (p :: q :: l) :=
      (List.perm_append_comm).trans ((List.Perm.refl [p, q]).append (List.rotate_perm l k))
    exact this.nodup_iff.2 hnd
  have hf : Function.Injective f := naming_injective hLnd
  have hr : (l.rotate k).length = l.length := List.length_rotate ..
  have e1 : [l.length, l.length + 1].map f = [p, q] := by
    have a1 : f l.length = p := naming_get (by rw [List.getElem?_append_right (by omega), hr]; simp)
    have a2 : f (l.length + 1) = q := naming_get (by rw [List.getElem?_append_right (by omega), hr]; simp)
    simp [a1, a2]
  have e2 : (List.range l.length).map f = l.rotate k := by
    apply List.ext_getElem?
    intro i
    by_cases hi : i < l.length
    · rw [List.getElem?_map, List.getElem?_range hi, List.getElem?_eq_getElem (show i < (l.rotate k).length by omega)]
      exact congrArg some (naming_get (by
        rw [List.getElem?_append_left (by omega), List.getElem?_eq_getElem (by omega)]))
    · rw [List.getElem?_eq_none (by simpa using hi), List.getElem?_eq_none (by omega)]
  have e3 : (fanTets l.length).map (List.map f) =
      (cycleEdges (l.rotate k)).map (fun e => [p, q, e.1, e.2]) := by
    unfold fanTets
    rw [← e2, List.map_map]
    have hc : cycleEdges ((List.range l.length).map f) =
        (cycleEdges (List.range l.length)).map (fun e => (f e.1, f e.2)) := by
      rw [cycleEdges_eq, cycleEdges_eq, ← List.map_rotate, List.zipWith_map, List.map_zipWith]
    rw [hc, List.map_map]
    apply List.map_congr_left
    intro e _
    simp only [List.map_cons, List.map_nil, List.cons.injEq, and_true] at e1
    simp [e1.1, e1.2]
  have hperm : ((cycleEdges (l.rotate k)).map (fun e => [p, q, e.1, e.2])).Perm
      (es.map (fun e => [p, q, e.1, e.2])) := by
    rw [cycleEdges_rotate]
    exact ((List.rotate_perm _ _).trans hp.symm).map _
  refine ⟨hf, e1, e2, ?_, ?_⟩
  · rw [e3]
    refine SameBoundary_trans (SameBoundary_of_perm hperm) ?_
    intro φ hφ
    clear hp hperm
    induction hall with
    | nil => rfl
    | cons h _ ih =>
      simp only [List.map_cons, List.sum_cons]
      rw [ih]
      have := sameTet_boundary h φ hφ
      simp only [List.map_cons, List.map_nil, List.sum_cons, List.sum_nil, Int.add_zero] at this
      rw [this]
  · intro t
    rw [e3, hperm.countP_eq]
    clear hp hperm
    induction hall with
    | nil => rfl
    | cons h _ ih =>
      rw [List.map_cons, List.countP_cons, List.countP_cons, ih]
      congr 1
      have : (HasAll t [p, q, _, _]) ↔ HasAll t _ := forall₂_congr (fun v _ => (sameTet_mem h v).symm)
      simp only [this]

/-- **C48.** The tets put in place of those around an edge — for every closed fan of 3 to 7 tets, in
whatever order and numbering, and every configuration — have the same oriented outer surface; the new
triangles and edges that are listed are exactly the interior ones, and every other face of a new tet is
a face of exactly one old tet. -/
theorem C48_same_surface {p q : Nat} {l : List Nat} {rows : List (List Nat)} (h : Surrounds p q l rows)
    (h7 : l.length ≤ 7) (k c : Nat) (hc : c < swapMeshCounts.getD l.length 0) :
    ∃ E T Q, swap3dProds [p, q] (l.rotate k) c = some (E, T, Q) ∧ SameBoundary Q rows ∧
      TrisListed T Q ∧ FacesAccounted rows T Q ∧ EdgesListed rows E Q := by
  have h3 := h.2.1
  obtain ⟨hf, e1, e2, e3, e4⟩ := surrounds_fan h k
  generalize naming (l.rotate k ++ [p, q]) = f at hf e1 e2 e3 e4
  have hn : l.length ∈ List.range' 3 5 := by rw [List.mem_range'_1]; omega
  have t1 := swap_table l.length hn c (List.mem_range.2 hc)
  have t2 := listed_table l.length hn c (List.mem_range.2 hc)
  rw [Option.any_eq_true] at t1 t2
  obtain ⟨X, x1, x2⟩ := t1
  obtain ⟨X', x1', x3⟩ := t2
  rw [x1] at x1'
  obtain rfl := Option.some.inj x1'
  simp only [Bool.and_eq_true, decide_eq_true_eq] at x3
  obtain ⟨⟨x3, x4⟩, x5⟩ := x3
  have hp := swap3dProds_map f [l.length, l.length + 1] (List.range l.length) c
  rw [e1, e2, x1] at hp
  refine ⟨_, _, _, hp, ?_, trisListed_map hf x3, ?_, ?_⟩
  · exact SameBoundary_trans (SameBoundary_map (sameBoundary_of_check x2) f) e3
  · intro q hq
    obtain ⟨a, b, d⟩ := facesAccounted_map hf x4 q hq
    refine ⟨a, b, ?_⟩
    intro i hi
    rcases d i hi with d | d
    · exact Or.inl d
    · rw [e4] at d; exact Or.inr d
  · have hex : ∀ t, (∃ r ∈ (fanTets l.length).map (List.map f), HasAll t r) ↔ ∃ r ∈ rows, HasAll t r := by
      intro t
      have := e4 t
      constructor
      · rintro ⟨r, hr, h⟩
        have hpos : 0 < ((fanTets l.length).map (List.map f)).countP (fun r => decide (HasAll t r)) :=
          List.countP_pos_iff.2 ⟨r, hr, by simpa using h⟩
        rw [this] at hpos
        obtain ⟨r, hr, h⟩ := List.countP_pos_iff.1 hpos
        exact ⟨r, hr, by simpa using h⟩
      · rintro ⟨r, hr, h⟩
        have hpos : 0 < rows.countP (fun r => decide (HasAll t r)) :=
          List.countP_pos_iff.2 ⟨r, hr, by simpa using h⟩
        rw [← this] at hpos
        obtain ⟨r, hr, h⟩ := List.countP_pos_iff.1 hpos
        exact ⟨r, hr, by simpa using h⟩
    obtain ⟨a, b, d⟩ := edgesListed_map hf x5
    refine ⟨?_, b, ?_⟩
    · intro e he
      obtain ⟨a1, a2, a3, a4⟩ := a e he
      refine ⟨a1, a2, a3, ?_⟩
      intro r hr h
      obtain ⟨r', hr', h'⟩ := (hex e).2 ⟨r, hr, h⟩
      exact a4 r' hr' h'
    · intro q hq x hx y hy
      rcases d q hq x hx y hy with h | h | h
      · exact Or.inl h
      · exact Or.inr (Or.inl h)
      · exact Or.inr (Or.inr ((hex _).1 h))

/-- With the loop found by `find_loop`. -/
theorem C48_swap_one_key (e2et et2t : List Nat) (codes : List Int) (ev2v tv2v keys2edges configs : List Nat)
    (key edge lo p q c : Nat) (l : List Nat) (rows : List (List Nat))
    (hkey : keys2edges[key]? = some edge) (hconf : configs[edge]? = some c)
    (hlo : e2et[edge]? = some lo) (hhi : e2et[edge + 1]? = some (lo + l.length))
    (hev : rowAt ev2v 2 edge = some [p, q])
    (htets : ∀ (k : Nat) r, rows[k]? = some r → ∃ t c, et2t[lo + k]? = some t ∧ codes[lo + k]? = some c ∧
      row tv2v 4 t = r ∧ Spec.EdgeCode c r p q)
    (hsur : Surrounds p q l rows) (h7 : l.length ≤ 7) (hc : c < swapMeshCounts.getD l.length 0) :
    ∃ E T Q, swap3dKeyProds e2et et2t codes ev2v tv2v keys2edges configs key = some (E, T, Q) ∧
      SameBoundary Q rows ∧ TrisListed T Q ∧ FacesAccounted rows T Q ∧ EdgesListed rows E Q := by
  obtain ⟨k, hk⟩ := C35_find_loop e2et et2t codes ev2v tv2v edge lo p q l rows hlo hhi hev htets hsur h7
  obtain ⟨E, T, Q, h1, h2⟩ := C48_same_surface hsur h7 k c hc
  refine ⟨E, T, Q, ?_, h2⟩
  unfold swap3dKeyProds
  simp only [hkey, hconf, hk, bind, Option.bind_some, h1]

private theorem row_lengths : ∀ n ∈ List.range 8,
    (uniqueEdges n).all (fun T => T.all (fun r => r.length == 2)) = true ∧
    (swapTriangles n).all (fun T => T.all (fun r => r.length == 3)) = true := by decide +kernel

theorem mapM_rows {α : Type} (l : List α) (g : α → Option (List Nat)) (w : Nat)
    (h : ∀ x ∈ l, ∀ r, g x = some r → r.length = w) {L : List (List Nat)} (hL : l.mapM g = some L) :
    L.length = l.length ∧ ∀ r ∈ L, r.length = w := by
  induction l generalizing L with
  | nil => simp only [List.mapM_nil, pure, Option.some.injEq] at hL; subst hL; simp
  | cons a l ih =>
    rw [List.mapM_cons] at hL
    cases ha : g a with
    | none => rw [ha] at hL; exact absurd hL (by simp)
    | some v =>
      cases hm : l.mapM g with
      | none => rw [ha, hm] at hL; exact absurd hL (by simp)
      | some L' =>
        rw [ha, hm] at hL
        simp only [pure, bind, Option.bind_some, Option.some.injEq] at hL
        obtain ⟨h1, h2⟩ := ih (fun x hx => h x (List.mem_cons_of_mem _ hx)) hm
        subst hL
        refine ⟨by simp [h1], ?_⟩
        intro r hr
        rcases List.mem_cons.1 hr with rfl | hr
        · exact h a (by simp) _ ha
        · exact h2 r hr

/-- Numbers of the new entities and of their vertices. -/
theorem swap3dProds_lengths {eev verts : List Nat} {c : Nat} {E T Q : List (List Nat)}
    (h : swap3dProds eev verts c = some (E, T, Q)) :
    ∃ ntris nedges, swapMeshSizes[verts.length]? = some ntris ∧ swapNedges[verts.length]? = some nedges ∧
      E.length = nedges ∧ T.length = ntris + 2 * nedges ∧ Q.length = 2 * ntris ∧
      (∀ e ∈ E, e.length = 2) ∧ (∀ t ∈ T, t.length = 3) ∧ ∀ q ∈ Q, q.length = 4 := by
  unfold swap3dProds at h
  simp only [bind, Option.bind_eq_some_iff, pure, Option.some.injEq, Prod.mk.injEq] at h
  obtain ⟨ntris, h1, nedges, h2, E', hE, T', hT, e0, _, e1, _, Q', hQ, rfl, rfl, rfl⟩ := h
  have h8 : verts.length ∈ List.range 8 := List.mem_range.2 (List.getElem?_eq_some_iff.1 h1).1
  obtain ⟨t1, t2⟩ := row_lengths _ h8
  have hl : ∀ ls r : List Nat, (ls.mapM (fun l => verts[l]?)) = some r → r.length = ls.length := by
    intro ls
    induction ls with
    | nil => intro r h; simp only [List.mapM_nil, pure, Option.some.injEq] at h; subst h; rfl
    | cons a ls ih =>
      intro r h
      rw [List.mapM_cons] at h
      simp only [bind, Option.bind_eq_some_iff, pure, Option.some.injEq] at h
      obtain ⟨x, _, r', hr', rfl⟩ := h
      simp [ih r' hr']
  obtain ⟨a1, a2⟩ := mapM_rows _ _ 2 (by
    intro x hx r hr
    simp only [Option.bind_eq_some_iff] at hr
    obtain ⟨_, _, _, _, u, _, Ue, hU, d, hd, hr⟩ := hr
    rw [hl _ _ hr]
    rw [hU] at t1
    simp only [Option.all_some, List.all_eq_true, beq_iff_eq] at t1
    exact t1 d (List.mem_of_getElem? hd)) hE
  obtain ⟨b1, b2⟩ := mapM_rows _ _ 3 (by
    intro x hx r hr
    simp only [Option.bind_eq_some_iff] at hr
    obtain ⟨_, _, u, _, Ut, hU, d, hd, hr⟩ := hr
    rw [hl _ _ hr]
    rw [hU] at t2
    simp only [Option.all_some, List.all_eq_true, beq_iff_eq] at t2
    exact t2 d (List.mem_of_getElem? hd)) hT
  rw [List.length_range] at a1 b1
  have hQ' : Q'.length = T'.length ∧ ∀ x ∈ Q', x.length = 2 ∧ ∀ r ∈ x, r.length = 4 := by
    clear hT b1
    induction T' generalizing Q' with
    | nil => simp only [List.mapM_nil, pure, Option.some.injEq] at hQ; subst hQ; simp
    | cons t T' ih =>
      rw [List.mapM_cons] at hQ
      simp only [bind, Option.bind_eq_some_iff, pure, Option.some.injEq] at hQ
      obtain ⟨x, hx, r', hr', rfl⟩ := hQ
      obtain ⟨i1, i2⟩ := ih r' hr' (fun t ht => b2 t (List.mem_cons_of_mem _ ht))
      refine ⟨by simp [i1], ?_⟩
      intro y hy
      rcases List.mem_cons.1 hy with rfl | hy
      · unfold planeTets at hx
        split at hx
        · obtain rfl := Option.some.inj hx
          simp
        · exact absurd hx (by simp)
      · exact i2 y hy
  refine ⟨ntris, nedges, h1, h2, a1, ?_, ?_, a2, ?_, ?_⟩
  · rw [List.length_append, b1, List.length_flatMap]
    have : (E'.map (fun e => [e ++ [e0], e ++ [e1]].length)).sum = 2 * E'.length := by
      clear hE a1 a2
      induction E' with
      | nil => rfl
      | cons e E' ih => rw [List.map_cons, List.sum_cons, ih, List.length_cons]; simp only [List.length_cons, List.length_nil]; omega
    rw [this, a1]; omega
  · rw [List.length_flatten]
    have : (Q'.map List.length).sum = 2 * Q'.length := by
      have h2 := hQ'.2
      clear hQ hQ'
      induction Q' with
      | nil => rfl
      | cons x Q' ih =>
        rw [List.map_cons, List.sum_cons, ih (fun y hy => h2 y (List.mem_cons_of_mem _ hy)),
          (h2 x (by simp)).1, List.length_cons]
        omega
    rw [this, hQ'.1, b1]
  · intro t ht
    rcases List.mem_append.1 ht with h | h
    · obtain ⟨e, he, h⟩ := List.mem_flatMap.1 h
      have := a2 e he
      simp only [List.mem_cons, List.not_mem_nil, or_false] at h
      rcases h with rfl | rfl <;> simp [this]
    · exact b2 t h
  · intro q hq
    obtain ⟨x, hx, h⟩ := List.mem_flatten.1 hq
    exact (hQ'.2 x hx).2 q h

theorem flatten_length_const {w : Nat} : ∀ (L : List (List Nat)), (∀ r ∈ L, r.length = w) →
    L.flatten.length = L.length * w := by
  intro L
  induction L with
  | nil => intro _; simp
  | cons a L ih =>
    intro h
    rw [List.flatten_cons, List.length_append, ih (fun r hr => h r (List.mem_cons_of_mem _ hr)),
      h a (by simp), List.length_cons, Nat.succ_mul]
    omega

/-- Layout of one dimension's products: `keys2prods` holds the offsets of consecutive keys, and the
vertices of key `k`'s products are stored at these offsets. -/
theorem swap3d_layout (s s' : Sched) (e2et keys2edges : List Nat)
    (prods : Nat → Option (List (List Nat) × List (List Nat) × List (List Nat)))
    (dim : Nat) (cnt : Nat × Nat × Nat → Nat)
    (sel : List (List Nat) × List (List Nat) × List (List Nat) → List (List Nat))
    (P : Nat → List (List Nat) × List (List Nat) × List (List Nat))
    (hP : ∀ k, k < keys2edges.length → prods k = some (P k) ∧
      (∃ c, swap3dKeyCounts e2et keys2edges k = some c ∧ cnt c = (sel (P k)).length) ∧
      ∀ r ∈ sel (P k), r.length = dim + 1) :
    ∃ k2p, swap3dKeysToProds s e2et keys2edges cnt = some k2p ∧
      (∀ k, k ≤ keys2edges.length → k2p[k]? = some (((List.range k).map (fun i => (sel (P i)).length)).sum)) ∧
      swap3dTopology s' prods keys2edges.length dim sel k2p =
        some ((List.range keys2edges.length).flatMap (fun k => (sel (P k)).flatten)) := by
  obtain ⟨out, o1, o2, o3⟩ := parEach s keys2edges.length
    (fun key => (swap3dKeyCounts e2et keys2edges key).map cnt) (by
      intro i hi
      obtain ⟨_, ⟨c, hc, _⟩, _⟩ := hP i hi
      simp only [hc]; rfl)
  have hout : out = (List.range keys2edges.length).map (fun i => (sel (P i)).length) := by
    apply List.ext_getElem?
    intro i
    by_cases hi : i < keys2edges.length
    · obtain ⟨_, ⟨c, hc, hcl⟩, _⟩ := hP i hi
      rw [o3 i hi, List.getElem?_map, List.getElem?_range hi, hc]
      simp [hcl]
    · rw [List.getElem?_eq_none (by omega), List.getElem?_eq_none (by simpa using hi)]
  have hoff : ∀ k, k ≤ keys2edges.length → (offsetScan out)[k]? =
      some (((List.range k).map (fun i => (sel (P i)).length)).sum) := by
    intro k hk
    rw [offsetScan_nat_getElem? out k (by omega), hout, ← List.map_take, List.take_range, Nat.min_eq_left hk]
  refine ⟨offsetScan out, ?_, hoff, ?_⟩
  · unfold swap3dKeysToProds
    have : (fun key => (swap3dKeyCounts e2et keys2edges key).map (fun c => [(key, cnt c)])) =
        (fun key => ((swap3dKeyCounts e2et keys2edges key).map cnt).map (fun v => [(key, v)])) := by
      funext key; rw [Option.map_map]; rfl
    rw [this, o1]; rfl
  · unfold swap3dTopology
    have hlen : (offsetScan out).length = keys2edges.length + 1 := by rw [offsetScan_length, o2]
    rw [List.getLast?_eq_getElem?, hlen, Nat.add_sub_cancel, hoff _ (Nat.le_refl _)]
    have hbo : ∀ k, k ≤ keys2edges.length → blockOff (fun k => (sel (P k)).flatten) k =
        ((List.range k).map (fun i => (sel (P i)).length)).sum * (dim + 1) := by
      intro k
      induction k with
      | zero => intro _; simp [blockOff]
      | succ k ih =>
        intro hk
        rw [blockOff_succ, ih (by omega), List.range_succ, List.map_append, List.sum_append,
          flatten_length_const _ (hP k (by omega)).2.2, Nat.add_mul]
        simp
    simp only [bind, Option.bind_some]
    rw [← hbo _ (Nat.le_refl _)]
    apply parConcat
    intro k hk
    rw [(hP k hk).1, hoff k (by omega), hbo k (by omega)]
    rfl

/-- **C48, arrays.** For any swapped edges whose loops are found, under every schedule, the offsets of
each dimension count the products of the preceding keys and the vertex arrays hold the products of
the keys one after another. -/
theorem C48_product_arrays (s s' : Sched) (e2et et2t : List Nat) (codes : List Int)
    (ev2v tv2v keys2edges configs : List Nat)
    (P : Nat → List (List Nat) × List (List Nat) × List (List Nat))
    (hP : ∀ k, k < keys2edges.length →
      swap3dKeyProds e2et et2t codes ev2v tv2v keys2edges configs k = some (P k))
    (hfan : ∀ k e : Nat, keys2edges[k]? = some e → ∃ lo hi : Nat, e2et[e]? = some lo ∧
      e2et[e + 1]? = some hi ∧ lo ≤ hi) :
    ∀ x ∈ [(1, (fun c : Nat × Nat × Nat => c.1),
        (fun X : List (List Nat) × List (List Nat) × List (List Nat) => X.1)),
      (2, (fun c => c.2.1), (fun X => X.2.1)), (3, (fun c => c.2.2), (fun X => X.2.2))],
    ∃ k2p, swap3dKeysToProds s e2et keys2edges x.2.1 = some k2p ∧
      (∀ k, k ≤ keys2edges.length → k2p[k]? = some (((List.range k).map (fun i => (x.2.2 (P i)).length)).sum)) ∧
      swap3dTopology s' (swap3dKeyProds e2et et2t codes ev2v tv2v keys2edges configs) keys2edges.length
        x.1 x.2.2 k2p =
        some ((List.range keys2edges.length).flatMap (fun k => (x.2.2 (P k)).flatten)) := by
  have key : ∀ k, k < keys2edges.length → ∃ c, swap3dKeyCounts e2et keys2edges k = some c ∧
      c.1 = (P k).1.length ∧ c.2.1 = (P k).2.1.length ∧ c.2.2 = (P k).2.2.length ∧
      (∀ r ∈ (P k).1, r.length = 2) ∧ (∀ r ∈ (P k).2.1, r.length = 3) ∧ ∀ r ∈ (P k).2.2, r.length = 4 := by
    intro k hk
    have h := hP k hk
    have hek := List.getElem?_eq_getElem hk
    obtain ⟨lo, hi, f1, f2, f3⟩ := hfan k _ hek
    unfold swap3dKeyProds at h
    rw [hek] at h
    simp only [bind, Option.bind_some, Option.bind_eq_some_iff] at h
    obtain ⟨c, _, h⟩ := h
    split at h
    · rename_i sz eev verts hl
      generalize P k = X at h ⊢
      obtain ⟨E, T, Q⟩ := X
      obtain ⟨ntris, nedges, g1, g2, g3, g4, g5, g6⟩ := swap3dProds_lengths h
      -- the number of loop vertices is the number of tets
      have hsz : verts.length = hi - lo := by
        unfold findLoop at hl
        rw [f1, f2] at hl
        simp only at hl
        rw [if_neg (by omega)] at hl
        split at hl
        · simp at hl
        split at hl
        · simp at hl
        cases hr : rowAt ev2v 2 keys2edges[k] with
        | none => rw [hr] at hl; simp [Res.ofOption] at hl
        | some eev' =>
          cases hm : (List.range' lo (hi - lo)).mapM (tmpEdge et2t codes tv2v) with
          | none => rw [hr, hm] at hl; simp [Res.ofOption] at hl
          | some es =>
            rw [hr, hm] at hl
            simp only [Res.ofOption, Res.bind_ok] at hl
            rcases orderLoop_any es with he | ⟨es', he, hpm, _⟩
            · rw [he] at hl; simp at hl
            · rw [he] at hl
              simp only [Res.bind_ok, Res.ok.injEq, Loop.mk.injEq, Option.some.injEq] at hl
              rw [← hl.2.2, List.length_map, hpm.length_eq]
              have : ∀ (l : List Nat) (L : List (Nat × Nat)), l.mapM (tmpEdge et2t codes tv2v) = some L →
                  L.length = l.length := by
                intro l
                induction l with
                | nil => intro L h; simp only [List.mapM_nil, pure, Option.some.injEq] at h; subst h; rfl
                | cons a l ih =>
                  intro L h
                  rw [List.mapM_cons] at h
                  simp only [bind, Option.bind_eq_some_iff, pure, Option.some.injEq] at h
                  obtain ⟨x, _, r', hr', rfl⟩ := h
                  simp [ih r' hr']
              rw [this _ _ hm, List.length_range']
      rw [hsz] at g1 g2
      refine ⟨(nedges, ntris + 2 * nedges, 2 * ntris), ?_, g3.symm, g4.symm, g5.symm, g6⟩
      unfold swap3dKeyCounts
      simp only [hek, bind, Option.bind_some, f1, f2, if_pos f3, g1, g2, pure]
    · exact absurd h (by simp)
  intro x hx
  simp only [List.mem_cons, List.not_mem_nil, or_false] at hx
  rcases hx with rfl | rfl | rfl
  · refine swap3d_layout s s' e2et keys2edges _ 1 _ _ P ?_
    intro k hk
    obtain ⟨c, h1, h2, h3, h4, h5, h6, h7⟩ := key k hk
    exact ⟨hP k hk, ⟨c, h1, h2⟩, h5⟩
  · refine swap3d_layout s s' e2et keys2edges _ 2 _ _ P ?_
    intro k hk
    obtain ⟨c, h1, h2, h3, h4, h5, h6, h7⟩ := key k hk
    exact ⟨hP k hk, ⟨c, h1, h3⟩, h6⟩
  · refine swap3d_layout s s' e2et keys2edges _ 3 _ _ P ?_
    intro k hk
    obtain ⟨c, h1, h2, h3, h4, h5, h6, h7⟩ := key k hk
    exact ⟨hP k hk, ⟨c, h1, h4⟩, h7⟩

/-- The fan of C35's example with its second configuration. -/
example : swap3dKeyProds [0, 4] [0, 1, 2, 3] [40, 16, 2, 0] [10, 11]
    [6, 7, 10, 11, 11, 4, 10, 5, 11, 10, 4, 7, 10, 11, 5, 6] [0] [1] 0 =
    some ([[7, 5]], [[7, 5, 10], [7, 5, 11], [6, 7, 5], [7, 4, 5]],
      [[6, 5, 7, 10], [6, 7, 5, 11], [7, 5, 4, 10], [7, 4, 5, 11]]) := by decide +kernel

end OmegaH
