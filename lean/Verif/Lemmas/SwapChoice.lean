import Verif.Spec.SwapChoice
import Verif.Props.C48
import Mathlib.Algebra.Order.Ring.Defs
import Mathlib.Tactic.Ring
/-!
# The choice of a configuration
-/
namespace OmegaH
open Spec

section
variable {K : Type} [Ring K] [LinearOrder K]

/-- The entries of the cache are values of `f`. -/
def CacheOf (n : Nat) (f : Nat → Option K) (cache : List (Option K)) : Prop :=
  cache.length = n ∧ ∀ (i : Nat) x, cache[i]? = some (some x) → f i = some x

omit [Ring K] [LinearOrder K] in
theorem cached_spec {n : Nat} {f : Nat → Option K} {cache : List (Option K)} (h : CacheOf n f cache) (i : Nat) (hi : i < n) (x : K)
    (hx : f i = some x) : ∃ cache', cached cache i (f i) = some (x, cache') ∧ CacheOf n f cache' := by
  obtain ⟨y, hy⟩ : ∃ y, cache[i]? = some y := ⟨_, List.getElem?_eq_getElem (by rw [h.1]; exact hi)⟩
  unfold cached
  rw [hy]
  cases y with
  | some z =>
    have := h.2 i z hy
    rw [hx] at this
    obtain rfl := Option.some.inj this
    exact ⟨cache, rfl, h⟩
  | none =>
    refine ⟨cache.set i (some x), by simp [hx], by rw [List.length_set]; exact h.1, ?_⟩
    intro j z hj
    rw [List.getElem?_set] at hj
    split at hj
    · rename_i hij
      subst hij
      split at hj
      · obtain rfl := Option.some.inj (Option.some.inj hj)
        exact hx
      · exact absurd hj (by simp)
    · exact h.2 j z hj

/-- The loop over the triangles finds the smallest quality, or a negative number if that is negative. -/
theorem swapMeshQuality_spec {n : Nat} (uniq : Nat → Option Nat) (f : Nat → Option K) (v : Nat → K) :
    ∀ (ts : List Nat), (∀ t ∈ ts, ∃ u, uniq t = some u ∧ u < n ∧ f u = some (v t)) → ∀ (q : K) (cache : List (Option K)),
      CacheOf n f cache →
      ∃ r cache', swapMeshQuality uniq f ts q cache = some (r, cache') ∧ CacheOf n f cache' ∧
        ((0 ≤ q → (r < 0 ↔ ∃ t ∈ ts, v t < 0)) ∧ (0 ≤ r → r ≤ q ∧ (∀ t ∈ ts, r ≤ v t) ∧ (r = q ∨ ∃ t ∈ ts, r = v t)))
  | [], _, q, cache, hc => ⟨q, cache, rfl, hc, fun hq => ⟨fun h => absurd h (not_lt.2 hq), by simp⟩, fun _ => ⟨le_refl _, by simp, Or.inl rfl⟩⟩
  | t :: ts, h, q, cache, hc => by
    obtain ⟨u, h1, h2, h3⟩ := h t (List.mem_cons_self ..)
    obtain ⟨c1, e1, e2⟩ := cached_spec hc u h2 _ h3
    unfold swapMeshQuality
    rw [h1, Option.bind_some, e1, Option.bind_some]
    dsimp only
    by_cases hn : min q (v t) < 0
    · rw [if_pos hn]
      refine ⟨_, c1, rfl, e2, fun hq => ⟨fun _ => ?_, fun _ => hn⟩, fun h0 => absurd hn (not_lt.2 h0)⟩
      rcases min_lt_iff.1 hn with h | h
      · exact absurd h (not_lt.2 hq)
      · exact ⟨t, List.mem_cons_self .., h⟩
    · rw [if_neg hn]
      obtain ⟨r, c2, g1, g2, g3, g4⟩ := swapMeshQuality_spec uniq f v ts (fun t ht => h t (List.mem_cons_of_mem _ ht)) (min q (v t)) c1 e2
      have hn' := not_lt.1 hn
      refine ⟨r, c2, g1, g2, fun _ => ?_, fun h0 => ?_⟩
      · rw [g3 hn']
        constructor
        · rintro ⟨t', a, b⟩; exact ⟨t', List.mem_cons_of_mem _ a, b⟩
        · rintro ⟨t', a, b⟩
          rcases List.mem_cons.1 a with rfl | a
          · exact absurd (lt_of_le_of_lt (min_le_right _ _) b) hn
          · exact ⟨t', a, b⟩
      · obtain ⟨k1, k2, k3⟩ := g4 h0
        refine ⟨le_trans k1 (min_le_left _ _), ?_, ?_⟩
        · intro t' ht'
          rcases List.mem_cons.1 ht' with rfl | a
          · exact le_trans k1 (min_le_right _ _)
          · exact k2 t' a
        · rcases k3 with k | ⟨t', a, b⟩
          · rcases min_choice q (v t) with h | h
            · exact Or.inl (k.trans h)
            · exact Or.inr ⟨t, List.mem_cons_self .., k.trans h⟩
          · exact Or.inr ⟨t', List.mem_cons_of_mem _ a, b⟩

omit [Ring K] in
theorem swapOvershoots_spec {n : Nat} (uniq : Nat → Option Nat) (f : Nat → Option K) (v : Nat → K) (maxLength : K) :
    ∀ (es : List Nat), (∀ e ∈ es, ∃ u, uniq e = some u ∧ u < n ∧ f u = some (v e)) → ∀ (cache : List (Option K)), CacheOf n f cache →
      ∃ b cache', swapOvershoots uniq f maxLength es cache = some (b, cache') ∧ CacheOf n f cache' ∧
        (b = true ↔ ∃ e ∈ es, maxLength < v e)
  | [], _, cache, hc => ⟨false, cache, rfl, hc, by simp⟩
  | e :: es, h, cache, hc => by
    obtain ⟨u, h1, h2, h3⟩ := h e (List.mem_cons_self ..)
    obtain ⟨c1, e1, e2⟩ := cached_spec hc u h2 _ h3
    unfold swapOvershoots
    rw [h1, Option.bind_some, e1, Option.bind_some]
    dsimp only
    by_cases hn : maxLength < v e
    · rw [if_pos hn]
      exact ⟨true, c1, rfl, e2, by simp [hn]⟩
    · rw [if_neg hn]
      obtain ⟨b, c2, g1, g2, g3⟩ := swapOvershoots_spec uniq f v maxLength es (fun t ht => h t (List.mem_cons_of_mem _ ht)) c1 e2
      refine ⟨b, c2, g1, g2, ?_⟩
      rw [g3]
      simp [hn]

end

/-! ## Tables -/

/-- The triangles and inner edges of a configuration, in the numbering of the loop. -/
theorem choice_table : ∀ n ∈ List.range' 3 5, ∀ c ∈ List.range (swapMeshCounts.getD n 0),
    (∀ t ∈ List.range (n - 2), ((swapTriIndex n c t).any (fun u => decide (u < 35) && (((swapTriangles n).bind (fun l => l[u]?)).any (fun tri =>
      decide (tri.length = 3 ∧ ∀ i ∈ tri, i < n)))) = true)) ∧
    (∀ e ∈ List.range (n - 3), ((swapEdgeIndex n c e).any (fun u => decide (u < 26) && (((uniqueEdges n).bind (fun l => l[u]?)).any (fun edge =>
      decide (edge.length = 2 ∧ ∀ i ∈ edge, i < n)))) = true)) := by
  decide +kernel

theorem sizes_table : ∀ n ∈ List.range' 3 5, swapMeshSizes[n]? = some (n - 2) ∧ swapNedges[n]? = some (n - 3) := by
  decide +kernel

theorem mapM_lookup (verts : List Nat) : ∀ (l : List Nat), (∀ i ∈ l, i < verts.length) →
    ∃ w, l.mapM (fun i => verts[i]?) = some w ∧ w.length = l.length ∧ ∀ x ∈ w, x ∈ verts
  | [], _ => ⟨[], rfl, rfl, by simp⟩
  | a :: l, h => by
    obtain ⟨w, h1, h2, h3⟩ := mapM_lookup verts l (fun i hi => h i (List.mem_cons_of_mem _ hi))
    have ha := List.getElem?_eq_getElem (h a (List.mem_cons_self ..))
    refine ⟨verts[a]'(h a (List.mem_cons_self ..)) :: w, ?_, by simp [h2], ?_⟩
    · simp [List.mapM_cons, ha, h1]
    · intro x hx
      rcases List.mem_cons.1 hx with rfl | hx
      · exact List.getElem_mem _
      · exact h3 x hx

/-- The two tets on a triangle of the loop. -/
def tetsOn (p q : Nat) : List Nat → List (List Nat)
  | [a, b, c] => [[a, c, b, p], [a, b, c, q]]
  | _ => []

/-- What a configuration makes: triangle `t` of the loop and inner edge `e` of it. -/
theorem prods_eq (p q n : Nat) (verts : List Nat) (hn : verts.length = n) (h3 : 3 ≤ n) (h7 : n ≤ 7) (c : Nat)
    (hc : c < swapMeshCounts.getD n 0) :
    ∃ (tri : Nat → List Nat) (edge : Nat → List Nat) (T : List (List Nat)),
      swap3dProds [p, q] verts c = some ((List.range (n - 3)).map edge, T,
        ((List.range (n - 2)).map (fun t => tetsOn p q (tri t))).flatten) ∧
      (∀ t, t < n - 2 → ∃ u l a b d, swapTriIndex n c t = some u ∧ u < 35 ∧ (swapTriangles n).bind (fun l => l[u]?) = some l ∧
        l.mapM (fun i => verts[i]?) = some [a, b, d] ∧ tri t = [a, b, d] ∧ a ∈ verts ∧ b ∈ verts ∧ d ∈ verts) ∧
      (∀ e, e < n - 3 → ∃ u l a b, swapEdgeIndex n c e = some u ∧ u < 26 ∧ (uniqueEdges n).bind (fun l => l[u]?) = some l ∧
        l.mapM (fun i => verts[i]?) = some [a, b] ∧ edge e = [a, b] ∧ a ∈ verts ∧ b ∈ verts) := by
  have hmem : n ∈ List.range' 3 5 := by rw [List.mem_range'_1]; omega
  obtain ⟨t1, t2⟩ := choice_table n hmem c (List.mem_range.2 hc)
  obtain ⟨s1, s2⟩ := sizes_table n hmem
  have key1 : ∀ t, t < n - 2 → ∃ tr, ∃ u l a b d, swapTriIndex n c t = some u ∧ u < 35 ∧ (swapTriangles n).bind (fun l => l[u]?) = some l ∧
        l.mapM (fun i => verts[i]?) = some [a, b, d] ∧ tr = [a, b, d] ∧ a ∈ verts ∧ b ∈ verts ∧ d ∈ verts := by
    intro t ht
    have := t1 t (List.mem_range.2 ht)
    rw [Option.any_eq_true] at this
    obtain ⟨u, u1, u2⟩ := this
    rw [Bool.and_eq_true, Option.any_eq_true] at u2
    obtain ⟨u3, l, l1, l2⟩ := u2
    obtain ⟨l3, l4⟩ := of_decide_eq_true l2
    obtain ⟨w, w1, w2, w3⟩ := mapM_lookup verts l (by rw [hn]; exact l4)
    rw [l3] at w2
    match w, w2, w1, w3 with
    | [a, b, d], _, w1, w3 =>
      exact ⟨[a, b, d], u, l, a, b, d, u1, of_decide_eq_true u3, l1, w1, rfl, w3 a (by simp), w3 b (by simp), w3 d (by simp)⟩
  have key2 : ∀ e, e < n - 3 → ∃ ed, ∃ u l a b, swapEdgeIndex n c e = some u ∧ u < 26 ∧ (uniqueEdges n).bind (fun l => l[u]?) = some l ∧
        l.mapM (fun i => verts[i]?) = some [a, b] ∧ ed = [a, b] ∧ a ∈ verts ∧ b ∈ verts := by
    intro e he
    have := t2 e (List.mem_range.2 he)
    rw [Option.any_eq_true] at this
    obtain ⟨u, u1, u2⟩ := this
    rw [Bool.and_eq_true, Option.any_eq_true] at u2
    obtain ⟨u3, l, l1, l2⟩ := u2
    obtain ⟨l3, l4⟩ := of_decide_eq_true l2
    obtain ⟨w, w1, w2, w3⟩ := mapM_lookup verts l (by rw [hn]; exact l4)
    rw [l3] at w2
    match w, w2, w1, w3 with
    | [a, b], _, w1, w3 =>
      exact ⟨[a, b], u, l, a, b, u1, of_decide_eq_true u3, l1, w1, rfl, w3 a (by simp), w3 b (by simp)⟩
  have key1' : ∀ t, ∃ tr, t < n - 2 → ∃ u l a b d, swapTriIndex n c t = some u ∧ u < 35 ∧ (swapTriangles n).bind (fun l => l[u]?) = some l ∧
        l.mapM (fun i => verts[i]?) = some [a, b, d] ∧ tr = [a, b, d] ∧ a ∈ verts ∧ b ∈ verts ∧ d ∈ verts := by
    intro t
    by_cases ht : t < n - 2
    · obtain ⟨tr, h⟩ := key1 t ht
      exact ⟨tr, fun _ => h⟩
    · exact ⟨[], fun h => absurd h ht⟩
  have key2' : ∀ e, ∃ ed, e < n - 3 → ∃ u l a b, swapEdgeIndex n c e = some u ∧ u < 26 ∧ (uniqueEdges n).bind (fun l => l[u]?) = some l ∧
        l.mapM (fun i => verts[i]?) = some [a, b] ∧ ed = [a, b] ∧ a ∈ verts ∧ b ∈ verts := by
    intro t
    by_cases ht : t < n - 3
    · obtain ⟨tr, h⟩ := key2 t ht
      exact ⟨tr, fun _ => h⟩
    · exact ⟨[], fun h => absurd h ht⟩
  choose tri htri using key1'
  choose edge hedge using key2'
  refine ⟨tri, edge, ?_, ?_, htri, hedge⟩
  · exact ((List.range (n - 3)).map edge).flatMap (fun e => [e ++ [p], e ++ [q]]) ++ (List.range (n - 2)).map tri
  · unfold swap3dProds
    have m1 : (List.range (n - 3)).mapM (fun pe => (edges2Unique n).bind fun a => (a[c]?).bind fun a => (a[pe]?).bind fun u =>
        (uniqueEdges n).bind fun a => (a[u]?).bind fun ls => ls.mapM (fun l => verts[l]?)) = some ((List.range (n - 3)).map edge) := by
      refine mapM_range_some _ _ _ ?_
      intro e he
      obtain ⟨u, l, a, b, h1, _, h2, h3, h4, _⟩ := hedge e he
      have : ((edges2Unique n).bind fun a => (a[c]?).bind fun a => (a[e]?)) = some u := h1
      obtain ⟨x, x1, x2⟩ := Option.bind_eq_some_iff.1 this
      obtain ⟨y, y1, y2⟩ := Option.bind_eq_some_iff.1 x2
      obtain ⟨z, z1, z2⟩ := Option.bind_eq_some_iff.1 h2
      rw [x1, Option.bind_some, y1, Option.bind_some, y2, Option.bind_some, z1, Option.bind_some, z2, Option.bind_some, h3, h4]
    have m2 : (List.range (n - 2)).mapM (fun pt => (swapMeshes n).bind fun a => (a[c * (n - 2) + pt]?).bind fun u =>
        (swapTriangles n).bind fun a => (a[u]?).bind fun ls => ls.mapM (fun l => verts[l]?)) = some ((List.range (n - 2)).map tri) := by
      refine mapM_range_some _ _ _ ?_
      intro t ht
      obtain ⟨u, l, a, b, d, h1, _, h2, h3, h4, _⟩ := htri t ht
      unfold swapTriIndex at h1
      rw [s1, Option.bind_some] at h1
      obtain ⟨x, x1, x2⟩ := Option.bind_eq_some_iff.1 h1
      obtain ⟨z, z1, z2⟩ := Option.bind_eq_some_iff.1 h2
      rw [x1, Option.bind_some, x2, Option.bind_some, z1, Option.bind_some, z2, Option.bind_some, h3, h4]
    have m3 : ((List.range (n - 2)).map tri).mapM (planeTets p q) = some ((List.range (n - 2)).map (fun t => tetsOn p q (tri t))) := by
      rw [List.mapM_map]
      refine mapM_range_some _ _ _ ?_
      intro t ht
      obtain ⟨u, l, a, b, d, _, _, _, _, h4, _⟩ := htri t ht
      show planeTets p q (tri t) = some (tetsOn p q (tri t))
      rw [h4]
      rfl
    simp only [hn, bind, s1, s2, Option.bind_some, m1, m2, List.getElem?_cons_zero, List.getElem?_cons_succ, m3, pure]

/-! ## The loop over the configurations -/

section
variable {K : Type} [Ring K] [LinearOrder K]

theorem worstOf_unique {quality : List Nat → Option K} {Q : List (List Nat)} {x y : K} (hx : WorstOf quality Q x) (hy : WorstOf quality Q y) :
    x = y := by
  have key : ∀ x y : K, WorstOf quality Q x → WorstOf quality Q y → x ≤ y := by
    rintro x y ⟨_, x1, x2⟩ ⟨rfl | ⟨t, t1, t2⟩, _, _⟩
    · exact x1
    · obtain ⟨z, z1, z2⟩ := x2 t t1
      obtain rfl := Option.some.inj (t2.symm.trans z1)
      exact z2
  exact le_antisymm (key x y hx hy) (key y x hy hx)

/-- Configuration `k` of the loop `verts` around the edge from `p` to `q` is allowed and its smallest quality is `x`. -/
def AllowedOf (quality length : List Nat → Option K) (maxLength : K) (p q : Nat) (verts : List Nat) (k : Nat) (x : K) : Prop :=
  ∃ E T Q, swap3dProds [p, q] verts k = some (E, T, Q) ∧ ShortEdges length maxLength E ∧ WorstOf quality Q x ∧ 0 < x

theorem chooseStep_spec (quality length : List Nat → Option K) (maxLength : K) (n p q : Nat) (verts : List Nat) (hn : verts.length = n)
    (h3 : 3 ≤ n) (h7 : n ≤ 7) (h01 : (0 : K) ≤ 1)
    (hq : ∀ t : List Nat, t.length = 4 → (∀ v ∈ t, v ∈ p :: q :: verts) → (quality t).isSome)
    (hl : ∀ t : List Nat, t.length = 2 → (∀ v ∈ t, v ∈ p :: q :: verts) → (length t).isSome)
    (st : SwapState K) (k : Nat) (hk : k < swapMeshCounts.getD n 0) (h0 : 0 ≤ st.quality)
    (fT fE : Nat → Option K)
    (hfT : fT = (fun u => (swapTriangles n).bind (fun l => (l[u]?).bind (fun tri => swapTriQuality quality [p, q] verts tri))))
    (hfE : fE = (fun u => (uniqueEdges n).bind (fun l => (l[u]?).bind (fun edge => (edge.mapM (fun v => verts[v]?)).bind length))))
    (c1 : CacheOf 35 fT st.tris) (c2 : CacheOf 26 fE st.edges) :
    ∃ st', chooseStep quality length maxLength n [p, q] verts st k = some st' ∧ CacheOf 35 fT st'.tris ∧ CacheOf 26 fE st'.edges ∧
      ((st'.mesh = st.mesh ∧ st'.quality = st.quality ∧ ∀ x, AllowedOf quality length maxLength p q verts k x → x ≤ st.quality) ∨
       (st'.mesh = k ∧ AllowedOf quality length maxLength p q verts k st'.quality ∧ st.quality < st'.quality)) := by
  obtain ⟨tri, edge, T, e1, e2, e3⟩ := prods_eq p q n verts hn h3 h7 k hk
  obtain ⟨s1, s2⟩ := sizes_table n (by rw [List.mem_range'_1]; omega)
  let Qs := ((List.range (n - 2)).map (fun t => tetsOn p q (tri t))).flatten
  let qv : List Nat → K := fun t => (quality t).getD 0
  let lv : List Nat → K := fun t => (length t).getD 0
  have hqv : ∀ t : List Nat, t.length = 4 → (∀ v ∈ t, v ∈ p :: q :: verts) → quality t = some (qv t) := by
    intro t h1 h2
    obtain ⟨x, hx⟩ := Option.isSome_iff_exists.1 (hq t h1 h2)
    show quality t = some ((quality t).getD 0)
    rw [hx]; rfl
  have hlv : ∀ t : List Nat, t.length = 2 → (∀ v ∈ t, v ∈ p :: q :: verts) → length t = some (lv t) := by
    intro t h1 h2
    obtain ⟨x, hx⟩ := Option.isSome_iff_exists.1 (hl t h1 h2)
    show length t = some ((length t).getD 0)
    rw [hx]; rfl
  let v : Nat → K := fun t => ((tetsOn p q (tri t)).map qv).foldr min 1
  have hv : ∀ t ∈ List.range (n - 2), ∃ u, swapTriIndex n k t = some u ∧ u < 35 ∧ fT u = some (v t) := by
    intro t ht
    obtain ⟨u, l, a, b, d, h1, h2, h4, h5, h6, ha, hb, hd⟩ := e2 t (List.mem_range.1 ht)
    refine ⟨u, h1, h2, ?_⟩
    obtain ⟨z, z1, z2⟩ := Option.bind_eq_some_iff.1 h4
    rw [hfT]
    dsimp only
    rw [z1, Option.bind_some, z2, Option.bind_some]
    unfold swapTriQuality
    rw [h5, Option.bind_some]
    dsimp only
    rw [hqv [a, b, d, q] rfl (by simp [ha, hb, hd]), Option.bind_some, hqv [a, d, b, p] rfl (by simp [ha, hb, hd]), Option.map_some]
    show _ = some (((tetsOn p q (tri t)).map qv).foldr min 1)
    rw [h6]
    show _ = some (min (qv [a, d, b, p]) (min (qv [a, b, d, q]) 1))
    congr 1
    rw [min_comm, min_comm (1 : K)]
  have hw : ∀ e ∈ List.range (n - 3), ∃ u, swapEdgeIndex n k e = some u ∧ u < 26 ∧ fE u = some (lv (edge e)) := by
    intro e he
    obtain ⟨u, l, a, b, h1, h2, h4, h5, h6, ha, hb⟩ := e3 e (List.mem_range.1 he)
    refine ⟨u, h1, h2, ?_⟩
    obtain ⟨z, z1, z2⟩ := Option.bind_eq_some_iff.1 h4
    rw [hfE]
    dsimp only
    rw [z1, Option.bind_some, z2, Option.bind_some, h5, Option.bind_some, h6]
    exact hlv [a, b] rfl (by simp [ha, hb])
  -- qualities of the tets and of the triangles
  have htet : ∀ t, t < n - 2 → ∀ r, (r ≤ v t ↔ r ≤ 1 ∧ ∀ x ∈ tetsOn p q (tri t), r ≤ qv x) ∧
      (v t = 1 ∨ ∃ x ∈ tetsOn p q (tri t), v t = qv x) := by
    intro t ht r
    obtain ⟨u, l, a, b, d, _, _, _, _, h6, _⟩ := e2 t ht
    show (r ≤ ((tetsOn p q (tri t)).map qv).foldr min 1 ↔ _) ∧ (((tetsOn p q (tri t)).map qv).foldr min 1 = 1 ∨ ∃ x ∈ _, ((tetsOn p q (tri t)).map qv).foldr min 1 = _)
    rw [h6]
    show (r ≤ min (qv [a, d, b, p]) (min (qv [a, b, d, q]) 1) ↔ r ≤ 1 ∧ ∀ x ∈ [[a, d, b, p], [a, b, d, q]], r ≤ qv x) ∧
      (min (qv [a, d, b, p]) (min (qv [a, b, d, q]) 1) = 1 ∨ ∃ x ∈ [[a, d, b, p], [a, b, d, q]], min (qv [a, d, b, p]) (min (qv [a, b, d, q]) 1) = qv x)
    constructor
    · simp only [le_min_iff, List.mem_cons, List.not_mem_nil, or_false, forall_eq_or_imp, forall_eq]
      tauto
    · rcases min_choice (qv [a, d, b, p]) (min (qv [a, b, d, q]) 1) with h | h
      · exact Or.inr ⟨[a, d, b, p], by simp, h⟩
      · rw [h]
        rcases min_choice (qv [a, b, d, q]) 1 with h | h
        · exact Or.inr ⟨[a, b, d, q], by simp, h⟩
        · exact Or.inl h
  have hQ : ∀ x, x ∈ Qs ↔ ∃ t, t < n - 2 ∧ x ∈ tetsOn p q (tri t) := by
    intro x
    simp [Qs, List.mem_flatten]
  have hQs : ∀ x ∈ Qs, quality x = some (qv x) := by
    intro x hx
    obtain ⟨t, t1, t2⟩ := (hQ x).1 hx
    obtain ⟨u, l, a, b, d, _, _, _, _, h6, ha, hb, hd⟩ := e2 t t1
    rw [h6] at t2
    have : x = [a, d, b, p] ∨ x = [a, b, d, q] := by simpa [tetsOn] using t2
    rcases this with rfl | rfl
    · exact hqv _ rfl (by simp [ha, hb, hd])
    · exact hqv _ rfl (by simp [ha, hb, hd])
  obtain ⟨r, tr', g1, g2, g3, g4⟩ := swapMeshQuality_spec (swapTriIndex n k) fT v (List.range (n - 2)) hv 1 st.tris c1
  have hr1 : ∀ x, WorstOf quality Qs x → 0 ≤ r → x = r := by
    intro x hx hr0
    obtain ⟨k1, k2, k3⟩ := g4 hr0
    refine worstOf_unique hx ⟨?_, k1, ?_⟩
    · rcases k3 with rfl | ⟨t, t1, t2⟩
      · exact Or.inl rfl
      · have ht := List.mem_range.1 t1
        rcases (htet t ht 0).2 with h | ⟨y, y1, y2⟩
        · exact Or.inl (t2.trans h)
        · exact Or.inr ⟨y, (hQ y).2 ⟨t, ht, y1⟩, by rw [hQs y ((hQ y).2 ⟨t, ht, y1⟩), t2, y2]⟩
    · intro y hy
      obtain ⟨t, t1, t2⟩ := (hQ y).1 hy
      exact ⟨_, hQs y hy, ((htet t t1 r).1.1 (k2 t (List.mem_range.2 t1))).2 y t2⟩
  have hworst : 0 ≤ r → WorstOf quality Qs r := by
    intro hr0
    obtain ⟨k1, k2, k3⟩ := g4 hr0
    refine ⟨?_, k1, ?_⟩
    · rcases k3 with rfl | ⟨t, t1, t2⟩
      · exact Or.inl rfl
      · have ht := List.mem_range.1 t1
        rcases (htet t ht 0).2 with h | ⟨y, y1, y2⟩
        · exact Or.inl (t2.trans h)
        · exact Or.inr ⟨y, (hQ y).2 ⟨t, ht, y1⟩, by rw [hQs y ((hQ y).2 ⟨t, ht, y1⟩), t2, y2]⟩
    · intro y hy
      obtain ⟨t, t1, t2⟩ := (hQ y).1 hy
      exact ⟨_, hQs y hy, ((htet t t1 r).1.1 (k2 t (List.mem_range.2 t1))).2 y t2⟩
  have hneg : ∀ x, WorstOf quality Qs x → 0 < x → 0 ≤ r := by
    intro x hx hx0
    by_contra hc
    obtain ⟨t, t1, t2⟩ := (g3 h01).1 (not_le.1 hc)
    have ht := List.mem_range.1 t1
    have : (0 : K) ≤ v t := (htet t ht 0).1.2 ⟨h01, fun y hy => by
      obtain ⟨z, z1, z2⟩ := hx.2.2 y ((hQ y).2 ⟨t, ht, hy⟩)
      rw [hQs y ((hQ y).2 ⟨t, ht, hy⟩)] at z1
      obtain rfl := Option.some.inj z1
      exact le_trans (le_of_lt hx0) z2⟩
    exact absurd t2 (not_lt.2 this)
  have hallow : ∀ x, AllowedOf quality length maxLength p q verts k x ↔
      ShortEdges length maxLength ((List.range (n - 3)).map edge) ∧ WorstOf quality Qs x ∧ 0 < x := by
    intro x
    constructor
    · rintro ⟨E, T', Q, h1, h2⟩
      rw [e1] at h1
      obtain ⟨rfl, _, rfl⟩ := Prod.mk.inj (Option.some.inj h1) |>.imp id Prod.mk.inj
      exact h2
    · intro h
      exact ⟨_, _, _, e1, h⟩
  unfold chooseStep
  rw [s1, Option.bind_some, s2, Option.bind_some, ← hfT, ← hfE, g1, Option.bind_some]
  dsimp only
  by_cases hlt : st.quality < r
  · rw [if_pos hlt]
    obtain ⟨b, ed', k1, k2, k3⟩ := swapOvershoots_spec (swapEdgeIndex n k) fE (fun e => lv (edge e)) maxLength (List.range (n - 3)) hw st.edges c2
    rw [k1, Option.bind_some]
    have hr0 : 0 ≤ r := le_trans h0 (le_of_lt hlt)
    have hshort : b = false ↔ ShortEdges length maxLength ((List.range (n - 3)).map edge) := by
      have hsome : ∀ e, e < n - 3 → length (edge e) = some (lv (edge e)) := by
        intro e he
        obtain ⟨u, l, a, b, _, _, _, _, h6, ha, hb⟩ := e3 e he
        rw [h6]
        exact hlv [a, b] rfl (by simp [ha, hb])
      rw [← Bool.not_eq_true, k3]
      constructor
      · intro h e he
        obtain ⟨i, i1, rfl⟩ := List.mem_map.1 he
        exact ⟨_, hsome i (List.mem_range.1 i1), not_lt.1 (fun hc => h ⟨i, i1, hc⟩)⟩
      · rintro h ⟨i, i1, i2⟩
        obtain ⟨x, x1, x2⟩ := h (edge i) (List.mem_map.2 ⟨i, i1, rfl⟩)
        rw [hsome i (List.mem_range.1 i1)] at x1
        obtain rfl := Option.some.inj x1
        exact absurd i2 (not_lt.2 x2)
    cases b with
    | true =>
      refine ⟨_, rfl, g2, k2, Or.inl ⟨rfl, rfl, ?_⟩⟩
      intro x hx
      have := hshort.2 ((hallow x).1 hx).1
      simp at this
    | false =>
      refine ⟨_, rfl, g2, k2, Or.inr ⟨rfl, ?_, hlt⟩⟩
      exact (hallow r).2 ⟨hshort.1 rfl, hworst hr0, lt_of_le_of_lt h0 hlt⟩
  · rw [if_neg hlt]
    refine ⟨_, rfl, g2, c2, Or.inl ⟨rfl, rfl, ?_⟩⟩
    intro x hx
    obtain ⟨_, x2, x3⟩ := (hallow x).1 hx
    rw [hr1 x x2 (hneg x x2 x3)]
    exact not_lt.1 hlt

/-- `choose` finds the best configuration that is allowed. -/
theorem chooseSwap_spec (quality length : List Nat → Option K) (maxLength : K) (n p q : Nat) (verts : List Nat) (hn : verts.length = n)
    (h3 : 3 ≤ n) (h7 : n ≤ 7) (h01 : (0 : K) ≤ 1)
    (hq : ∀ t : List Nat, t.length = 4 → (∀ v ∈ t, v ∈ p :: q :: verts) → (quality t).isSome)
    (hl : ∀ t : List Nat, t.length = 2 → (∀ v ∈ t, v ∈ p :: q :: verts) → (length t).isSome) :
    ∃ c x, chooseSwap quality length maxLength n [p, q] verts = some (c, x) ∧
      ((c = -1 ∧ x = 0 ∧ ∀ k y, k < swapMeshCounts.getD n 0 → ¬ AllowedOf quality length maxLength p q verts k y) ∨
       ∃ k : Nat, c = k ∧ k < swapMeshCounts.getD n 0 ∧ AllowedOf quality length maxLength p q verts k x ∧
         ∀ k' y, k' < swapMeshCounts.getD n 0 → AllowedOf quality length maxLength p q verts k' y → y < x ∨ (y = x ∧ k ≤ k')) := by
  have hcount : swapMeshCounts[n]? = some (swapMeshCounts.getD n 0) := by
    have : ∀ n ∈ List.range' 3 5, swapMeshCounts[n]? = some (swapMeshCounts.getD n 0) := by decide
    exact this n (by rw [List.mem_range'_1]; omega)
  unfold chooseSwap
  rw [hcount, Option.bind_some]
  generalize swapMeshCounts.getD n 0 = N at hcount
  have hN : swapMeshCounts.getD n 0 = N := by rw [List.getD_eq_getElem?_getD, hcount]; rfl
  have main : ∀ j, j ≤ N → ∃ st, (List.range j).foldlM (chooseStep quality length maxLength n [p, q] verts)
      ⟨-1, 0, List.replicate 35 none, List.replicate 26 none⟩ = some st ∧ 0 ≤ st.quality ∧
      CacheOf 35 (fun u => (swapTriangles n).bind (fun l => (l[u]?).bind (fun tri => swapTriQuality quality [p, q] verts tri))) st.tris ∧
      CacheOf 26 (fun u => (uniqueEdges n).bind (fun l => (l[u]?).bind (fun edge => (edge.mapM (fun v => verts[v]?)).bind length))) st.edges ∧
      ((st.mesh = -1 ∧ st.quality = 0 ∧ ∀ k y, k < j → ¬ AllowedOf quality length maxLength p q verts k y) ∨
       ∃ k : Nat, st.mesh = k ∧ k < j ∧ AllowedOf quality length maxLength p q verts k st.quality ∧
         ∀ k' y, k' < j → AllowedOf quality length maxLength p q verts k' y → y < st.quality ∨ (y = st.quality ∧ k ≤ k')) := by
    intro j
    induction j with
    | zero =>
      intro _
      refine ⟨_, rfl, le_refl _, ⟨List.length_replicate, ?_⟩, ⟨List.length_replicate, ?_⟩, Or.inl ⟨rfl, rfl, fun k y hk => absurd hk (by omega)⟩⟩
      · intro i x h
        rw [List.getElem?_replicate] at h
        split at h <;> simp at h
      · intro i x h
        rw [List.getElem?_replicate] at h
        split at h <;> simp at h
    | succ j ih =>
      intro hj
      obtain ⟨st, a1, a2, a3, a4, a5⟩ := ih (by omega)
      obtain ⟨st', b1, b2, b3, b4⟩ := chooseStep_spec quality length maxLength n p q verts hn h3 h7 h01 hq hl st j (by omega) a2 _ _ rfl rfl a3 a4
      refine ⟨st', ?_, ?_, b2, b3, ?_⟩
      · rw [List.range_succ, List.foldlM_append, a1]
        simp only [bind, Option.bind_some, List.foldlM_cons, List.foldlM_nil, b1, pure]
      · rcases b4 with ⟨_, h, _⟩ | ⟨_, _, h⟩
        · rw [h]; exact a2
        · exact le_trans a2 (le_of_lt h)
      · rcases b4 with ⟨m1, m2, m3⟩ | ⟨m1, m2, m3⟩
        · rw [m1, m2]
          rcases a5 with ⟨n1, n2, n3⟩ | ⟨k, n1, n2, n3, n4⟩
          · refine Or.inl ⟨n1, n2, ?_⟩
            intro k y hk hA
            rcases Nat.lt_or_ge k j with h | h
            · exact n3 k y h hA
            · obtain rfl : k = j := by omega
              have h1 := m3 y hA
              rw [n2] at h1
              obtain ⟨_, _, _, _, _, _, h2⟩ := hA
              exact absurd h2 (not_lt.2 h1)
          · refine Or.inr ⟨k, n1, by omega, n3, ?_⟩
            intro k' y hk' hA
            rcases Nat.lt_or_ge k' j with h | h
            · exact n4 k' y h hA
            · obtain rfl : k' = j := by omega
              rcases lt_or_eq_of_le (m3 y hA) with h1 | h1
              · exact Or.inl h1
              · exact Or.inr ⟨h1, by omega⟩
        · refine Or.inr ⟨j, m1, by omega, m2, ?_⟩
          intro k' y hk' hA
          rcases Nat.lt_or_ge k' j with h | h
          · rcases a5 with ⟨_, _, n3⟩ | ⟨k, _, _, _, n4⟩
            · exact absurd hA (n3 k' y h)
            · rcases n4 k' y h hA with h1 | ⟨h1, _⟩
              · exact Or.inl (lt_trans h1 m3)
              · exact Or.inl (h1 ▸ m3)
          · obtain rfl : k' = j := by omega
            obtain ⟨_, _, _, u1, _, u2, _⟩ := hA
            obtain ⟨_, _, _, v1, _, v2, _⟩ := m2
            rw [u1] at v1
            obtain ⟨_, _, rfl⟩ := Prod.mk.inj (Option.some.inj v1) |>.imp id Prod.mk.inj
            exact Or.inr ⟨worstOf_unique u2 v2, le_refl _⟩
  obtain ⟨st, a1, _, _, _, a5⟩ := main N (le_refl _)
  rw [a1]
  exact ⟨st.mesh, st.quality, rfl, a5⟩

end
end OmegaH
