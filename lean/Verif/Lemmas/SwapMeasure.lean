import Verif.Lemmas.SwapChoice
/-!
# The best configuration of an edge inside a mesh
-/
namespace OmegaH
open Spec

theorem table_ends : ∀ n ∈ List.range' 3 5, ((swapMeshes n).any (fun l => decide (l.length = swapMeshCounts.getD n 0 * (n - 2)))) = true := by
  decide +kernel

/-- There are no other configurations. -/
theorem config_lt (p q n : Nat) (verts : List Nat) (hn : verts.length = n) (h3 : 3 ≤ n) (h7 : n ≤ 7) (k : Nat) (X)
    (h : swap3dProds [p, q] verts k = some X) : k < swapMeshCounts.getD n 0 := by
  have hm : n ∈ List.range' 3 5 := by rw [List.mem_range'_1]; omega
  obtain ⟨s1, s2⟩ := sizes_table n hm
  have ht := table_ends n hm
  rw [Option.any_eq_true] at ht
  obtain ⟨l, l1, l2⟩ := ht
  have l3 := of_decide_eq_true l2
  by_contra hk
  unfold swap3dProds at h
  simp only [hn, bind, s1, s2, Option.bind_some, l1] at h
  obtain ⟨E, _, h⟩ := Option.bind_eq_some_iff.1 h
  obtain ⟨T, hT, _⟩ := Option.bind_eq_some_iff.1 h
  have : ∀ (m : Nat) (g : Nat → Option (List Nat)) (out), (List.range m).mapM g = some out → 0 < m → ∃ y, g 0 = some y := by
    intro m g out hout hm
    match m, hm with
    | m + 1, _ =>
      rw [List.range_succ_eq_map, List.mapM_cons] at hout
      obtain ⟨y, hy, _⟩ := Option.bind_eq_some_iff.1 hout
      exact ⟨y, hy⟩
  obtain ⟨y, hy⟩ := this _ _ _ hT (by omega)
  obtain ⟨u, hu, _⟩ := Option.bind_eq_some_iff.1 hy
  have hlt := (List.getElem?_eq_some_iff.1 hu).1
  have : swapMeshCounts.getD n 0 * (n - 2) ≤ k * (n - 2) := Nat.mul_le_mul_right _ (by omega)
  omega

section
variable {K : Type} [Ring K] [LinearOrder K]

theorem findLoop_inside {m : SwapRank K} {e : Nat} {p q : Nat} {l : List Nat} {L : List (Nat × Int)} {codes : List Int} (hcodes : m.up.codes = some codes)
    (hL : AdjRow m.up e L) (hev : rowAt m.ev2v 2 e = some [p, q]) (hcode : ∀ x ∈ L, EdgeCode x.2 (row m.cv2v 4 x.1) p q)
    (hsur : Surrounds p q l (L.map (fun x => row m.cv2v 4 x.1))) :
    (7 < l.length → findLoop m.up.a2ab m.up.ab2b codes m.ev2v m.cv2v e = .ok ⟨l.length, [], none⟩) ∧
    (l.length ≤ 7 → ∃ k, findLoop m.up.a2ab m.up.ab2b codes m.ev2v m.cv2v e = .ok ⟨l.length, [p, q], some (l.rotate k)⟩) := by
  obtain ⟨codes', lo, hi, a1, a2, a3, a4, a5⟩ := hL
  obtain rfl := Option.some.inj (hcodes.symm.trans a1)
  have hlen : L.length = l.length := by
    obtain ⟨_, _, es, p1, p2⟩ := hsur
    have := p2.length_eq
    rw [List.length_map, p1.length_eq, cycleEdges_length] at this
    exact this
  constructor
  · intro h7
    unfold findLoop
    rw [a2, a3]
    dsimp only
    rw [if_neg (by omega), if_pos (by omega), show hi - lo = l.length by omega]
  · intro h7
    refine C35_find_loop m.up.a2ab m.up.ab2b codes m.ev2v m.cv2v e lo p q l _ a2 (by rw [a3, ← a4, hlen]) hev ?_ hsur h7
    intro k r hr
    rw [List.getElem?_map] at hr
    obtain ⟨x, x1, rfl⟩ := Option.map_eq_some_iff.1 hr
    obtain ⟨y1, y2⟩ := a5 k x x1
    exact ⟨x.1, x.2, y1, y2, rfl, hcode x (List.mem_of_getElem? x1)⟩

/-- What `swap3d_qualities` finds for an edge inside the mesh. -/
theorem swapMeasure3_spec (h01 : (0 : K) ≤ 1) (maxLength : K) (m : SwapRank K) (e : Nat) (h : Inside3 m e) :
    ∃ c x, swapMeasure3 maxLength m e = some (c, x) ∧
      ((c = -1 ∧ (x = 0 ∨ x = -1) ∧ ∀ k y, ¬ Allowed3 maxLength m e k y) ∨ Best3 maxLength m e c x) := by
  obtain ⟨p, q, l, L, hL, hev, hcode, hsur, hq, hl⟩ := h
  obtain ⟨codes, lo, hi, a1, _⟩ := id hL
  obtain ⟨f1, f2⟩ := findLoop_inside a1 hL hev hcode hsur
  have hmk : ∀ k E Q, Makes3 m e k E Q ↔ ∃ T, (match findLoop m.up.a2ab m.up.ab2b codes m.ev2v m.cv2v e with
      | .ok ⟨_, eev, some verts⟩ => swap3dProds eev verts k
      | _ => none) = some (E, T, Q) := by
    intro k E Q
    unfold Makes3 swap3dKeyProds
    have : (List.replicate (e + 1) k)[e]? = some k := by rw [List.getElem?_replicate, if_pos (by omega)]
    simp only [a1, bind, Option.bind_some, List.getElem?_cons_zero, this]
    constructor
    · rintro ⟨codes', T, rfl', h⟩
      obtain rfl := Option.some.inj rfl'
      exact ⟨T, h⟩
    · rintro ⟨T, h⟩
      exact ⟨codes, T, rfl, h⟩
  unfold swapMeasure3
  rw [a1, Option.bind_some]
  rcases Nat.lt_or_ge 7 l.length with h7 | h7
  · rw [f1 h7] at hmk ⊢
    dsimp only
    rw [if_pos h7]
    refine ⟨-1, -1, rfl, Or.inl ⟨rfl, Or.inr rfl, ?_⟩⟩
    rintro k y ⟨E, Q, h1, _⟩
    obtain ⟨T, hT⟩ := (hmk k E Q).1 h1
    exact absurd hT (by simp)
  · obtain ⟨j, hj⟩ := f2 h7
    rw [hj] at hmk ⊢
    dsimp only at hmk ⊢
    rw [if_neg (by omega), Option.bind_some]
    have hmem : ∀ t : List Nat, (∀ v ∈ t, v ∈ p :: q :: l.rotate j) → ∀ v ∈ t, v ∈ p :: q :: l := by
      intro t ht v hv
      have := ht v hv
      simpa [List.mem_rotate] using this
    obtain ⟨c, x, c1, c2⟩ := chooseSwap_spec m.qualityOf m.lengthOf maxLength l.length p q (l.rotate j) (List.length_rotate ..)
      hsur.2.1 h7 h01 (fun t h1 h2 => hq t h1 (hmem t h2)) (fun t h1 h2 => hl t h1 (hmem t h2))
    have hall : ∀ k y, Allowed3 maxLength m e k y ↔ AllowedOf m.qualityOf m.lengthOf maxLength p q (l.rotate j) k y := by
      intro k y
      constructor
      · rintro ⟨E, Q, h1, h2⟩
        obtain ⟨T, hT⟩ := (hmk k E Q).1 h1
        exact ⟨E, T, Q, hT, h2⟩
      · rintro ⟨E, T, Q, hT, h2⟩
        exact ⟨E, Q, (hmk k E Q).2 ⟨T, hT⟩, h2⟩
    have hlt : ∀ k y, AllowedOf m.qualityOf m.lengthOf maxLength p q (l.rotate j) k y → k < swapMeshCounts.getD l.length 0 := by
      rintro k y ⟨E, T, Q, hT, _⟩
      exact config_lt p q l.length _ (List.length_rotate ..) hsur.2.1 h7 k _ hT
    refine ⟨c, x, c1, ?_⟩
    rcases c2 with ⟨d1, d2, d3⟩ | ⟨k, d1, d2, d3, d4⟩
    · refine Or.inl ⟨d1, Or.inl d2, ?_⟩
      intro k y hA
      have hA' := (hall k y).1 hA
      exact d3 k y (hlt k y hA') hA'
    · refine Or.inr ⟨k, d1, (hall k x).2 d3, ?_⟩
      intro k' y hA
      have hA' := (hall k' y).1 hA
      exact d4 k' y (hlt k' y hA') hA'

/-- What `swap2d_qualities` finds for an edge inside a mesh of triangles. -/
theorem swapMeasure2_spec (maxLength : K) (m : SwapRank K) (e : Nat) (h : Inside2 m e) :
    ∃ c x, swapMeasure2 maxLength m e = some (c, x) ∧
      ((c = 0 ∧ x = -1 ∧ ∀ c' y, ¬ Best2 maxLength m e c' y) ∨ Best2 maxLength m e c x) := by
  obtain ⟨a, b, o0, o1, t0, t1, w0, r0, w1, r1, hL, h0, h1, hr, ha, hb, hq, hl⟩ := h
  obtain ⟨codes, lo, hi, a1, a2, a3, a4, a5⟩ := hL
  obtain ⟨b1, b2⟩ := a5 0 _ rfl
  obtain ⟨b3, b4⟩ := a5 1 _ rfl
  rw [Nat.add_zero] at b1 b2
  obtain ⟨x, y, hxy, hkey, _⟩ := C38_swap_edge m.up.a2ab m.up.ab2b codes m.cv2v m.ev2v e lo w0 r0 w1 r1 t0 t1 a b o0 o1 a2 b2 b1 b4 b3 h0 h1 hr ha hb
  have hmk : Makes2 m e [x, y] [[b, x, y], [a, y, x]] := ⟨codes, a1, hkey⟩
  have hmk' : ∀ E Q, Makes2 m e E Q → E = [x, y] ∧ Q = [[b, x, y], [a, y, x]] := by
    rintro E Q ⟨codes', h1, h2⟩
    obtain rfl := Option.some.inj (a1.symm.trans h1)
    rw [hkey] at h2
    obtain ⟨e1, e2⟩ := Prod.mk.inj (Option.some.inj h2)
    have hi : Function.Injective (List.map Int.ofNat) := List.map_injective_iff.2 (fun _ _ h => Int.ofNat.inj h)
    refine ⟨(hi (by rw [← e1]; rfl)), ?_⟩
    have hi2 : Function.Injective (List.map (List.map Int.ofNat)) := List.map_injective_iff.2 hi
    exact hi2 (by rw [show (List.map (List.map Int.ofNat) Q) = Q.map (fun t => t.map Int.ofNat) from rfl, ← e2]; rfl)
  have hov : ∃ ov, swap2dOpposite m.up.a2ab m.up.ab2b codes m.cv2v e [-42, -42] 0 = some ov ∧
      swap2dOpposite m.up.a2ab m.up.ab2b codes m.cv2v e ov 1 = some [(x : Int), (y : Int)] := by
    unfold swap2dKey at hkey
    simp only [bind] at hkey
    obtain ⟨ov, k1, hkey⟩ := Option.bind_eq_some_iff.1 hkey
    obtain ⟨ov', k2, hkey⟩ := Option.bind_eq_some_iff.1 hkey
    obtain ⟨v0, _, hkey⟩ := Option.bind_eq_some_iff.1 hkey
    obtain ⟨v1, _, hkey⟩ := Option.bind_eq_some_iff.1 hkey
    obtain ⟨z0, _, hkey⟩ := Option.bind_eq_some_iff.1 hkey
    obtain ⟨z1, _, hkey⟩ := Option.bind_eq_some_iff.1 hkey
    obtain ⟨e1, _⟩ := Prod.mk.inj (Option.some.inj hkey)
    exact ⟨ov, k1, by rw [k2, e1]⟩
  obtain ⟨ov, k1, k2⟩ := hov
  have hx : x ∈ [a, b, o0, o1] ∧ y ∈ [a, b, o0, o1] := by
    split at hxy <;> (obtain ⟨rfl, rfl⟩ := Prod.mk.inj hxy; simp)
  obtain ⟨len, hlen⟩ := Option.isSome_iff_exists.1 (hl [x, y] rfl (by simpa using hx))
  obtain ⟨q1, hq1⟩ := Option.isSome_iff_exists.1 (hq [b, x, y] rfl (by simpa using hx))
  obtain ⟨q2, hq2⟩ := Option.isSome_iff_exists.1 (hq [a, y, x] rfl (by simpa using hx.symm))
  unfold swapMeasure2
  rw [a1, Option.bind_some, a2, Option.bind_some, a3, Option.bind_some, if_pos (by rw [← a4]; simp; omega), k1, Option.bind_some, k2,
    Option.bind_some]
  show ∃ c z, ((m.lengthOf [x, y]).bind _) = some (c, z) ∧ _
  rw [hlen, Option.bind_some]
  by_cases hlong : maxLength < len
  · rw [if_pos hlong]
    refine ⟨0, -1, rfl, Or.inl ⟨rfl, rfl, ?_⟩⟩
    rintro c' z ⟨_, E, Q, h1, h2, _⟩
    obtain ⟨rfl, rfl⟩ := hmk' E Q h1
    obtain ⟨len', h3, h4⟩ := h2 [x, y] (by simp)
    obtain rfl := Option.some.inj (hlen.symm.trans h3)
    exact absurd hlong (not_lt.2 h4)
  · rw [if_neg hlong, Nat.add_zero, ha, Option.bind_some, hb, Option.bind_some, hq1, Option.bind_some, hq2, Option.map_some]
    refine ⟨0, _, rfl, Or.inr ⟨rfl, [x, y], _, hmk, ?_, ?_, ?_, ?_⟩⟩
    · intro e' he'
      obtain rfl := List.mem_singleton.1 he'
      exact ⟨len, hlen, not_lt.1 hlong⟩
    · rcases min_choice (min 1 q1) q2 with h | h
      · rw [h]
        rcases min_choice 1 q1 with h | h
        · exact Or.inl h
        · exact Or.inr ⟨[b, x, y], by simp, by rw [hq1, h]⟩
      · exact Or.inr ⟨[a, y, x], by simp, by rw [hq2, h]⟩
    · exact le_trans (min_le_left _ _) (min_le_left _ _)
    · intro t ht
      simp only [List.mem_cons, List.not_mem_nil, or_false] at ht
      rcases ht with rfl | rfl
      · exact ⟨q1, hq1, le_trans (min_le_left _ _) (min_le_right _ _)⟩
      · exact ⟨q2, hq2, min_le_right _ _⟩

end
end OmegaH
