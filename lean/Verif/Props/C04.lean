import Verif.Lemmas.Graph
import Verif.Props.C05
import Verif.Props.C06

/-! # C04 — inverting a map gives exactly the preimages, for every schedule -/

namespace OmegaH
open Spec

theorem countP_order (s : Sched) (a2b : List Nat) (b : Nat) :
    (s.order a2b.length).countP (fun a => decide (a2b[a]? = some b)) =
      (List.range a2b.length).countP (fun a => decide (a2b[a]? = some b)) :=
  (s.ok a2b.length).countP_eq _

theorem order_lt (s : Sched) (n a : Nat) (h : a ∈ s.order n) : a < n :=
  List.mem_range.1 ((s.ok n).mem_iff.1 h)

theorem order_length (s : Sched) (n : Nat) : (s.order n).length = n := by
  have := (s.ok n).length_eq
  simpa using this

theorem order_isPermutation (s : Sched) (n : Nat) : IsPermutation (s.order n) n :=
  isPermutation_of_perm (s.ok n)

theorem countP_take_lt {α : Type} (l : List α) (P : α → Bool) (k : Nat) (a : α) (h : l[k]? = some a)
    (hP : P a = true) {k' : Nat} (hk : k < k') : (l.take k).countP P < (l.take k').countP P := by
  have hlt := (List.getElem?_eq_some_iff.1 h).1
  have e : (l.take (k + 1)).countP P = (l.take k).countP P + 1 := by
    rw [List.take_add_one, h, List.countP_append]; simp [hP]
  have : (l.take (k + 1)).countP P ≤ (l.take k').countP P := by
    apply List.Sublist.countP_le
    have : l.take (k + 1) = (l.take k').take (k + 1) := by rw [List.take_take]; congr 1; omega
    rw [this]
    exact List.take_sublist _ _
  omega

theorem sum_replicate_zero (n : Nat) : (List.replicate n 0).sum = 0 := by
  induction n with
  | zero => rfl
  | succ n ih => rw [List.replicate_succ, List.sum_cons, ih]

/-- `invert_map_by_atomics`: under every order of the atomic increments, of the fetch-adds and of the
stores, the result is an inverse of the map. -/
theorem C04_invert_by_atomics (s1 s2 s3 : Sched) (a2b : List Nat) (nb : Nat) (hr : InRange a2b nb) :
    ∃ g, invertMapByAtomics s1 s2 s3 a2b nb = some g ∧ IsInverse a2b nb g.a2ab g.ab2b := by
  let na := a2b.length
  obtain ⟨deg, d1, d2, d3, d4⟩ := atomicCounts_spec a2b nb hr (s1.order na) (List.replicate nb 0)
    (by simp) (fun a h => order_lt s1 _ a h)
  rw [order_length] at d3
  have d3 : deg.sum = na := by rw [d3, sum_replicate_zero, Nat.zero_add]
  have hlen : (offsetScan deg).length = nb + 1 := by rw [offsetScan_length, d2]
  have hlast : (offsetScan deg)[nb]? = some na := by
    rw [offsetScan_nat_getElem? _ nb (by omega), ← d2, List.take_length, d3]
  have hfan := offsetScan_isFan deg
  obtain ⟨ws, w1, w2, w3⟩ := fetchAdds_spec a2b (offsetScan deg) nb hr (by omega) (s2.order na)
    (List.replicate nb 0) (by simp) (fun a h => order_lt s2 _ a h)
  rw [order_length] at w2
  -- each write lands in the fan of its target
  have key : ∀ k : Nat, k < na → ∃ a b p, (s2.order na)[k]? = some a ∧ a2b[a]? = some b ∧
      ws[k]? = some (p, a) ∧ InFan (offsetScan deg) b p ∧
      ∃ f, (offsetScan deg)[b]? = some f ∧
        p = f + ((s2.order na).take k).countP (fun x => decide (a2b[x]? = some b)) := by
    intro k hk
    have e1 := List.getElem?_eq_getElem (show k < (s2.order na).length by rw [order_length]; exact hk)
    have ha := order_lt s2 na _ (List.getElem_mem (show k < (s2.order na).length by rw [order_length]; exact hk))
    have e2 := List.getElem?_eq_getElem (show (s2.order na)[k]'(by rw [order_length]; exact hk) < a2b.length from ha)
    have hb := hr _ (List.getElem_mem ha)
    generalize hA : (s2.order na)[k]'(by rw [order_length]; exact hk) = a at *
    generalize hB : a2b[a] = b at *
    have e3 := List.getElem?_eq_getElem (show b < (offsetScan deg).length by omega)
    have w := w3 k a b _ 0 e1 e2 e3 (by simp [hb])
    refine ⟨a, b, _, e1, e2, w, ?_, _, e3, by omega⟩
    have hdb := d4 b 0 (by simp [hb])
    rw [Nat.zero_add, countP_order] at hdb
    have o1 := offsetScan_nat_getElem? deg b (by omega)
    have o2 := offsetScan_nat_getElem? deg (b + 1) (by omega)
    rw [List.take_add_one, hdb] at o2
    simp only [Option.toList_some, List.sum_append, List.sum_cons, List.sum_nil] at o2
    have hcnt : ((s2.order na).take k).countP (fun x => decide (a2b[x]? = some b)) <
        (List.range na).countP (fun a => decide (a2b[a]? = some b)) := by
      rw [← countP_order s2 a2b b]
      have := countP_take_lt (s2.order na) (fun x => decide (a2b[x]? = some b)) k a e1
        (by simp [e2]) (show k < na by omega)
      have e : (s2.order na).take na = s2.order na :=
        List.take_of_length_le (Nat.le_of_eq (order_length s2 na))
      rw [e] at this
      exact this
    rw [e3] at o1
    have o1' := Option.some.inj o1
    refine ⟨_, _, e3, o2, by omega, ?_⟩
    rw [o1']
    simp only [na] at hcnt ⊢
    omega
  have hinj : ∀ k k' p a a' : Nat, ws[k]? = some (p, a) → ws[k']? = some (p, a') → k = k' := by
    intro k k' p a a' h h'
    obtain ⟨x, b, q, x1, x2, x3, x4, f, x5, x6⟩ := key k (by
      have := (List.getElem?_eq_some_iff.1 h).1; omega)
    obtain ⟨y, b', q', y1, y2, y3, y4, f', y5, y6⟩ := key k' (by
      have := (List.getElem?_eq_some_iff.1 h').1; omega)
    rw [x3] at h; rw [y3] at h'
    simp only [Option.some.injEq, Prod.mk.injEq] at h h'
    obtain ⟨h, _⟩ := h; obtain ⟨h', _⟩ := h'
    subst h; subst h'
    have := inFan_unique hfan x4 y4
    subst this
    rw [x5] at y5
    have := Option.some.inj y5
    subst this
    rcases Nat.lt_trichotomy k k' with hlt | heq | hgt
    · have := countP_take_lt (s2.order na) (fun z => decide (a2b[z]? = some b)) k x x1 (by simp [x2]) hlt
      omega
    · exact heq
    · have := countP_take_lt (s2.order na) (fun z => decide (a2b[z]? = some b)) k' y y1 (by simp [y2]) hgt
      omega
  have hpw : IsPermutation (ws.map Prod.fst) na := by
    refine ⟨by simp [w2, na], ?_, ?_⟩
    · intro p hp
      obtain ⟨⟨p', a⟩, h1, h2⟩ := List.mem_map.1 hp
      simp only at h2; subst h2
      obtain ⟨k, hk⟩ := List.mem_iff_getElem?.1 h1
      obtain ⟨x, b, q, _, _, x3, x4, _⟩ := key k (by
        have := (List.getElem?_eq_some_iff.1 hk).1; omega)
      rw [hk] at x3
      simp only [Option.some.injEq, Prod.mk.injEq] at x3
      rw [x3.1]
      exact (inFan_lt hfan x4 (by rw [hlen]; exact hlast)).1
    · intro i j p hi hj
      simp only [List.getElem?_map, Option.map_eq_some_iff] at hi hj
      obtain ⟨⟨p1, a1⟩, i1, i2⟩ := hi
      obtain ⟨⟨p2, a2⟩, j1, j2⟩ := hj
      simp only at i2 j2
      subst i2; subst j2
      exact hinj _ _ _ _ _ i1 j1
  -- the function from places to items
  have hsurj : ∀ p : Nat, p < na → ∃ a, (p, a) ∈ ws := by
    intro p hp
    obtain ⟨k, hk⟩ := isPermutation_surj hpw p hp
    simp only [List.getElem?_map, Option.map_eq_some_iff] at hk
    obtain ⟨⟨p1, a1⟩, i1, i2⟩ := hk
    simp only at i2; subst i2
    exact ⟨a1, List.mem_of_getElem? i1⟩
  have hF : ∃ F : Nat → Nat, ∀ p : Nat, p < na → (p, F p) ∈ ws := by
    refine (Classical.skolem (p := fun p a => p < na → (p, a) ∈ ws)).1 (fun p => ?_)
    by_cases hp : p < na
    · obtain ⟨a, ha⟩ := hsurj p hp
      exact ⟨a, fun _ => ha⟩
    · exact ⟨0, fun h => absurd h hp⟩
  obtain ⟨F, hF⟩ := hF
  have hws : ∀ p v, (p, v) ∈ ws → p < na ∧ v = F p := by
    intro p v h
    have hp : p < na := hpw.2.1 p (List.mem_map.2 ⟨(p, v), h, rfl⟩)
    refine ⟨hp, ?_⟩
    obtain ⟨k, hk⟩ := List.mem_iff_getElem?.1 h
    obtain ⟨k', hk'⟩ := List.mem_iff_getElem?.1 (hF p hp)
    have := hinj _ _ _ _ _ hk hk'
    subst this
    rw [hk] at hk'
    simpa using hk'
  obtain ⟨m, m1, m2, m3, m4⟩ := Mem.writes_spec F (s3.permute ws) (Mem.alloc na) (by
    intro p v h
    have := hws p v ((s3.mem_permute ws _).1 h)
    simpa [Mem.alloc] using this)
  have hm := Mem.eq_map_some_of_getElem? m F (by
    intro p hp
    rw [m2] at hp
    simp only [Mem.alloc, List.length_replicate] at hp
    exact m3 p (F p) ((s3.mem_permute ws _).2 (hF p hp)))
  have hml : m.length = na := by rw [m2]; simp [Mem.alloc]
  rw [hml] at hm
  refine ⟨⟨offsetScan deg, (List.range na).map F⟩, ?_, hlen, hfan, hlast, ?_, ?_⟩
  · unfold invertMapByAtomics
    simp only [Option.bind_eq_bind]
    rw [d1]; simp only [Option.bind_some]
    rw [hlast]; simp only [Option.bind_some]
    rw [w1]; simp only [Option.bind_some]
    rw [m1]; simp only [Option.bind_some]
    rw [hm, Mem.toArray?_map_some]
    rfl
  · apply isPermutation_of_perm
    have hsnd : ((ws.map Prod.snd)).Perm (List.range na) := by
      have : ws.map Prod.snd = s2.order na := by
        apply List.ext_getElem?
        intro k
        by_cases hk : k < na
        · obtain ⟨a, b, p, a1, a2, a3, _⟩ := key k hk
          rw [List.getElem?_map, a3, a1]; rfl
        · rw [List.getElem?_eq_none (by simp; omega), List.getElem?_eq_none (by rw [order_length]; omega)]
      rw [this]
      exact s2.ok na
    have hfst := isPermutation_perm hpw
    have e : ws.map Prod.snd = (ws.map Prod.fst).map F := by
      rw [List.map_map]
      apply List.map_congr_left
      intro ⟨p, v⟩ h
      exact (hws p v h).2
    rw [e] at hsnd
    exact ((hfst.map F).symm).trans hsnd
  · intro p a b hp
    simp only [List.getElem?_map, Option.map_eq_some_iff] at hp
    obtain ⟨p', p1, p2⟩ := hp
    have hpn : p < na := by
      have := (List.getElem?_eq_some_iff.1 p1).1
      simpa using this
    rw [List.getElem?_range hpn] at p1
    have := Option.some.inj p1
    subst this
    obtain ⟨k, hk⟩ := List.mem_iff_getElem?.1 (hF p hpn)
    obtain ⟨x, b', q, x1, x2, x3, x4, _⟩ := key k (by
      have := (List.getElem?_eq_some_iff.1 hk).1; omega)
    rw [hk] at x3
    simp only [Option.some.injEq, Prod.mk.injEq] at x3
    obtain ⟨e1, e2⟩ := x3
    subst e1; subst p2
    rw [e2]
    constructor
    · intro h
      rw [inFan_unique hfan h x4]
      exact x2
    · intro h
      rw [x2] at h
      have := Option.some.inj h
      subst this
      exact x4

/-- `invert_funnel`: for a nondecreasing map, the fan of each target is exactly the run of positions
holding it. -/
theorem C04_invert_funnel (s : Sched) (ab2a : List Nat) (na : Nat) (hr : InRange ab2a na)
    (hs : ab2a.Pairwise (· ≤ ·)) :
    ∃ a2ab : List Nat, invertFunnel s ab2a na = some (a2ab.map Int.ofNat) ∧ a2ab.length = na + 1 ∧
      IsFan a2ab ∧ a2ab[na]? = some ab2a.length ∧
      ∀ p a : Nat, InFan a2ab a p ↔ ab2a[p]? = some a := by
  have hs' := List.pairwise_iff_getElem.1 hs
  -- the cells written
  let R : Nat → Nat → Int → Prop := fun ab p v =>
    ∃ x y : Nat, ab2a[ab]? = some x ∧ ab2a[ab + 1]? = some y ∧ x ≠ y ∧ p = x + 1 ∧ v = (ab : Int) + 1
  have hcut : ∀ ab x y : Nat, ab2a[ab]? = some x → ab2a[ab + 1]? = some y → x ≠ y →
      cntLt ab2a (x + 1) = ab + 1 := by
    intro ab x y h1 h2 hne
    obtain ⟨l1, e1⟩ := List.getElem?_eq_some_iff.1 h1
    obtain ⟨l2, e2⟩ := List.getElem?_eq_some_iff.1 h2
    have hxy := hs' ab (ab + 1) l1 l2 (by omega)
    apply cntLt_of_split _ _ _ (by omega)
    · intro i hi hlt
      rcases Nat.lt_or_ge i ab with h | h
      · have := hs' i ab hi l1 h; omega
      · have : i = ab := by omega
        subst this; omega
    · intro i hi hge
      rcases Nat.lt_or_ge (ab + 1) i with h | h
      · have := hs' (ab + 1) i l2 hi h; omega
      · have : i = ab + 1 := by omega
        subst this; omega
  have hlastcut : ∀ x, ab2a.getLast? = some x → cntLt ab2a (x + 1) = ab2a.length := by
    intro x hx
    rw [List.getLast?_eq_getElem?] at hx
    obtain ⟨l1, e1⟩ := List.getElem?_eq_some_iff.1 hx
    apply cntLt_of_split _ _ _ (by omega)
    · intro i hi _
      rcases Nat.lt_or_ge i (ab2a.length - 1) with h | h
      · have := hs' i _ hi l1 h; omega
      · have : i = ab2a.length - 1 := by omega
        subst this; omega
    · intro i hi h; omega
  obtain ⟨m1, f1, f2, f3, f4⟩ := parScatter_ontoR s (ab2a.length - 1) (funnelKernel ab2a) R
    (fun p => some (cntLt ab2a p : Int)) ((0 : Int) :: List.replicate na (-1))
    (by
      intro ab hab
      have e1 := List.getElem?_eq_getElem (show ab < ab2a.length by omega)
      have e2 := List.getElem?_eq_getElem (show ab + 1 < ab2a.length by omega)
      unfold funnelKernel
      simp only [e1, e2]
      by_cases hne : ab2a[ab] ≠ ab2a[ab + 1]
      · refine ⟨_, by rw [if_pos hne], ?_⟩
        intro p v
        simp only [List.mem_singleton, Prod.mk.injEq]
        constructor
        · rintro ⟨rfl, rfl⟩; exact ⟨_, _, e1, e2, hne, rfl, rfl⟩
        · rintro ⟨x, y, h1, h2, h3, h4, h5⟩
          rw [e1] at h1
          have := Option.some.inj h1
          exact ⟨by omega, h5⟩
      · refine ⟨_, by rw [if_neg hne], ?_⟩
        intro p v
        simp only [List.not_mem_nil, false_iff]
        rintro ⟨x, y, h1, h2, h3, _⟩
        rw [e1] at h1; rw [e2] at h2
        have h1 := Option.some.inj h1; have h2 := Option.some.inj h2
        rw [← h1, ← h2] at h3
        exact hne h3)
    (by
      rintro ab hab p v ⟨x, y, h1, h2, h3, h4, h5⟩
      have hx := hr x (List.mem_of_getElem? h1)
      refine ⟨by simp; omega, ?_⟩
      rw [h4, hcut ab x y h1 h2 h3, h5]; simp)
  -- the array before fill_right
  obtain ⟨m2, g1, g2, g3, g4, g5⟩ : ∃ m2 : List Int,
      invertFunnel s ab2a na = some (fillRight m2) ∧ m2.length = na + 1 ∧
      (m2[0]? = some 0) ∧
      (∀ x, x ∈ ab2a → m2[x + 1]? = some (cntLt ab2a (x + 1) : Int)) ∧
      (∀ x, x < na → x ∉ ab2a → m2[x + 1]? = some (-1)) := by
    have hm0 : (Mem.filled (na + 1) (-1 : Int)).write 0 0 =
        some (Mem.ofList ((0 : Int) :: List.replicate na (-1))) := by
      unfold Mem.write
      rw [if_pos (by simp [Mem.filled]), Mem.filled_eq]
      simp [Mem.ofList, List.replicate_succ]
    -- writes performed by the loop cover every value but the last
    have hcov : ∀ x, x ∈ ab2a → (∃ ab, ab < ab2a.length - 1 ∧ R ab (x + 1) (cntLt ab2a (x + 1))) ∨
        ab2a.getLast? = some x := by
      intro x hx
      obtain ⟨i, hi⟩ := List.mem_iff_getElem?.1 hx
      -- the last position of x
      have hpos : x < x + 1 := by omega
      have hc : 0 < cntLt ab2a (x + 1) := by
        unfold cntLt
        rw [List.countP_pos_iff]
        exact ⟨x, hx, by simp⟩
      have hcl : cntLt ab2a (x + 1) ≤ ab2a.length := List.countP_le_length
      obtain ⟨k, hk⟩ : ∃ k, cntLt ab2a (x + 1) = k + 1 := ⟨_, (Nat.succ_pred_eq_of_pos hc).symm⟩
      have hkl : k < ab2a.length := by omega
      have hkx : ab2a[k] = x := by
        have a1 := (lt_cntLt_iff ab2a hs k (x + 1) hkl).1 (by omega)
        obtain ⟨il, ie⟩ := List.getElem?_eq_some_iff.1 hi
        have a2 := (lt_cntLt_iff ab2a hs i (x + 1) il).2 (by omega)
        rcases Nat.lt_or_ge i k with h | h
        · have := hs' i k il hkl h; omega
        · have : i = k := by omega
          subst this; exact ie
      rcases Nat.lt_or_ge (k + 1) ab2a.length with h | h
      · left
        refine ⟨k, by omega, x, ab2a[k + 1], ?_, List.getElem?_eq_getElem h, ?_, rfl, ?_⟩
        · rw [List.getElem?_eq_getElem hkl, hkx]
        · intro e
          have := (lt_cntLt_iff ab2a hs (k + 1) (x + 1) h).2 (by omega)
          omega
        · rw [hk]; simp
      · right
        rw [List.getLast?_eq_getElem?]
        have : ab2a.length - 1 = k := by omega
        rw [this, List.getElem?_eq_getElem hkl, hkx]
    obtain ⟨pm, hpm⟩ : ∃ pm, parScatter s (ab2a.length - 1) (funnelKernel ab2a)
        (Mem.ofList ((0 : Int) :: List.replicate na (-1))) = some pm := by
      cases hh : parScatter s (ab2a.length - 1) (funnelKernel ab2a)
        (Mem.ofList ((0 : Int) :: List.replicate na (-1))) with
      | none => rw [hh] at f1; simp at f1
      | some pm => exact ⟨pm, rfl⟩
    rw [hpm, Option.bind_some] at f1
    have hpm' : pm = m1.map some := by
      have : pm.mapM id = some m1 := f1
      clear * - this
      induction pm generalizing m1 with
      | nil => simp at this; subst this; rfl
      | cons c pm ih =>
        rw [List.mapM_cons] at this
        cases c with
        | none => simp at this
        | some c =>
          cases h : pm.mapM id with
          | none => rw [h] at this; simp at this
          | some l =>
            rw [h] at this; simp at this
            rw [← this, ih l h]; rfl
    have hlen1 : m1.length = na + 1 := by rw [f2]; simp
    have f0 : m1[0]? = some 0 := by
      rw [f4 0]
      · rfl
      · rintro ab _ v ⟨x, y, _, _, _, h, _⟩; omega
    have funw : ∀ x, x < na → x ∉ ab2a → m1[x + 1]? = some (-1) := by
      intro x hx hn
      rw [f4 (x + 1)]
      · simp [hx]
      · rintro ab _ v ⟨z, y, hz, _, _, h, _⟩
        have : z = x := by omega
        subst this
        exact hn (List.mem_of_getElem? hz)
    cases hl : ab2a.getLast? with
    | none =>
      have : ab2a = [] := List.getLast?_eq_none_iff.1 hl
      subst this
      refine ⟨m1, ?_, hlen1, f0, by simp, funw⟩
      unfold invertFunnel
      simp only [hm0, Option.bind_eq_bind, Option.bind_some, hl]
      rw [hpm, Option.bind_some, hpm', Mem.toArray?_map_some]
      rfl
    | some z =>
      have hz : z < na := hr z (List.mem_of_getLast? hl)
      refine ⟨m1.set (z + 1) ab2a.length, ?_, by simp [hlen1], ?_, ?_, ?_⟩
      · unfold invertFunnel
        simp only [hm0, Option.bind_eq_bind, Option.bind_some, hl]
        rw [hpm, Option.bind_some, hpm']
        unfold Mem.write
        rw [if_pos (by simp [hlen1]; omega), Option.bind_some, ← List.map_set,
          Mem.toArray?_map_some]
        rfl
      · rw [List.getElem?_set_ne (by omega)]; exact f0
      · intro x hx
        by_cases hxz : x = z
        · subst hxz
          rw [List.getElem?_set_self (by omega), hlastcut x hl]
        · rw [List.getElem?_set_ne (by omega)]
          rcases hcov x hx with ⟨ab, hab, hR⟩ | h
          · exact f3 ab hab _ _ hR
          · rw [hl] at h; have := Option.some.inj h; omega
      · intro x hx hn
        have : x ≠ z := fun e => hn (e ▸ List.mem_of_getLast? hl)
        rw [List.getElem?_set_ne (by omega)]
        exact funw x hx hn
  have hfr := C01_fill_right m2
  let off : List Nat := (List.range (na + 1)).map (cntLt ab2a)
  have hoff : ∀ i, i ≤ na → off[i]? = some (cntLt ab2a i) := by
    intro i hi; simp [off, List.getElem?_range (show i < na + 1 by omega)]
  have heq : fillRight m2 = off.map Int.ofNat := by
    refine runningMax_unique hfr ⟨by simp [off, g2], ?_⟩
    intro i v hv
    have hi : i < na + 1 := by
      have := (List.getElem?_eq_some_iff.1 hv).1
      simpa [off] using this
    rw [List.getElem?_map, hoff i (by omega)] at hv
    simp at hv
    subst hv
    constructor
    · -- attained at the greatest value below i that is present
      suffices ∀ i, i ≤ na → ∃ j : Nat, j ≤ i ∧ m2[j]? = some (cntLt ab2a i : Int) from this i (by omega)
      intro i
      induction i with
      | zero =>
        intro _
        refine ⟨0, Nat.le_refl _, ?_⟩
        rw [g3]
        have : cntLt ab2a 0 = 0 := by unfold cntLt; simp
        rw [this]; rfl
      | succ i ih =>
        intro hi
        by_cases hm : i ∈ ab2a
        · exact ⟨i + 1, Nat.le_refl _, g4 i hm⟩
        · obtain ⟨j, j1, j2⟩ := ih (by omega)
          refine ⟨j, by omega, ?_⟩
          rw [j2]
          have : cntLt ab2a (i + 1) = cntLt ab2a i := by
            unfold cntLt
            apply List.countP_congr
            intro y hy
            have : y ≠ i := fun e => hm (e ▸ hy)
            simp; omega
          rw [this]
    · intro j x hj hx
      cases j with
      | zero => rw [g3] at hx; have := Option.some.inj hx; omega
      | succ j =>
        by_cases hm : j ∈ ab2a
        · rw [g4 j hm] at hx
          have := Option.some.inj hx
          have := cntLt_mono ab2a hj
          omega
        · rw [g5 j (by omega) hm] at hx
          have := Option.some.inj hx
          omega
  have hfull : cntLt ab2a na = ab2a.length := by
    unfold cntLt
    rw [List.countP_eq_length]
    intro x hx; simpa using hr x hx
  have hlen : off.length = na + 1 := by simp [off]
  have hfan : IsFan off := by
    refine ⟨?_, ?_⟩
    · rw [hoff 0 (by omega)]; unfold cntLt; simp
    · intro i lo hi h1 h2
      have := (List.getElem?_eq_some_iff.1 h2).1
      rw [hlen] at this
      rw [hoff i (by omega)] at h1; rw [hoff (i + 1) (by omega)] at h2
      have h1 := Option.some.inj h1; have h2 := Option.some.inj h2
      have := cntLt_mono ab2a (show i ≤ i + 1 by omega)
      omega
  have hlast : off[na]? = some ab2a.length := by rw [hoff na (by omega), hfull]
  refine ⟨off, by rw [g1, heq], hlen, hfan, hlast, ?_⟩
  have fwd : ∀ p a : Nat, InFan off a p → ab2a[p]? = some a := by
    intro p a h
    obtain ⟨hp, ha⟩ := inFan_lt hfan h (by rw [hlen]; exact hlast)
    obtain ⟨lo, hi, h1, h2, h3, h4⟩ := h
    rw [hoff a (by omega)] at h1; rw [hoff (a + 1) (by omega)] at h2
    have h1 := Option.some.inj h1; have h2 := Option.some.inj h2
    have a1 := (lt_cntLt_iff ab2a hs p (a + 1) hp).1 (by omega)
    have a2 : ¬ ab2a[p] < a := fun h => by
      have := (lt_cntLt_iff ab2a hs p a hp).2 h; omega
    rw [List.getElem?_eq_getElem hp]
    congr 1; omega
  intro p a
  refine ⟨fwd p a, ?_⟩
  intro h
  have hp := (List.getElem?_eq_some_iff.1 h).1
  obtain ⟨a', ha'⟩ := inFan_cover hfan (by rw [hlen]; exact hlast) hp
  have := fwd p a' ha'
  rw [h] at this
  have := Option.some.inj this
  subst this
  exact ha'

/-- `invert_map_by_sorting`: the result is an inverse of the map whose fans ascend. -/
theorem C04_invert_by_sorting (s : Sched) (a2b : List Nat) (nb : Nat) (hr : InRange a2b nb) :
    ∃ g, invertMapBySorting s a2b nb = some g ∧ IsInverse a2b nb g.a2ab g.ab2b ∧
      FansAscend g.a2ab g.ab2b := by
  obtain ⟨perm, p1, p2⟩ := C02_sort_by_keys (a2b.map Int.ofNat) 1 a2b.length (by omega) (by simp)
  obtain ⟨hp, hst⟩ := p2
  obtain ⟨ba2b, u1, u2, u3⟩ := C05_unmap s perm a2b 1 a2b.length (by omega) hp.2.1
  have hu : ∀ p a : Nat, perm[p]? = some a → ba2b[p]? = a2b[a]? := by
    intro p a h
    have := u3 p a 0 h (by omega)
    simpa [entry] using this
  have hlen : ba2b.length = a2b.length := by rw [u2, hp.1]; omega
  have hrb : InRange ba2b nb := by
    intro b hb
    obtain ⟨p, h⟩ := List.mem_iff_getElem?.1 hb
    have hpl := (List.getElem?_eq_some_iff.1 h).1
    have e := List.getElem?_eq_getElem (show p < perm.length by rw [hp.1]; omega)
    rw [hu p _ e] at h
    exact hr b (List.mem_of_getElem? h)
  have hsorted : ba2b.Pairwise (· ≤ ·) := by
    rw [List.pairwise_iff_getElem]
    intro i j hi hj hij
    have ei := List.getElem?_eq_getElem (show i < perm.length by rw [hp.1]; omega)
    have ej := List.getElem?_eq_getElem (show j < perm.length by rw [hp.1]; omega)
    have xi := hu i _ ei; have xj := hu j _ ej
    rw [List.getElem?_eq_getElem hi] at xi
    rw [List.getElem?_eq_getElem hj] at xj
    rcases hst i j _ _ hij ei ej with ⟨k, hk, _, x, y, h1, h2, h3⟩ | ⟨h, _⟩
    · have : k = 0 := by omega
      subst this
      simp [entry, ← xi] at h1
      simp [entry, ← xj] at h2
      omega
    · have := h 0 (by omega)
      simp [entry, ← xi, ← xj] at this
      omega
  obtain ⟨off, o1, o2, o3, o4, o5⟩ := C04_invert_funnel s ba2b nb hrb hsorted
  have hconv : ∀ p a b : Nat, perm[p]? = some a → (InFan off b p ↔ a2b[a]? = some b) := by
    intro p a b h
    rw [o5, hu p a h]
  refine ⟨⟨off, perm⟩, ?_, ⟨o2, o3, by rw [o4, hlen], hp, hconv⟩, ?_⟩
  · unfold invertMapBySorting
    simp only [Option.bind_eq_bind]
    rw [p1, Option.bind_some, u1, Option.bind_some, o1, Option.bind_some, toIndices?_map]
    rfl
  · intro b p q x y h1 h2 hpq hx hy
    simp only at hx hy h1 h2
    have e1 := (hconv p x b hx).1 h1
    have e2 := (hconv q y b hy).1 h2
    rcases hst p q x y hpq hx hy with ⟨k, hk, _, u, v, h1, h2, h3⟩ | ⟨_, h⟩
    · have : k = 0 := by omega
      subst this
      simp [entry, e1] at h1
      simp [entry, e2] at h2
      omega
    · exact h

/-- The offset of a target is the number of items mapped below it. -/
theorem isInverse_offset {a2b : List Nat} {nb : Nat} {o v : List Nat}
    (h : IsInverse a2b nb o v) (i : Nat) (hi : i ≤ nb) : o[i]? = some (cntLt a2b i) := by
  obtain ⟨h1, h2, h3, h4, h5⟩ := h
  have ei := List.getElem?_eq_getElem (show i < o.length by omega)
  rw [ei]
  congr 1
  let f : Nat → Nat := fun a => a2b.getD a 0
  have hperm : (v.map f).Perm a2b := by
    have e : (List.range a2b.length).map f = a2b := by
      apply List.ext_getElem (by simp)
      intro k k1 k2
      simp [f, k2]
    have := (isPermutation_perm h4).map f
    rwa [e] at this
  have hcount : cntLt a2b i = cntLt (v.map f) i := (hperm.countP_eq _).symm
  rw [hcount]
  have hoi : o[i] ≤ a2b.length := fan_le h2 hi ei h3
  have hfan : ∀ p, p < a2b.length → ∃ b a, v[p]? = some a ∧ a2b[a]? = some b ∧ f a = b ∧
      InFan o b p := by
    intro p hp
    obtain ⟨b, hb⟩ := inFan_cover h2 (by rw [h1]; exact h3) hp
    have e := List.getElem?_eq_getElem (show p < v.length by rw [h4.1]; exact hp)
    have hab := (h5 p _ b e).1 hb
    exact ⟨b, _, e, hab, by simp [f, hab], hb⟩
  symm
  apply cntLt_of_split _ _ _ (by simp [h4.1]; exact hoi)
  · intro p hp hlt
    simp only [List.length_map, h4.1] at hp
    obtain ⟨b, a, e1, e2, e3, lo, hi', x1, x2, x3, x4⟩ := hfan p hp
    have e1' := (List.getElem?_eq_some_iff.1 e1).2
    simp only [List.getElem_map, e1', e3]
    rcases Nat.lt_or_ge b i with hbi | hbi
    · exact hbi
    · have := fan_le h2 hbi ei x1; omega
  · intro p hp hge
    simp only [List.length_map, h4.1] at hp
    obtain ⟨b, a, e1, e2, e3, lo, hi', x1, x2, x3, x4⟩ := hfan p hp
    have e1' := (List.getElem?_eq_some_iff.1 e1).2
    simp only [List.getElem_map, e1', e3]
    rcases Nat.lt_or_ge b i with hbi | hbi
    · have := fan_le h2 (show b + 1 ≤ i from hbi) x2 ei; omega
    · exact hbi

/-- Two inverses of one map have the same offsets, so the two algorithms agree up to the order of the
entries inside each fan. -/
theorem C04_inverse_offsets_unique (a2b : List Nat) (nb : Nat) (o o' v v' : List Nat)
    (h : IsInverse a2b nb o v) (h' : IsInverse a2b nb o' v') : o = o' := by
  apply List.ext_getElem?
  intro i
  by_cases hi : i ≤ nb
  · rw [isInverse_offset h i hi, isInverse_offset h' i hi]
  · rw [List.getElem?_eq_none (by rw [h.1]; omega), List.getElem?_eq_none (by rw [h'.1]; omega)]

/-- An inverse with ascending fans lists the items in the stable order of their targets. -/
theorem isInverse_stable {a2b : List Nat} {nb : Nat} {o v : List Nat}
    (h : IsInverse a2b nb o v) (ha : FansAscend o v) :
    IsStableSort (a2b.map Int.ofNat) 1 a2b.length v := by
  obtain ⟨h1, h2, h3, h4, h5⟩ := h
  refine ⟨h4, ?_⟩
  intro i j a b hij hi hj
  have hil := (List.getElem?_eq_some_iff.1 hi).1
  have hjl := (List.getElem?_eq_some_iff.1 hj).1
  rw [h4.1] at hil hjl
  obtain ⟨x, hx⟩ := inFan_cover h2 (by rw [h1]; exact h3) hil
  obtain ⟨y, hy⟩ := inFan_cover h2 (by rw [h1]; exact h3) hjl
  have ex := (h5 i a x hi).1 hx
  have ey := (h5 j b y hj).1 hy
  rcases Nat.lt_trichotomy x y with hlt | heq | hgt
  · left
    refine ⟨0, by omega, by omega, x, y, ?_, ?_, by omega⟩ <;> simp [entry, ex, ey]
  · right
    subst heq
    refine ⟨?_, ha x i j a b hx hy hij hi hj⟩
    intro k hk
    have : k = 0 := by omega
    subst this
    simp [entry, ex, ey]
  · exfalso
    obtain ⟨lo, hi', x1, x2, x3, x4⟩ := hx
    obtain ⟨lo2, hi2, y1, y2, y3, y4⟩ := hy
    have := fan_le h2 (show y + 1 ≤ x from hgt) y2 x1
    omega

/-- The inverse with ascending fans is unique. -/
theorem C04_ascending_inverse_unique (a2b : List Nat) (nb : Nat) (o o' v v' : List Nat)
    (h : IsInverse a2b nb o v) (h' : IsInverse a2b nb o' v') (ha : FansAscend o v)
    (ha' : FansAscend o' v') : o = o' ∧ v = v' :=
  ⟨C04_inverse_offsets_unique a2b nb o o' v v' h h',
    C02_stable_sort_unique _ _ _ v v' (isInverse_stable h ha) (isInverse_stable h' ha')⟩

/-- `invert_map_by_sorting` gives one and the same result for every schedule. -/
theorem C04_sorting_deterministic (s t : Sched) (a2b : List Nat) (nb : Nat) (hr : InRange a2b nb) :
    invertMapBySorting s a2b nb = invertMapBySorting t a2b nb := by
  obtain ⟨⟨o, v⟩, a1, a2, a3⟩ := C04_invert_by_sorting s a2b nb hr
  obtain ⟨⟨o', v'⟩, b1, b2, b3⟩ := C04_invert_by_sorting t a2b nb hr
  obtain ⟨e1, e2⟩ := C04_ascending_inverse_unique a2b nb o o' v v' a2 b2 a3 b3
  rw [a1, b1]; subst e1; subst e2; rfl

/-- `invert_map_by_atomics` is not deterministic: two orders of the fetch-adds give different results
(which are, by `C04_invert_by_atomics`, both inverses). -/
theorem C04_atomics_order_varies :
    invertMapByAtomics Sched.serial Sched.serial Sched.serial [0, 0] 1 ≠
      invertMapByAtomics Sched.serial Sched.reversed Sched.serial [0, 0] 1 := by
  decide +kernel

theorem atomicCounts_none (a2b : List Nat) (a b : Nat) (h : a2b[a]? = some b) (l : List Nat) :
    ∀ deg : List Nat, deg.length ≤ b → a ∈ l → atomicCounts a2b l deg = none := by
  induction l with
  | nil => intro deg _ h; simp at h
  | cons x l ih =>
    intro deg hd hm
    unfold atomicCounts
    cases hx : a2b[x]? with
    | none => rfl
    | some y =>
      simp only
      cases hy : deg[y]? with
      | none => rfl
      | some d =>
        simp only
        rcases List.mem_cons.1 hm with e | e
        · subst e
          rw [h] at hx
          have := Option.some.inj hx
          subst this
          have := (List.getElem?_eq_some_iff.1 hy).1
          omega
        · exact ih _ (by simpa using hd) e

/-- A target out of range is undefined behaviour under every schedule, never a wrong inverse. -/
theorem C04_atomics_out_of_range (s1 s2 s3 : Sched) (a2b : List Nat) (nb : Nat)
    (h : ¬ InRange a2b nb) : invertMapByAtomics s1 s2 s3 a2b nb = none := by
  unfold InRange at h
  simp only [Classical.not_forall] at h
  obtain ⟨b, hb, hlt⟩ := h
  obtain ⟨a, ha⟩ := List.mem_iff_getElem?.1 hb
  unfold invertMapByAtomics
  rw [atomicCounts_none a2b a b ha _ _ (by simp; omega)
    ((s1.ok _).mem_iff.2 (List.mem_range.2 (List.getElem?_eq_some_iff.1 ha).1))]
  rfl

/-! Non-vacuity. -/
example : InRange [2, 0, 2, 2, 0] 4 := by unfold InRange; decide
example : invertMapBySorting Sched.reversed [2, 0, 2, 2, 0] 4 =
    some ⟨[0, 2, 2, 5, 5], [1, 4, 0, 2, 3]⟩ := by decide +kernel
example : invertMapByAtomics Sched.reversed Sched.reversed Sched.serial [2, 0, 2, 2, 0] 4 =
    some ⟨[0, 2, 2, 5, 5], [4, 1, 3, 2, 0]⟩ := by decide +kernel
example : ([0, 0, 2, 2, 2] : List Nat).Pairwise (· ≤ ·) := by decide
example : invertFunnel Sched.reversed [0, 0, 2, 2, 2] 4 = some [0, 2, 2, 5, 5] := by decide +kernel

end OmegaH
