import Verif.Lemmas.Polygon
import Verif.Lemmas.Rows
import Verif.Props.C02
import Verif.Props.C03
import Verif.Props.C05
import Verif.Props.C11
import Verif.Props.C43

/-! # C12: intermediate entities -/

namespace OmegaH

open Spec

/-- The vertices of side `u` of an element with vertices `hrow`, as named by the element's template. -/
def Spec.sideVerts (f : Family) (highDim lowDim : Nat) (hrow : List Nat) (u : Nat) : List Nat :=
  (List.range (elementDegree f lowDim 0).toNat).filterMap (fun (uv : Nat) =>
    hrow[(elementDownTemplate f highDim lowDim u uv).toNat]?)

theorem canonical_rows (s : Sched) {n : Nat} (hn : n = 2 ∨ n = 3 ∨ n = 4) (uv2v : List Nat) (nu : Nat)
    (hl : uv2v.length = nu * n) (hd : ∀ u, u < nu → (row uv2v n u).Nodup) :
    ∃ codes canon, getCodesToCanonical s n uv2v = some codes ∧ alignEv2v s n uv2v codes = some canon ∧
      canon.length = nu * n ∧
      ∀ u, u < nu → IsCanon (row canon n u) ∧ SamePolygon (row uv2v n u) (row canon n u) := by
  have hc : ∀ u, u < nu → ∃ c, canonCode n (row uv2v n u) = some c ∧ 0 ≤ c ∧ c < 8 ∧
      IsCanon (align (codeIsFlipped c) (codeRotation c).toNat (row uv2v n u)) := fun u hu =>
    canonCode_spec hn _ (row_length hl hu) (hd u hu)
  obtain ⟨codes, c1, c2, c3⟩ := parEach s nu (fun e => (rowAt uv2v n e).bind (canonCode n)) (by
    intro u hu
    obtain ⟨c, h, _⟩ := hc u hu
    rw [rowAt_eq hl hu, Option.bind_some, h]; rfl)
  obtain ⟨canon, d1, d2, d3⟩ := C09_align_ev2v s n hn uv2v codes (by rw [c2, hl])
  refine ⟨codes, canon, ?_, d1, d2.trans hl, ?_⟩
  · unfold getCodesToCanonical
    rw [if_pos hn, divide_no_rem (by omega) hl, Option.bind_some, ← c1]
    congr 2
    funext e
    cases rowAt uv2v n e <;> rfl
  · intro u hu
    obtain ⟨c, h, _, _, hcan⟩ := hc u hu
    have hcu := c3 u hu
    rw [rowAt_eq hl hu, Option.bind_some, h] at hcu
    rw [d3 u c hcu]
    exact ⟨hcan, _, _, rfl⟩

theorem areEqualRows_spec {canon : List Nat} {n nu a b : Nat} (hl : canon.length = nu * n)
    (ha : a < nu) (hb : b < nu) :
    areEqualRows n canon a b = some (decide (row canon n a = row canon n b)) := by
  unfold areEqualRows
  rw [rowAt_eq hl ha, rowAt_eq hl hb]
  simp only [Option.some.injEq]
  rw [Bool.eq_iff_iff, List.all_eq_true, decide_eq_true_iff]
  constructor
  · intro h
    apply List.ext_getElem?
    intro j
    by_cases hj : j < n
    · simpa using h j (List.mem_range.2 hj)
    · rw [List.getElem?_eq_none (by rw [row_length hl ha]; omega),
        List.getElem?_eq_none (by rw [row_length hl hb]; omega)]
  · intro h j _
    rw [h]; simp

theorem jumps_spec (s : Sched) (n : Nat) (canon perm : List Nat) (nu : Nat)
    (hl : canon.length = nu * n) (hp : IsPermutation perm nu) :
    ∃ jumps, findCanonicalJumps s n canon perm = some jumps ∧ jumps.length = nu ∧ IsMarks jumps ∧
      ∀ i, Marked jumps i ↔ i < nu ∧ (i + 1 = nu ∨ ∃ a b : Nat, perm[i]? = some a ∧
        perm[i + 1]? = some b ∧ row canon n a ≠ row canon n b) := by
  obtain ⟨pl, pr, pi⟩ := hp
  obtain ⟨out, o1, o2, o3, o4⟩ := parScatter_ontoR s (nu - 1)
    (jumpKernel n canon perm) (fun i p v => p = i ∧ v = 1 ∧ ∃ a b : Nat, perm[i]? = some a ∧ perm[i + 1]? = some b ∧
      row canon n a ≠ row canon n b) (fun _ => some 1) (List.replicate nu 0)
    (by
      intro i hi
      have e1 := List.getElem?_eq_getElem (show i < perm.length by omega)
      have e2 := List.getElem?_eq_getElem (show i + 1 < perm.length by omega)
      unfold jumpKernel
      rw [e1, e2]
      simp only [areEqualRows_spec hl (pr _ (List.getElem_mem _)) (pr _ (List.getElem_mem _)),
        Option.map_some]
      refine ⟨_, rfl, ?_⟩
      intro p v
      by_cases hr : row canon n perm[i] = row canon n perm[i + 1]
      · simp only [hr, decide_true, if_true, List.not_mem_nil, false_iff]
        rintro ⟨_, _, a, b, h1, h2, h3⟩
        obtain rfl := Option.some.inj h1
        obtain rfl := Option.some.inj h2
        exact h3 hr
      · simp only [hr, decide_false, Bool.false_eq_true, if_false, List.mem_singleton, Prod.mk.injEq]
        constructor
        · rintro ⟨rfl, rfl⟩
          exact ⟨rfl, rfl, _, _, rfl, rfl, hr⟩
        · rintro ⟨rfl, rfl, _⟩; exact ⟨rfl, rfl⟩)
    (by
      rintro i hi p v ⟨rfl, rfl, _⟩
      exact ⟨by simp; omega, rfl⟩)
  rw [List.length_replicate] at o2
  have hkernel : (parScatter s (perm.length - 1) (jumpKernel n canon perm)
    (Mem.filled perm.length 0)).bind Mem.toArray? = some out := by
    rw [pl, Mem.filled_eq]; exact o1
  refine ⟨if out.length = 0 then out else out.set (out.length - 1) 1, ?_, ?_, ?_, ?_⟩
  · unfold findCanonicalJumps
    simp only [Option.bind_eq_bind]
    rw [hkernel]
    rfl
  · split
    · exact o2
    · rw [List.length_set]; exact o2
  · have hout : IsMarks out := by
      intro m hm
      obtain ⟨i, hi⟩ := List.mem_iff_getElem?.1 hm
      by_cases h : ∃ k, k < nu - 1 ∧ ∃ v, (i = k ∧ v = (1 : Int) ∧ ∃ a b : Nat, perm[k]? = some a ∧
          perm[k + 1]? = some b ∧ row canon n a ≠ row canon n b)
      · obtain ⟨k, hk, v, h⟩ := h
        rw [o3 k hk i v h] at hi
        right; rw [← Option.some.inj hi]; exact h.2.1
      · rw [o4 i (fun k hk v hv => h ⟨k, hk, v, hv⟩)] at hi
        left
        exact List.eq_of_mem_replicate (List.mem_of_getElem? hi)
    split
    · exact hout
    · intro m hm
      rcases List.mem_or_eq_of_mem_set hm with h | h
      · exact hout m h
      · exact Or.inr h
  · intro i
    have hmark : Marked out i ↔ ∃ a b : Nat, perm[i]? = some a ∧ perm[i + 1]? = some b ∧
        row canon n a ≠ row canon n b := by
      unfold Marked
      constructor
      · intro h
        by_cases h' : ∃ a b : Nat, perm[i]? = some a ∧ perm[i + 1]? = some b ∧
          row canon n a ≠ row canon n b
        · exact h'
        · rw [o4 i (by rintro k _ v ⟨rfl, _, hh⟩; exact h' hh)] at h
          have := List.eq_of_mem_replicate (List.mem_of_getElem? h)
          cases this
      · rintro ⟨a, b, h1, h2, h3⟩
        have := (List.getElem?_eq_some_iff.1 h2).1
        exact o3 i (by omega) i 1 ⟨rfl, rfl, a, b, h1, h2, h3⟩
    split
    · rename_i h0
      rw [hmark]
      constructor
      · rintro ⟨a, b, h1, h2, h3⟩
        have := (List.getElem?_eq_some_iff.1 h2).1
        omega
      · rintro ⟨h, _⟩; omega
    · rename_i h0
      by_cases hi : i = out.length - 1
      · subst hi
        unfold Marked
        rw [List.getElem?_set_self (by omega)]
        constructor
        · intro _; exact ⟨by omega, Or.inl (by omega)⟩
        · intro _; rfl
      · unfold Marked at hmark ⊢
        rw [List.getElem?_set_ne (by omega), hmark]
        constructor
        · rintro ⟨a, b, h1, h2, h3⟩
          have := (List.getElem?_eq_some_iff.1 h2).1
          exact ⟨by omega, Or.inr ⟨a, b, h1, h2, h3⟩⟩
        · rintro ⟨h, h' | h'⟩
          · omega
          · exact h'

/-- `find_unique_deg`: every row of the result is one of the sides, and every side is the same polygon
as exactly one row of the result. -/
theorem C12_find_unique_deg (s : Sched) (n : Nat) (hn : n = 2 ∨ n = 3 ∨ n = 4) (uv2v : List Nat)
    (nu : Nat) (hl : uv2v.length = nu * n) (hd : ∀ u, u < nu → (row uv2v n u).Nodup) :
    ∃ out ne, findUniqueDeg s n uv2v = some out ∧ out.length = ne * n ∧
      (∀ e, e < ne → ∃ u, u < nu ∧ row out n e = row uv2v n u) ∧
      (∀ u, u < nu → ∃ e, e < ne ∧ SamePolygon (row uv2v n u) (row out n e)) ∧
      (∀ e e', e < ne → e' < ne → SamePolygon (row out n e) (row out n e') → e = e') := by
  obtain ⟨codes, canon, c1, c2, c3, c4⟩ := canonical_rows s hn uv2v nu hl hd
  obtain ⟨perm, p1, p2⟩ := C02_sort_by_keys (canon.map Int.ofNat) n nu (by omega) (by simpa using c3)
  have hperm := p2.1
  obtain ⟨jumps, j1, j2, j3, j4⟩ := jumps_spec s n canon perm nu c3 p2.1
  obtain ⟨es, e1, e2, e3⟩ := C03_collect_marked s jumps j3
  have hes : InRange es perm.length := by
    intro b hb
    have := (j4 b).1 ((e3 b).1 hb)
    rw [p2.1.1]; exact this.1
  obtain ⟨e2u, f1, f2, f3⟩ := C05_compound_maps s es perm hes
  have he2u : InRange e2u nu := by
    intro b hb
    obtain ⟨i, hi⟩ := List.mem_iff_getElem?.1 hb
    have hlt := (List.getElem?_eq_some_iff.1 hi).1
    have := f3 i _ (List.getElem?_eq_getElem (by omega))
    rw [hi] at this
    exact p2.1.2.1 b (List.mem_of_getElem? this.symm)
  obtain ⟨out, g1, g2, g3⟩ := C05_unmap s e2u uv2v n nu (Nat.le_of_eq hl.symm) he2u
  -- keys and rows
  have hkey : ∀ a b, KeyEq (canon.map Int.ofNat) n a b ↔ row canon n a = row canon n b := by
    intro a b
    constructor
    · intro h
      apply row_ext
      intro k hk
      have := h k hk
      unfold entry at this ⊢
      rw [List.getElem?_map, List.getElem?_map] at this
      exact Option.map_injective (fun _ _ e => Int.ofNat.inj e) this
    · intro h j hj
      unfold entry
      rw [List.getElem?_map, List.getElem?_map]
      have := congrArg (fun l : List Nat => l[j]?) h
      simp only [row_get canon _ hj] at this
      unfold entry at this
      rw [this]
  have hltne : ∀ a b, KeyLt (canon.map Int.ofNat) n a b → row canon n a ≠ row canon n b := by
    rintro a b ⟨k, hk, _, x, y, h1, h2, hxy⟩ he
    have := (hkey a b).2 he k hk
    rw [h1, h2] at this
    have := Option.some.inj this
    omega
  have hsame : ∀ a b, a < nu → b < nu →
      (row canon n a = row canon n b ↔ SamePolygon (row uv2v n a) (row uv2v n b)) := by
    intro a b ha hb
    obtain ⟨a1, a2⟩ := c4 a ha
    obtain ⟨b1, b2⟩ := c4 b hb
    have la := row_length hl ha
    have lb := row_length hl hb
    constructor
    · intro h
      exact a2.trans hn la (by rw [h]; exact b2.symm hn lb)
    · intro h
      have := (a2.symm hn la).trans hn (row_length c3 ha) (h.trans hn la b2)
      exact canon_unique hn (row_length c3 ha) a1 b1 this
  -- rows of the result
  have hrow : ∀ e, e < e2u.length → ∃ i u : Nat, es[e]? = some i ∧ perm[i]? = some u ∧ u < nu ∧
      row out n e = row uv2v n u := by
    intro e he
    have h1 := List.getElem?_eq_getElem (show e < es.length by omega)
    have h2 := f3 e _ h1
    have h3 := List.getElem?_eq_getElem he
    rw [h3] at h2
    refine ⟨es[e], e2u[e], h1, h2.symm, he2u _ (List.getElem_mem he), ?_⟩
    exact row_ext (fun k hk => g3 e _ k h3 hk)
  refine ⟨out, e2u.length, ?_, g2, ?_, ?_, ?_⟩
  · unfold findUniqueDeg
    simp only [Option.bind_eq_bind, c1, Option.bind_some, c2, p1, j1, e1, f1, g1]
  · intro e he
    obtain ⟨i, u, _, _, hu, hr⟩ := hrow e he
    exact ⟨u, hu, hr⟩
  · intro u hu
    obtain ⟨i, hi⟩ := isPermutation_surj p2.1 u hu
    have hilt : i < nu := by rw [← p2.1.1]; exact (List.getElem?_eq_some_iff.1 hi).1
    -- the last position of the group
    have hlast : ∀ d i u, perm[i]? = some u → i + d + 1 = nu → ∃ j w : Nat, perm[j]? = some w ∧
        Marked jumps j ∧ row canon n u = row canon n w := by
      intro d
      induction d with
      | zero =>
        intro i u hi h
        exact ⟨i, u, hi, (j4 i).2 ⟨by omega, Or.inl (by omega)⟩, rfl⟩
      | succ d ih =>
        intro i u hi h
        have hlt : i + 1 < perm.length := by rw [p2.1.1]; omega
        have hnext := List.getElem?_eq_getElem hlt
        by_cases hr : row canon n u = row canon n perm[i + 1]
        · obtain ⟨j, w, h1, h2, h3⟩ := ih (i + 1) _ hnext (by omega)
          exact ⟨j, w, h1, h2, hr.trans h3⟩
        · exact ⟨i, u, hi, (j4 i).2 ⟨by omega, Or.inr ⟨u, _, hi, hnext, hr⟩⟩, rfl⟩
    obtain ⟨j, w, h1, h2, h3⟩ := hlast (nu - i - 1) i u hi (by omega)
    obtain ⟨e, he⟩ := List.mem_iff_getElem?.1 ((e3 j).2 h2)
    have heE : e < e2u.length := by rw [f2]; exact (List.getElem?_eq_some_iff.1 he).1
    obtain ⟨i', u', k1, k2, k3, k4⟩ := hrow e heE
    rw [he] at k1
    obtain rfl := Option.some.inj k1
    rw [h1] at k2
    obtain rfl := Option.some.inj k2
    refine ⟨e, heE, ?_⟩
    rw [k4]
    exact (hsame u w hu k3).1 h3
  · -- two rows of the result are different polygons
    have hlt : ∀ e e', e < e' → e' < e2u.length → ¬ SamePolygon (row out n e) (row out n e') := by
      intro e e' hlt he' hs
      obtain ⟨i, u, k1, k2, k3, k4⟩ := hrow e (by omega)
      obtain ⟨i', u', k1', k2', k3', k4'⟩ := hrow e' he'
      rw [k4, k4'] at hs
      have hr := (hsame u u' k3 k3').2 hs
      have hii : i < i' := by
        have h1 := List.getElem?_eq_some_iff.1 k1
        have h2 := List.getElem?_eq_some_iff.1 k1'
        obtain ⟨a1, rfl⟩ := h1
        obtain ⟨a2, rfl⟩ := h2
        exact List.pairwise_iff_getElem.1 e2 e e' a1 a2 hlt
      have hm := (j4 i).1 ((e3 i).1 (List.mem_of_getElem? k1))
      have hi'nu : i' < nu := by rw [← p2.1.1]; exact (List.getElem?_eq_some_iff.1 k2').1
      rcases hm.2 with h | ⟨a, b, h1, h2, h3⟩
      · omega
      · rw [k2] at h1
        obtain rfl := Option.some.inj h1
        rcases Nat.lt_or_ge (i + 1) i' with hgt | hge
        · have := C02_equal_keys_contiguous _ _ _ perm p2 i (i + 1) i' u b u' (by omega) hgt k2 h2 k2'
            ((hkey u u').2 hr)
          exact h3 ((hkey u b).1 this)
        · have : i' = i + 1 := by omega
          subst this
          rw [k2'] at h2
          obtain rfl := Option.some.inj h2
          exact h3 hr
    intro e e' he he' hs
    rcases Nat.lt_trichotomy e e' with h | h | h
    · exact absurd hs (hlt e e' h he')
    · exact h
    · refine absurd (hs.symm hn ?_) (hlt e' e h he)
      exact row_length g2 he

/-! ## Sides of elements -/

theorem filterMap_get {α β : Type} (l : List α) (g : α → Option β) (h : ∀ x ∈ l, (g x).isSome) :
    (l.filterMap g).length = l.length ∧ ∀ i : Nat, (l.filterMap g)[i]? = (l[i]?).bind g := by
  induction l with
  | nil => exact ⟨rfl, by simp⟩
  | cons a l ih =>
    obtain ⟨v, hv⟩ := Option.isSome_iff_exists.1 (h a (by simp))
    obtain ⟨h1, h2⟩ := ih (fun x hx => h x (by simp [hx]))
    rw [List.filterMap_cons, hv]
    refine ⟨by simp [h1], ?_⟩
    intro i
    cases i with
    | zero => simp [hv]
    | succ i => simp [h2]

/-- Dimension pairs for which intermediate entities are derived. -/
def Spec.DimPair (high low : Nat) : Prop := (high = 2 ∧ low = 1) ∨ (high = 3 ∧ low = 1) ∨ (high = 3 ∧ low = 2)

instance (high low : Nat) : Decidable (DimPair high low) := by unfold DimPair; infer_instance

theorem template_facts (f : Family) (high low : Nat) (hd : DimPair high low) :
    (∀ u, u < (elementDegree f high low).toNat → ∀ uv, uv < (elementDegree f low 0).toNat →
      0 ≤ elementDownTemplate f high low u uv ∧
      (elementDownTemplate f high low u uv).toNat < (elementDegree f high 0).toNat) ∧
    (∀ u, u < (elementDegree f high low).toNat → ∀ uv, uv < (elementDegree f low 0).toNat →
      ∀ uv', uv' < (elementDegree f low 0).toNat →
      (elementDownTemplate f high low u uv).toNat = (elementDownTemplate f high low u uv').toNat →
      uv = uv') ∧
    ((elementDegree f low 0).toNat = 2 ∨ (elementDegree f low 0).toNat = 3 ∨
      (elementDegree f low 0).toNat = 4) ∧ 0 < (elementDegree f high 0).toNat ∧
    0 < (elementDegree f high low).toNat := by
  cases f <;> rcases hd with ⟨rfl, rfl⟩ | ⟨rfl, rfl⟩ | ⟨rfl, rfl⟩ <;> decide +kernel

theorem sideVerts_get (f : Family) (high low : Nat) (hd : DimPair high low) (hrow : List Nat)
    (hl : hrow.length = (elementDegree f high 0).toNat) (u : Nat)
    (hu : u < (elementDegree f high low).toNat) :
    (sideVerts f high low hrow u).length = (elementDegree f low 0).toNat ∧
    ∀ uv, uv < (elementDegree f low 0).toNat →
      (sideVerts f high low hrow u)[uv]? = hrow[(elementDownTemplate f high low u uv).toNat]? := by
  have ht := (template_facts f high low hd).1 u hu
  obtain ⟨h1, h2⟩ := filterMap_get (List.range (elementDegree f low 0).toNat) (fun (uv : Nat) =>
    hrow[(elementDownTemplate f high low u uv).toNat]?) (by
      intro uv huv
      have := (ht uv (List.mem_range.1 huv)).2
      rw [List.getElem?_eq_getElem (by omega)]; rfl)
  unfold sideVerts
  refine ⟨by simpa using h1, ?_⟩
  intro uv huv
  rw [h2, List.getElem?_range huv]; rfl

theorem sideVerts_nodup (f : Family) (high low : Nat) (hd : DimPair high low) (hrow : List Nat)
    (hl : hrow.length = (elementDegree f high 0).toNat) (hn : hrow.Nodup) (u : Nat)
    (hu : u < (elementDegree f high low).toNat) : (sideVerts f high low hrow u).Nodup := by
  obtain ⟨h1, h2⟩ := sideVerts_get f high low hd hrow hl u hu
  have ht := template_facts f high low hd
  rw [List.nodup_iff_getElem?_ne_getElem?]
  intro i j hij hj e
  rw [h1] at hj
  rw [h2 i (by omega), h2 j hj] at e
  have hi' := (ht.1 u hu i (by omega)).2
  have hj' := (ht.1 u hu j hj).2
  rw [← hl] at hi' hj'
  rw [List.getElem?_eq_getElem hi', List.getElem?_eq_getElem hj'] at e
  have := (List.Nodup.getElem_inj_iff hn).1 (Option.some.inj e)
  have := ht.2.1 u hu i (by omega) j hj this
  omega

theorem sideRow_eq (f : Family) (high low : Nat) (hd : DimPair high low) (hrow : List Nat)
    (hl : hrow.length = (elementDegree f high 0).toNat) (u : Nat)
    (hu : u < (elementDegree f high low).toNat) :
    sideRow f high low hrow u = some (sideVerts f high low hrow u) := by
  obtain ⟨h1, h2⟩ := sideVerts_get f high low hd hrow hl u hu
  have ht := (template_facts f high low hd).1 u hu
  obtain ⟨out, o1, o2, o3⟩ := mapM_range_spec (elementDegree f low 0).toNat (fun (uv : Nat) =>
    let t := elementDownTemplate f high low u uv
    if 0 ≤ t then hrow[t.toNat]? else none) (by
      intro i hi
      have := ht i hi
      simp only [this.1, if_true]
      rw [List.getElem?_eq_getElem (by omega)]; rfl)
  unfold sideRow
  rw [o1]
  congr 1
  apply List.ext_getElem?
  intro i
  by_cases hi : i < (elementDegree f low 0).toNat
  · rw [o3 i hi, h2 i hi]
    simp [(ht i hi).1]
  · rw [List.getElem?_eq_none (by omega), List.getElem?_eq_none (by omega)]

/-- `form_uses`: row `h*k+u` of the result holds the vertices of side `u` of element `h`. -/
theorem C12_form_uses (s : Sched) (f : Family) (high low : Nat) (hd : DimPair high low)
    (hv2v : List Nat) (nh : Nat) (hl : hv2v.length = nh * (elementDegree f high 0).toNat) :
    ∃ uv2v, formUses s hv2v f high low = some uv2v ∧
      uv2v.length = nh * (elementDegree f high low).toNat * (elementDegree f low 0).toNat ∧
      ∀ h u, h < nh → u < (elementDegree f high low).toNat →
        row uv2v (elementDegree f low 0).toNat (h * (elementDegree f high low).toNat + u) =
          sideVerts f high low (row hv2v (elementDegree f high 0).toNat h) u := by
  have ht := template_facts f high low hd
  unfold formUses
  simp only []
  rw [divide_no_rem ht.2.2.2.1 hl, Option.bind_some]
  refine parBlocks s nh (elementDegree f high low).toNat (elementDegree f low 0).toNat _
    (fun h u => sideVerts f high low (row hv2v (elementDegree f high 0).toNat h) u)
    (fun h u hh hu => (sideVerts_get f high low hd _ (row_length hl hh) u hu).1) ?_
  intro h hh
  rw [rowAt_eq hl hh, Option.bind_some]
  obtain ⟨out, o1, o2, o3, o4⟩ := mapM_list_spec (List.range (elementDegree f high low).toNat)
    (fun u => (sideRow f high low (row hv2v (elementDegree f high 0).toNat h) u).map (fun r =>
          r.mapIdx (fun uv v => ((h * (elementDegree f high low).toNat + u) *
            (elementDegree f low 0).toNat + uv, v)))) (by
      intro u hu
      rw [sideRow_eq f high low hd _ (row_length hl hh) u (List.mem_range.1 hu)]; rfl)
  refine ⟨out.flatten, by rw [o1]; rfl, ?_⟩
  intro p v
  rw [List.mem_flatten]
  constructor
  · rintro ⟨l, hl', hpv⟩
    obtain ⟨u, hu, e⟩ := (o3 l).1 hl'
    have hu' := List.mem_range.1 hu
    rw [sideRow_eq f high low hd _ (row_length hl hh) u hu', Option.map_some] at e
    obtain rfl := Option.some.inj e
    obtain ⟨j, hj, e'⟩ := List.mem_mapIdx.1 hpv
    obtain ⟨e1, e2⟩ := Prod.mk.inj e'
    refine ⟨u, j, hu', ?_, e1.symm, ?_⟩
    · rw [← (sideVerts_get f high low hd _ (row_length hl hh) u hu').1]; exact hj
    · rw [List.getElem?_eq_getElem hj, e2]
  · rintro ⟨u, j, hu, hj, rfl, e⟩
    refine ⟨_, (o3 _).2 ⟨u, List.mem_range.2 hu, by
      rw [sideRow_eq f high low hd _ (row_length hl hh) u hu, Option.map_some]⟩, ?_⟩
    obtain ⟨hj', e'⟩ := List.getElem?_eq_some_iff.1 e
    exact List.mem_mapIdx.2 ⟨j, hj', by rw [e']⟩

/-- `find_unique`: over all elements with distinct vertices, the rows of the result are sides of
elements, every side of every element is the same polygon as exactly one row. -/
theorem C12_find_unique (s : Sched) (f : Family) (high low : Nat) (hd : DimPair high low)
    (hv2v : List Nat) (nh : Nat) (hl : hv2v.length = nh * (elementDegree f high 0).toNat)
    (hn : ∀ h, h < nh → (row hv2v (elementDegree f high 0).toNat h).Nodup) :
    ∃ lv2v nl, findUnique s hv2v f high low = some lv2v ∧
      lv2v.length = nl * (elementDegree f low 0).toNat ∧
      (∀ l, l < nl → ∃ h u, h < nh ∧ u < (elementDegree f high low).toNat ∧
        row lv2v (elementDegree f low 0).toNat l =
          sideVerts f high low (row hv2v (elementDegree f high 0).toNat h) u) ∧
      (∀ h u, h < nh → u < (elementDegree f high low).toNat → ∃ l, l < nl ∧
        SamePolygon (sideVerts f high low (row hv2v (elementDegree f high 0).toNat h) u)
          (row lv2v (elementDegree f low 0).toNat l)) ∧
      (∀ l l', l < nl → l' < nl → SamePolygon (row lv2v (elementDegree f low 0).toNat l)
        (row lv2v (elementDegree f low 0).toNat l') → l = l') := by
  have ht := template_facts f high low hd
  obtain ⟨uv2v, u1, u2, u3⟩ := C12_form_uses s f high low hd hv2v nh hl
  obtain ⟨out, ne, o1, o2, o3, o4, o5⟩ := C12_find_unique_deg s (elementDegree f low 0).toNat ht.2.2.1
    uv2v (nh * (elementDegree f high low).toNat) u2 (by
      intro q hq
      obtain ⟨h, u, hh, hu, rfl⟩ := row_cover hq
      rw [u3 h u hh hu]
      exact sideVerts_nodup f high low hd _ (row_length hl hh) (hn h hh) u hu)
  refine ⟨out, ne, ?_, o2, ?_, ?_, o5⟩
  · unfold findUnique
    rw [if_pos ⟨by rcases hd with h | h | h <;> omega, by rcases hd with h | h | h <;> omega,
      by rw [hl]; exact Nat.mul_mod_left _ _⟩, u1, Option.bind_some, o1]
  · intro l hl'
    obtain ⟨q, hq, e⟩ := o3 l hl'
    obtain ⟨h, u, hh, hu, rfl⟩ := row_cover hq
    exact ⟨h, u, hh, hu, by rw [e, u3 h u hh hu]⟩
  · intro h u hh hu
    obtain ⟨e, he, hs⟩ := o4 _ (row_lt hh hu)
    rw [u3 h u hh hu] at hs
    exact ⟨e, he, hs⟩

/-! ## Matching -/

theorem matchLoop_none {n nb : Nat} (hn : n = 2 ∨ n = 3 ∨ n = 4) (arow bv2v : List Nat)
    (ha : arow.length = n) (hb : bv2v.length = nb * n) (dup : Bool) :
    ∀ (ents : List (Nat × Int)) (found : Option (Nat × Int)),
    (∀ e ∈ ents, e.1 < nb ∧ (row bv2v n e.1).Nodup ∧ 0 ≤ codeWhichDown e.2 ∧
      codeWhichDown e.2 < n ∧ arow[0]? = (row bv2v n e.1)[(codeWhichDown e.2).toNat]?) →
    (∀ e ∈ ents, ¬ SamePolygon (row bv2v n e.1) arow) →
    matchLoop n arow bv2v dup ents found = some found := by
  intro ents
  induction ents with
  | nil => intro found _ _; rfl
  | cons e rest ih =>
    obtain ⟨b, code⟩ := e
    intro found hg hno
    obtain ⟨g1, g2, g3, g4, g5⟩ := hg (b, code) (by simp)
    simp only at g1 g2 g3 g4 g5
    unfold matchLoop
    rw [if_neg (by omega), rowAt_eq hb g1, Option.bind_some]
    rcases isMatch_spec hn arow (row bv2v n b) ha (row_length hb g1) g2 (codeWhichDown code).toNat
      (by omega) g5 with ⟨c, c1, _, _, c4⟩ | ⟨c1, _⟩
    · exact absurd ⟨_, _, c4⟩ (hno (b, code) (by simp))
    · rw [c1, Option.bind_some]
      exact ih found (fun e he => hg e (by simp [he])) (fun e he => hno e (by simp [he]))

theorem matchLoop_spec {n nb : Nat} (hn : n = 2 ∨ n = 3 ∨ n = 4) (arow bv2v : List Nat)
    (ha : arow.length = n) (hb : bv2v.length = nb * n) (b0 : Nat) :
    ∀ (ents : List (Nat × Int)),
    (∀ e ∈ ents, e.1 < nb ∧ (row bv2v n e.1).Nodup ∧ 0 ≤ codeWhichDown e.2 ∧
      codeWhichDown e.2 < n ∧ arow[0]? = (row bv2v n e.1)[(codeWhichDown e.2).toNat]?) →
    (ents.map Prod.fst).Nodup → b0 ∈ ents.map Prod.fst → SamePolygon (row bv2v n b0) arow →
    (∀ e ∈ ents, SamePolygon (row bv2v n e.1) arow → e.1 = b0) →
    ∃ c, matchLoop n arow bv2v false ents none = some (some (b0, c)) ∧ 0 ≤ c ∧ c < 8 ∧
      align (codeIsFlipped c) (codeRotation c).toNat (row bv2v n b0) = arow := by
  intro ents
  induction ents with
  | nil => intro _ _ h; simp at h
  | cons e rest ih =>
    obtain ⟨b, code⟩ := e
    intro hg hnd hmem hsame huniq
    obtain ⟨g1, g2, g3, g4, g5⟩ := hg (b, code) (by simp)
    simp only at g1 g2 g3 g4 g5
    unfold matchLoop
    rw [if_neg (by omega), rowAt_eq hb g1, Option.bind_some]
    simp only [List.map_cons, List.nodup_cons] at hnd
    rcases isMatch_spec hn arow (row bv2v n b) ha (row_length hb g1) g2 (codeWhichDown code).toNat
      (by omega) g5 with ⟨c, c1, c2, c3, c4⟩ | ⟨c1, c2⟩
    · have hbb : b = b0 := huniq (b, code) (by simp) ⟨_, _, c4⟩
      subst hbb
      refine ⟨c, ?_, c2, c3, c4⟩
      rw [c1, Option.bind_some]
      simp only [Option.isSome_none, Bool.false_eq_true, if_false]
      apply matchLoop_none hn arow bv2v ha hb
      · exact fun e he => hg e (by simp [he])
      · intro e he hs
        have := huniq e (by simp [he]) hs
        exact hnd.1 (List.mem_map.2 ⟨e, he, this⟩)
    · rw [c1, Option.bind_some]
      refine ih (fun e he => hg e (by simp [he])) hnd.2 ?_ hsame (fun e he => huniq e (by simp [he]))
      rcases List.mem_map.1 hmem with ⟨e, he, rfl⟩
      rcases List.mem_cons.1 he with rfl | he
      · exact absurd hsame c2
      · exact List.mem_map.2 ⟨e, he, rfl⟩

/-- The candidates around a vertex, for an upward adjacency made by `invert_adj`. -/
theorem candidates (s1 s2 s3 s4 s5 s6 : Sched) (lv2v : List Nat) (nl n nv : Nat) (hn0 : 0 < n)
    (hn : n ≤ 16) (hl : lv2v.length = nl * n) (hr : InRange lv2v nv)
    (hnd : ∀ l, l < nl → (row lv2v n l).Nodup) :
    ∃ v2l, invertAdj s1 s2 s3 s4 s5 s6 ⟨[], lv2v, none⟩ n nv = some v2l ∧
      ∀ fv, fv < nv → ∃ ents, fanEntries v2l fv = some ents ∧ (ents.map Prod.fst).Nodup ∧
        (∀ e ∈ ents, e.1 < nl ∧ 0 ≤ codeWhichDown e.2 ∧ codeWhichDown e.2 < n ∧
          (row lv2v n e.1)[(codeWhichDown e.2).toNat]? = some fv) ∧
        (∀ l, l < nl → fv ∈ row lv2v n l → l ∈ ents.map Prod.fst) := by
  obtain ⟨up, codes, h1, h2, h3, h4, h5, h6, h7, h8⟩ :=
    C11_invert_adj s1 s2 s3 s4 s5 s6 ⟨[], lv2v, none⟩ n nv hn0 hn hr (by simp)
  simp only at h3 h4 h7 h8
  refine ⟨up, h1, ?_⟩
  intro fv hfv
  have e1 := List.getElem?_eq_getElem (show fv < up.a2ab.length by omega)
  have e2 := List.getElem?_eq_getElem (show fv + 1 < up.a2ab.length by omega)
  have hle := h6.2 fv _ _ e1 e2
  have hle2 := fan_le h6 (show fv + 1 ≤ nv by omega) e2 h7
  obtain ⟨hperm, hsorted⟩ := h8 fv _ _ e1 e2
  generalize up.a2ab[fv] = lo at *
  generalize up.a2ab[fv + 1] = hi at *
  obtain ⟨ents, o1, o2, o3, o4⟩ := mapM_list_spec (List.range' lo (hi - lo)) (fun vb =>
      match up.ab2b[vb]?, codes[vb]? with
      | some b, some c => some (b, c)
      | _, _ => none) (by
    intro vb hvb
    have := List.mem_range'_1.1 hvb
    rw [List.getElem?_eq_getElem (show vb < up.ab2b.length by omega),
      List.getElem?_eq_getElem (show vb < codes.length by omega)]; rfl)
  have hents : segment (List.zipWith readUse up.ab2b codes) lo hi =
      ents.map (fun e => readUse e.1 e.2) := by
    apply List.ext_getElem?
    intro i
    unfold segment
    rw [List.getElem?_drop, List.getElem?_take, List.getElem?_map]
    by_cases hi' : lo + i < hi
    · rw [if_pos hi', o4 i (lo + i) (by rw [List.getElem?_range' (by omega)]; simp)]
      rw [List.getElem?_zipWith, List.getElem?_eq_getElem (show lo + i < up.ab2b.length by omega),
        List.getElem?_eq_getElem (show lo + i < codes.length by omega)]
      rfl
    · rw [if_neg hi', List.getElem?_eq_none (by simp at o2; omega)]; rfl
  rw [hents] at hperm
  have hmemuse : ∀ u : Use, u ∈ usesOf lv2v (downOrient none) n fv ↔ ∃ l w : Nat, l < nl ∧ w < n ∧
      (row lv2v n l)[w]? = some fv ∧ u = ⟨l, w, false, 0⟩ := by
    intro u
    unfold usesOf
    rw [List.mem_map]
    constructor
    · rintro ⟨hl', hm, rfl⟩
      obtain ⟨m1, m2⟩ := List.mem_filter.1 hm
      have m1' := List.mem_range.1 m1
      rw [hl] at m1'
      obtain ⟨l, w, hl1, hw1, rfl⟩ := row_cover m1'
      have a1 : (l * n + w) / n = l := by
        rw [Nat.mul_comm, Nat.mul_add_div hn0, Nat.div_eq_of_lt hw1]; omega
      have a2 : (l * n + w) % n = w := by rw [Nat.mul_comm, Nat.mul_add_mod, Nat.mod_eq_of_lt hw1]
      refine ⟨l, w, hl1, hw1, ?_, by rw [a1, a2]; rfl⟩
      rw [row_get _ _ hw1]
      simpa [entry] using m2
    · rintro ⟨l, w, hl1, hw1, e, rfl⟩
      have a1 : (l * n + w) / n = l := by
        rw [Nat.mul_comm, Nat.mul_add_div hn0, Nat.div_eq_of_lt hw1]; omega
      have a2 : (l * n + w) % n = w := by rw [Nat.mul_comm, Nat.mul_add_mod, Nat.mod_eq_of_lt hw1]
      refine ⟨l * n + w, List.mem_filter.2 ⟨List.mem_range.2 (by rw [hl]; exact row_lt hl1 hw1), ?_⟩, ?_⟩
      · rw [row_get _ _ hw1] at e
        simpa [entry] using e
      · rw [a1, a2]; rfl
  have hhigh : ents.map Prod.fst = (ents.map (fun e => readUse e.1 e.2)).map Use.high := by
    rw [List.map_map]; rfl
  refine ⟨ents, ?_, ?_, ?_, ?_⟩
  · unfold fanEntries fanMembers
    rw [h2, e1, e2]
    simp only [Option.bind_some]
    exact o1
  · rw [hhigh]
    refine ((hperm.map Use.high).nodup_iff).2 ?_
    unfold usesOf
    rw [List.map_map, List.nodup_map_iff_inj_on (List.nodup_range.filter _)]
    intro x hx y hy hxy
    obtain ⟨x1, x2⟩ := List.mem_filter.1 hx
    obtain ⟨y1, y2⟩ := List.mem_filter.1 hy
    have x1' := List.mem_range.1 x1
    have y1' := List.mem_range.1 y1
    rw [hl] at x1' y1'
    obtain ⟨l, w, hl1, hw1, rfl⟩ := row_cover x1'
    obtain ⟨l', w', hl2, hw2, rfl⟩ := row_cover y1'
    have a1 : (l * n + w) / n = l := by
      rw [Nat.mul_comm, Nat.mul_add_div hn0, Nat.div_eq_of_lt hw1]; omega
    have a2 : (l' * n + w') / n = l' := by
      rw [Nat.mul_comm, Nat.mul_add_div hn0, Nat.div_eq_of_lt hw2]; omega
    simp only [Function.comp, a1, a2] at hxy
    subst hxy
    have q1 : (row lv2v n l)[w]? = some fv := by rw [row_get _ _ hw1]; simpa [entry] using x2
    have q2 : (row lv2v n l)[w']? = some fv := by rw [row_get _ _ hw2]; simpa [entry] using y2
    obtain ⟨k1, k1'⟩ := List.getElem?_eq_some_iff.1 q1
    obtain ⟨k2, k2'⟩ := List.getElem?_eq_some_iff.1 q2
    have := (List.Nodup.getElem_inj_iff (hnd l hl1)).1 (k1'.trans k2'.symm)
    rw [this]
  · intro e he
    have := hperm.mem_iff.1 (List.mem_map.2 ⟨e, he, rfl⟩)
    obtain ⟨l, w, q1, q2, q3, q4⟩ := (hmemuse _).1 this
    unfold readUse at q4
    obtain ⟨r1, r2, _⟩ := Use.mk.inj q4
    rw [r1, r2]
    exact ⟨q1, by omega, by omega, by simpa using q3⟩
  · intro l hl1 hfvm
    obtain ⟨w, hw⟩ := List.mem_iff_getElem?.1 hfvm
    have hw1 : w < n := by
      have := (List.getElem?_eq_some_iff.1 hw).1
      rw [row_length hl hl1] at this; exact this
    have := hperm.mem_iff.2 ((hmemuse ⟨l, w, false, 0⟩).2 ⟨l, w, hl1, hw1, hw, rfl⟩)
    obtain ⟨e, he, q⟩ := List.mem_map.1 this
    refine List.mem_map.2 ⟨e, he, ?_⟩
    unfold readUse at q
    exact (Use.mk.inj q).1

theorem align_mem {α : Type} {n : Nat} (hn : n = 2 ∨ n = 3 ∨ n = 4) {a b : List α} (ha : a.length = n)
    (h : SamePolygon a b) : ∀ x ∈ b, x ∈ a := by
  obtain ⟨f, k, hk, rfl⟩ := (samePolygon_iff n hn a b ha).1 h
  rcases hn with rfl | rfl | rfl
  · match a, ha, k, hk with
    | [a, b], _, 0, _ | [a, b], _, 1, _ =>
      cases f <;> simp [align, rotate, rotateOnce, Spec.flip]
  · match a, ha, k, hk with
    | [a, b, c], _, 0, _ | [a, b, c], _, 1, _ | [a, b, c], _, 2, _ =>
      cases f <;> simp [align, rotate, rotateOnce, Spec.flip]
  · match a, ha, k, hk with
    | [a, b, c, d], _, 0, _ | [a, b, c, d], _, 1, _ | [a, b, c, d], _, 2, _ | [a, b, c, d], _, 3, _ =>
      cases f <;> simp [align, rotate, rotateOnce, Spec.flip]

/-- `reflect_down`: given low entities that are different polygons with distinct vertices, such that
every side of every element is one of them, every side is assigned the low entity with its vertices
and a code that turns that entity's vertices into the side's own, in order. -/
theorem C12_reflect_down (s1 s2 s3 s : Sched) (f : Family) (high low : Nat) (hd : DimPair high low)
    (hv2v lv2v : List Nat) (nh nl nv : Nat) (hl : hv2v.length = nh * (elementDegree f high 0).toNat)
    (hll : lv2v.length = nl * (elementDegree f low 0).toNat) (hr : InRange lv2v nv)
    (hnd : ∀ l, l < nl → (row lv2v (elementDegree f low 0).toNat l).Nodup)
    (hdiff : ∀ l l', l < nl → l' < nl → SamePolygon (row lv2v (elementDegree f low 0).toNat l)
        (row lv2v (elementDegree f low 0).toNat l') → l = l')
    (hex : ∀ h u, h < nh → u < (elementDegree f high low).toNat → ∃ l, l < nl ∧
        SamePolygon (sideVerts f high low (row hv2v (elementDegree f high 0).toNat h) u)
          (row lv2v (elementDegree f low 0).toNat l)) :
    ∃ hl2l codes, reflectDown s1 s2 s3 s hv2v lv2v f nv high low = some (hl2l, codes) ∧
      hl2l.length = nh * (elementDegree f high low).toNat ∧
      codes.length = nh * (elementDegree f high low).toNat ∧
      ∀ h u, h < nh → u < (elementDegree f high low).toNat → ∃ (l : Nat) (c : Int),
        hl2l[h * (elementDegree f high low).toNat + u]? = some l ∧
        codes[h * (elementDegree f high low).toNat + u]? = some c ∧ l < nl ∧ 0 ≤ c ∧ c < 8 ∧
        align (codeIsFlipped c) (codeRotation c).toNat (row lv2v (elementDegree f low 0).toNat l) =
          sideVerts f high low (row hv2v (elementDegree f high 0).toNat h) u := by
  have ht := template_facts f high low hd
  obtain ⟨uv2v, u1, u2, u3⟩ := C12_form_uses s f high low hd hv2v nh hl
  have hlow2 : low ≤ 2 := by rcases hd with h | h | h <;> omega
  generalize hk : (elementDegree f high low).toNat = k at *
  generalize hN : (elementDegree f low 0).toNat = n at *
  have hn := ht.2.2.1
  obtain ⟨v2l, v1, v2⟩ := candidates s1 s2 s3 s s s lv2v nl n nv (by omega) (by omega) hll hr hnd
  obtain ⟨a2fv, f1, f2, f3⟩ := C43_get_component s uv2v (nh * k) n 0 (by omega) u2
  have hmatch : ∀ h u, h < nh → u < k → ∃ (l : Nat) (c : Int),
      findMatch n a2fv uv2v lv2v v2l false (h * k + u) = some (l, c) ∧ l < nl ∧ 0 ≤ c ∧ c < 8 ∧
      align (codeIsFlipped c) (codeRotation c).toNat (row lv2v n l) =
          sideVerts f high low (row hv2v (elementDegree f high 0).toNat h) u := by
    intro h u hh hu
    obtain ⟨l, hl1, hs⟩ := hex h u hh hu
    have hq := row_lt hh hu
    have hrow := u3 h u hh hu
    have hlen := row_length u2 hq
    rw [hrow] at hlen
    have hs' := hs.symm hn hlen
    have hfv := f3 _ hq
    have hent : entry uv2v n (h * k + u) 0 = (row uv2v n (h * k + u))[0]? :=
      (row_get uv2v _ (by omega)).symm
    rw [hent, hrow] at hfv
    have h0 := List.getElem?_eq_getElem (l := sideVerts f high low
      (row hv2v (elementDegree f high 0).toNat h) u) (i := 0) (by omega)
    rw [h0] at hfv
    have hfvmem := align_mem hn (row_length hll hl1) hs' _ (List.mem_of_getElem? h0)
    have hfvlt := hr _ (List.mem_of_mem_drop (List.mem_of_mem_take hfvmem))
    obtain ⟨ents, e1, e2, e3, e4⟩ := v2 _ hfvlt
    obtain ⟨c, c1, c2, c3, c4⟩ := matchLoop_spec hn _ lv2v hlen hll l ents (by
      intro e he
      obtain ⟨q1, q2, q3, q4⟩ := e3 e he
      exact ⟨q1, hnd _ q1, q2, q3, by rw [q4, h0]⟩) e2 (e4 l hl1 hfvmem) hs' (by
      intro e he hse
      obtain ⟨q1, _⟩ := e3 e he
      exact hdiff e.1 l q1 hl1 (hse.trans hn (row_length hll q1) hs))
    refine ⟨l, c, ?_, hl1, c2, c3, c4⟩
    unfold findMatch
    simp only [Option.bind_eq_bind, hfv, Option.bind_some, e1, rowAt_eq u2 hq, hrow, c1]
  have hsome : ∀ q, q < nh * k → ∃ m, findMatch n a2fv uv2v lv2v v2l false q = some m := by
    intro q hq
    obtain ⟨h, u, hh, hu, rfl⟩ := row_cover hq
    obtain ⟨l, c, e, _⟩ := hmatch h u hh hu
    exact ⟨_, e⟩
  obtain ⟨hl2l, a1, a2, a3⟩ := parEach s (nh * k)
    (fun a => (findMatch n a2fv uv2v lv2v v2l false a).map Prod.fst) (by
      intro q hq; obtain ⟨m, e⟩ := hsome q hq; rw [e]; rfl)
  obtain ⟨codes, b1, b2, b3⟩ := parEach s (nh * k)
    (fun a => (findMatch n a2fv uv2v lv2v v2l false a).map Prod.snd) (by
      intro q hq; obtain ⟨m, e⟩ := hsome q hq; rw [e]; rfl)
  simp only [Option.map_map] at a1 b1
  refine ⟨hl2l, codes, ?_, a2, b2, ?_⟩
  · unfold reflectDown reflectDownWith findMatches findMatchesEx
    rw [hN, v1, Option.bind_some, u1, Option.bind_some, if_pos hlow2]
    simp only []
    rw [f1, Option.bind_some, if_pos ⟨hn, by rw [f2, u2]⟩, f2]
    have a1' : (parScatter s (nh * k) (fun a => (findMatch n a2fv uv2v lv2v v2l false a).map
        (fun m => [(a, m.1)])) (Mem.alloc (nh * k))).bind Mem.toArray? = some hl2l := a1
    have b1' : (parScatter s (nh * k) (fun a => (findMatch n a2fv uv2v lv2v v2l false a).map
        (fun m => [(a, m.2)])) (Mem.alloc (nh * k))).bind Mem.toArray? = some codes := b1
    rw [a1', b1']
    rfl
  · intro h u hh hu
    obtain ⟨l, c, e, q1, q2, q3, q4⟩ := hmatch h u hh hu
    have hq := row_lt hh hu
    refine ⟨l, c, ?_, ?_, q1, q2, q3, q4⟩
    · rw [a3 _ hq, e]; rfl
    · rw [b3 _ hq, e]; rfl

/-- Deriving the sides of a mesh and then reflecting down: for all elements with distinct vertices in
range both succeed, every side of every element gets the one derived entity with the same vertices,
and its code reproduces the side's own vertex order. -/
theorem C12_derive (s1 s2 s3 s t : Sched) (f : Family) (high low : Nat) (hd : DimPair high low)
    (hv2v : List Nat) (nh nv : Nat) (hl : hv2v.length = nh * (elementDegree f high 0).toNat)
    (hn : ∀ h, h < nh → (row hv2v (elementDegree f high 0).toNat h).Nodup) (hr : InRange hv2v nv) :
    ∃ lv2v nl hl2l codes, findUnique t hv2v f high low = some lv2v ∧
      lv2v.length = nl * (elementDegree f low 0).toNat ∧
      reflectDown s1 s2 s3 s hv2v lv2v f nv high low = some (hl2l, codes) ∧
      ∀ h u, h < nh → u < (elementDegree f high low).toNat → ∃ (l : Nat) (c : Int),
        hl2l[h * (elementDegree f high low).toNat + u]? = some l ∧
        codes[h * (elementDegree f high low).toNat + u]? = some c ∧ l < nl ∧
        align (codeIsFlipped c) (codeRotation c).toNat (row lv2v (elementDegree f low 0).toNat l) =
          sideVerts f high low (row hv2v (elementDegree f high 0).toNat h) u ∧
        ∀ l', l' < nl → SamePolygon (row lv2v (elementDegree f low 0).toNat l')
          (sideVerts f high low (row hv2v (elementDegree f high 0).toNat h) u) → l' = l := by
  have ht := template_facts f high low hd
  obtain ⟨lv2v, nl, a1, a2, a3, a4, a5⟩ := C12_find_unique t f high low hd hv2v nh hl hn
  have hside : ∀ h u, h < nh → u < (elementDegree f high low).toNat →
      ∀ x ∈ sideVerts f high low (row hv2v (elementDegree f high 0).toNat h) u, x < nv := by
    intro h u hh hu x hx
    unfold sideVerts at hx
    obtain ⟨uv, _, hg⟩ := List.mem_filterMap.1 hx
    exact hr x (List.mem_of_mem_drop (List.mem_of_mem_take (List.mem_of_getElem? hg)))
  obtain ⟨hl2l, codes, b1, b2, b3, b4⟩ := C12_reflect_down s1 s2 s3 s f high low hd hv2v lv2v nh nl nv hl
    a2 (by
      intro x hx
      obtain ⟨p, hp⟩ := List.mem_iff_getElem?.1 hx
      have hplt := (List.getElem?_eq_some_iff.1 hp).1
      rw [a2] at hplt
      obtain ⟨l, j, hl1, hj, rfl⟩ := row_cover hplt
      obtain ⟨h, u, hh, hu, e⟩ := a3 l hl1
      refine hside h u hh hu x ?_
      rw [← e]
      refine List.mem_of_getElem? (i := j) ?_
      rw [row_get _ _ hj]; exact hp)
    (by
      intro l hl1
      obtain ⟨h, u, hh, hu, e⟩ := a3 l hl1
      rw [e]
      exact sideVerts_nodup f high low hd _ (row_length hl hh) (hn h hh) u hu)
    a5 a4
  refine ⟨lv2v, nl, hl2l, codes, a1, a2, b1, ?_⟩
  intro h u hh hu
  obtain ⟨l, c, c1, c2, c3, _, _, c6⟩ := b4 h u hh hu
  refine ⟨l, c, c1, c2, c3, c6, ?_⟩
  intro l' hl' hs
  refine a5 l' l hl' c3 ?_
  have hsl : SamePolygon (row lv2v (elementDegree f low 0).toNat l)
      (sideVerts f high low (row hv2v (elementDegree f high 0).toNat h) u) := ⟨_, _, c6⟩
  exact hs.trans ht.2.2.1 (row_length a2 hl') (hsl.symm ht.2.2.1 (row_length a2 c3))

/-! Non-vacuity: two triangles sharing an edge, and two tetrahedra sharing a face. -/
example : DimPair 2 1 ∧ ([0, 1, 2, 2, 1, 3] : List Nat).length = 2 * (elementDegree .simplex 2 0).toNat ∧
    (∀ h, h < 2 → (row [0, 1, 2, 2, 1, 3] 3 h).Nodup) ∧ InRange [0, 1, 2, 2, 1, 3] 4 ∧
    findUnique Sched.reversed [0, 1, 2, 2, 1, 3] .simplex 2 1 = some [0, 1, 2, 0, 2, 1, 1, 3, 3, 2] ∧
    reflectDown Sched.serial Sched.reversed Sched.serial Sched.serial [0, 1, 2, 2, 1, 3]
      [0, 1, 2, 0, 2, 1, 1, 3, 3, 2] .simplex 4 2 1 =
      some ([0, 2, 1, 2, 3, 4], [0, 2, 0, 0, 0, 0]) := by
  refine ⟨by decide, by decide, by decide +kernel, by simp [InRange], by decide +kernel,
    by decide +kernel⟩

example : DimPair 3 2 ∧ (∀ h, h < 2 → (row [0, 1, 2, 3, 1, 2, 3, 4] 4 h).Nodup) ∧
    (findUnique Sched.serial [0, 1, 2, 3, 1, 2, 3, 4] .simplex 3 2).isSome := by
  refine ⟨by decide, by decide +kernel, by decide +kernel⟩

end OmegaH
