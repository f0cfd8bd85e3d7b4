import Verif.Spec.Tags
/-!
# Lemmas about vectors of tags
-/
namespace OmegaH
open Spec
variable {V : Type}

theorem tagIter_cons (a : NamedTag V) (ts : List (NamedTag V)) (n : String) :
    tagIter (a :: ts) n = if a.name = n then some 0 else (tagIter ts n).map (· + 1) := by
  unfold tagIter
  rw [List.findIdx?_cons]
  by_cases h : a.name = n <;> simp [h]

theorem tagIter_find (ts : List (NamedTag V)) (n : String) :
    (∃ i t, tagIter ts n = some i ∧ ts[i]? = some t ∧ ts.find? (fun t => t.name == n) = some t ∧ t.name = n ∧ t ∈ ts) ∨
    (tagIter ts n = none ∧ ts.find? (fun t => t.name == n) = none ∧ n ∉ ts.map (fun t => t.name)) := by
  induction ts with
  | nil => exact Or.inr ⟨rfl, rfl, by simp⟩
  | cons a ts ih =>
    rw [tagIter_cons, List.find?_cons]
    by_cases h : a.name = n
    · refine Or.inl ⟨0, a, by rw [if_pos h], rfl, ?_, h, by simp⟩
      simp [h]
    · rcases ih with ⟨i, t, h1, h2, h3, h4, h5⟩ | ⟨h1, h2, h3⟩
      · refine Or.inl ⟨i + 1, t, by rw [if_neg h, h1]; rfl, by simpa using h2, ?_, h4, by simp [h5]⟩
        have : (a.name == n) = false := by simp [h]
        rw [this]; exact h3
      · refine Or.inr ⟨by rw [if_neg h, h1]; rfl, ?_, ?_⟩
        · have : (a.name == n) = false := by simp [h]
          rw [this]; exact h2
        · rw [List.map_cons, List.mem_cons]
          rintro (h4 | h4)
          · exact h h4.symm
          · exact h3 h4

theorem putTag_cons (a : NamedTag V) (ts : List (NamedTag V)) (t : NamedTag V) :
    putTag (a :: ts) t = if a.name = t.name then t :: ts else a :: putTag ts t := by
  unfold putTag
  rw [tagIter_cons]
  by_cases h : a.name = t.name
  · rw [if_pos h, if_pos h]; rfl
  · rw [if_neg h, if_neg h]
    cases tagIter ts t.name <;> rfl

theorem putTag_find (ts : List (NamedTag V)) (t : NamedTag V) (n : String) :
    (putTag ts t).find? (fun x => x.name == n) = if n = t.name then some t else ts.find? (fun x => x.name == n) := by
  induction ts with
  | nil =>
    show List.find? _ [t] = _
    by_cases h : n = t.name
    · simp [h]
    · have : ¬ t.name = n := fun e => h e.symm
      simp [h, this]
  | cons a ts ih =>
    rw [putTag_cons]
    by_cases h : a.name = t.name
    · rw [if_pos h, List.find?_cons, List.find?_cons]
      by_cases hn : n = t.name
      · simp [hn]
      · have h1 : (t.name == n) = false := beq_eq_false_iff_ne.2 (fun e => hn e.symm)
        have h2 : (a.name == n) = false := by rw [h]; exact h1
        rw [h1, h2, if_neg hn]
    · rw [if_neg h, List.find?_cons, List.find?_cons, ih]
      by_cases hn : n = t.name
      · have h2 : (a.name == n) = false := by simp [hn, h]
        rw [h2, if_pos hn]
      · rw [if_neg hn, if_neg hn]

theorem putTag_names (ts : List (NamedTag V)) (t : NamedTag V) :
    (putTag ts t).map (fun x => x.name) =
      if t.name ∈ ts.map (fun x => x.name) then ts.map (fun x => x.name) else ts.map (fun x => x.name) ++ [t.name] := by
  induction ts with
  | nil => rfl
  | cons a ts ih =>
    rw [putTag_cons]
    by_cases h : a.name = t.name
    · rw [if_pos h, if_pos (by simp [h])]; simp [h]
    · rw [if_neg h, List.map_cons, ih]
      have h' : ¬ t.name = a.name := fun e => h e.symm
      by_cases hm : t.name ∈ ts.map (fun x => x.name)
      · rw [if_pos hm, if_pos (by rw [List.map_cons, List.mem_cons]; exact Or.inr hm)]; rfl
      · rw [if_neg hm, if_neg (by rw [List.map_cons, List.mem_cons]; rintro (h1 | h1); exact h' h1; exact hm h1)]; rfl

theorem putTag_mem (ts : List (NamedTag V)) (t x : NamedTag V) (h : x ∈ putTag ts t) : x = t ∨ x ∈ ts := by
  induction ts with
  | nil => left; simpa using (show x ∈ [t] from h)
  | cons a ts ih =>
    rw [putTag_cons] at h
    split at h
    · rcases List.mem_cons.1 h with h | h
      · exact Or.inl h
      · exact Or.inr (by simp [h])
    · rcases List.mem_cons.1 h with h | h
      · exact Or.inr (by simp [h])
      · rcases ih h with h | h
        · exact Or.inl h
        · exact Or.inr (by simp [h])

/-- The vector without the tag. -/
def dropTag (ts : List (NamedTag V)) (n : String) : List (NamedTag V) :=
  match tagIter ts n with
  | some i => ts.eraseIdx i
  | none => ts

theorem dropTag_cons (a : NamedTag V) (ts : List (NamedTag V)) (n : String) :
    dropTag (a :: ts) n = if a.name = n then ts else a :: dropTag ts n := by
  unfold dropTag
  rw [tagIter_cons]
  by_cases h : a.name = n
  · rw [if_pos h, if_pos h]; rfl
  · rw [if_neg h, if_neg h]
    cases tagIter ts n <;> rfl

theorem dropTag_sublist (ts : List (NamedTag V)) (n : String) : List.Sublist (dropTag ts n) ts := by
  unfold dropTag
  split
  · exact List.eraseIdx_sublist _ _
  · exact List.Sublist.refl _

theorem dropTag_find (ts : List (NamedTag V)) (n n' : String) (h : (ts.map (fun x => x.name)).Nodup) :
    (dropTag ts n).find? (fun x => x.name == n') = if n' = n then none else ts.find? (fun x => x.name == n') := by
  induction ts with
  | nil => show List.find? _ [] = _; simp
  | cons a ts ih =>
    rw [List.map_cons, List.nodup_cons] at h
    rw [dropTag_cons]
    by_cases ha : a.name = n
    · rw [if_pos ha, List.find?_cons]
      by_cases hn : n' = n
      · rw [if_pos hn, List.find?_eq_none]
        intro x hx hxn
        refine h.1 (List.mem_map.2 ⟨x, hx, ?_⟩)
        rw [ha, ← hn]; exact eq_of_beq hxn
      · have h2 : (a.name == n') = false := by rw [ha]; exact beq_eq_false_iff_ne.2 (fun e => hn e.symm)
        rw [h2, if_neg hn]
    · rw [if_neg ha, List.find?_cons, List.find?_cons, ih h.2]
      by_cases hn : n' = n
      · have h2 : (a.name == n') = false := by rw [hn]; simp [ha]
        rw [h2, if_pos hn]
      · rw [if_neg hn, if_neg hn]



/-! ## Single operations -/

theorem checkDim2_cases (m : TaggedMesh V) (d : Int) :
    (∃ k : Nat, d = k ∧ EntsExist m k ∧ m.checkDim2 d = .ok ()) ∨
    ((∀ k : Nat, d = k → ¬ EntsExist m k) ∧ m.checkDim2 d = .fail) := by
  unfold TaggedMesh.checkDim2 TaggedMesh.hasEnts TaggedMesh.checkDim EntsExist
  by_cases h : 0 ≤ d ∧ d ≤ m.dim
  · obtain ⟨k, rfl⟩ := Int.eq_ofNat_of_zero_le h.1
    simp only [if_pos h, Res.bind_ok, Int.toNat_natCast]
    by_cases hn : 0 ≤ m.nents k
    · exact Or.inl ⟨k, rfl, ⟨h.2, hn⟩, by simp [hn]⟩
    · refine Or.inr ⟨?_, by simp [hn]⟩
      intro k' hk' hh
      obtain rfl : k = k' := by omega
      exact hn hh.2
  · refine Or.inr ⟨?_, by simp [if_neg h]⟩
    rintro k rfl hh
    exact h ⟨by omega, hh.1⟩

theorem tagVector_ok (m : TaggedMesh V) (hd : m.dim ≤ 3) {k : Nat} (hk : (k : Int) ≤ m.dim) : m.tagVector k = .ok (m.tags k) := by
  unfold TaggedMesh.tagVector
  rw [if_pos (by omega), Int.toNat_natCast]

theorem hasTag_spec {m : TaggedMesh V} (h : GoodTags m) {k : Nat} (hk : (k : Int) ≤ m.dim) (n : String) :
    m.hasTag k n = .ok (stored m k n).isSome := by
  unfold TaggedMesh.hasTag TaggedMesh.hasEnts TaggedMesh.checkDim
  rw [if_pos (by omega)]
  simp only [Res.bind_ok, Int.toNat_natCast, tagVector_ok m h.dim.2 hk]
  have hf : (tagIter (m.tags k) n).isSome = (stored m k n).isSome := by
    unfold stored
    rcases tagIter_find (m.tags k) n with ⟨i, t, h1, _, h3, _⟩ | ⟨h1, h2, _⟩
    · rw [h1, h3]; rfl
    · rw [h1, h2]; rfl
  by_cases hn : 0 ≤ m.nents k
  · simp [hn, hf]
  · have : m.tags k = [] := by
      by_cases he : m.tags k = []
      · exact he
      · exact absurd (h.there k he).2 hn
    simp [hn, stored, this]

/-- Two meshes with the same entities. -/
def SameEnts (m m' : TaggedMesh V) : Prop := m'.dim = m.dim ∧ m'.nents = m.nents

theorem stored_setVector (m : TaggedMesh V) (k : Nat) (ts : List (NamedTag V)) (d : Nat) (n : String) :
    stored (m.setVector k ts) d n = if d = k then ts.find? (fun t => t.name == n) else stored m d n := by
  unfold stored TaggedMesh.setVector
  by_cases h : d = k <;> simp [h]

theorem good_setVector {m : TaggedMesh V} (h : GoodTags m) (k : Nat) (ts : List (NamedTag V))
    (h1 : (ts.map (fun t => t.name)).Nodup) (h2 : ∀ t ∈ ts, t.name ≠ "") (h3 : ∀ t ∈ ts, arrayFits (m.nents k * t.ncomps) t.arr)
    (h4 : ts.length ≤ 127) (h5 : ts ≠ [] → EntsExist m k) : GoodTags (m.setVector k ts) := by
  have hv : ∀ d, (m.setVector k ts).tags d = if d = k then ts else m.tags d := fun _ => rfl
  refine ⟨h.dim, ?_, ?_, ?_, ?_, ?_⟩
  · intro d; rw [hv]; by_cases e : d = k
    · rw [if_pos e]; exact h1
    · rw [if_neg e]; exact h.names d
  · intro d; rw [hv]; by_cases e : d = k
    · rw [if_pos e]; exact h2
    · rw [if_neg e]; exact h.named d
  · intro d; rw [hv]; by_cases e : d = k
    · rw [if_pos e, e]; exact h3
    · rw [if_neg e]; exact h.fits d
  · intro d; rw [hv]; by_cases e : d = k
    · rw [if_pos e]; exact h4
    · rw [if_neg e]; exact h.few d
  · intro d; rw [hv]; by_cases e : d = k
    · rw [if_pos e, e]; exact h5
    · rw [if_neg e]; exact h.there d

theorem remove_spec {m : TaggedMesh V} (h : GoodTags m) {k : Nat} (hk : (k : Int) ≤ m.dim) (n : String) :
    ∃ m', m.removeTag k n = .ok m' ∧ SameEnts m m' ∧ GoodTags m' ∧ TakenAway k n (stored m) (stored m') := by
  unfold TaggedMesh.removeTag
  rw [hasTag_spec h hk]
  rcases tagIter_find (m.tags k) n with ⟨i, t, h1, h2, h3, h4, h5⟩ | ⟨h1, h2, h3⟩
  · have hs : stored m k n = some t := h3
    have hex := h.there k (List.ne_nil_of_mem h5)
    rcases checkDim2_cases m k with ⟨_, _, _, hc⟩ | ⟨hc, _⟩
    · simp only [hs, Res.bind_ok, Option.isSome_some, if_true, hc, tagVector_ok m h.dim.2 hk, h1, Int.toNat_natCast]
      have hdrop : (m.tags k).eraseIdx i = dropTag (m.tags k) n := by unfold dropTag; rw [h1]
      rw [hdrop]
      have hsub := dropTag_sublist (m.tags k) n
      refine ⟨_, rfl, ⟨rfl, rfl⟩, good_setVector h k _ ((h.names k).sublist (hsub.map _)) (fun t ht => h.named k t (hsub.subset ht))
        (fun t ht => h.fits k t (hsub.subset ht)) (Nat.le_trans hsub.length_le (h.few k)) (fun _ => hex), ?_⟩
      intro d' n'
      rw [stored_setVector, dropTag_find _ _ _ (h.names k)]
      constructor
      · rintro ⟨rfl, rfl⟩; rw [if_pos rfl, if_pos rfl]
      · intro hne
        by_cases e : d' = k
        · subst e
          rw [if_pos rfl, if_neg (fun e => hne ⟨rfl, e⟩)]; rfl
        · rw [if_neg e]
    · exact absurd hex (hc k rfl)
  · have hs : stored m k n = none := h2
    simp only [hs, Res.bind_ok, Option.isSome_none, Bool.false_eq_true, if_false]
    refine ⟨m, rfl, ⟨rfl, rfl⟩, h, ?_⟩
    intro d' n'
    constructor
    · rintro ⟨rfl, rfl⟩; exact hs
    · intro _; rfl

theorem remove_fails {m : TaggedMesh V} {d : Int} (hd : ¬ (0 ≤ d ∧ d ≤ m.dim)) (n : String) : m.removeTag d n = .fail := by
  unfold TaggedMesh.removeTag TaggedMesh.hasTag TaggedMesh.checkDim
  rw [if_neg hd]; rfl

theorem react_spec {m : TaggedMesh V} (h : GoodTags m) (d : Int) (name : String) :
    ∃ m', m.reactToSetTag d name = .ok m' ∧ SameEnts m m' ∧ GoodTags m' ∧
      ∀ d' n', (d = 0 ∧ DerivedFrom m.dim name d' n' → stored m' d' n' = none) ∧
        (¬ (d = 0 ∧ DerivedFrom m.dim name d' n') → stored m' d' n' = stored m d' n') := by
  obtain ⟨D, hD⟩ := Int.eq_ofNat_of_zero_le (show 0 ≤ m.dim by have := h.dim; omega)
  have hD1 := h.dim
  -- lengths and qualities
  have step1 : ∃ m2, (if d = 0 ∧ (name = "coordinates" ∨ name = "metric") then
        (m.removeTag 1 "length").bind (fun m1 => m1.removeTag m1.dim "quality") else .ok m) = .ok m2 ∧ SameEnts m m2 ∧ GoodTags m2 ∧
      ∀ d' n', ((d = 0 ∧ (name = "coordinates" ∨ name = "metric")) ∧ (d' = 1 ∧ n' = "length" ∨ d' = D ∧ n' = "quality") →
          stored m2 d' n' = none) ∧
        (¬ ((d = 0 ∧ (name = "coordinates" ∨ name = "metric")) ∧ (d' = 1 ∧ n' = "length" ∨ d' = D ∧ n' = "quality")) →
          stored m2 d' n' = stored m d' n') := by
    by_cases hc : d = 0 ∧ (name = "coordinates" ∨ name = "metric")
    · rw [if_pos hc]
      obtain ⟨m1, a1, a2, a3, a4⟩ := remove_spec h (k := 1) (by omega) "length"
      have a1' : m.removeTag 1 "length" = .ok m1 := a1
      rw [a1', Res.bind_ok]
      have hm1 : m1.dim = (D : Int) := a2.1.trans hD
      obtain ⟨m2, b1, b2, b3, b4⟩ := remove_spec a3 (k := D) (by omega) "quality"
      rw [hm1]
      refine ⟨m2, b1, ⟨b2.1.trans a2.1, b2.2.trans a2.2⟩, b3, ?_⟩
      intro d' n'
      have A := a4 d' n'
      have B := b4 d' n'
      constructor
      · rintro ⟨_, hx | hx⟩
        · by_cases hy : d' = D ∧ n' = "quality"
          · exact B.1 hy
          · rw [B.2 hy]; exact A.1 hx
        · exact B.1 hx
      · intro hx
        rw [B.2 (fun hy => hx ⟨hc, Or.inr hy⟩), A.2 (fun hy => hx ⟨hc, Or.inl hy⟩)]
    · rw [if_neg hc]
      exact ⟨m, rfl, ⟨rfl, rfl⟩, h, fun d' n' => ⟨fun hx => absurd hx.1 hc, fun _ => rfl⟩⟩
  obtain ⟨m2, a1, a2, a3, a4⟩ := step1
  unfold TaggedMesh.reactToSetTag
  rw [a1, Res.bind_ok]
  have hm2 : m2.dim = (D : Int) := a2.1.trans hD
  have hder : ∀ d' n', (d = 0 ∧ DerivedFrom m.dim name d' n') ↔
      ((d = 0 ∧ (name = "coordinates" ∨ name = "metric")) ∧ (d' = 1 ∧ n' = "length" ∨ d' = D ∧ n' = "quality")) ∨
      ((d = 0 ∧ name = "coordinates") ∧ d' = D ∧ n' = "size") := by
    intro d' n'
    unfold DerivedFrom
    rw [hD]
    constructor
    · rintro ⟨h0, ⟨h1, h2 | h2⟩ | ⟨h1, h2, h3⟩⟩
      · exact Or.inl ⟨⟨h0, h1⟩, Or.inl h2⟩
      · exact Or.inl ⟨⟨h0, h1⟩, Or.inr ⟨by omega, h2.2⟩⟩
      · exact Or.inr ⟨⟨h0, h1⟩, by omega, h3⟩
    · rintro (⟨⟨h0, h1⟩, h2 | h2⟩ | ⟨⟨h0, h1⟩, h2, h3⟩)
      · exact ⟨h0, Or.inl ⟨h1, Or.inl h2⟩⟩
      · exact ⟨h0, Or.inl ⟨h1, Or.inr ⟨by omega, h2.2⟩⟩⟩
      · exact ⟨h0, Or.inr ⟨h1, by omega, h3⟩⟩
  by_cases hc : d = 0 ∧ name = "coordinates"
  · rw [if_pos hc, hm2]
    obtain ⟨m3, b1, b2, b3, b4⟩ := remove_spec a3 (k := D) (by omega) "size"
    refine ⟨m3, b1, ⟨b2.1.trans a2.1, b2.2.trans a2.2⟩, b3, ?_⟩
    intro d' n'
    rw [hder]
    have A := a4 d' n'
    have B := b4 d' n'
    constructor
    · rintro (hx | ⟨_, hx⟩)
      · by_cases hy : d' = D ∧ n' = "size"
        · exact B.1 hy
        · rw [B.2 hy]; exact A.1 hx
      · exact B.1 hx
    · intro hx
      rw [B.2 (fun hy => hx (Or.inr ⟨hc, hy⟩)), A.2 (fun hy => hx (Or.inl hy))]
  · rw [if_neg hc]
    refine ⟨m2, rfl, a2, a3, ?_⟩
    intro d' n'
    rw [hder]
    have A := a4 d' n'
    constructor
    · rintro (hx | ⟨hx, _⟩)
      · exact A.1 hx
      · exact absurd hx hc
    · intro hx
      exact A.2 (fun hy => hx (Or.inl hy))

/-- What `add_tag` asks for. -/
def AddFits (m : TaggedMesh V) (k : Nat) (t : NamedTag V) : Prop :=
  EntsExist m k ∧ t.name ≠ "" ∧ arrayFits (m.nents k * t.ncomps) t.arr ∧
    (stored m k t.name = none → 0 ≤ t.ncomps ∧ t.ncomps ≤ 127 ∧ (m.tags k).length < 127)

theorem add_ok {m : TaggedMesh V} (h : GoodTags m) {k : Nat} {t : NamedTag V} (hf : AddFits m k t) (internal : Bool) :
    ∃ m', m.addTag k t.name t.ncomps t.typ t.arr internal = .ok m' ∧ SameEnts m m' ∧ GoodTags m' ∧
      PutThere m.dim k t internal (stored m) (stored m') := by
  obtain ⟨hex, hname, harr, hnew⟩ := hf
  have hc : m.checkDim2 k = .ok () := by
    rcases checkDim2_cases m k with ⟨_, _, _, hc⟩ | ⟨hc, _⟩
    · exact hc
    · exact absurd hex (hc k rfl)
  have hlen : (putTag (m.tags k) t).length ≤ 127 := by
    have := congrArg List.length (putTag_names (m.tags k) t)
    rw [List.length_map] at this
    rw [this]
    split
    · rw [List.length_map]; exact h.few k
    · rename_i hno
      rw [List.length_append, List.length_map, List.length_singleton]
      rcases tagIter_find (m.tags k) t.name with ⟨i, x, _, _, _, h4, h5⟩ | ⟨_, h2, _⟩
      · exact absurd (List.mem_map.2 ⟨x, h5, h4⟩) hno
      · have := (hnew h2).2.2; omega
  have hgood : GoodTags (m.setVector k (putTag (m.tags k) t)) := by
    refine good_setVector h k _ ?_ ?_ ?_ hlen (fun _ => hex)
    · rw [putTag_names]
      split
      · exact h.names k
      · rename_i hno
        rw [List.nodup_append]
        refine ⟨h.names k, by simp, ?_⟩
        intro a ha b hb
        rw [List.mem_singleton] at hb
        rintro rfl
        exact hno (hb ▸ ha)
    · intro x hx
      rcases putTag_mem _ _ _ hx with rfl | hx
      · exact hname
      · exact h.named k x hx
    · intro x hx
      rcases putTag_mem _ _ _ hx with rfl | hx
      · exact harr
      · exact h.fits k x hx
  have hput : ∀ d' n', stored (m.setVector k (putTag (m.tags k) t)) d' n' = if d' = k ∧ n' = t.name then some t else stored m d' n' := by
    intro d' n'
    rw [stored_setVector, putTag_find]
    by_cases e : d' = k
    · subst e
      by_cases e' : n' = t.name
      · rw [if_pos rfl, if_pos e', if_pos ⟨rfl, e'⟩]
      · rw [if_pos rfl, if_neg e', if_neg (fun x => e' x.2)]; rfl
    · rw [if_neg e, if_neg (fun x => e x.1)]
  have hrun : m.addTag k t.name t.ncomps t.typ t.arr internal =
      if internal then .ok (m.setVector k (putTag (m.tags k) t)) else (m.setVector k (putTag (m.tags k) t)).reactToSetTag k t.name := by
    unfold TaggedMesh.addTag
    simp only [tagVector_ok m h.dim.2 hex.1, Res.bind_ok, hc, Int.toNat_natCast]
    have : (if (tagIter (m.tags k) t.name).isNone = true then
        (if t.name ≠ "" ∧ 0 ≤ t.ncomps ∧ t.ncomps ≤ 127 ∧ (m.tags k).length < 127 then Res.ok () else Res.fail) else Res.ok ()) = Res.ok () := by
      rcases tagIter_find (m.tags k) t.name with ⟨i, x, h1, _⟩ | ⟨h1, h2, _⟩
      · rw [h1]; rfl
      · rw [h1]; exact if_pos (And.intro hname (hnew h2))
    rw [this, Res.bind_ok, if_neg hname, if_pos harr]
  rw [hrun]
  cases internal with
  | true =>
    refine ⟨_, if_pos rfl, ⟨rfl, rfl⟩, hgood, ?_⟩
    intro d' n'
    refine ⟨fun e => by rw [hput, if_pos e], fun _ hx => (by simp at hx), fun e _ => by rw [hput, if_neg e]⟩
  | false =>
    rw [if_neg (by simp)]
    obtain ⟨m', r1, r2, r3, r4⟩ := react_spec hgood k t.name
    refine ⟨m', r1, r2, r3, ?_⟩
    intro d' n'
    have R := r4 d' n'
    have hdim : (m.setVector k (putTag (m.tags k) t)).dim = m.dim := rfl
    rw [hdim] at R
    refine ⟨?_, ?_, ?_⟩
    · intro e
      rw [R.2 ?_, hput, if_pos e]
      rintro ⟨h0, hd⟩
      have hk0 : k = 0 := by omega
      have hd0 : d' = 0 := e.1.trans hk0
      have := h.dim
      unfold DerivedFrom at hd
      rcases hd with ⟨_, ⟨h1, _⟩ | ⟨h1, _⟩⟩ | ⟨_, h1, _⟩ <;> omega
    · rintro e ⟨_, h0, hd⟩
      exact R.1 ⟨by omega, hd⟩
    · intro e hx
      rw [R.2 (fun hy => hx ⟨rfl, by omega, hy.2⟩), hput, if_neg e]

theorem add_only {m : TaggedMesh V} (h : GoodTags m) {d : Int} {name : String} {ncomps : Int} {typ : TagType} {arr : Option (List V)}
    {internal : Bool} {m' : TaggedMesh V} (hr : m.addTag d name ncomps typ arr internal = .ok m') :
    ∃ k : Nat, d = k ∧ AddFits m k ⟨name, ncomps, typ, arr⟩ := by
  unfold TaggedMesh.addTag at hr
  obtain ⟨ts, h1, h2⟩ := Res.bind_eq_ok.1 hr
  unfold TaggedMesh.tagVector at h1
  split at h1
  · rename_i hd
    obtain ⟨k, rfl⟩ := Int.eq_ofNat_of_zero_le hd.1
    obtain rfl := Res.ok.inj h1
    rw [Int.toNat_natCast] at h2
    obtain ⟨_, h3, h4⟩ := Res.bind_eq_ok.1 h2
    split at h4
    · cases h4
    · rename_i hname
      split at h4
      · rename_i harr
        refine ⟨k, rfl, ?_, hname, harr, ?_⟩
        · rcases tagIter_find (m.tags k) name with ⟨i, x, g1, _, _, _, g5⟩ | ⟨g1, _, _⟩
          · exact h.there k (List.ne_nil_of_mem g5)
          · rw [g1] at h3
            obtain ⟨_, h5, _⟩ := Res.bind_eq_ok.1 h3
            rcases checkDim2_cases m k with ⟨k', hk', hx, _⟩ | ⟨_, hc⟩
            · obtain rfl : k = k' := by omega
              exact hx
            · rw [hc] at h5; cases h5
        · intro hs
          rcases tagIter_find (m.tags k) name with ⟨i, x, g1, _, g3, _, g5⟩ | ⟨g1, _, _⟩
          · have : stored m k name = some x := g3
            rw [this] at hs; cases hs
          · rw [g1] at h3
            obtain ⟨_, h5, h6⟩ := Res.bind_eq_ok.1 h3
            split at h6
            · rename_i hh; exact hh.2
            · cases h6
      · cases h4
  · cases h1

theorem add_ub {m : TaggedMesh V} (h : GoodTags m) (d : Int) (name : String) (ncomps : Int) (typ : TagType) (arr : Option (List V))
    (internal : Bool) : m.addTag d name ncomps typ arr internal = .ub ↔ ¬ (0 ≤ d ∧ d < 4) := by
  constructor
  · intro hu hd
    unfold TaggedMesh.addTag TaggedMesh.tagVector at hu
    rw [if_pos hd, Res.bind_ok] at hu
    obtain ⟨k, rfl⟩ := Int.eq_ofNat_of_zero_le hd.1
    rw [Int.toNat_natCast] at hu
    by_cases hf : AddFits m k ⟨name, ncomps, typ, arr⟩
    · obtain ⟨m', r, _⟩ := add_ok h hf internal
      have r' : m.addTag k name ncomps typ arr internal = .ok m' := r
      unfold TaggedMesh.addTag TaggedMesh.tagVector at r'
      rw [if_pos hd, Res.bind_ok, Int.toNat_natCast, hu] at r'
      cases r'
    · have hcheck : ∀ r : Res Unit, (r = .ok () ∨ r = .fail) → ∀ f : Unit → Res (TaggedMesh V), r.bind f = .ub → f () = .ub := by
        rintro r (rfl | rfl) f hx
        · exact hx
        · cases hx
      have hx := hcheck _ ?_ _ hu
      · split at hx
        · cases hx
        · rename_i hname
          split at hx
          · rename_i harr
            apply hf
            refine ⟨?_, hname, harr, ?_⟩
            · rcases tagIter_find (m.tags k) name with ⟨i, x, g1, _, _, _, g5⟩ | ⟨g1, _, _⟩
              · exact h.there k (List.ne_nil_of_mem g5)
              · rcases checkDim2_cases m k with ⟨k', hk', hy, _⟩ | ⟨_, hc⟩
                · obtain rfl : k = k' := by omega
                  exact hy
                · rw [g1, hc] at hu; cases hu
            · intro hs
              rcases tagIter_find (m.tags k) name with ⟨i, x, g1, _, g3, _, g5⟩ | ⟨g1, _, _⟩
              · have : stored m k name = some x := g3
                rw [this] at hs; cases hs
              · rcases checkDim2_cases m k with ⟨k', hk', hy, hc⟩ | ⟨_, hc⟩
                · rw [g1, hc] at hu
                  by_cases hh : name ≠ "" ∧ 0 ≤ ncomps ∧ ncomps ≤ 127 ∧ (m.tags k).length < 127
                  · exact hh.2
                  · simp only [Option.isNone_none, if_true, Res.bind_ok, if_neg hh] at hu
                    cases hu
                · rw [g1, hc] at hu; cases hu
          · cases hx
      · split
        · rcases checkDim2_cases m k with ⟨_, _, _, hc⟩ | ⟨_, hc⟩
          · rw [hc, Res.bind_ok]; split
            · exact Or.inl rfl
            · exact Or.inr rfl
          · rw [hc]; exact Or.inr rfl
        · exact Or.inl rfl
  · intro hd
    unfold TaggedMesh.addTag TaggedMesh.tagVector
    rw [if_neg hd]; rfl

theorem numEnts_cases (m : TaggedMesh V) (d : Int) :
    (∃ k : Nat, d = k ∧ EntsExist m k ∧ m.numEnts d = .ok (m.nents k)) ∨
    ((∀ k : Nat, d = k → ¬ EntsExist m k) ∧ m.numEnts d = .fail) := by
  unfold TaggedMesh.numEnts
  rcases checkDim2_cases m d with ⟨k, rfl, h1, h2⟩ | ⟨h1, h2⟩
  · exact Or.inl ⟨k, rfl, h1, by rw [h2]; rfl⟩
  · exact Or.inr ⟨h1, by rw [h2]; rfl⟩

/-- What `set_tag` asks for. -/
def SetFits (m : TaggedMesh V) (k : Nat) (name : String) (a : List V) : Prop :=
  EntsExist m k ∧ m.nents k ≠ 0 ∧ (a.length : Int) % m.nents k = 0 ∧ name ≠ "" ∧
    (stored m k name = none → (a.length : Int) / m.nents k ≤ 127 ∧ (m.tags k).length < 127)

theorem setFits_add {m : TaggedMesh V} {k : Nat} {name : String} {a : List V} (typ : TagType) (h : SetFits m k name a) :
    AddFits m k ⟨name, (a.length : Int) / m.nents k, typ, some a⟩ := by
  obtain ⟨h1, h2, h3, h4, h5⟩ := h
  have hn := h1.2
  refine ⟨h1, h4, ?_, ?_⟩
  · show (a.length : Int) = m.nents k * ((a.length : Int) / m.nents k)
    have := Int.mul_ediv_add_emod (a.length : Int) (m.nents k)
    omega
  · intro hs
    exact ⟨Int.ediv_nonneg (by omega) hn, h5 hs⟩

theorem set_eq {m : TaggedMesh V} {k : Nat} {name : String} {a : List V} (h : SetFits m k name a) (typ : TagType) (internal : Bool) :
    m.setTag k name typ a internal = m.addTag k name ((a.length : Int) / m.nents k) typ (some a) internal := by
  obtain ⟨h1, h2, h3, h4, h5⟩ := h
  unfold TaggedMesh.setTag
  rcases numEnts_cases m k with ⟨k', hk', _, hn⟩ | ⟨hn, _⟩
  · obtain rfl : k = k' := by omega
    rw [hn, Res.bind_ok]
    unfold divNoRem
    rw [if_pos ⟨h2, h3⟩, Res.bind_ok]
  · exact absurd h1 (hn k rfl)

theorem set_only {m : TaggedMesh V} (h : GoodTags m) {d : Int} {name : String} {typ : TagType} {a : List V} {internal : Bool}
    {m' : TaggedMesh V} (hr : m.setTag d name typ a internal = .ok m') : ∃ k : Nat, d = k ∧ SetFits m k name a := by
  unfold TaggedMesh.setTag at hr
  rcases numEnts_cases m d with ⟨k, rfl, h1, hn⟩ | ⟨_, hn⟩
  · rw [hn, Res.bind_ok] at hr
    unfold divNoRem at hr
    split at hr
    · rename_i hd
      rw [Res.bind_ok] at hr
      obtain ⟨k', hk', g1, g2, g3, g4⟩ := add_only h hr
      obtain rfl : k = k' := by omega
      exact ⟨k, rfl, h1, hd.1, hd.2, g2, fun hs => (g4 hs).2⟩
    · cases hr
  · rw [hn] at hr; cases hr

theorem set_no_ub {m : TaggedMesh V} (h : GoodTags m) (d : Int) (name : String) (typ : TagType) (a : List V) (internal : Bool) :
    m.setTag d name typ a internal ≠ .ub := by
  unfold TaggedMesh.setTag
  rcases numEnts_cases m d with ⟨k, rfl, h1, hn⟩ | ⟨_, hn⟩
  · rw [hn, Res.bind_ok]
    unfold divNoRem
    split
    · rw [Res.bind_ok]
      intro hu
      refine (add_ub h _ _ _ _ _ _).1 hu ⟨by omega, ?_⟩
      have := h1.1; have := h.dim.2; omega
    · intro hu; cases hu
  · rw [hn]; intro hu; cases hu

/-! ## Reading -/

theorem getTagBase_ok {m : TaggedMesh V} (h : GoodTags m) {k : Nat} {n : String} {t : NamedTag V} (hs : stored m k n = some t) :
    m.getTagBase k n = .ok t := by
  have hex := h.there k (List.ne_nil_of_mem (List.mem_of_find?_eq_some hs))
  unfold TaggedMesh.getTagBase
  rcases checkDim2_cases m k with ⟨_, _, _, hc⟩ | ⟨hc, _⟩
  · rw [hc, Res.bind_ok, tagVector_ok m h.dim.2 hex.1, Res.bind_ok]
    rcases tagIter_find (m.tags k) n with ⟨i, x, g1, g2, g3, _⟩ | ⟨_, g2, _⟩
    · rw [g1]
      have : x = t := Option.some.inj (g3.symm.trans hs)
      subst this
      simp only [g2]; rfl
    · exact absurd (hs.symm.trans g2) (by simp)
  · exact absurd hex (hc k rfl)

theorem getTagBase_fail {m : TaggedMesh V} (h : GoodTags m) {k : Nat} {n : String} (hs : stored m k n = none) :
    m.getTagBase k n = .fail := by
  unfold TaggedMesh.getTagBase
  rcases checkDim2_cases m k with ⟨k', hk', hex, hc⟩ | ⟨_, hc⟩
  · obtain rfl : k = k' := by omega
    rw [hc, Res.bind_ok, tagVector_ok m h.dim.2 hex.1, Res.bind_ok]
    rcases tagIter_find (m.tags k) n with ⟨i, x, _, _, g3, _⟩ | ⟨g1, _, _⟩
    · exact absurd (hs.symm.trans g3) (by simp)
    · rw [g1]
  · rw [hc]; rfl

theorem getArray_ok {m : TaggedMesh V} (h : GoodTags m) {k : Nat} {n : String} {t : NamedTag V} (hs : stored m k n = some t) :
    m.getArray t.typ k n = .ok t.arr := by
  unfold TaggedMesh.getArray
  rw [getTagBase_ok h hs, Res.bind_ok, if_pos rfl]

theorem getArray_eq {m : TaggedMesh V} (h : GoodTags m) {k : Nat} {n : String} {typ : TagType} {a : Option (List V)}
    (hr : m.getArray typ k n = .ok a) : ∃ t, stored m k n = some t ∧ t.typ = typ ∧ t.arr = a := by
  unfold TaggedMesh.getArray at hr
  cases hs : stored m k n with
  | none => rw [getTagBase_fail h hs] at hr; cases hr
  | some t =>
    rw [getTagBase_ok h hs, Res.bind_ok] at hr
    split at hr
    · rename_i ht
      exact ⟨t, rfl, ht, Res.ok.inj hr⟩
    · cases hr

theorem getArray_congr {m m' : TaggedMesh V} (h : GoodTags m) (h' : GoodTags m') {k : Nat} {n : String}
    (hs : stored m' k n = stored m k n) (typ : TagType) : m'.getArray typ k n = m.getArray typ k n := by
  unfold TaggedMesh.getArray
  cases hx : stored m k n with
  | none => rw [getTagBase_fail h hx, getTagBase_fail h' (hs.trans hx)]
  | some t => rw [getTagBase_ok h hx, getTagBase_ok h' (hs.trans hx)]

theorem numEnts_congr {m m' : TaggedMesh V} (hs : SameEnts m m') (d : Int) : m'.numEnts d = m.numEnts d := by
  cases m; cases m'
  obtain ⟨rfl, rfl⟩ := hs
  rfl

/-! ## Derived data -/

theorem ask_effect {m : TaggedMesh V} (h : GoodTags m) {k : Nat} (h1 : 1 ≤ k) (hk : (k : Int) ≤ m.dim) {name : String} {measure : TaggedMesh V → Res (List V)}
    {m' : TaggedMesh V} {v : Option (List V)} (hr : m.askMeasured k name measure = .ok (m', v)) :
    SameEnts m m' ∧ GoodTags m' ∧ (∀ d' n', ¬ (d' = k ∧ n' = name) → stored m' d' n' = stored m d' n') ∧
      ∃ t, stored m' k name = some t ∧ t.typ = .f64 ∧ v = t.arr ∧
        (stored m k name = some t ∨ stored m k name = none ∧ ∃ a, measure m = .ok a ∧ t = ⟨name, 1, .f64, some a⟩) := by
  unfold TaggedMesh.askMeasured at hr
  rw [hasTag_spec h hk, Res.bind_ok] at hr
  cases hs : stored m k name with
  | some t =>
    simp only [hs, Option.isSome_some, if_true, Res.bind_ok] at hr
    obtain ⟨a, g1, g2⟩ := Res.bind_eq_ok.1 hr
    obtain ⟨t', e1, e2, e3⟩ := getArray_eq h g1
    cases g2
    exact ⟨⟨rfl, rfl⟩, h, fun _ _ _ => rfl, t', e1, e2, e3.symm, Or.inl (hs.symm.trans e1)⟩
  | none =>
    simp only [hs, Option.isSome_none, Bool.false_eq_true, if_false] at hr
    obtain ⟨m1, g1, g2⟩ := Res.bind_eq_ok.1 hr
    obtain ⟨l, g3, g4⟩ := Res.bind_eq_ok.1 g1
    obtain ⟨k', hk', hf⟩ := add_only h g4
    obtain rfl : k = k' := by omega
    obtain ⟨m2, r1, r2, r3, r4⟩ := add_ok h hf false
    have r1' : m.addTag k name 1 .f64 (some l) false = .ok m2 := r1
    obtain rfl : m2 = m1 := Res.ok.inj (r1'.symm.trans g4)
    obtain ⟨a, g5, g6⟩ := Res.bind_eq_ok.1 g2
    obtain ⟨t', e1, e2, e3⟩ := getArray_eq r3 g5
    cases g6
    have hput := (r4 k name).1 ⟨rfl, rfl⟩
    refine ⟨r2, r3, ?_, t', e1, e2, e3.symm, Or.inr ⟨rfl, l, g3, Option.some.inj (e1.symm.trans hput)⟩⟩
    intro d' n' hne
    exact (r4 d' n').2.2 hne (fun hx => by omega)

theorem ask_ok {m : TaggedMesh V} (h : GoodTags m) {k : Nat} (hex : EntsExist m k) {name : String} (hname : name ≠ "")
    {measure : TaggedMesh V → Res (List V)} {l : List V} (hm : measure m = .ok l) (hl : (l.length : Int) = m.nents k)
    (hroom : (m.tags k).length < 127) (hfresh : ∀ t, stored m k name = some t → t = ⟨name, 1, .f64, some l⟩) :
    ∃ m', m.askMeasured k name measure = .ok (m', some l) := by
  unfold TaggedMesh.askMeasured
  rw [hasTag_spec h hex.1, Res.bind_ok]
  cases hs : stored m k name with
  | some t =>
    obtain rfl := hfresh t hs
    have := getArray_ok h hs
    simp only [Option.isSome_some, if_true, Res.bind_ok]
    exact ⟨m, by rw [this]; rfl⟩
  | none =>
    obtain ⟨m2, r1, r2, r3, r4⟩ := add_ok h (k := k) (t := ⟨name, 1, .f64, some l⟩)
      ⟨hex, hname, (by show (l.length : Int) = m.nents k * 1; omega), fun _ => ⟨(by show (0 : Int) ≤ 1; decide), (by show (1 : Int) ≤ 127; decide), hroom⟩⟩ false
    have r1' : m.addTag k name 1 .f64 (some l) false = .ok m2 := r1
    have hput := (r4 k name).1 ⟨rfl, rfl⟩
    have := getArray_ok r3 hput
    simp only [Option.isSome_none, Bool.false_eq_true, if_false]
    exact ⟨m2, by rw [hm, Res.bind_ok, r1', Res.bind_ok, this]; rfl⟩

theorem metric_congr {m m' : TaggedMesh V} (h : GoodTags m) (h' : GoodTags m') (hs : SameEnts m m')
    (h1 : stored m' 0 "coordinates" = stored m 0 "coordinates") (h2 : stored m' 0 "metric" = stored m 0 "metric")
    (f : List V → List V → Option (List V)) (b : Bool) (d : Int) : m'.measureMetric f b d = m.measureMetric f b d := by
  unfold TaggedMesh.measureMetric
  have e1 : m'.getArray .f64 0 "coordinates" = m.getArray .f64 0 "coordinates" := getArray_congr h h' h1 _
  have e2 : m'.getArray .f64 0 "metric" = m.getArray .f64 0 "metric" := getArray_congr h h' h2 _
  rw [e1, e2, numEnts_congr hs]

theorem sizes_congr {m m' : TaggedMesh V} (h : GoodTags m) (h' : GoodTags m') (hs : SameEnts m m')
    (h1 : stored m' 0 "coordinates" = stored m 0 "coordinates") (M : TagMeasures V) : m'.measureSizes M = m.measureSizes M := by
  unfold TaggedMesh.measureSizes
  have e1 : m'.getArray .f64 0 "coordinates" = m.getArray .f64 0 "coordinates" := getArray_congr h h' h1 _
  rw [e1, hs.1, numEnts_congr hs]

end OmegaH
