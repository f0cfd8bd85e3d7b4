import Verif.Spec.Transfer
import Verif.Lemmas.Blocks
import Verif.Props.C05
import Verif.Lemmas.Rows
import Verif.Lemmas.Fan
import Mathlib.Data.List.Perm.Subperm
/-! Lemmas about carrying fields. -/
namespace OmegaH
open OmegaH.Spec

variable {K : Type}

theorem findField_mem {tags : List (MeshField K)} (hn : (tags.map MeshField.name).Nodup) {f : MeshField K} (hf : f ∈ tags) :
    findField tags f.name = some f := by
  unfold findField
  induction tags with
  | nil => cases hf
  | cons a tags ih =>
    rw [List.map_cons, List.nodup_cons] at hn
    rw [List.find?_cons]
    by_cases h : a.name = f.name
    · rw [decide_eq_true h]
      rcases List.mem_cons.1 hf with rfl | hf
      · rfl
      · exact absurd (h ▸ List.mem_map_of_mem hf) hn.1
    · rw [decide_eq_false h]
      rcases List.mem_cons.1 hf with rfl | hf
      · exact absurd rfl h
      · exact ih hn.2 hf

theorem findField_some {tags : List (MeshField K)} {n : String} {f : MeshField K} (h : findField tags n = some f) : f ∈ tags ∧ f.name = n := by
  unfold findField at h
  exact ⟨List.mem_of_find?_eq_some h, by simpa using List.find?_some h⟩

theorem findField_none {tags : List (MeshField K)} {n : String} : findField tags n = none ↔ n ∉ tags.map MeshField.name := by
  unfold findField
  rw [List.find?_eq_none]
  simp only [decide_eq_true_eq, List.mem_map, not_exists, not_and]

theorem newTags_length {allowed : List String} {t : List (MeshField K)} (h : NewTags allowed t) : t.length ≤ allowed.length := by
  have := (List.Nodup.subperm h.nodup (l₂ := allowed) h.sub).length_le
  simpa using this

theorem addField_spec {allowed : List String} {t : List (MeshField K)} (ht : NewTags allowed t) (hal : allowed.length ≤ 127)
    {nents : Nat} {f : MeshField K} (hf : f.name ∈ allowed) (hne : f.name ≠ "") (hc : f.ncomps ≤ 127) (hs : f.data.length = nents * f.ncomps) :
    ∃ t', addField nents t f = some t' ∧ NewTags allowed t' ∧ findField t' f.name = some f ∧
      ∀ n, n ≠ f.name → findField t' n = findField t n := by
  unfold addField
  by_cases had : (findField t f.name).isSome = true
  · refine ⟨t.map (fun g => if g.name = f.name then f else g), ?_, ?_, ?_, ?_⟩
    · simp only [had, Bool.not_true, Bool.false_and, Bool.false_eq_true, if_false]
      rw [if_neg (by rw [hs]; exact fun h => h rfl)]
      rfl
    · have hm : (t.map (fun g => if g.name = f.name then f else g)).map MeshField.name = t.map MeshField.name := by
        rw [List.map_map]
        apply List.map_congr_left
        intro g _
        simp only [Function.comp]
        split
        · rename_i h; exact h.symm
        · rfl
      exact ⟨hm ▸ ht.nodup, hm ▸ ht.sub⟩
    · obtain ⟨g, hg⟩ := Option.isSome_iff_exists.1 had
      unfold findField at hg ⊢
      rw [List.find?_map]
      have : ((fun f_1 : MeshField K => decide (f_1.name = f.name)) ∘ fun g => if g.name = f.name then f else g) = fun g => decide (g.name = f.name) := by
        funext g
        simp only [Function.comp]
        split
        · rename_i h; simp [h]
        · rfl
      rw [this, hg]
      have := List.find?_some hg
      simp only [decide_eq_true_eq] at this
      simp [this]
    · intro n hn
      unfold findField
      rw [List.find?_map]
      have : ((fun f_1 : MeshField K => decide (f_1.name = n)) ∘ fun g => if g.name = f.name then f else g) = fun g => decide (g.name = n) := by
        funext g
        simp only [Function.comp]
        split
        · rename_i h
          rw [h]
        · rfl
      rw [this]
      cases hc : t.find? (fun g => decide (g.name = n)) with
      | none => rfl
      | some g =>
        have := List.find?_some hc
        simp only [decide_eq_true_eq] at this
        simp only [Option.map_some]
        rw [if_neg (by rw [this]; exact hn)]
  · have hnone : findField t f.name = none := by
      cases h : findField t f.name with
      | none => rfl
      | some g => rw [h] at had; exact absurd rfl had
    have hnot := findField_none.1 hnone
    have hlen : t.length < 127 := by
      have hn : NewTags allowed (t ++ [f]) := ⟨by
        rw [List.map_append, List.nodup_append]
        refine ⟨ht.nodup, by simp, ?_⟩
        intro a ha b hb hab
        simp only [List.map_cons, List.map_nil, List.mem_singleton] at hb
        subst hb; subst hab; exact hnot ha, by
        intro n hn
        rw [List.map_append, List.mem_append] at hn
        rcases hn with hn | hn
        · exact ht.sub n hn
        · simp only [List.map_cons, List.map_nil, List.mem_singleton] at hn
          subst hn; exact hf⟩
      have := newTags_length hn
      simp only [List.length_append, List.length_singleton] at this
      omega
    refine ⟨t ++ [f], ?_, ?_, ?_, ?_⟩
    · rw [hnone]
      simp only [Option.isSome_none, Bool.not_false, Bool.true_and, decide_eq_false hne, Bool.false_or]
      rw [if_neg (by simp; omega), if_neg (by rw [hs]; exact fun h => h rfl)]
      rfl
    · refine ⟨?_, ?_⟩
      · rw [List.map_append, List.nodup_append]
        refine ⟨ht.nodup, by simp, ?_⟩
        intro a ha b hb hab
        simp only [List.map_cons, List.map_nil, List.mem_singleton] at hb
        subst hb; subst hab; exact hnot ha
      · intro n hn
        rw [List.map_append, List.mem_append] at hn
        rcases hn with hn | hn
        · exact ht.sub n hn
        · simp only [List.map_cons, List.map_nil, List.mem_singleton] at hn
          subst hn; exact hf
    · unfold findField at hnone ⊢
      rw [List.find?_append, hnone]
      simp
    · intro n hn
      unfold findField
      rw [List.find?_append]
      cases t.find? (fun g => decide (g.name = n)) with
      | some g => rfl
      | none =>
        simp only [Option.none_or]
        rw [List.find?_cons, decide_eq_false (fun h => hn h.symm)]
        rfl

theorem numbering_parts {nold : Nat} {x : XferMaps} (h : NumberingOk nold x) :
    InRange x.same2new x.nnew ∧ InRange x.prods2new x.nnew ∧ Injective x.same2new ∧ Injective x.prods2new ∧
    (∀ b, InImage x.same2new b → InImage x.prods2new b → False) ∧ ∀ b, b < x.nnew → InImage x.same2new b ∨ InImage x.prods2new b := by
  have hnd : (x.same2new ++ x.prods2new).Nodup := h.all.nodup_iff.2 List.nodup_range
  rw [List.nodup_append] at hnd
  have hinj : ∀ l : List Nat, l.Nodup → Injective l := by
    intro l hl i j b hi hj
    obtain ⟨h1, h2⟩ := List.getElem?_eq_some_iff.1 hi
    obtain ⟨h3, h4⟩ := List.getElem?_eq_some_iff.1 hj
    exact (List.Nodup.getElem_inj_iff hl).1 (h2.trans h4.symm)
  have him : ∀ (l : List Nat) b, InImage l b ↔ b ∈ l := by
    intro l b
    exact List.mem_iff_getElem?.symm
  refine ⟨?_, ?_, hinj _ hnd.1, hinj _ hnd.2.1, ?_, ?_⟩
  · intro b hb
    exact List.mem_range.1 (h.all.mem_iff.1 (List.mem_append_left _ hb))
  · intro b hb
    exact List.mem_range.1 (h.all.mem_iff.1 (List.mem_append_right _ hb))
  · intro b h1 h2
    exact hnd.2.2 b ((him _ _).1 h1) b ((him _ _).1 h2) rfl
  · intro b hb
    rw [him, him, ← List.mem_append]
    exact h.all.mem_iff.2 (List.mem_range.2 hb)

/-- A mesh field that is carried over by `transfer_common`. -/
theorem transferCommon_spec (s : Nat → Sched) {oldTags : List (MeshField K)} {nold : Nat} {x : XferMaps} (ho : FieldsOk nold oldTags)
    (hx : NumberingOk nold x) {f : MeshField K} (hf : f ∈ oldTags) {prodData : List (FieldVal K)} (hp : prodData.length = x.prods2new.length * f.ncomps)
    {allowed : List String} {t : List (MeshField K)} (ht : NewTags allowed t) (hal : allowed.length ≤ 127) (hfa : f.name ∈ allowed) :
    ∃ t' g, transferCommon s oldTags x f.name f.kind f.ncomps prodData t = some t' ∧ NewTags allowed t' ∧
      findField t' f.name = some g ∧ FieldCarried x f g (fun p j => entry prodData f.ncomps p j) ∧
      ∀ n, n ≠ f.name → findField t' n = findField t n := by
  obtain ⟨r1, r2, i1, i2, dis, cov⟩ := numbering_parts hx
  have hal0 : (Mem.alloc (x.nnew * f.ncomps) : Mem (FieldVal K)).length = x.nnew * f.ncomps := List.length_replicate
  obtain ⟨m1, a1, a2, a3, a4, _⟩ := C05_map_into (s 2) prodData x.prods2new (Mem.alloc (x.nnew * f.ncomps)) f.ncomps x.nnew hp (by omega) r2 i2
  obtain ⟨sd, b1, b2, b3⟩ := C05_unmap (s 0) x.same2old f.data f.ncomps nold (by rw [ho.size f hf]; exact Nat.le_refl _) hx.old
  obtain ⟨m2, c1, c2, c3, c4, _⟩ := C05_map_into (s 1) sd x.same2new m1 f.ncomps x.nnew (by rw [b2, hx.len]) (by rw [a2, hal0]; exact Nat.le_refl _) r1 i1
  have hm2 : m2.length = x.nnew * f.ncomps := by rw [c2, a2, hal0]
  have hsame : ∀ i o n j : Nat, x.same2old[i]? = some o → x.same2new[i]? = some n → j < f.ncomps → entry m2 f.ncomps n j = some (entry f.data f.ncomps o j) := by
    intro i o n j h1 h2 hj
    rw [c3 i n j h2 hj, b3 i o j h1 hj]
  have hprod : ∀ p n j : Nat, x.prods2new[p]? = some n → j < f.ncomps → entry m2 f.ncomps n j = some (entry prodData f.ncomps p j) := by
    intro p n j h1 hj
    rw [c4 n j (fun h => dis n h ⟨p, h1⟩) hj, a3 p n j h1 hj]
  obtain ⟨data, d1, d2, d3⟩ := Mem.toArray?_spec m2 (fun p => (m2[p]?).join) (by
    intro p hp'
    rw [hm2] at hp'
    obtain ⟨b, j, hb, hj, rfl⟩ := row_cover hp'
    rcases cov b hb with ⟨i, hi⟩ | ⟨i, hi⟩
    · obtain ⟨o, hoi⟩ : ∃ o, x.same2old[i]? = some o := by
        have := (List.getElem?_eq_some_iff.1 hi).1
        exact ⟨_, List.getElem?_eq_getElem (hx.len ▸ this)⟩
      have := hsame i o b j hoi hi hj
      unfold entry at this
      have hlt : o * f.ncomps + j < f.data.length := by
        rw [ho.size f hf]; exact row_lt (hx.old o (List.mem_of_getElem? hoi)) hj
      rw [this, List.getElem?_eq_getElem hlt]
      simp
    · have := hprod i b j hi hj
      unfold entry at this
      have hlt : i * f.ncomps + j < prodData.length := by
        rw [hp]; exact row_lt (List.getElem?_eq_some_iff.1 hi).1 hj
      rw [this, List.getElem?_eq_getElem hlt]
      simp)
  have hd : data.length = x.nnew * f.ncomps := by rw [d2, hm2]
  obtain ⟨t', e1, e2, e3, e4⟩ := addField_spec ht hal (nents := x.nnew) (f := ⟨f.name, f.kind, f.ncomps, data⟩) hfa (ho.named f hf) (ho.comps f hf) hd
  refine ⟨t', ⟨f.name, f.kind, f.ncomps, data⟩, ?_, e2, e3, ⟨rfl, rfl, rfl, hd, ?_, ?_⟩, e4⟩
  · unfold transferCommon transferCommon2 getField
    rw [a1]
    simp only [bind, Option.bind_some]
    rw [findField_mem ho.names hf]
    simp only [Option.bind_some, if_true]
    rw [b1]
    simp only [Option.bind_some]
    rw [c1]
    simp only [Option.bind_some]
    rw [d1]
    exact e1
  · intro i o n j h1 h2 hj
    have := hsame i o n j h1 h2 hj
    have hn : n * f.ncomps + j < m2.length := by
      rw [hm2]; exact row_lt (r1 n (List.mem_of_getElem? h2)) hj
    unfold entry at this ⊢
    rw [d3 _ hn, this]
    simp
  · intro p n j h1 hj
    have := hprod p n j h1 hj
    have hn : n * f.ncomps + j < m2.length := by
      rw [hm2]; exact row_lt (r2 n (List.mem_of_getElem? h1)) hj
    unfold entry at this ⊢
    rw [d3 _ hn, this]
    simp

/-- A loop over the old tags carries over exactly the tags that it serves. -/
theorem runRule_spec (s : Nat → Sched) {oldTags : List (MeshField K)} {nold : Nat} {x : XferMaps} (ho : FieldsOk nold oldTags)
    (hx : NumberingOk nold x) (r : XferRule K) (val : MeshField K → List (FieldVal K))
    (hr : ∀ f ∈ oldTags, r.takes f = true → r.prods f = some (f.kind, f.ncomps, val f) ∧ (val f).length = x.prods2new.length * f.ncomps)
    {allowed : List String} {t : List (MeshField K)} (ht : NewTags allowed t) (hal : allowed.length ≤ 127)
    (ha : ∀ f ∈ oldTags, f.name ∈ allowed) :
    ∃ t', runRule s oldTags x r t = some t' ∧ NewTags allowed t' ∧
      (∀ f ∈ oldTags, r.takes f = true → ∃ g, findField t' f.name = some g ∧ FieldCarried x f g (fun p j => entry (val f) f.ncomps p j)) ∧
      ∀ n, (∀ f ∈ oldTags, f.name = n → r.takes f = false) → findField t' n = findField t n := by
  have key : ∀ (l : List (MeshField K)), (l.map MeshField.name).Nodup → (∀ f ∈ l, f ∈ oldTags) → ∀ t, NewTags allowed t →
      ∃ t', l.foldlM (fun acc f => if r.takes f then (r.prods f).bind (fun p => transferCommon s oldTags x f.name p.1 p.2.1 p.2.2 acc) else some acc) t =
        some t' ∧ NewTags allowed t' ∧
      (∀ f ∈ l, r.takes f = true → ∃ g, findField t' f.name = some g ∧ FieldCarried x f g (fun p j => entry (val f) f.ncomps p j)) ∧
      ∀ n, (∀ f ∈ l, f.name = n → r.takes f = false) → findField t' n = findField t n := by
    intro l
    induction l with
    | nil => intro _ _ t ht; exact ⟨t, rfl, ht, by simp, fun _ _ => rfl⟩
    | cons f l ih =>
      intro hnd hl t ht
      rw [List.map_cons, List.nodup_cons] at hnd
      by_cases hf : r.takes f = true
      · obtain ⟨p1, p2⟩ := hr f (hl f (by simp)) hf
        obtain ⟨t1, g, a1, a2, a3, a4, a5⟩ := transferCommon_spec s ho hx (hl f (by simp)) p2 ht hal (ha f (hl f (by simp)))
        obtain ⟨t2, b1, b2, b3, b4⟩ := ih hnd.2 (fun f' h => hl f' (by simp [h])) t1 a2
        refine ⟨t2, ?_, b2, ?_, ?_⟩
        · rw [List.foldlM_cons, if_pos hf, p1]
          simp only [Option.bind_some, bind]
          rw [a1]
          exact b1
        · intro f' hf' htk
          rcases List.mem_cons.1 hf' with rfl | hf'
          · refine ⟨g, ?_, a4⟩
            rw [b4 f'.name ?_, a3]
            intro f'' h1 h2
            exact absurd (h2 ▸ List.mem_map_of_mem h1) hnd.1
          · exact b3 f' hf' htk
        · intro n hn
          rw [b4 n (fun f' h => hn f' (by simp [h])), a5 n]
          intro h
          exact absurd hf (by rw [hn f (by simp) h.symm]; simp)
      · obtain ⟨t2, b1, b2, b3, b4⟩ := ih hnd.2 (fun f' h => hl f' (by simp [h])) t ht
        refine ⟨t2, ?_, b2, ?_, ?_⟩
        · rw [List.foldlM_cons, if_neg hf]
          exact b1
        · intro f' hf' htk
          rcases List.mem_cons.1 hf' with rfl | hf'
          · exact absurd htk hf
          · exact b3 f' hf' htk
        · intro n hn
          exact b4 n (fun f' h => hn f' (by simp [h]))
  exact key oldTags ho.names (fun _ h => h) t ht

/-- Two loops one after the other, the first writing the fronts and the second the backs of consecutive blocks. -/
theorem parConcat2 {α : Type} (s1 s2 : Sched) (n : Nat) (A C : Nat → List α) (W1 W2 : Nat → Option (List (Nat × α)))
    (h1 : ∀ i, i < n → W1 i = some (blockWrites (blockOff (fun k => A k ++ C k) i) (A i)))
    (h2 : ∀ i, i < n → W2 i = some (blockWrites (blockOff (fun k => A k ++ C k) i + (A i).length) (C i))) :
    ∃ m1 m2, parScatter s1 n W1 (Mem.alloc (blockOff (fun k => A k ++ C k) n)) = some m1 ∧ parScatter s2 n W2 m1 = some m2 ∧
      m2.toArray? = some ((List.range n).flatMap (fun k => A k ++ C k)) := by
  have hlen := blocks_length (fun k => A k ++ C k) n
  have hlt : ∀ i j, i < n → j < (A i ++ C i).length → blockOff (fun k => A k ++ C k) i + j < blockOff (fun k => A k ++ C k) n := by
    intro i j hi hj
    have := blockOff_le (fun k => A k ++ C k) (show i + 1 ≤ n by omega)
    rw [blockOff_succ] at this
    omega
  have hal : (Mem.alloc (blockOff (fun k => A k ++ C k) n) : Mem α).length = blockOff (fun k => A k ++ C k) n := List.length_replicate
  obtain ⟨m1, a1, a2, a3, a4⟩ := parScatter_specO s1 n W1 (fun i => blockWrites (blockOff (fun k => A k ++ C k) i) (A i))
    (fun p => ((List.range n).flatMap (fun k => A k ++ C k))[p]?) (Mem.alloc (blockOff (fun k => A k ++ C k) n)) h1 (by
      intro i hi p v hpv
      rw [mem_blockWrites] at hpv
      obtain ⟨j, rfl, hj⟩ := hpv
      have hjA := (List.getElem?_eq_some_iff.1 hj).1
      have hjl : j < (A i ++ C i).length := by rw [List.length_append]; omega
      refine ⟨by rw [hal]; exact hlt i j hi hjl, ?_⟩
      rw [blocks_get (fun k => A k ++ C k) hi hjl, List.getElem?_append_left hjA, hj])
  obtain ⟨m2, b1, b2, b3, b4⟩ := parScatter_specO s2 n W2 (fun i => blockWrites (blockOff (fun k => A k ++ C k) i + (A i).length) (C i))
    (fun p => ((List.range n).flatMap (fun k => A k ++ C k))[p]?) m1 h2 (by
      intro i hi p v hpv
      rw [mem_blockWrites] at hpv
      obtain ⟨j, rfl, hj⟩ := hpv
      have hjC := (List.getElem?_eq_some_iff.1 hj).1
      have hjl : (A i).length + j < (A i ++ C i).length := by rw [List.length_append]; omega
      rw [Nat.add_assoc]
      refine ⟨by rw [a2, hal]; exact hlt i _ hi hjl, ?_⟩
      rw [blocks_get (fun k => A k ++ C k) hi hjl, List.getElem?_append_right (by omega)]
      simpa using hj)
  have hm2 : m2.length = blockOff (fun k => A k ++ C k) n := by rw [b2, a2, hal]
  refine ⟨m1, m2, a1, b1, ?_⟩
  obtain ⟨out, o1, o2, o3⟩ := Mem.toArray?_spec m2 (fun p => ((List.range n).flatMap (fun k => A k ++ C k))[p]?) (by
    intro p hp
    rw [hm2] at hp
    refine ⟨?_, by rw [List.getElem?_eq_getElem (by rw [hlen]; exact hp)]; rfl⟩
    by_cases hc : ∃ i, i < n ∧ ∃ v, (p, v) ∈ blockWrites (blockOff (fun k => A k ++ C k) i + (A i).length) (C i)
    · obtain ⟨i, hi, v, hv⟩ := hc
      exact b3 i hi p v hv
    · rw [b4 p (fun i hi v hv => hc ⟨i, hi, v, hv⟩)]
      obtain ⟨i, j, hi, hj, rfl⟩ := blocks_cover (fun k => A k ++ C k) hp
      rw [List.length_append] at hj
      rcases Nat.lt_or_ge j (A i).length with hjA | hjA
      · exact a3 i hi _ (A i)[j] ((mem_blockWrites _ _ _ _).2 ⟨j, rfl, List.getElem?_eq_getElem hjA⟩)
      · refine absurd ⟨i, hi, (C i)[j - (A i).length]'(by omega), ?_⟩ hc
        rw [mem_blockWrites]
        exact ⟨j - (A i).length, by omega, List.getElem?_eq_getElem _⟩)
  rw [o1]
  congr 1
  apply List.ext_getElem?
  intro p
  by_cases hp : p < m2.length
  · exact o3 p hp
  · rw [List.getElem?_eq_none (by omega), List.getElem?_eq_none (by rw [hlen]; omega)]

/-- A loop serves its tags: for each of them it computes one row per product. -/
def RuleOk (oldTags : List (MeshField K)) (x : XferMaps) (r : XferRule K) : Prop :=
  ∀ f ∈ oldTags, r.takes f = true → ∃ v, r.prods f = some (f.kind, f.ncomps, v) ∧ v.length = x.prods2new.length * f.ncomps

/-- The field `g` of the new mesh is what the loop `r` made of the field `f`. -/
def MadeBy (x : XferMaps) (r : XferRule K) (f : MeshField K) (g : Option (MeshField K)) : Prop :=
  ∃ g' v, g = some g' ∧ r.prods f = some (f.kind, f.ncomps, v) ∧ FieldCarried x f g' (fun p j => entry v f.ncomps p j)

/-- The last of some loops that serves a tag. -/
def lastTaking (rs : List (XferRule K)) (f : MeshField K) : Option (XferRule K) := rs.reverse.find? (fun r => r.takes f)

theorem runRules_spec (s : Nat → Sched) {oldTags : List (MeshField K)} {nold : Nat} {x : XferMaps} (ho : FieldsOk nold oldTags)
    (hx : NumberingOk nold x) (rs : List (XferRule K)) (hr : ∀ r ∈ rs, RuleOk oldTags x r)
    {allowed : List String} (hal : allowed.length ≤ 127) (ha : ∀ f ∈ oldTags, f.name ∈ allowed) :
    ∀ {t : List (MeshField K)}, NewTags allowed t → ∃ t', runRules s oldTags x rs t = some t' ∧ NewTags allowed t' ∧
      (∀ f ∈ oldTags, ∀ r, lastTaking rs f = some r → MadeBy x r f (findField t' f.name)) ∧
      ∀ n, (∀ f ∈ oldTags, f.name = n → lastTaking rs f = none) → findField t' n = findField t n := by
  induction rs with
  | nil =>
    intro t ht
    exact ⟨t, rfl, ht, by simp [lastTaking], fun _ _ => rfl⟩
  | cons r rs ih =>
    intro t ht
    obtain ⟨t1, a1, a2, a3, a4⟩ := runRule_spec s ho hx r (fun f => ((r.prods f).map (fun p => p.2.2)).getD []) (by
      intro f hf htk
      obtain ⟨v, hv, hl⟩ := hr r (by simp) f hf htk
      rw [hv]
      exact ⟨rfl, hl⟩) ht hal ha
    obtain ⟨t2, b1, b2, b3, b4⟩ := ih (fun r' h => hr r' (by simp [h])) a2
    have hlast : ∀ f, lastTaking (r :: rs) f = (lastTaking rs f).or (if r.takes f then some r else none) := by
      intro f
      unfold lastTaking
      rw [List.reverse_cons, List.find?_append, List.find?_cons]
      cases r.takes f <;> rfl
    have huniq : ∀ f ∈ oldTags, ∀ f' ∈ oldTags, f'.name = f.name → f' = f := by
      intro f hf f' hf' h
      have h1 := findField_mem ho.names hf
      have h2 := findField_mem ho.names hf'
      rw [h, h1] at h2
      exact (Option.some.inj h2).symm
    refine ⟨t2, ?_, b2, ?_, ?_⟩
    · unfold runRules at b1 ⊢
      rw [List.foldlM_cons, a1]
      exact b1
    · intro f hf r' hr'
      rw [hlast] at hr'
      cases hl : lastTaking rs f with
      | some q =>
        rw [hl] at hr'
        obtain rfl := Option.some.inj hr'
        exact b3 f hf q hl
      | none =>
        rw [hl, Option.none_or] at hr'
        by_cases htk : r.takes f = true
        · rw [if_pos htk] at hr'
          obtain rfl := Option.some.inj hr'
          rw [b4 f.name (fun f' hf' h => huniq f hf f' hf' h ▸ hl)]
          obtain ⟨g, g1, g2⟩ := a3 f hf htk
          obtain ⟨v, hv, _⟩ := hr r (by simp) f hf htk
          refine ⟨g, v, g1, hv, ?_⟩
          rw [hv] at g2
          exact g2
        · rw [if_neg htk] at hr'
          exact absurd hr' (by simp)
    · intro n hn
      have hsplit : ∀ f ∈ oldTags, f.name = n → lastTaking rs f = none ∧ r.takes f = false := by
        intro f hf h
        have := hn f hf h
        rw [hlast, Option.or_eq_none_iff] at this
        refine ⟨this.1, ?_⟩
        cases htk : r.takes f with
        | false => rfl
        | true => rw [htk] at this; exact absurd this.2 (by simp)
      rw [b4 n (fun f hf h => (hsplit f hf h).1), a4 n (fun f hf h => (hsplit f hf h).2)]

theorem domRow_eq {data : List (FieldVal K)} {n w e : Nat} (hl : data.length = n * w) (he : e < n) :
    domRow data w e = some (row data w e) := by
  have hrow : row data w e = (List.range w).map (fun j => (row data w e)[j]?.getD (.int 0)) := by
    apply List.ext_getElem?
    intro j
    rw [List.getElem?_map]
    by_cases hj : j < w
    · rw [List.getElem?_range hj, Option.map_some, List.getElem?_eq_getElem (by rw [row_length hl he]; exact hj)]
      rfl
    · rw [List.getElem?_eq_none (by rw [row_length hl he]; omega), List.getElem?_eq_none (by simp; omega)]
      rfl
  unfold domRow
  rw [mapM_range_some w _ (fun j => (row data w e)[j]?.getD (.int 0)), ← hrow]
  intro j hj
  have hlt : e * w + j < data.length := by rw [hl]; exact row_lt he hj
  rw [row_get data e hj]
  unfold entry
  rw [List.getElem?_eq_getElem hlt]
  rfl

theorem edgeDoms_eq {offsets ents : List Nat} {e lo hi : Nat} (h1 : offsets[e]? = some lo) (h2 : offsets[e + 1]? = some hi) (h3 : lo ≤ hi)
    (h4 : hi ≤ ents.length) : edgeDoms offsets ents e = some ((ents.drop lo).take (hi - lo)) := by
  unfold edgeDoms fanMembers
  rw [h1, h2, Option.bind_some]
  have : ∀ n lo, lo + n ≤ ents.length → (List.range' lo n).mapM (fun i => ents[i]?) = some ((ents.drop lo).take n) := by
    intro n
    induction n with
    | zero => intro lo _; simp
    | succ n ih =>
      intro lo h
      rw [List.range'_succ, List.mapM_cons, List.getElem?_eq_getElem (by omega), ih (lo + 1) (by omega)]
      rw [List.drop_eq_getElem_cons (i := lo) (by omega), List.take_succ_cons]
      rfl
  exact this (hi - lo) lo (by omega)

/-- An array made of rows of one length. -/
theorem entry_rows {σ α : Type} (l : List σ) (r : σ → List α) {w : Nat} (hr : ∀ a ∈ l, (r a).length = w) :
    (l.flatMap r).length = l.length * w ∧ ∀ p j, j < w → entry (l.flatMap r) w p j = (l[p]?).bind (fun a => (r a)[j]?) := by
  induction l with
  | nil => exact ⟨by simp, by intro p j _; simp [entry]⟩
  | cons a l ih =>
    obtain ⟨i1, i2⟩ := ih (fun b hb => hr b (by simp [hb]))
    refine ⟨by rw [List.flatMap_cons, List.length_append, i1, hr a (by simp), List.length_cons, Nat.add_mul]; omega, ?_⟩
    intro p j hj
    unfold entry at i2 ⊢
    rw [List.flatMap_cons]
    cases p with
    | zero =>
      rw [List.getElem?_append_left (by rw [hr a (by simp)]; omega)]
      simp
    | succ p =>
      rw [List.getElem?_append_right (by rw [hr a (by simp), Nat.add_mul]; omega), hr a (by simp)]
      rw [show (p + 1) * w + j - w = p * w + j by rw [Nat.add_mul]; omega, i2 p j hj]
      simp

theorem take_eq_range {α : Type} (l : List α) (d : α) {k : Nat} (hk : k ≤ l.length) : l.take k = (List.range k).map (fun i => l[i]?.getD d) := by
  apply List.ext_getElem?
  intro i
  rw [List.getElem?_take, List.getElem?_map]
  by_cases hi : i < k
  · rw [if_pos hi, List.getElem?_range hi, Option.map_some, List.getElem?_eq_getElem (by omega)]
    rfl
  · rw [if_neg hi, List.getElem?_eq_none (by simp; omega)]
    rfl

theorem getLast_offsets {l : List Nat} {n v : Nat} (hl : l.length = n + 1) (h : l[n]? = some v) : l.getLast? = some v := by
  rw [List.getLast?_eq_getElem?, hl]
  exact h

/-- The values that `transfer_inherit_refine` computes for the products. -/
theorem inheritRefineProds_spec (s : Nat → Sched) {mesh : FieldMesh K} {nents : Nat → Nat} {d : Nat} {keys2edges keys2prods : List Nat}
    {x : XferMaps} {R : Nat → Nat → List Nat} (h : SplitInput mesh nents d keys2edges keys2prods x R) (hd : d ≤ mesh.dim) {f : MeshField K}
    (hf : f ∈ mesh.tags d) (hup : d < mesh.dim → ∃ g ∈ mesh.tags (d + 1), g.name = f.name ∧ g.kind = f.kind ∧ g.ncomps = f.ncomps) :
    ∃ v, inheritRefineProds s mesh d keys2edges keys2prods f.name f.kind = some (f.kind, f.ncomps, v) ∧
      v.length = x.prods2new.length * f.ncomps ∧ ∀ p j, j < f.ncomps → entry v f.ncomps p j =
        ((keys2edges.flatMap (fun e => splitSources mesh.dim d (R e)))[p]?).bind (fun src => fieldAt mesh f.name src j) := by
  -- the fields on dimension `d` and `d + 1`
  obtain ⟨F, F1, F2⟩ : ∃ F : Nat → MeshField K, F d = f ∧ ∀ d', (d' = d ∨ d' = d + 1) → d' ≤ mesh.dim →
      F d' ∈ mesh.tags d' ∧ (F d').name = f.name ∧ (F d').kind = f.kind ∧ (F d').ncomps = f.ncomps := by
    by_cases hlt : d < mesh.dim
    · obtain ⟨g, g1, g2, g3, g4⟩ := hup hlt
      refine ⟨fun d' => if d' = d then f else g, by simp, ?_⟩
      rintro d' (rfl | rfl) _
      · simp [hf]
      · simp [g1, g2, g3, g4]
    · refine ⟨fun _ => f, rfl, ?_⟩
      rintro d' (rfl | rfl) hd'
      · simp [hf]
      · omega
  have hfind : ∀ d', (d' = d ∨ d' = d + 1) → d' ≤ mesh.dim → findField (mesh.tags d') f.name = some (F d') := by
    intro d' h1 h2
    have := F2 d' h1 h2
    rw [← this.2.1]
    exact findField_mem (h.fields d' h2).names this.1
  have hget : ∀ d', (d' = d ∨ d' = d + 1) → d' ≤ mesh.dim → getField (mesh.tags d') f.name f.kind = some (F d') := by
    intro d' h1 h2
    unfold getField
    rw [hfind d' h1 h2, Option.bind_some, if_pos (F2 d' h1 h2).2.2.1]
  have hsize : ∀ d', (d' = d ∨ d' = d + 1) → d' ≤ mesh.dim → (F d').data.length = nents d' * f.ncomps := by
    intro d' h1 h2
    rw [(h.fields d' h2).size _ (F2 d' h1 h2).1, (F2 d' h1 h2).2.2.2]
  obtain ⟨rowV, hrowV⟩ : ∃ rowV : Nat × Nat → List (FieldVal K), rowV = fun src => row (F src.1).data f.ncomps src.2 := ⟨_, rfl⟩
  obtain ⟨E, hE⟩ : ∃ E : Nat → Nat, E = fun k => keys2edges[k]?.getD 0 := ⟨_, rfl⟩
  have hEk : ∀ k, k < keys2edges.length → keys2edges[k]? = some (E k) ∧ E k ∈ keys2edges := by
    intro k hk
    rw [hE]
    simp only [List.getElem?_eq_getElem hk, Option.getD_some]
    exact ⟨trivial, List.getElem_mem hk⟩
  -- sources are old entities
  have hsrc : ∀ e ∈ keys2edges, ∀ src ∈ splitSources mesh.dim d (R e), (src.1 = d ∨ src.1 = d + 1) ∧ src.1 ≤ mesh.dim ∧ src.2 < nents src.1 := by
    intro e he src hs
    unfold splitSources at hs
    rw [List.mem_append] at hs
    rcases hs with hs | hs
    · split at hs
      · rename_i h0
        rw [List.mem_flatMap] at hs
        obtain ⟨a, ha, hs⟩ := hs
        have : src = (d, a) := by simpa using hs
        subst this
        exact ⟨Or.inl rfl, hd, (h.near d e (Or.inl ⟨rfl, h0⟩) hd he).2 a ha⟩
      · simp at hs
    · split at hs
      · rename_i h0
        rw [List.mem_map] at hs
        obtain ⟨a, ha, rfl⟩ := hs
        exact ⟨Or.inr rfl, h0, (h.near (d + 1) e (Or.inr rfl) h0 he).2 a ha⟩
      · simp at hs
  have hlenV : ∀ e ∈ keys2edges, ∀ src ∈ splitSources mesh.dim d (R e), (rowV src).length = f.ncomps := by
    intro e he src hs
    obtain ⟨h1, h2, h3⟩ := hsrc e he src hs
    rw [hrowV]
    exact row_length (hsize src.1 h1 h2) h3
  -- the blocks of the keys
  have hB : ∀ k, k < keys2edges.length →
      ((splitSources mesh.dim d (R (E k))).flatMap rowV).length = (splitSources mesh.dim d (R (E k))).length * f.ncomps :=
    fun k hk => (entry_rows _ rowV (hlenV (E k) (hEk k hk).2)).1
  obtain ⟨A, hA⟩ : ∃ A : Nat → List (FieldVal K), ∀ k, A k = (if 0 < d then (R (E k) d).flatMap (fun e => [(d, e), (d, e)]) else []).flatMap rowV := ⟨_, fun _ => rfl⟩
  obtain ⟨C, hC⟩ : ∃ C : Nat → List (FieldVal K), ∀ k, C k = (if d < mesh.dim then (R (E k) (d + 1)).map (fun e => (d + 1, e)) else []).flatMap rowV := ⟨_, fun _ => rfl⟩
  have hAC : ∀ k, A k ++ C k = (splitSources mesh.dim d (R (E k))).flatMap rowV := by
    intro k
    rw [hA, hC]
    unfold splitSources
    rw [List.flatMap_append]
  have htake : ∀ k, k ≤ keys2edges.length → (keys2edges.take k).flatMap (fun e => splitSources mesh.dim d (R e)) =
      (List.range k).flatMap (fun i => splitSources mesh.dim d (R (E i))) := by
    intro k hk
    rw [take_eq_range keys2edges 0 hk, List.flatMap_map, hE]
  have hoff : ∀ k, k ≤ keys2edges.length → ∃ m, keys2prods[k]? = some m ∧ blockOff (fun k => A k ++ C k) k = m * f.ncomps := by
    intro k hk
    refine ⟨_, h.offsets.2 k hk, ?_⟩
    rw [htake k hk]
    clear htake
    induction k with
    | zero => simp [blockOff]
    | succ k ih =>
      rw [blockOff_succ, ih (by omega), hAC k, hB k (by omega), List.range_succ, List.flatMap_append, List.length_append, Nat.add_mul]
      simp
  have hdoms : ∀ d' k, (d' = d ∧ 0 < d ∨ d' = d + 1) → d' ≤ mesh.dim → k < keys2edges.length →
      edgeDoms (mesh.edgeOffsets d') (mesh.edgeEnts d') (E k) = some (R (E k) d') ∧
      (R (E k) d').mapM (domRow (F d').data f.ncomps) = some ((R (E k) d').map (fun e => rowV (d', e))) := by
    intro d' k h1 h2 hk
    obtain ⟨⟨lo, hi, o1, o2, o3, o4, o5⟩, o6⟩ := h.near d' (E k) h1 h2 (hEk k hk).2
    refine ⟨by rw [o5]; exact edgeDoms_eq o1 o2 o3 o4, ?_⟩
    have h1' : d' = d ∨ d' = d + 1 := h1.imp (fun q => q.1) id
    obtain ⟨out, q1, q2, _, q4⟩ := mapM_list_spec (R (E k) d') (domRow (F d').data f.ncomps) (by
      intro a ha
      rw [domRow_eq (hsize d' h1' h2) (o6 a ha)]; rfl)
    rw [q1]
    congr 1
    apply List.ext_getElem?
    intro i
    rw [List.getElem?_map]
    cases hi : (R (E k) d')[i]? with
    | none =>
      rw [List.getElem?_eq_none_iff] at hi
      rw [List.getElem?_eq_none (by omega)]; rfl
    | some a =>
      rw [q4 i a hi, domRow_eq (hsize d' h1' h2) (o6 a (List.mem_of_getElem? hi)), hrowV]
      rfl
  have hpairs : ∀ k, 0 < d → k < keys2edges.length →
      inheritPairsKernel (mesh.edgeOffsets d) (mesh.edgeEnts d) (F d).data f.ncomps keys2edges keys2prods k =
        some (blockWrites (blockOff (fun k => A k ++ C k) k) (A k)) := by
    intro k h0 hk
    obtain ⟨m, m1, m2⟩ := hoff k (by omega)
    obtain ⟨e1, e2⟩ := hdoms d k (Or.inl ⟨rfl, h0⟩) hd hk
    unfold inheritPairsKernel
    rw [(hEk k hk).1, m1]
    simp only [bind, Option.bind_some]
    rw [e1]
    simp only [Option.bind_some]
    rw [e2]
    simp only [Option.bind_some, pure]
    rw [m2, hA, if_pos h0, List.flatMap_assoc, List.flatMap_map]
    simp
  have hcuts : ∀ k, d < mesh.dim → k < keys2edges.length →
      inheritCutsKernel (mesh.edgeOffsets (d + 1)) (mesh.edgeEnts (d + 1)) (F (d + 1)).data f.ncomps keys2edges keys2prods k =
        some (blockWrites (blockOff (fun k => A k ++ C k) k + (A k).length) (C k)) := by
    intro k h0 hk
    have m1 := h.offsets.2 (k + 1) (by omega)
    obtain ⟨mk, mk1, mk2⟩ := hoff k (by omega)
    have mk3 := h.offsets.2 k (by omega)
    rw [mk1] at mk3
    have mk3 := Option.some.inj mk3
    rw [htake k (by omega)] at mk3
    rw [htake (k + 1) (by omega), List.range_succ, List.flatMap_append, List.length_append, ← mk3] at m1
    simp only [List.flatMap_cons, List.flatMap_nil, List.append_nil] at m1
    have hS : (splitSources mesh.dim d (R (E k))).length = (if 0 < d then (R (E k) d).flatMap (fun e => [(d, e), (d, e)]) else []).length + (R (E k) (d + 1)).length := by
      unfold splitSources
      rw [if_pos h0, List.length_append, List.length_map]
    obtain ⟨e1, e2⟩ := hdoms (d + 1) k (Or.inr rfl) h0 hk
    unfold inheritCutsKernel
    rw [(hEk k hk).1, m1]
    simp only [bind, Option.bind_some]
    rw [e1]
    simp only [Option.bind_some]
    rw [e2]
    simp only [Option.bind_some, pure]
    rw [if_pos (by omega)]
    have hAl : (A k).length = (if 0 < d then (R (E k) d).flatMap (fun e => [(d, e), (d, e)]) else []).length * f.ncomps := by
      rw [hA]
      refine (entry_rows _ rowV ?_).1
      intro src hs
      apply hlenV (E k) (hEk k hk).2
      unfold splitSources
      exact List.mem_append_left _ hs
    rw [mk2, hAl, ← Nat.add_mul, hS]
    congr 2
    · congr 1; omega
    · rw [hC, if_pos h0, List.flatMap_map]
      simp only [List.flatMap]
  have hres : ∃ m1 m2, (if 0 < d then do
        let dom ← getField (mesh.tags d) f.name f.kind
        parScatter (s 3) keys2edges.length (inheritPairsKernel (mesh.edgeOffsets d) (mesh.edgeEnts d) dom.data f.ncomps keys2edges keys2prods)
          (Mem.alloc (blockOff (fun k => A k ++ C k) keys2edges.length))
      else pure (Mem.alloc (blockOff (fun k => A k ++ C k) keys2edges.length))) = some m1 ∧
      (if d < mesh.dim then do
        let dom ← getField (mesh.tags (d + 1)) f.name f.kind
        parScatter (s 4) keys2edges.length (inheritCutsKernel (mesh.edgeOffsets (d + 1)) (mesh.edgeEnts (d + 1)) dom.data f.ncomps keys2edges keys2prods) m1
      else pure m1) = some m2 ∧
      m2.toArray? = some ((List.range keys2edges.length).flatMap (fun k => A k ++ C k)) := by
    by_cases h0 : 0 < d
    · by_cases h1 : d < mesh.dim
      · obtain ⟨m1, m2, q1, q2, q3⟩ := parConcat2 (s 3) (s 4) keys2edges.length A C _ _ (fun i hi => hpairs i h0 hi) (fun i hi => hcuts i h1 hi)
        refine ⟨m1, m2, ?_, ?_, q3⟩
        · rw [if_pos h0, hget d (Or.inl rfl) hd]
          exact q1
        · rw [if_pos h1, hget (d + 1) (Or.inr rfl) h1]
          exact q2
      · have hC0 : ∀ k, C k = [] := by intro k; rw [hC, if_neg h1]; rfl
        have hBA : (fun k => A k ++ C k) = A := by funext k; rw [hC0, List.append_nil]
        rw [hBA] at hpairs ⊢
        have := parConcat (s 3) keys2edges.length A _ (fun i hi => hpairs i h0 hi)
        rw [Option.bind_eq_some_iff] at this
        obtain ⟨m, q1, q2⟩ := this
        refine ⟨m, m, ?_, by rw [if_neg h1]; rfl, q2⟩
        rw [if_pos h0, hget d (Or.inl rfl) hd]
        exact q1
    · by_cases h1 : d < mesh.dim
      · have hA0 : ∀ k, A k = [] := by intro k; rw [hA, if_neg h0]; rfl
        have hBC : (fun k => A k ++ C k) = C := by funext k; rw [hA0, List.nil_append]
        rw [hBC] at hcuts ⊢
        have := parConcat (s 4) keys2edges.length C
          (inheritCutsKernel (mesh.edgeOffsets (d + 1)) (mesh.edgeEnts (d + 1)) (F (d + 1)).data f.ncomps keys2edges keys2prods) (fun i hi => by
          have := hcuts i h1 hi
          rw [hA0, List.length_nil, Nat.add_zero] at this
          exact this)
        rw [Option.bind_eq_some_iff] at this
        obtain ⟨m, q1, q2⟩ := this
        refine ⟨_, m, by rw [if_neg h0]; rfl, ?_, q2⟩
        rw [if_pos h1, hget (d + 1) (Or.inr rfl) h1]
        exact q1
      · have hB0 : (fun k => A k ++ C k) = fun _ => [] := by
          funext k
          rw [hA, hC, if_neg h0, if_neg h1]; rfl
        rw [hB0]
        refine ⟨_, _, by rw [if_neg h0]; rfl, by rw [if_neg h1]; rfl, ?_⟩
        have : blockOff (fun _ : Nat => ([] : List (FieldVal K))) keys2edges.length = 0 := by
          rw [← blocks_length]; simp
        rw [this]
        simp [Mem.alloc, Mem.toArray?]
  obtain ⟨m1, m2, r1, r2, r3⟩ := hres
  have hall : (List.range keys2edges.length).flatMap (fun k => A k ++ C k) =
      (keys2edges.flatMap (fun e => splitSources mesh.dim d (R e))).flatMap rowV := by
    have := htake keys2edges.length (Nat.le_refl _)
    rw [List.take_length] at this
    rw [this, List.flatMap_assoc]
    congr 1
    funext k
    exact hAC k
  have hrows := entry_rows (keys2edges.flatMap (fun e => splitSources mesh.dim d (R e))) rowV (w := f.ncomps) (by
    intro src hs
    rw [List.mem_flatMap] at hs
    obtain ⟨e, he, hs⟩ := hs
    exact hlenV e he src hs)
  refine ⟨(List.range keys2edges.length).flatMap (fun k => A k ++ C k), ?_, ?_, ?_⟩
  rotate_left
  · rw [hall, hrows.1, h.count]
  · intro p j hj
    rw [hall, hrows.2 p j hj]
    cases hp : (keys2edges.flatMap (fun e => splitSources mesh.dim d (R e)))[p]? with
    | none => rfl
    | some src =>
      have hs := List.mem_of_getElem? hp
      rw [List.mem_flatMap] at hs
      obtain ⟨e, he, hs⟩ := hs
      obtain ⟨h1, h2, h3⟩ := hsrc e he src hs
      rw [Option.bind_some, Option.bind_some, hrowV]
      unfold fieldAt
      have := hfind src.1 h1 h2
      unfold findField at this
      rw [this, Option.bind_some, (F2 src.1 h1 h2).2.2.2]
      exact row_get _ _ hj
  · unfold inheritRefineProds
    rw [hget d (Or.inl rfl) hd]
    simp only [bind, Option.bind_some]
    obtain ⟨m, mm1, mm2⟩ := hoff keys2edges.length (Nat.le_refl _)
    rw [getLast_offsets h.offsets.1 mm1]
    simp only [Option.bind_some]
    rw [F1]
    simp only [bind] at r1 r2
    rw [← mm2]
    by_cases h0 : 0 < d
    · rw [if_pos h0, hget d (Or.inl rfl) hd, Option.bind_some, F1] at r1
      rw [if_pos h0, r1, Option.bind_some]
      by_cases h1 : d < mesh.dim
      · rw [if_pos h1, hget (d + 1) (Or.inr rfl) h1, Option.bind_some] at r2
        rw [if_pos h1, hget (d + 1) (Or.inr rfl) h1, Option.bind_some, r2, Option.bind_some, r3]
        rfl
      · rw [if_neg h1] at r2
        rw [if_neg h1, r2, Option.bind_some, r3]
        rfl
    · rw [if_neg h0] at r1
      rw [if_neg h0, r1, Option.bind_some]
      by_cases h1 : d < mesh.dim
      · rw [if_pos h1, hget (d + 1) (Or.inr rfl) h1, Option.bind_some] at r2
        rw [if_pos h1, hget (d + 1) (Or.inr rfl) h1, Option.bind_some, r2, Option.bind_some, r3]
        rfl
      · rw [if_neg h1] at r2
        rw [if_neg h1, r2, Option.bind_some, r3]
        rfl

end OmegaH
