import Verif.Model.Stats
import Verif.Spec.Stats
import Verif.Lemmas.Uniq
import Verif.Props.C43
import Verif.Props.C56World
/-! # Sums over owned copies and reductions by thresholds -/
namespace OmegaH
open Spec

/-- The entries of a list that belong to marked ones. -/
def keptBy {α : Type} (a : List α) : Option (List Int) → List α
  | none => a
  | some o => ((a.zip o).filter (fun x => x.2 = 1)).map Prod.fst

theorem markedList_cons (x : Int) (o : List Int) :
    markedList (x :: o) = (if x = 1 then [0] else []) ++ (markedList o).map (· + 1) := by
  unfold markedList
  rw [List.length_cons, List.range_succ_eq_map, List.filter_cons]
  have e : (List.map Nat.succ (List.range o.length)).filter (fun i => decide ((x :: o)[i]? = some 1)) =
      ((List.range o.length).filter (fun i => decide (o[i]? = some 1))).map (· + 1) := by
    rw [List.filter_map]
    rfl
  rw [e]
  by_cases h : x = 1 <;> simp [h]

theorem marked_values {α : Type} (a : List α) (o : List Int) (h : a.length = o.length) :
    (markedList o).filterMap (fun i => a[i]?) = keptBy a (some o) := by
  induction o generalizing a with
  | nil =>
    obtain rfl := List.length_eq_zero_iff.1 h
    rfl
  | cons x o ih =>
    obtain ⟨y, a, rfl⟩ : ∃ y b, a = y :: b := by
      cases a with
      | nil => simp at h
      | cons y b => exact ⟨y, b, rfl⟩
    have ih' := ih a (by simpa using h)
    rw [markedList_cons, List.filterMap_append, List.filterMap_map]
    have : (fun i => (y :: a)[i]?) ∘ (fun i => i + 1) = fun i => a[i]? := by
      funext i; simp
    rw [this, ih']
    unfold keptBy
    by_cases e : x = 1 <;> simp [e]

theorem keptBy_map {α β : Type} (f : α → β) (a : List α) (o : Option (List Int)) : keptBy (a.map f) o = (keptBy a o).map f := by
  cases o with
  | none => rfl
  | some o =>
    show ((((a.map f).zip o).filter (fun x => decide (x.2 = 1))).map Prod.fst) = (((a.zip o).filter (fun x => decide (x.2 = 1))).map Prod.fst).map f
    rw [List.zip_map_left, List.filter_map, List.map_map, List.map_map]
    rfl

theorem ownedArray_spec {α : Type} (s : Nat → Sched) (a : List α) (o : Option (List Int))
    (h : ∀ l, o = some l → l.length = a.length ∧ ∀ x ∈ l, x = 0 ∨ x = 1) :
    ownedArray s a.length o a = some (keptBy a o) := by
  unfold ownedArray
  rw [if_pos rfl]
  cases o with
  | none => rfl
  | some o =>
    obtain ⟨h1, h2⟩ := h o rfl
    obtain ⟨out, o1, o2⟩ := C03_collect_marked (s 0) o h2
    show (collectMarked (s 0) o).bind _ = _
    rw [o1, Option.bind_some, collected_eq o2]
    have hr : InRange (markedList o) a.length := by
      intro i hi
      have := (List.mem_filter.1 hi).1
      rw [List.mem_range] at this
      omega
    obtain ⟨v, v1, v2, v3⟩ := C05_unmap (s 1) (markedList o) a 1 a.length (by omega) hr
    rw [v1, ← marked_values a o h1.symm]
    congr 1
    have hf : (markedList o).filterMap (fun i => a[i]?) = v := by
      apply List.ext_getElem?
      intro k
      have hm : (markedList o).map (fun i => a[i]?) = v.map some := by
        apply List.ext_getElem?
        intro k
        rw [List.getElem?_map, List.getElem?_map]
        rcases hk : (markedList o)[k]? with _ | b
        · have : v[k]? = none := by
            rw [List.getElem?_eq_none_iff] at hk ⊢
            omega
          rw [this]; rfl
        · have := v3 k b 0 hk (by omega)
          simp only [entry, Nat.mul_one, Nat.add_zero] at this
          have hb : b < a.length := hr b (List.mem_of_getElem? hk)
          have hkl := (List.getElem?_eq_some_iff.1 hk).1
          rw [this, Option.map_some, List.getElem?_eq_getElem hb]
          rfl
      have : (markedList o).filterMap (fun i => a[i]?) = ((markedList o).map (fun i => a[i]?)).filterMap id := by
        rw [List.filterMap_map]; rfl
      rw [this, hm, List.filterMap_map]
      simp
    exact hf.symm

/-- Every entity is owned once. -/
theorem Spec.OneOwner.perm {n N : Nat} {ents : Nat → List Nat} {owned : Option (Nat → List Int)} (h : OneOwner n N ents owned) :
    ((List.range n).flatMap (fun r => keptBy (ents r) (owned.map (fun o => o r)))).Perm (List.range N) := by
  have hmem : ∀ r g, r < n → (g ∈ keptBy (ents r) (owned.map (fun o => o r)) ↔ ∃ i, (ents r)[i]? = some g ∧ IsOwned owned r i) := by
    intro r g hr
    cases owned with
    | none =>
      show g ∈ ents r ↔ _
      rw [List.mem_iff_getElem?]
      simp [IsOwned]
    | some o =>
      show g ∈ (((ents r).zip (o r)).filter _).map _ ↔ _
      rw [List.mem_map]
      constructor
      · rintro ⟨⟨g', x⟩, hx, rfl⟩
        obtain ⟨h1, h2⟩ := List.mem_filter.1 hx
        have h2 : x = 1 := of_decide_eq_true h2
        subst h2
        obtain ⟨i, hi⟩ := List.mem_iff_getElem?.1 h1
        rw [List.getElem?_zip_eq_some] at hi
        exact ⟨i, hi.1, hi.2⟩
      · rintro ⟨i, h1, h2⟩
        refine ⟨(g, 1), List.mem_filter.2 ⟨List.mem_iff_getElem?.2 ⟨i, ?_⟩, by simp⟩, rfl⟩
        rw [List.getElem?_zip_eq_some]
        exact ⟨h1, h2⟩
  rw [List.perm_ext_iff_of_nodup _ List.nodup_range]
  · intro g
    rw [List.mem_flatMap, List.mem_range]
    constructor
    · rintro ⟨r, hr, hg⟩
      obtain ⟨i, hi, _⟩ := (hmem r g (List.mem_range.1 hr)).1 hg
      exact h.names r (List.mem_range.1 hr) g (List.mem_of_getElem? hi)
    · intro hg
      obtain ⟨r, i, h1, h2, h3⟩ := h.some_ g hg
      exact ⟨r, List.mem_range.2 h1, (hmem r g h1).2 ⟨i, h2, h3⟩⟩
  · rw [List.nodup_flatMap]
    constructor
    · intro r hr
      have hr := List.mem_range.1 hr
      cases owned with
      | none =>
        show (ents r).Nodup
        rw [List.nodup_iff_pairwise_ne, List.pairwise_iff_getElem]
        intro i j hi hj hij e
        have := (h.once _ r i r j hr hr (List.getElem?_eq_getElem hi) (by rw [List.getElem?_eq_getElem hj, e]) trivial trivial).2
        omega
      | some o =>
        show ((((ents r).zip (o r)).filter _).map _).Nodup
        rw [List.nodup_iff_pairwise_ne, List.pairwise_map]
        have : ((ents r).zip (o r)).Pairwise (fun a b => a.2 = 1 → b.2 = 1 → a.1 ≠ b.1) := by
          rw [List.pairwise_iff_getElem]
          intro i j hi hj hij e1 e2 e
          rw [List.length_zip] at hi hj
          rw [List.getElem_zip] at e1 e2 e
          rw [List.getElem_zip] at e
          have h1 : IsOwned (some o) r i := by
            show (o r)[i]? = some 1
            rw [List.getElem?_eq_getElem (by omega)]
            exact congrArg some e1
          have h2 : IsOwned (some o) r j := by
            show (o r)[j]? = some 1
            rw [List.getElem?_eq_getElem (by omega)]
            exact congrArg some e2
          have := (h.once _ r i r j hr hr (List.getElem?_eq_getElem (by omega)) (by rw [List.getElem?_eq_getElem (by omega)]; exact congrArg some e.symm) h1 h2).2
          omega
        refine List.Pairwise.imp_of_mem ?_ (this.filter (fun x => decide (x.2 = 1)))
        intro a b ha hb hab
        exact hab (of_decide_eq_true (List.mem_filter.1 ha).2) (of_decide_eq_true (List.mem_filter.1 hb).2)
    · rw [List.pairwise_iff_getElem]
      intro i j hi hj hij g g1 g2
      have hi' : i < n := by simpa using hi
      have hj' : j < n := by simpa using hj
      simp only [List.getElem_range] at g1 g2
      obtain ⟨a, a1, a2⟩ := (hmem i g hi').1 g1
      obtain ⟨b, b1, b2⟩ := (hmem j g hj').1 g2
      have := (h.once g i a j b hi' hj' a1 b1 a2 b2).1
      omega

/-- Sums over owned copies are sums over entities. -/
theorem Spec.OneOwner.sum {M : Type} [AddCommMonoid M] {n N : Nat} {ents : Nat → List Nat} {owned : Option (Nat → List Int)} (h : OneOwner n N ents owned)
    (f : Nat → M) : ((List.range n).map (fun r => ((keptBy (ents r) (owned.map (fun o => o r))).map f).sum)).sum = ((List.range N).map f).sum := by
  have hp := (h.perm.map f).sum_eq
  rw [← hp]
  generalize List.range n = A
  induction A with
  | nil => rfl
  | cons r A ih => rw [List.map_cons, List.sum_cons, ih, List.flatMap_cons, List.map_append, List.sum_append]

theorem range_map_getElem' {β : Type} (a : List β) (d : β) :
    ∃ w : Nat → β, (∀ i, i < a.length → a[i]? = some (w i)) ∧ (List.range a.length).map w = a := by
  refine ⟨fun i => (a[i]?).getD d, ?_, ?_⟩
  · intro i hi; simp [hi]
  · exact map_getElem_range a _ (fun i hi => by simp [hi])

theorem transformReduce_all {β : Type} (t : Team) (op : β → β → β) (e : β) (v : List β) :
    ∃ x, transformReduce t op e e (fun i => v[i]?) v.length = some x ∧
      ∀ P : β → Prop, (∀ a b, P (op a b) ↔ P a ∧ P b) → (P x ↔ P e ∧ ∀ y ∈ v, P y) := by
  have hp := t.ok v.length
  obtain ⟨w, hw, he⟩ := range_map_getElem' v e
  obtain ⟨t', h1, h2⟩ := RTree.mapM?_of
    (fun its => (its.mapM (fun i => v[i]?)).map (fun vs => vs.foldl op e))
    (fun its => (its.map w).foldl op e) (t.tree v.length) (by
      intro its hits
      have : its.mapM (fun i => v[i]?) = some (its.map w) := by
        apply mapM_list_of
        intro x hx
        apply hw
        have : x ∈ (t.tree v.length).leaves.flatten := List.mem_flatten.2 ⟨its, hits, hx⟩
        simpa using (hp.mem_iff.1 this)
      rw [this]; rfl)
  refine ⟨_, by unfold transformReduce; rw [h1]; rfl, ?_⟩
  intro P hP
  have hfold : ∀ (l : List β) (a : β), P (l.foldl op a) ↔ P a ∧ ∀ y ∈ l, P y := by
    intro l
    induction l with
    | nil => intro a; simp
    | cons b l ih => intro a; rw [List.foldl_cons, ih, hP]; simp [and_assoc]
  have htree : ∀ t' : RTree β, P (t'.reduce op) ↔ ∀ y ∈ t'.leaves, P y := by
    intro t'
    induction t' with
    | leaf x => simp [RTree.reduce, RTree.leaves]
    | node l r ihl ihr =>
      rw [RTree.reduce, hP, ihl, ihr, RTree.leaves]
      simp only [List.mem_append]
      constructor
      · rintro ⟨a, b⟩ y (hy | hy); exacts [a y hy, b y hy]
      · intro a; exact ⟨fun y hy => a y (Or.inl hy), fun y hy => a y (Or.inr hy)⟩
  rw [hP, htree, h2]
  constructor
  · rintro ⟨he', hl⟩
    refine ⟨he', fun y hy => ?_⟩
    rw [← he] at hy
    obtain ⟨i, hi, rfl⟩ := List.mem_map.1 hy
    have := hp.mem_iff.2 hi
    obtain ⟨its, hits, hii⟩ := List.mem_flatten.1 this
    have := (hfold _ _).1 (hl _ (List.mem_map.2 ⟨its, hits, rfl⟩))
    exact this.2 _ (List.mem_map.2 ⟨i, hii, rfl⟩)
  · rintro ⟨he', hl⟩
    refine ⟨he', ?_⟩
    intro y hy
    obtain ⟨its, hits, rfl⟩ := List.mem_map.1 hy
    rw [hfold]
    refine ⟨he', fun z hz => ?_⟩
    obtain ⟨i, hi, rfl⟩ := List.mem_map.1 hz
    apply hl
    rw [← he]
    exact List.mem_map.2 ⟨i, hp.mem_iff.1 (List.mem_flatten.2 ⟨its, hits, hi⟩), rfl⟩

theorem allreduce_all {β : Type} (t : RankTree) (op : β → β → β) (xs : List β) (hx : xs ≠ []) :
    ∃ x, allreduce t op xs = some x ∧ ∀ P : β → Prop, (∀ a b, P (op a b) ↔ P a ∧ P b) → (P x ↔ ∀ y ∈ xs, P y) := by
  obtain ⟨x0, h0⟩ := List.exists_mem_of_ne_nil xs hx
  have hp := t.ok xs.length (List.length_pos_iff.2 hx)
  obtain ⟨w, hw, he⟩ := range_map_getElem' xs x0
  obtain ⟨t', h1, h2⟩ := RTree.mapM?_of (fun r => xs[r]?) w (t.tree xs.length) (by
    intro r hr
    exact hw r (by simpa using hp.mem_iff.1 hr))
  refine ⟨_, by unfold allreduce; rw [h1]; rfl, ?_⟩
  intro P hP
  have htree : ∀ t' : RTree β, P (t'.reduce op) ↔ ∀ y ∈ t'.leaves, P y := by
    intro t'
    induction t' with
    | leaf x => simp [RTree.reduce, RTree.leaves]
    | node l r ihl ihr =>
      rw [RTree.reduce, hP, ihl, ihr, RTree.leaves]
      simp only [List.mem_append]
      constructor
      · rintro ⟨a, b⟩ y (hy | hy); exacts [a y hy, b y hy]
      · intro a; exact ⟨fun y hy => a y (Or.inl hy), fun y hy => a y (Or.inr hy)⟩
  rw [htree, h2]
  have hperm : ((t.tree xs.length).leaves.map w).Perm xs := by
    rw [← he]
    have := hp.map w
    rw [he] at this ⊢
    exact this
  exact ⟨fun h y hy => h y (hperm.mem_iff.2 hy), fun h y hy => h y (hperm.mem_iff.1 hy)⟩

end OmegaH
