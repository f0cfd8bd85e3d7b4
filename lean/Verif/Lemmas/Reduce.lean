import Verif.Model.Reduce
import Verif.Lemmas.Mem

/-! # Reductions do not depend on how they are split -/

namespace OmegaH

variable {β : Type}

theorem mapM_list_of {γ : Type} (f : γ → Option β) (w : γ → β) (l : List γ)
    (h : ∀ x ∈ l, f x = some (w x)) : l.mapM f = some (l.map w) := by
  induction l with
  | nil => rfl
  | cons a l ih =>
    rw [List.mapM_cons, h a (by simp), ih (fun x hx => h x (by simp [hx]))]
    rfl

theorem RTree.mapM?_of {γ δ : Type} (f : γ → Option δ) (w : γ → δ) (t : RTree γ)
    (h : ∀ x ∈ t.leaves, f x = some (w x)) :
    ∃ t', t.mapM? f = some t' ∧ t'.leaves = t.leaves.map w := by
  induction t with
  | leaf x => exact ⟨.leaf (w x), by simp [mapM?, h x (by simp [leaves])], rfl⟩
  | node l r ihl ihr =>
    obtain ⟨l', h1, h2⟩ := ihl (fun x hx => h x (by simp [leaves, hx]))
    obtain ⟨r', h3, h4⟩ := ihr (fun x hx => h x (by simp [leaves, hx]))
    exact ⟨.node l' r', by simp [mapM?, h1, h3], by simp [leaves, h2, h4]⟩

theorem foldl_assoc_init (op : β → β → β) (assoc : ∀ a b c, op (op a b) c = op a (op b c))
    (l : List β) : ∀ a b, l.foldl op (op a b) = op a (l.foldl op b) := by
  induction l with
  | nil => intros; rfl
  | cons x l ih => intro a b; rw [List.foldl_cons, assoc, ih]; rfl

theorem RTree.reduce_foldl (op : β → β → β) (assoc : ∀ a b c, op (op a b) c = op a (op b c))
    (t : RTree β) : ∀ a, op a (t.reduce op) = t.leaves.foldl op a := by
  induction t with
  | leaf x => intro a; rfl
  | node l r ihl ihr =>
    intro a
    rw [reduce, leaves, List.foldl_append, ← ihl, ← ihr, assoc]

theorem foldl_flatten_priv (op : β → β → β) (assoc : ∀ a b c, op (op a b) c = op a (op b c))
    (priv : β) (ident : ∀ a, op a priv = a) (ls : List (List β)) :
    ∀ a, (ls.map (fun l => l.foldl op priv)).foldl op a = ls.flatten.foldl op a := by
  induction ls with
  | nil => intro a; rfl
  | cons l ls ih =>
    intro a
    rw [List.map_cons, List.foldl_cons, List.flatten_cons, List.foldl_append, ih,
      ← foldl_assoc_init op assoc l a priv, ident]

theorem foldl_perm (op : β → β → β) (assoc : ∀ a b c, op (op a b) c = op a (op b c))
    (comm : ∀ a b, op a b = op b a) {l l' : List β} (h : l.Perm l') :
    ∀ a, l.foldl op a = l'.foldl op a := by
  intro a
  exact h.foldl_eq' (fun x _ y _ z => by rw [assoc, assoc, comm x y]) a

/-- A reduction by any team of threads equals the serial fold. -/
theorem transformReduce_eq (t : Team) (op : β → β → β) (priv init : β) (f : Nat → Option β)
    (w : Nat → β) (n : Nat)
    (assoc : ∀ a b c, op (op a b) c = op a (op b c)) (comm : ∀ a b, op a b = op b a)
    (ident : ∀ a, op a priv = a) (h : ∀ i, i < n → f i = some (w i)) :
    transformReduce t op priv init f n = some (((List.range n).map w).foldl op init) := by
  have hp := t.ok n
  obtain ⟨t', h1, h2⟩ := RTree.mapM?_of
    (fun its => (its.mapM f).map (fun vs => vs.foldl op priv))
    (fun its => (its.map w).foldl op priv) (t.tree n) (by
      intro its hits
      have : its.mapM f = some (its.map w) := by
        apply mapM_list_of
        intro x hx
        apply h
        have : x ∈ (t.tree n).leaves.flatten := List.mem_flatten.2 ⟨its, hits, hx⟩
        simpa using (hp.mem_iff.1 this)
      rw [this]; rfl)
  unfold transformReduce
  rw [h1]
  simp only [Option.map_some, Option.some.injEq]
  rw [RTree.reduce_foldl op assoc, h2]
  have e : (t.tree n).leaves.map (fun its => (its.map w).foldl op priv) =
      ((t.tree n).leaves.map (List.map w)).map (fun l => l.foldl op priv) := by
    simp [List.map_map, Function.comp_def]
  rw [e, foldl_flatten_priv op assoc priv ident, ← List.map_flatten]
  exact foldl_perm op assoc comm (hp.map w) init

theorem transformReduceSerial_eq (op : β → β → β) (init : β) (f : Nat → Option β)
    (w : Nat → β) (n : Nat) (h : ∀ i, i < n → f i = some (w i)) :
    transformReduceSerial op init f n = some (((List.range n).map w).foldl op init) := by
  unfold transformReduceSerial
  rw [mapM_range_some n f w h]
  rfl

theorem map_getElem_range {α : Type} (l : List α) (d : Nat → α)
    (h : ∀ i, i < l.length → l[i]? = some (d i)) : (List.range l.length).map d = l := by
  apply List.ext_getElem?
  intro i
  by_cases hi : i < l.length
  · rw [h i hi]; simp [hi]
  · simp [hi]

theorem foldl_priv_le {α : Type} (op : α → α → α) (l : List α) (a b : α) (h : a = b) :
    l.foldl op a = l.foldl op b := by rw [h]

/-- An MPI reduction in any order gives the fold over the ranks. -/
theorem allreduce_eq (t : RankTree) (op : β → β → β) (e : β) (xs : List β) (hx : xs ≠ [])
    (assoc : ∀ a b c, op (op a b) c = op a (op b c)) (comm : ∀ a b, op a b = op b a)
    (ident : ∀ x ∈ xs, op e x = x) :
    allreduce t op xs = some (xs.foldl op e) := by
  cases xs with
  | nil => exact absurd rfl hx
  | cons x0 xs0 =>
  let xs := x0 :: xs0
  have hp := t.ok xs.length (by simp [xs])
  let w : Nat → β := fun i => (xs[i]?).getD x0
  have hw : ∀ i, i < xs.length → xs[i]? = some (w i) := by
    intro i hi; simp [w, hi]
  obtain ⟨t', h1, h2⟩ := RTree.mapM?_of (fun r => xs[r]?) w (t.tree xs.length) (by
    intro r hr
    exact hw r (by simpa using hp.mem_iff.1 hr))
  unfold allreduce
  show Option.map _ ((t.tree xs.length).mapM? (fun r => xs[r]?)) = _
  rw [h1]
  simp only [Option.map_some, Option.some.injEq]
  have hperm : t'.leaves.Perm xs := by
    rw [h2]
    refine (hp.map w).trans ?_
    rw [map_getElem_range xs w hw]
  have key : ∀ t' : RTree β, (∀ x ∈ t'.leaves, op e x = x) → op e (t'.reduce op) = t'.reduce op := by
    intro t'
    induction t' with
    | leaf x => intro h; exact h x (by simp [RTree.leaves])
    | node l r ihl ihr =>
      intro h
      rw [RTree.reduce, ← assoc, ihl (fun x hx => h x (by simp [RTree.leaves, hx]))]
  rw [← key t' (fun x hx => ident x (hperm.mem_iff.1 hx)), RTree.reduce_foldl op assoc]
  exact foldl_perm op assoc comm hperm e

end OmegaH
