import Verif.Spec.Chain
import Mathlib.Tactic.Ring
import Mathlib.Algebra.BigOperators.Group.List.Basic
/-!
# Deciding equality of chains
-/
namespace OmegaH
open Spec

/-- Insert into a sorted list, with the sign of the exchanges made. -/
def insSgn (a : Nat) : List Nat → Int × List Nat
  | [] => (1, [a])
  | b :: l => if a ≤ b then (1, a :: b :: l) else (-(insSgn a l).1, b :: (insSgn a l).2)

def sortSgn : List Nat → Int × List Nat
  | [] => (1, [])
  | a :: l => ((sortSgn l).1 * (insSgn a (sortSgn l).2).1, (insSgn a (sortSgn l).2).2)

theorem insSgn_spec {φ : List Nat → Int} (h : Alternating φ) (a : Nat) :
    ∀ (l p : List Nat), φ (p ++ a :: l) = (insSgn a l).1 * φ (p ++ (insSgn a l).2) := by
  intro l
  induction l with
  | nil => intro p; simp [insSgn]
  | cons b l ih =>
    intro p
    unfold insSgn
    split
    · simp
    · have := ih (p ++ [b])
      simp only [List.append_assoc, List.singleton_append] at this
      rw [h p a b l, this]
      ring

theorem sortSgn_spec {φ : List Nat → Int} (h : Alternating φ) :
    ∀ (l p : List Nat), φ (p ++ l) = (sortSgn l).1 * φ (p ++ (sortSgn l).2) := by
  intro l
  induction l with
  | nil => intro p; simp [sortSgn]
  | cons a l ih =>
    intro p
    have := ih (p ++ [a])
    simp only [List.append_assoc, List.singleton_append] at this
    unfold sortSgn
    rw [this, insSgn_spec h a (sortSgn l).2 p]
    ring

/-- Formal sums as lists of terms. -/
def evalTerms (φ : List Nat → Int) (L : List (Int × List Nat)) : Int := (L.map (fun t => t.1 * φ t.2)).sum

def addTerm (c : Int) (k : List Nat) : List (Int × List Nat) → List (Int × List Nat)
  | [] => [(c, k)]
  | t :: L => if t.2 = k then (t.1 + c, k) :: L else t :: addTerm c k L

theorem addTerm_eval (φ : List Nat → Int) (c : Int) (k : List Nat) (L : List (Int × List Nat)) :
    evalTerms φ (addTerm c k L) = c * φ k + evalTerms φ L := by
  induction L with
  | nil => simp [addTerm, evalTerms]
  | cons t L ih =>
    unfold addTerm
    split
    · rename_i h
      simp only [evalTerms, List.map_cons, List.sum_cons, h]
      ring
    · simp only [evalTerms, List.map_cons, List.sum_cons] at ih ⊢
      rw [ih]
      ring

def normTerms (L : List (Int × List Nat)) : List (Int × List Nat) :=
  L.foldr (fun t acc => addTerm (t.1 * (sortSgn t.2).1) (sortSgn t.2).2 acc) []

theorem normTerms_eval {φ : List Nat → Int} (h : Alternating φ) (L : List (Int × List Nat)) :
    evalTerms φ (normTerms L) = evalTerms φ L := by
  induction L with
  | nil => rfl
  | cons t L ih =>
    have : normTerms (t :: L) = addTerm (t.1 * (sortSgn t.2).1) (sortSgn t.2).2 (normTerms L) := rfl
    rw [this, addTerm_eval, ih]
    have := sortSgn_spec h t.2 []
    simp only [List.nil_append] at this
    simp only [evalTerms, List.map_cons, List.sum_cons]
    rw [this]
    ring

def bdTerms (σ : List Nat) : List (Int × List Nat) :=
  (List.range σ.length).map (fun i => ((-1) ^ i, σ.eraseIdx i))

theorem bdTerms_eval (φ : List Nat → Int) (σ : List Nat) : evalTerms φ (bdTerms σ) = boundary φ σ := by
  unfold evalTerms bdTerms boundary
  rw [List.map_map]; rfl

theorem evalTerms_append (φ : List Nat → Int) (A B : List (Int × List Nat)) :
    evalTerms φ (A ++ B) = evalTerms φ A + evalTerms φ B := by
  simp [evalTerms]

theorem evalTerms_flatMap (φ : List Nat → Int) (f : List Nat → List (Int × List Nat))
    (A : List (List Nat)) :
    evalTerms φ (A.flatMap f) = (A.map (fun σ => evalTerms φ (f σ))).sum := by
  induction A with
  | nil => rfl
  | cons a A ih => rw [List.flatMap_cons, evalTerms_append, ih]; simp

def negTerms (L : List (Int × List Nat)) : List (Int × List Nat) := L.map (fun t => (-t.1, t.2))

theorem negTerms_eval (φ : List Nat → Int) (L : List (Int × List Nat)) :
    evalTerms φ (negTerms L) = - evalTerms φ L := by
  induction L with
  | nil => rfl
  | cons t L ih =>
    simp only [evalTerms, negTerms, List.map_cons, List.sum_cons] at ih ⊢
    rw [ih]
    ring

theorem evalTerms_zero (φ : List Nat → Int) (L : List (Int × List Nat))
    (h : L.all (fun t => t.1 == 0) = true) : evalTerms φ L = 0 := by
  induction L with
  | nil => rfl
  | cons t L ih =>
    simp only [List.all_cons, Bool.and_eq_true, beq_iff_eq] at h
    simp only [evalTerms, List.map_cons, List.sum_cons, h.1] at ih ⊢
    rw [ih h.2]
    simp

/-- Decide whether two collections have the same boundary. -/
def sameBoundaryB (A B : List (List Nat)) : Bool :=
  (normTerms (A.flatMap bdTerms ++ negTerms (B.flatMap bdTerms))).all (fun t => t.1 == 0)

/-- Decide whether two collections are the same chain. -/
def sameChainB (A B : List (List Nat)) : Bool :=
  (normTerms (A.map (fun σ => (1, σ)) ++ negTerms (B.map (fun σ => (1, σ))))).all (fun t => t.1 == 0)

theorem sameBoundary_of_check {A B : List (List Nat)} (h : sameBoundaryB A B = true) :
    SameBoundary A B := by
  intro φ hφ
  have := evalTerms_zero φ _ h
  rw [normTerms_eval hφ, evalTerms_append, negTerms_eval, evalTerms_flatMap, evalTerms_flatMap] at this
  simp only [bdTerms_eval] at this
  have this : (A.map (boundary φ)).sum + -(B.map (boundary φ)).sum = 0 := this
  omega

theorem sameChain_of_check {A B : List (List Nat)} (h : sameChainB A B = true) : SameChain A B := by
  intro φ hφ
  have := evalTerms_zero φ _ h
  rw [normTerms_eval hφ, evalTerms_append, negTerms_eval] at this
  have e : ∀ A : List (List Nat), evalTerms φ (A.map (fun σ => ((1 : Int), σ))) = (A.map φ).sum := by
    intro A; unfold evalTerms; rw [List.map_map]; congr 1
    apply List.map_congr_left; intro x _; simp
  rw [e, e] at this
  omega

/-! ## Relabelling -/

theorem alternating_comp {φ : List Nat → Int} (h : Alternating φ) (v : Nat → Nat) :
    Alternating (fun l => φ (l.map v)) := by
  intro l a b r
  simp only [List.map_append, List.map_cons]
  exact h _ _ _ _

theorem boundary_map (φ : List Nat → Int) (v : Nat → Nat) (σ : List Nat) :
    boundary φ (σ.map v) = boundary (fun l => φ (l.map v)) σ := by
  unfold boundary
  rw [List.length_map]
  simp only [List.eraseIdx_map]

theorem SameBoundary_map {A B : List (List Nat)} (h : SameBoundary A B) (v : Nat → Nat) :
    SameBoundary (A.map (List.map v)) (B.map (List.map v)) := by
  intro φ hφ
  have := h _ (alternating_comp hφ v)
  rw [List.map_map, List.map_map]
  simpa [Function.comp_def, boundary_map] using this

theorem SameChain_map {A B : List (List Nat)} (h : SameChain A B) (v : Nat → Nat) :
    SameChain (A.map (List.map v)) (B.map (List.map v)) := by
  intro φ hφ
  have := h _ (alternating_comp hφ v)
  rw [List.map_map, List.map_map]
  simpa [Function.comp_def] using this

theorem SameBoundary_refl (A : List (List Nat)) : SameBoundary A A := fun _ _ => rfl

theorem SameBoundary_trans {A B C : List (List Nat)} (h : SameBoundary A B) (h' : SameBoundary B C) :
    SameBoundary A C := fun φ hφ => (h φ hφ).trans (h' φ hφ)

theorem SameBoundary_symm {A B : List (List Nat)} (h : SameBoundary A B) : SameBoundary B A :=
  fun φ hφ => (h φ hφ).symm

theorem SameBoundary_of_perm {A B : List (List Nat)} (h : A.Perm B) : SameBoundary A B := fun _ _ =>
  (h.map _).sum_eq

/-- Replacing each simplex by one with the same boundary. -/
theorem SameBoundary_pointwise {α : Type} (L : List α) (f g : α → List Nat)
    (h : ∀ x ∈ L, SameBoundary [f x] [g x]) : SameBoundary (L.map f) (L.map g) := by
  intro φ hφ
  rw [List.map_map, List.map_map]
  congr 1
  apply List.map_congr_left
  intro x hx
  have := h x hx φ hφ
  simpa using this

theorem SameBoundary_append {A B C D : List (List Nat)} (h : SameBoundary A B) (h' : SameBoundary C D) :
    SameBoundary (A ++ C) (B ++ D) := by
  intro φ hφ
  rw [List.map_append, List.map_append, List.sum_append, List.sum_append, h φ hφ, h' φ hφ]

theorem boundary_split (φ : List Nat → Int) (l m : List Nat) :
    boundary φ (l ++ m) = ((List.range l.length).map (fun i => (-1) ^ i * φ (l.eraseIdx i ++ m))).sum +
      ((List.range m.length).map (fun i => (-1) ^ (l.length + i) * φ (l ++ m.eraseIdx i))).sum := by
  unfold boundary
  rw [List.length_append, List.range_add, List.map_append, List.sum_append, List.map_map]
  congr 2
  · apply List.map_congr_left
    intro i hi
    rw [List.mem_range] at hi
    rw [List.eraseIdx_append_of_lt_length hi]
  · apply List.map_congr_left
    intro i _
    simp only [Function.comp_apply]
    rw [List.eraseIdx_append_of_length_le (by omega), Nat.add_sub_cancel_left]

theorem sum_map_neg' {α : Type} (L : List α) (f g : α → Int) (h : ∀ x ∈ L, f x = - g x) :
    (L.map f).sum = - (L.map g).sum := by
  induction L with
  | nil => rfl
  | cons a L ih =>
    simp only [List.map_cons, List.sum_cons]
    rw [h a (by simp), ih (fun x hx => h x (by simp [hx]))]
    omega

theorem alternating_boundary {φ : List Nat → Int} (hφ : Alternating φ) : Alternating (boundary φ) := by
  intro l a b r
  rw [boundary_split, boundary_split φ l (b :: a :: r)]
  have h1 : ((List.range l.length).map (fun i => (-1) ^ i * φ (l.eraseIdx i ++ a :: b :: r))).sum =
      - ((List.range l.length).map (fun i => (-1) ^ i * φ (l.eraseIdx i ++ b :: a :: r))).sum := by
    apply sum_map_neg'
    intro i _
    rw [hφ]; ring
  have h2 : ∀ x y : Nat, ((List.range (x :: y :: r).length).map
        (fun i => (-1) ^ (l.length + i) * φ (l ++ (x :: y :: r).eraseIdx i))).sum =
      (-1) ^ l.length * φ (l ++ y :: r) - (-1) ^ l.length * φ (l ++ x :: r) +
      ((List.range r.length).map (fun i => (-1) ^ (l.length + i) * φ (l ++ x :: y :: r.eraseIdx i))).sum := by
    intro x y
    rw [List.length_cons, List.length_cons, List.range_succ_eq_map, List.map_cons, List.map_map,
      List.range_succ_eq_map, List.map_cons, List.map_map, List.sum_cons, List.sum_cons]
    simp only [List.eraseIdx_cons_zero, Nat.add_zero, Function.comp_apply, Nat.succ_eq_add_one, Nat.zero_add,
      List.eraseIdx_cons_succ]
    have : ((List.range r.length).map (((fun i : Nat => (-1 : Int) ^ (l.length + i) * φ (l ++ (x :: y :: r).eraseIdx i)) ∘ fun x => x + 1) ∘ fun x => x + 1)) =
        (List.range r.length).map (fun i => (-1) ^ (l.length + i) * φ (l ++ x :: y :: r.eraseIdx i)) := by
      apply List.map_congr_left
      intro i _
      simp only [Function.comp_apply, List.eraseIdx_cons_succ]
      congr 1
      rw [show l.length + (i + 1 + 1) = l.length + i + 2 by omega, pow_add]
      simp
    rw [this]
    ring
  rw [h1, h2, h2]
  have h3 : ((List.range r.length).map (fun i => (-1) ^ (l.length + i) * φ (l ++ a :: b :: r.eraseIdx i))).sum =
      - ((List.range r.length).map (fun i => (-1) ^ (l.length + i) * φ (l ++ b :: a :: r.eraseIdx i))).sum := by
    apply sum_map_neg'
    intro i _
    rw [hφ]; ring
  rw [h3]
  ring

/-- Equal sums of simplices have equal boundaries. -/
theorem SameBoundary_of_sameChain {A B : List (List Nat)} (h : SameChain A B) : SameBoundary A B :=
  fun _ hφ => h _ (alternating_boundary hφ)
end OmegaH
