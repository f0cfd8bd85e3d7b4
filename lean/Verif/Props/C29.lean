import Verif.Model.FirstSets
import Verif.Spec.Grammar
import Verif.Lemmas.Determinise
import Mathlib.Data.List.Perm.Subperm
import Mathlib.Data.List.Nodup

/-! # C29: FIRST sets are the terminals that can begin a derived string -/

namespace OmegaH

open Spec

theorem Derives.trans {g : Grammar} {a b c : List Nat} (h : Derives g a b) (h' : Derives g b c) : Derives g a c := by
  induction h with
  | refl => exact h'
  | step r _ ih => exact Derives.step r (ih h')

theorem Derives.context {g : Grammar} {a b : List Nat} (x y : List Nat) (h : Derives g a b) : Derives g (x ++ a ++ y) (x ++ b ++ y) := by
  induction h with
  | refl => exact Derives.refl _
  | @step a b c r _ ih =>
    obtain ⟨u, v, p, hp, rfl, rfl⟩ := r
    exact Derives.step ⟨x ++ u, v ++ y, p, hp, by simp, by simp⟩ ih

theorem Derives.append {g : Grammar} {a b c d : List Nat} (h : Derives g a b) (h' : Derives g c d) : Derives g (a ++ c) (b ++ d) := by
  have h1 := Derives.context [] c h
  have h2 := Derives.context b [] h'
  simp only [List.nil_append, List.append_nil] at h1 h2
  exact Derives.trans h1 h2

theorem mem_intInsert {x y : Int} {l : List Int} : y ∈ intInsert x l ↔ y = x ∨ y ∈ l := by
  induction l with
  | nil => simp [intInsert]
  | cons z l ih =>
    unfold intInsert
    by_cases h1 : x < z
    · rw [if_pos h1]; simp
    · rw [if_neg h1]
      by_cases h2 : x = z
      · rw [if_pos h2]; subst h2; simp
      · rw [if_neg h2]
        simp only [List.mem_cons, ih]
        tauto

theorem intInsert_sorted {x : Int} {l : List Int} (h : l.Pairwise (· < ·)) : (intInsert x l).Pairwise (· < ·) := by
  induction l with
  | nil => simp [intInsert]
  | cons z l ih =>
    obtain ⟨hz, hl⟩ := List.pairwise_cons.1 h
    unfold intInsert
    by_cases h1 : x < z
    · rw [if_pos h1]
      refine List.pairwise_cons.2 ⟨?_, h⟩
      intro y hy
      rcases List.mem_cons.1 hy with rfl | hy
      · exact h1
      · have := hz y hy; omega
    · rw [if_neg h1]
      by_cases h2 : x = z
      · rw [if_pos h2]; exact h
      · rw [if_neg h2]
        refine List.pairwise_cons.2 ⟨?_, ih hl⟩
        intro y hy
        rcases mem_intInsert.1 hy with rfl | hy
        · omega
        · exact hz y hy

theorem intInsert_length {x : Int} {l : List Int} (h : x ∉ l) : (intInsert x l).length = l.length + 1 := by
  induction l with
  | nil => rfl
  | cons z l ih =>
    unfold intInsert
    by_cases h1 : x < z
    · rw [if_pos h1]; rfl
    · rw [if_neg h1]
      by_cases h2 : x = z
      · subst h2; exact absurd (by simp) h
      · rw [if_neg h2, List.length_cons, ih (fun h' => h (List.mem_cons_of_mem _ h')), List.length_cons]

/-- `x` is in the set of `s`. -/
def InF (sets : List (List Int)) (s : Nat) (x : Int) : Prop := ∃ fs, sets[s]? = some fs ∧ x ∈ fs

/-- What the set of a string should hold, given the sets of symbols. -/
def InFirst (sets : List (List Int)) : List Nat → Int → Prop
  | [], x => x = firstNull
  | s :: r, x => (x ≠ firstNull ∧ InF sets s x) ∨ (InF sets s firstNull ∧ InFirst sets r x)

theorem inFirst_single {sets : List (List Int)} {s : Nat} {x : Int} : InFirst sets [s] x ↔ InF sets s x := by
  unfold InFirst InFirst
  constructor
  · rintro (h | ⟨h, rfl⟩)
    · exact h.2
    · exact h
  · intro h
    by_cases hx : x = firstNull
    · subst hx; exact Or.inr ⟨h, rfl⟩
    · exact Or.inl ⟨hx, h⟩

theorem inFirst_append {sets : List (List Int)} {a b : List Nat} {x : Int} :
    InFirst sets (a ++ b) x ↔ (x ≠ firstNull ∧ InFirst sets a x) ∨ (InFirst sets a firstNull ∧ InFirst sets b x) := by
  induction a with
  | nil =>
    rw [List.nil_append]
    show _ ↔ (x ≠ firstNull ∧ x = firstNull) ∨ (firstNull = firstNull ∧ _)
    simp
  | cons s a ih =>
    show ((x ≠ firstNull ∧ InF sets s x) ∨ (InF sets s firstNull ∧ InFirst sets (a ++ b) x)) ↔
      (x ≠ firstNull ∧ ((x ≠ firstNull ∧ InF sets s x) ∨ (InF sets s firstNull ∧ InFirst sets a x))) ∨
      (((firstNull ≠ firstNull ∧ InF sets s firstNull) ∨ (InF sets s firstNull ∧ InFirst sets a firstNull)) ∧ InFirst sets b x)
    rw [ih]
    tauto

theorem firstFold_mem {fs out : List Int} (h : out.Pairwise (· < ·)) :
    (fs.foldl (fun o x => if x = firstNull then o else intInsert x o) out).Pairwise (· < ·) ∧
    ∀ y, y ∈ fs.foldl (fun o x => if x = firstNull then o else intInsert x o) out ↔ y ∈ out ∨ (y ≠ firstNull ∧ y ∈ fs) := by
  induction fs generalizing out with
  | nil => exact ⟨h, by simp⟩
  | cons z fs ih =>
    rw [List.foldl_cons]
    by_cases hz : z = firstNull
    · rw [if_pos hz]
      obtain ⟨h1, h2⟩ := ih h
      refine ⟨h1, fun y => ?_⟩
      rw [h2, List.mem_cons]
      constructor
      · tauto
      · rintro (h | ⟨h, rfl | h'⟩)
        · exact Or.inl h
        · exact absurd hz h
        · exact Or.inr ⟨h, h'⟩
    · rw [if_neg hz]
      obtain ⟨h1, h2⟩ := ih (intInsert_sorted (x := z) h)
      refine ⟨h1, fun y => ?_⟩
      rw [h2, mem_intInsert, List.mem_cons]
      constructor
      · rintro ((rfl | h) | ⟨h, h'⟩)
        · exact Or.inr ⟨hz, Or.inl rfl⟩
        · exact Or.inl h
        · exact Or.inr ⟨h, Or.inr h'⟩
      · rintro (h | ⟨h, rfl | h'⟩)
        · exact Or.inl (Or.inr h)
        · exact Or.inl (Or.inl rfl)
        · exact Or.inr ⟨h, h'⟩

theorem firstOfStringFrom_spec {sets : List (List Int)} {a : List Nat} (ha : ∀ s ∈ a, s < sets.length) {out : List Int} (ho : out.Pairwise (· < ·)) :
    ∃ fs, firstOfStringFrom sets a out = some fs ∧ fs.Pairwise (· < ·) ∧ ∀ x, x ∈ fs ↔ x ∈ out ∨ InFirst sets a x := by
  induction a generalizing out with
  | nil =>
    refine ⟨_, rfl, intInsert_sorted ho, fun x => ?_⟩
    rw [mem_intInsert]
    show _ ↔ _ ∨ x = firstNull
    tauto
  | cons s a ih =>
    obtain ⟨fs, hfs⟩ : ∃ fs, sets[s]? = some fs := ⟨_, List.getElem?_eq_getElem (ha s (by simp))⟩
    have hin : ∀ x, InF sets s x ↔ x ∈ fs := by
      intro x
      constructor
      · rintro ⟨fs', h1, h2⟩; rw [hfs] at h1; cases h1; exact h2
      · intro h; exact ⟨fs, hfs, h⟩
    obtain ⟨f1, f2⟩ := firstFold_mem (fs := fs) ho
    unfold firstOfStringFrom
    rw [hfs, Option.bind_some]
    dsimp only
    by_cases hn : firstNull ∈ fs
    · rw [if_pos hn]
      obtain ⟨r, r1, r2, r3⟩ := ih (fun s hs => ha s (List.mem_cons_of_mem _ hs)) f1
      refine ⟨r, r1, r2, fun x => ?_⟩
      rw [r3, f2]
      show _ ↔ _ ∨ ((x ≠ firstNull ∧ InF sets s x) ∨ (InF sets s firstNull ∧ InFirst sets a x))
      rw [hin, hin]
      tauto
    · rw [if_neg hn]
      refine ⟨_, rfl, f1, fun x => ?_⟩
      rw [f2]
      show _ ↔ _ ∨ ((x ≠ firstNull ∧ InF sets s x) ∨ (InF sets s firstNull ∧ InFirst sets a x))
      rw [hin, hin]
      tauto

theorem firstOfString_spec {sets : List (List Int)} {a : List Nat} (ha : ∀ s ∈ a, s < sets.length) :
    ∃ fs, firstOfString sets a = some fs ∧ fs.Pairwise (· < ·) ∧ ∀ x, x ∈ fs ↔ InFirst sets a x := by
  obtain ⟨fs, h1, h2, h3⟩ := firstOfStringFrom_spec ha (out := []) List.Pairwise.nil
  exact ⟨fs, h1, h2, fun x => by rw [h3]; simp⟩

/-- `x` is rightly in the set of a string. -/
def GoodFirst (g : Grammar) (a : List Nat) (x : Int) : Prop :=
  (x = firstNull ∧ Derives g a []) ∨ ∃ t : Nat, x = (t : Int) ∧ t < g.nterminals ∧ ∃ b, Derives g a (t :: b)

theorem good_of_inFirst {g : Grammar} {sets : List (List Int)} (hs : ∀ s x, InF sets s x → GoodFirst g [s] x) {a : List Nat} {x : Int}
    (h : InFirst sets a x) : GoodFirst g a x := by
  induction a with
  | nil => exact Or.inl ⟨h, Derives.refl _⟩
  | cons s a ih =>
    rcases h with ⟨hx, h⟩ | ⟨h1, h2⟩
    · rcases hs s x h with ⟨h, _⟩ | ⟨t, ht, hlt, b, hb⟩
      · exact absurd h hx
      · exact Or.inr ⟨t, ht, hlt, b ++ a, Derives.append hb (Derives.refl a)⟩
    · have hnull : Derives g [s] [] := by
        rcases hs s _ h1 with ⟨_, h⟩ | ⟨t, ht, _⟩
        · exact h
        · unfold firstNull at ht; omega
      rcases ih h2 with ⟨hx, h⟩ | ⟨t, ht, hlt, b, hb⟩
      · exact Or.inl ⟨hx, Derives.append hnull h⟩
      · exact Or.inr ⟨t, ht, hlt, b, Derives.append hnull hb⟩

/-- Sets that cannot grow any more hold all that they should. -/
theorem inFirst_of_derives {g : Grammar} {sets : List (List Int)} (hc : ∀ p ∈ g.prods, ∀ x, InFirst sets p.2 x → InF sets p.1 x)
    {a b : List Nat} (h : Derives g a b) {x : Int} (hx : InFirst sets b x) : InFirst sets a x := by
  induction h with
  | refl => exact hx
  | step r _ ih =>
    have hx := ih hx
    obtain ⟨u, v, p, hp, rfl, rfl⟩ := r
    rw [List.append_assoc, inFirst_append, inFirst_append] at hx
    rw [inFirst_append]
    rcases hx with hx | ⟨h1, hx⟩
    · exact Or.inl hx
    · refine Or.inr ⟨h1, ?_⟩
      rcases hx with ⟨h2, h3⟩ | ⟨h2, h3⟩
      · exact Or.inl ⟨h2, hc p hp x h3⟩
      · exact Or.inr ⟨hc p hp _ h2, h3⟩

structure FirstInv (g : Grammar) (queue : List (Int × Nat)) (sets : List (List Int)) : Prop where
  len : sets.length = g.nsymbols
  sorted : ∀ (s : Nat) fs, sets[s]? = some fs → fs.Pairwise (· < ·)
  range : ∀ e ∈ queue, e.2 < g.nsymbols
  goodQ : ∀ e ∈ queue, GoodFirst g [e.2] e.1
  good : ∀ s x, InF sets s x → GoodFirst g [s] x
  term : ∀ t, t < g.nterminals → InF sets t (t : Int) ∨ ((t : Int), t) ∈ queue
  prod : ∀ p ∈ g.prods, ∀ x, InFirst sets p.2 x → InF sets p.1 x ∨ (x, p.1) ∈ queue

theorem good_length {g : Grammar} {a : List Nat} {fs : List Int} (hs : fs.Pairwise (· < ·)) (hg : ∀ x ∈ fs, GoodFirst g a x) :
    fs.length ≤ g.nterminals + 1 := by
  have hnd : fs.Nodup := hs.imp (fun h => by omega)
  have hsub : fs ⊆ firstNull :: (List.range g.nterminals).map (fun (i : Nat) => (i : Int)) := by
    intro x hx
    rcases hg x hx with ⟨h, _⟩ | ⟨t, rfl, ht, _⟩
    · rw [h]; simp
    · simp [ht]
  have := (hnd.subperm hsub).length_le
  simpa using this

theorem sum_length_set {l : List (List Int)} {i : Nat} {x y : List Int} (h : l[i]? = some x) (hy : y.length = x.length + 1) :
    ((l.set i y).map List.length).sum = (l.map List.length).sum + 1 := by
  induction l generalizing i with
  | nil => simp at h
  | cons z l ih =>
    cases i with
    | zero =>
      simp only [List.getElem?_cons_zero, Option.some.injEq] at h
      subst h
      simp only [List.set_cons_zero, List.map_cons, List.sum_cons]
      omega
    | succ i =>
      simp only [List.getElem?_cons_succ] at h
      simp only [List.set_cons_succ, List.map_cons, List.sum_cons]
      have := ih h
      omega

theorem sum_length_le {l : List (List Int)} {n : Nat} (h : ∀ x ∈ l, x.length ≤ n) : (l.map List.length).sum ≤ l.length * n := by
  induction l with
  | nil => simp
  | cons z l ih =>
    have h1 := h z (by simp)
    have h2 := ih (fun x hx => h x (List.mem_cons_of_mem _ hx))
    simp only [List.map_cons, List.sum_cons, List.length_cons, Nat.succ_mul]
    omega

theorem flatten_length_le {α : Type} {l : List (List α)} {n : Nat} (h : ∀ x ∈ l, x.length ≤ n) : l.flatten.length ≤ l.length * n := by
  induction l with
  | nil => simp
  | cons z l ih =>
    have h1 := h z (by simp)
    have h2 := ih (fun x hx => h x (List.mem_cons_of_mem _ hx))
    simp only [List.flatten_cons, List.length_append, List.length_cons, Nat.succ_mul]
    omega

/-- The events pushed after an insertion. -/
theorem newEvents_spec {g : Grammar} (hg : GrammarOk g) {sets : List (List Int)} (hlen : sets.length = g.nsymbols)
    (hgood : ∀ s x, InF sets s x → GoodFirst g [s] x) (d : Nat) :
    ∃ new, g.newEvents sets d = some new ∧ new.length ≤ g.nsymbols * (g.prods.length * (g.nterminals + 1)) ∧
      ∀ x l, (x, l) ∈ new ↔ (∃ q ∈ g.prods, q.1 = l ∧ d ∈ q.2) ∧ (∃ p ∈ g.prods, p.1 = l ∧ InFirst sets p.2 x) ∧ ¬ InF sets l x := by
  have hprod : ∀ l, l < g.nsymbols → ∀ p ∈ g.prods, ∃ out, eventsOfProd sets l p = some out ∧ out.length ≤ g.nterminals + 1 ∧
      ∀ x l', (x, l') ∈ out ↔ l' = l ∧ InFirst sets p.2 x ∧ ¬ InF sets l x := by
    intro l hl p hp
    obtain ⟨fs, hfs⟩ : ∃ fs, sets[l]? = some fs := ⟨_, List.getElem?_eq_getElem (by omega)⟩
    obtain ⟨rhs, r1, r2, r3⟩ := firstOfString_spec (sets := sets) (a := p.2) (fun s hs => by rw [hlen]; exact hg.rhs p hp s hs)
    refine ⟨_, by unfold eventsOfProd; rw [hfs, Option.bind_some, r1, Option.map_some], ?_, ?_⟩
    · rw [List.length_map]
      exact Nat.le_trans (List.length_filter_le _ _) (good_length r2 (fun x hx => good_of_inFirst hgood ((r3 x).1 hx)))
    · intro x l'
      have hin : InF sets l x ↔ x ∈ fs := by
        constructor
        · rintro ⟨fs', h1, h2⟩; rw [hfs] at h1; cases h1; exact h2
        · intro h; exact ⟨fs, hfs, h⟩
      rw [hin, ← r3]
      simp only [List.mem_map, List.mem_filter, decide_eq_true_eq, Prod.mk.injEq]
      constructor
      · rintro ⟨y, ⟨h1, h2⟩, rfl, rfl⟩; exact ⟨rfl, h1, h2⟩
      · rintro ⟨rfl, h1, h2⟩; exact ⟨x, ⟨h1, h2⟩, rfl, rfl⟩
  have hdep : ∀ l, l < g.nsymbols → g.nterminals ≤ l → ∃ out, g.eventsOfDepender sets l = some out ∧ out.length ≤ g.prods.length * (g.nterminals + 1) ∧
      ∀ x l', (x, l') ∈ out ↔ l' = l ∧ (∃ p ∈ g.prods, p.1 = l ∧ InFirst sets p.2 x) ∧ ¬ InF sets l x := by
    intro l hl hn
    have hmem : ∀ p, p ∈ g.prodsOf l ↔ p ∈ g.prods ∧ p.1 = l := by intro p; unfold Grammar.prodsOf; simp
    obtain ⟨out, o1, o2, o3, _⟩ := mapM_list_spec (g.prodsOf l) (eventsOfProd sets l) (fun p hp => by
      obtain ⟨o, h, _⟩ := hprod l hl p ((hmem p).1 hp).1
      rw [h]; rfl)
    refine ⟨out.flatten, ?_, ?_, ?_⟩
    · unfold Grammar.eventsOfDepender Grammar.isTerminal
      rw [if_neg (by simp; omega), o1, Option.map_some]
    · refine Nat.le_trans (flatten_length_le (n := g.nterminals + 1) ?_) (Nat.mul_le_mul_right _ ?_)
      · intro e he
        obtain ⟨p, hp, hw⟩ := (o3 e).1 he
        obtain ⟨o, h1, h2, _⟩ := hprod l hl p ((hmem p).1 hp).1
        rw [h1] at hw; cases hw; exact h2
      · rw [o2]; exact List.length_filter_le _ _
    · intro x l'
      rw [List.mem_flatten]
      constructor
      · rintro ⟨e, he, hx⟩
        obtain ⟨p, hp, hw⟩ := (o3 e).1 he
        obtain ⟨o, h1, _, h3⟩ := hprod l hl p ((hmem p).1 hp).1
        rw [h1] at hw; cases hw
        obtain ⟨q1, q2, q3⟩ := (h3 x l').1 hx
        exact ⟨q1, ⟨p, ((hmem p).1 hp).1, ((hmem p).1 hp).2, q2⟩, q3⟩
      · rintro ⟨q1, ⟨p, hp, hpl, q2⟩, q3⟩
        obtain ⟨o, h1, _, h3⟩ := hprod l hl p hp
        exact ⟨o, (o3 o).2 ⟨p, (hmem p).2 ⟨hp, hpl⟩, h1⟩, (h3 x l').2 ⟨q1, q2, q3⟩⟩
  have hdmem : ∀ l, l ∈ g.dependers d ↔ ∃ q ∈ g.prods, q.1 = l ∧ d ∈ q.2 := by
    intro l
    unfold Grammar.dependers Grammar.prodsOf
    simp only [List.mem_filter, List.mem_range, List.any_eq_true, decide_eq_true_eq]
    constructor
    · rintro ⟨_, q, ⟨h1, h2⟩, h3⟩; exact ⟨q, h1, h2, h3⟩
    · rintro ⟨q, h1, h2, h3⟩; exact ⟨h2 ▸ (hg.lhs q h1).2, q, ⟨h1, h2⟩, h3⟩
  have hdr : ∀ l, l ∈ g.dependers d → l < g.nsymbols ∧ g.nterminals ≤ l := by
    intro l hl
    obtain ⟨q, h1, rfl, _⟩ := (hdmem l).1 hl
    exact ⟨(hg.lhs q h1).2, (hg.lhs q h1).1⟩
  obtain ⟨out, o1, o2, o3, _⟩ := mapM_list_spec (g.dependers d) (g.eventsOfDepender sets) (fun l hl => by
    obtain ⟨o, h, _⟩ := hdep l (hdr l hl).1 (hdr l hl).2
    rw [h]; rfl)
  refine ⟨out.flatten, by unfold Grammar.newEvents; rw [o1, Option.map_some], ?_, ?_⟩
  · refine Nat.le_trans (flatten_length_le (n := g.prods.length * (g.nterminals + 1)) ?_) (Nat.mul_le_mul_right _ ?_)
    · intro e he
      obtain ⟨l, hl, hw⟩ := (o3 e).1 he
      obtain ⟨o, h1, h2, _⟩ := hdep l (hdr l hl).1 (hdr l hl).2
      rw [h1] at hw; cases hw; exact h2
    · rw [o2]
      unfold Grammar.dependers
      exact Nat.le_trans (List.length_filter_le _ _) (by rw [List.length_range])
  · intro x l
    rw [List.mem_flatten]
    constructor
    · rintro ⟨e, he, hx⟩
      obtain ⟨l', hl, hw⟩ := (o3 e).1 he
      obtain ⟨o, h1, _, h3⟩ := hdep l' (hdr l' hl).1 (hdr l' hl).2
      rw [h1] at hw; cases hw
      obtain ⟨rfl, q2, q3⟩ := (h3 x l).1 hx
      exact ⟨(hdmem l).1 hl, q2, q3⟩
    · rintro ⟨q1, q2, q3⟩
      have hl := (hdmem l).2 q1
      obtain ⟨o, h1, _, h3⟩ := hdep l (hdr l hl).1 (hdr l hl).2
      exact ⟨o, (o3 o).2 ⟨l, hl, h1⟩, (h3 x l).2 ⟨rfl, q2, q3⟩⟩

/-- Only the sets of strings that hold a symbol change with its set. -/
theorem inFirst_set {sets : List (List Int)} {d : Nat} {fs : List Int} {a : List Nat} (hd : d ∉ a) {x : Int} :
    InFirst (sets.set d fs) a x ↔ InFirst sets a x := by
  induction a with
  | nil => exact Iff.rfl
  | cons s a ih =>
    have hs : d ≠ s := fun h => hd (by simp [h])
    have hin : ∀ y, InF (sets.set d fs) s y ↔ InF sets s y := by
      intro y; unfold InF; rw [List.getElem?_set_ne hs]
    show ((x ≠ firstNull ∧ InF _ s x) ∨ (InF _ s firstNull ∧ InFirst _ a x)) ↔ ((x ≠ firstNull ∧ InF _ s x) ∨ (InF _ s firstNull ∧ InFirst _ a x))
    rw [hin, hin, ih (fun h => hd (List.mem_cons_of_mem _ h))]

theorem mem_eraseIdx_or {α : Type} {l : List α} {i : Nat} {e x : α} (h : l[i]? = some e) (hx : x ∈ l) : x = e ∨ x ∈ l.eraseIdx i := by
  obtain ⟨j, hj⟩ := List.getElem?_of_mem hx
  by_cases hij : j = i
  · subst hij; rw [h] at hj; exact Or.inl (Option.some.inj hj).symm
  · right
    rw [List.mem_eraseIdx_iff_getElem?]
    exact ⟨j, hij, hj⟩

theorem firstLoop_spec {g : Grammar} (hg : GrammarOk g) (pick : List (Int × Nat) → Nat) (fuel : Nat) :
    ∀ queue sets, FirstInv g queue sets →
      queue.length + (g.nsymbols * (g.nterminals + 1) - (sets.map List.length).sum) * (g.nsymbols * (g.prods.length * (g.nterminals + 1))) ≤ fuel →
      ∃ out, g.firstLoop pick fuel queue sets = .done out ∧ FirstInv g [] out := by
  induction fuel with
  | zero =>
    intro queue sets hi hf
    have : queue = [] := List.length_eq_zero_iff.1 (by omega)
    subst this
    exact ⟨sets, by unfold Grammar.firstLoop; rfl, hi⟩
  | succ fuel ih =>
    intro queue sets hi hf
    cases queue with
    | nil => exact ⟨sets, by unfold Grammar.firstLoop; rfl, hi⟩
    | cons e0 q0 =>
      unfold Grammar.firstLoop
      generalize hq : e0 :: q0 = queue at *
      have hpos : 0 < queue.length := by rw [← hq]; simp
      generalize hi' : pick queue % queue.length = i
      have hilt : i < queue.length := by rw [← hi']; exact Nat.mod_lt _ hpos
      obtain ⟨⟨added, d⟩, he⟩ : ∃ e, queue[i]? = some e := ⟨_, List.getElem?_eq_getElem hilt⟩
      rw [he]
      dsimp only
      have hmem : (added, d) ∈ queue := List.mem_of_getElem? he
      have hd : d < g.nsymbols := hi.range _ hmem
      obtain ⟨fs, hfs⟩ : ∃ fs, sets[d]? = some fs := ⟨_, List.getElem?_eq_getElem (by rw [hi.len]; exact hd)⟩
      rw [hfs]
      dsimp only
      have hsub : ∀ e ∈ queue.eraseIdx i, e ∈ queue := fun e h => List.mem_of_mem_eraseIdx h
      have hel : (queue.eraseIdx i).length + 1 = queue.length := by rw [List.length_eraseIdx_of_lt hilt]; omega
      by_cases hin : added ∈ fs
      · rw [if_pos hin]
        have hdone : InF sets d added := ⟨fs, hfs, hin⟩
        refine ih _ _ ⟨hi.len, hi.sorted, fun e h => hi.range e (hsub e h), fun e h => hi.goodQ e (hsub e h), hi.good, ?_, ?_⟩ (by omega)
        · intro t ht
          rcases hi.term t ht with h | h
          · exact Or.inl h
          · rcases mem_eraseIdx_or he h with h | h
            · cases h; exact Or.inl hdone
            · exact Or.inr h
        · intro p hp x hx
          rcases hi.prod p hp x hx with h | h
          · exact Or.inl h
          · rcases mem_eraseIdx_or he h with h | h
            · cases h; exact Or.inl hdone
            · exact Or.inr h
      · rw [if_neg hin]
        have hset : ∀ s x, InF (sets.set d (intInsert added fs)) s x ↔ InF sets s x ∨ (s = d ∧ x = added) := by
          intro s x
          unfold InF
          by_cases hsd : s = d
          · subst hsd
            rw [List.getElem?_set_self (by rw [hi.len]; exact hd), hfs]
            constructor
            · rintro ⟨f, hf, hx⟩
              cases hf
              rcases mem_intInsert.1 hx with h | h
              · exact Or.inr ⟨rfl, h⟩
              · exact Or.inl ⟨fs, rfl, h⟩
            · rintro (⟨f, hf, hx⟩ | ⟨_, h⟩)
              · cases hf; exact ⟨_, rfl, mem_intInsert.2 (Or.inr hx)⟩
              · exact ⟨_, rfl, mem_intInsert.2 (Or.inl h)⟩
          · rw [List.getElem?_set_ne (fun h => hsd h.symm)]
            constructor
            · intro h; exact Or.inl h
            · rintro (h | ⟨h, _⟩)
              · exact h
              · exact absurd h hsd
        have hlen' : (sets.set d (intInsert added fs)).length = g.nsymbols := by rw [List.length_set, hi.len]
        have hgood' : ∀ s x, InF (sets.set d (intInsert added fs)) s x → GoodFirst g [s] x := by
          intro s x h
          rcases (hset s x).1 h with h | ⟨rfl, rfl⟩
          · exact hi.good s x h
          · exact hi.goodQ _ hmem
        have hsorted' : ∀ (s : Nat) f, (sets.set d (intInsert added fs))[s]? = some f → f.Pairwise (· < ·) := by
          intro s f hf
          by_cases hsd : s = d
          · subst hsd
            rw [List.getElem?_set_self (by rw [hi.len]; exact hd)] at hf
            cases hf
            exact intInsert_sorted (hi.sorted _ _ hfs)
          · rw [List.getElem?_set_ne (fun h => hsd h.symm)] at hf
            exact hi.sorted s f hf
        obtain ⟨new, n1, n2, n3⟩ := newEvents_spec hg hlen' hgood' d
        rw [n1]
        dsimp only
        refine ih _ _ ⟨hlen', hsorted', ?_, ?_, hgood', ?_, ?_⟩ ?_
        · intro e h
          rcases List.mem_append.1 h with h | h
          · exact hi.range e (hsub e h)
          · obtain ⟨⟨q, h1, h2, _⟩, _⟩ := (n3 e.1 e.2).1 h
            rw [← h2]; exact (hg.lhs q h1).2
        · intro e h
          rcases List.mem_append.1 h with h | h
          · exact hi.goodQ e (hsub e h)
          · obtain ⟨_, ⟨p, h1, h2, h3⟩, _⟩ := (n3 e.1 e.2).1 h
            have hstep : Derives g [e.2] p.2 := Derives.step ⟨[], [], p, h1, by rw [h2]; rfl, by simp⟩ (Derives.refl _)
            rcases good_of_inFirst hgood' h3 with ⟨a, b⟩ | ⟨t, a, b, c, hc⟩
            · exact Or.inl ⟨a, Derives.trans hstep b⟩
            · exact Or.inr ⟨t, a, b, c, Derives.trans hstep hc⟩
        · intro t ht
          rcases hi.term t ht with h | h
          · exact Or.inl ((hset _ _).2 (Or.inl h))
          · rcases mem_eraseIdx_or he h with h | h
            · cases h; exact Or.inl ((hset _ _).2 (Or.inr ⟨rfl, rfl⟩))
            · exact Or.inr (List.mem_append_left _ h)
        · intro p hp x hx
          by_cases hdp : d ∈ p.2
          · by_cases hx' : InF (sets.set d (intInsert added fs)) p.1 x
            · exact Or.inl hx'
            · exact Or.inr (List.mem_append_right _ ((n3 x p.1).2 ⟨⟨p, hp, rfl, hdp⟩, ⟨p, hp, rfl, hx⟩, hx'⟩))
          · rw [inFirst_set hdp] at hx
            rcases hi.prod p hp x hx with h | h
            · exact Or.inl ((hset _ _).2 (Or.inl h))
            · rcases mem_eraseIdx_or he h with h | h
              · cases h; exact Or.inl ((hset _ _).2 (Or.inr ⟨rfl, rfl⟩))
              · exact Or.inr (List.mem_append_left _ h)
        · have hsum := sum_length_set hfs (intInsert_length hin)
          have hle : ((sets.set d (intInsert added fs)).map List.length).sum ≤ g.nsymbols * (g.nterminals + 1) := by
            rw [← hlen']
            refine sum_length_le ?_
            intro f hf
            obtain ⟨s, hs⟩ := List.getElem?_of_mem hf
            exact good_length (hsorted' s f hs) (fun x hx => hgood' s x ⟨f, hs, hx⟩)
          rw [hsum] at hle ⊢
          generalize g.nsymbols * (g.nterminals + 1) = M at *
          generalize g.nsymbols * (g.prods.length * (g.nterminals + 1)) = B at *
          obtain ⟨k, hk⟩ : ∃ k, M - (sets.map List.length).sum = k + 1 := ⟨M - (sets.map List.length).sum - 1, by omega⟩
          have hk' : M - ((sets.map List.length).sum + 1) = k := by omega
          rw [hk, Nat.succ_mul] at hf
          rw [hk', List.length_append]
          omega

/-- Enough passes of the loop over events. -/
def firstFuel (g : Grammar) : Nat := g.nsymbols + g.nsymbols * (g.nterminals + 1) * (g.nsymbols * (g.prods.length * (g.nterminals + 1)))

theorem firstInv_start {g : Grammar} (hg : GrammarOk g) : FirstInv g g.initEvents (List.replicate g.nsymbols []) := by
  have hmem : ∀ x d, (x, d) ∈ g.initEvents ↔ d < g.nsymbols ∧ ((d < g.nterminals ∧ x = (d : Int)) ∨
      (g.nterminals ≤ d ∧ x = firstNull ∧ ∃ p ∈ g.prods, p.1 = d ∧ p.2 = [])) := by
    intro x d
    unfold Grammar.initEvents
    simp only [List.mem_flatten, List.mem_map, List.mem_range]
    constructor
    · rintro ⟨_, ⟨s, hs, rfl⟩, hx⟩
      by_cases ht : s < g.nterminals
      · rw [if_pos (by unfold Grammar.isTerminal; simpa using ht)] at hx
        cases List.mem_singleton.1 hx
        exact ⟨hs, Or.inl ⟨ht, rfl⟩⟩
      · rw [if_neg (by unfold Grammar.isTerminal; simpa using ht)] at hx
        by_cases hn : (g.prodsOf s).any (fun p => p.2.isEmpty) = true
        · rw [if_pos hn] at hx
          cases List.mem_singleton.1 hx
          obtain ⟨p, hp, he⟩ := List.any_eq_true.1 hn
          unfold Grammar.prodsOf at hp
          simp only [List.mem_filter, decide_eq_true_eq] at hp
          exact ⟨hs, Or.inr ⟨by omega, rfl, p, hp.1, hp.2, List.isEmpty_iff.1 he⟩⟩
        · rw [if_neg hn] at hx; simp at hx
    · rintro ⟨hd, h | ⟨h1, h2, p, h3, h4, h5⟩⟩
      · refine ⟨_, ⟨d, hd, rfl⟩, ?_⟩
        rw [if_pos (by unfold Grammar.isTerminal; simpa using h.1), h.2]; simp
      · refine ⟨_, ⟨d, hd, rfl⟩, ?_⟩
        rw [if_neg (by unfold Grammar.isTerminal; simp; omega), if_pos, h2]
        · simp
        · refine List.any_eq_true.2 ⟨p, ?_, List.isEmpty_iff.2 h5⟩
          unfold Grammar.prodsOf
          simp [h3, h4]
  have hempty : ∀ s x, ¬ InF (List.replicate g.nsymbols ([] : List Int)) s x := by
    rintro s x ⟨fs, h1, h2⟩
    rw [List.getElem?_replicate] at h1
    split at h1
    · cases h1; simp at h2
    · cases h1
  refine ⟨by simp, ?_, ?_, ?_, fun s x h => absurd h (hempty s x), ?_, ?_⟩
  · intro s fs h
    rw [List.getElem?_replicate] at h
    split at h
    · cases h; exact List.Pairwise.nil
    · cases h
  · intro e he; exact ((hmem e.1 e.2).1 he).1
  · intro e he
    rcases ((hmem e.1 e.2).1 he).2 with ⟨h1, h2⟩ | ⟨_, h2, p, h3, h4, h5⟩
    · exact Or.inr ⟨e.2, h2, h1, [], Derives.refl _⟩
    · exact Or.inl ⟨h2, Derives.step ⟨[], [], p, h3, by rw [h4]; rfl, by rw [h5]; rfl⟩ (Derives.refl _)⟩
  · intro t ht
    exact Or.inr ((hmem _ _).2 ⟨by have := hg.terminals; omega, Or.inl ⟨ht, rfl⟩⟩)
  · intro p hp x hx
    cases hr : p.2 with
    | nil =>
      rw [hr] at hx
      exact Or.inr ((hmem _ _).2 ⟨(hg.lhs p hp).2, Or.inr ⟨(hg.lhs p hp).1, hx, p, hp, rfl, hr⟩⟩)
    | cons s r =>
      rw [hr] at hx
      rcases hx with ⟨_, h⟩ | ⟨h, _⟩ <;> exact absurd h (hempty _ _)

theorem initEvents_length (g : Grammar) : g.initEvents.length ≤ g.nsymbols := by
  unfold Grammar.initEvents
  refine Nat.le_trans (flatten_length_le (n := 1) ?_) (by simp)
  intro x hx
  simp only [List.mem_map, List.mem_range] at hx
  obtain ⟨s, _, rfl⟩ := hx
  split
  · simp
  · split <;> simp

theorem firstSets_spec {g : Grammar} (hg : GrammarOk g) (pick : List (Int × Nat) → Nat) (fuel : Nat) (hf : firstFuel g ≤ fuel) :
    ∃ sets, g.firstSets pick fuel = .done sets ∧ sets.length = g.nsymbols ∧ (∀ (s : Nat) fs, sets[s]? = some fs → fs.Pairwise (· < ·)) ∧
      ∀ a x, InFirst sets a x ↔ GoodFirst g a x := by
  obtain ⟨sets, h1, h2⟩ := firstLoop_spec hg pick fuel g.initEvents (List.replicate g.nsymbols []) (firstInv_start hg) (by
    unfold firstFuel at hf
    have := initEvents_length g
    have h0 : ((List.replicate g.nsymbols ([] : List Int)).map List.length).sum = 0 := by simp
    rw [h0, Nat.sub_zero]
    omega)
  refine ⟨sets, ?_, h2.len, h2.sorted, ?_⟩
  · unfold Grammar.firstSets
    rw [if_pos, h1]
    rw [List.all_eq_true]
    intro p hp
    simp only [Bool.and_eq_true, decide_eq_true_eq, List.all_eq_true]
    exact ⟨(hg.lhs p hp).2, hg.rhs p hp⟩
  · intro a x
    refine ⟨good_of_inFirst h2.good, ?_⟩
    have hc : ∀ p ∈ g.prods, ∀ x, InFirst sets p.2 x → InF sets p.1 x := by
      intro p hp x hx
      rcases h2.prod p hp x hx with h | h
      · exact h
      · simp at h
    rintro (⟨rfl, h⟩ | ⟨t, rfl, ht, b, h⟩)
    · exact inFirst_of_derives hc h rfl
    · refine inFirst_of_derives hc h (Or.inl ⟨by unfold firstNull; omega, ?_⟩)
      rcases h2.term t ht with h | h
      · exact h
      · simp at h

/-- The set of a symbol holds the terminals that begin a string derived from it, and the mark of the empty string if that is derived. This holds for
every order in which events are taken from the queue. -/
theorem C29_first {g : Grammar} (hg : GrammarOk g) (pick : List (Int × Nat) → Nat) (fuel : Nat) (hf : firstFuel g ≤ fuel) :
    ∃ sets, g.firstSets pick fuel = .done sets ∧ sets.length = g.nsymbols ∧ ∀ (s : Nat) fs, sets[s]? = some fs →
      (∀ t : Nat, (t : Int) ∈ fs ↔ t < g.nterminals ∧ ∃ b, Derives g [s] (t :: b)) ∧ (firstNull ∈ fs ↔ Derives g [s] []) ∧
      ∀ x ∈ fs, x = firstNull ∨ 0 ≤ x := by
  obtain ⟨sets, h1, h2, _, h4⟩ := firstSets_spec hg pick fuel hf
  refine ⟨sets, h1, h2, ?_⟩
  intro s fs hs
  have hin : ∀ x, x ∈ fs ↔ GoodFirst g [s] x := by
    intro x
    rw [← h4, inFirst_single]
    constructor
    · intro h; exact ⟨fs, hs, h⟩
    · rintro ⟨f, e, h⟩; rw [hs] at e; cases e; exact h
  refine ⟨?_, ?_, ?_⟩
  · intro t
    rw [hin]
    constructor
    · rintro (⟨h, _⟩ | ⟨t', h, h', hb⟩)
      · unfold firstNull at h; omega
      · obtain rfl : t = t' := by omega
        exact ⟨h', hb⟩
    · rintro ⟨h, hb⟩; exact Or.inr ⟨t, rfl, h, hb⟩
  · rw [hin]
    constructor
    · rintro (⟨_, h⟩ | ⟨t', h, _⟩)
      · exact h
      · unfold firstNull at h; omega
    · intro h; exact Or.inl ⟨rfl, h⟩
  · intro x hx
    rcases (hin x).1 hx with ⟨h, _⟩ | ⟨t, h, _⟩
    · exact Or.inl h
    · right; omega

/-- The set of a string of symbols, likewise. -/
theorem C29_string {g : Grammar} (hg : GrammarOk g) (pick : List (Int × Nat) → Nat) (fuel : Nat) (hf : firstFuel g ≤ fuel) (a : List Nat)
    (ha : ∀ s ∈ a, s < g.nsymbols) : ∃ sets fs, g.firstSets pick fuel = .done sets ∧ firstOfString sets a = some fs ∧
      (∀ t : Nat, (t : Int) ∈ fs ↔ t < g.nterminals ∧ ∃ b, Derives g a (t :: b)) ∧ (firstNull ∈ fs ↔ Derives g a []) := by
  obtain ⟨sets, h1, h2, _, h4⟩ := firstSets_spec hg pick fuel hf
  obtain ⟨fs, f1, _, f3⟩ := firstOfString_spec (sets := sets) (a := a) (fun s hs => by rw [h2]; exact ha s hs)
  refine ⟨sets, fs, h1, f1, ?_, ?_⟩
  · intro t
    rw [f3, h4]
    constructor
    · rintro (⟨h, _⟩ | ⟨t', h, h', hb⟩)
      · unfold firstNull at h; omega
      · obtain rfl : t = t' := by omega
        exact ⟨h', hb⟩
    · rintro ⟨h, hb⟩; exact Or.inr ⟨t, rfl, h, hb⟩
  · rw [f3, h4]
    constructor
    · rintro (⟨_, h⟩ | ⟨t', h, _⟩)
      · exact h
      · unfold firstNull at h; omega
    · intro h; exact Or.inl ⟨rfl, h⟩

/-- The sets do not depend on the order in which events are taken. -/
theorem C29_order {g : Grammar} (hg : GrammarOk g) (pick pick' : List (Int × Nat) → Nat) (fuel fuel' : Nat) (hf : firstFuel g ≤ fuel)
    (hf' : firstFuel g ≤ fuel') : g.firstSets pick fuel = g.firstSets pick' fuel' := by
  obtain ⟨sets, h1, h2, h3, h4⟩ := firstSets_spec hg pick fuel hf
  obtain ⟨sets', h1', h2', h3', h4'⟩ := firstSets_spec hg pick' fuel' hf'
  rw [h1, h1']
  congr 1
  refine List.ext_getElem? fun s => ?_
  by_cases hs : s < g.nsymbols
  · have e : sets[s]? = some sets[s] := List.getElem?_eq_getElem (by omega)
    have e' : sets'[s]? = some sets'[s] := List.getElem?_eq_getElem (by omega)
    rw [e, e']
    congr 1
    have hin : ∀ (l : List (List Int)) fs x, l[s]? = some fs → (x ∈ fs ↔ InFirst l [s] x) := by
      intro l fs x hl
      rw [inFirst_single]
      constructor
      · intro h; exact ⟨fs, hl, h⟩
      · rintro ⟨f, e, h⟩; rw [hl] at e; cases e; exact h
    have p := h3 s _ e
    have p' := h3' s _ e'
    refine List.Perm.eq_of_pairwise (le := (· < ·)) (fun a b _ _ h1 h2 => by omega) p p' ?_
    refine (List.perm_ext_iff_of_nodup (p.imp (fun h => Int.ne_of_lt h)) (p'.imp (fun h => Int.ne_of_lt h))).2 fun x => ?_
    rw [hin _ _ x e, hin _ _ x e', h4, h4']
  · rw [List.getElem?_eq_none (by omega), List.getElem?_eq_none (by omega)]

/-- In a grammar all of whose nonterminals derive strings of terminals, the set of a symbol holds the terminals that begin such strings. -/
theorem C29_productive {g : Grammar} (hg : GrammarOk g)
    (hp : ∀ s, s < g.nsymbols → ∃ w, (∀ t ∈ w, t < g.nterminals) ∧ Derives g [s] w) (pick : List (Int × Nat) → Nat) (fuel : Nat)
    (hf : firstFuel g ≤ fuel) : ∃ sets, g.firstSets pick fuel = .done sets ∧ ∀ (s : Nat) fs, sets[s]? = some fs →
      ∀ t : Nat, (t : Int) ∈ fs ↔ ∃ w, (∀ t' ∈ t :: w, t' < g.nterminals) ∧ Derives g [s] (t :: w) := by
  obtain ⟨sets, h1, h2, h3⟩ := C29_first hg pick fuel hf
  refine ⟨sets, h1, ?_⟩
  intro s fs hs t
  rw [(h3 s fs hs).1]
  constructor
  · rintro ⟨ht, b, hb⟩
    have hrange : ∀ a b, Derives g a b → (∀ s ∈ a, s < g.nsymbols) → ∀ s ∈ b, s < g.nsymbols := by
      intro a b h
      induction h with
      | refl => intro h; exact h
      | step r _ ih =>
        intro h
        refine ih ?_
        obtain ⟨u, v, p, hp, rfl, rfl⟩ := r
        intro s hs
        simp only [List.mem_append, List.mem_cons] at hs h
        rcases hs with (hs | hs) | hs
        · exact h s (Or.inl hs)
        · exact hg.rhs p hp s hs
        · exact h s (Or.inr (Or.inr hs))
    have hall : ∀ b : List Nat, (∀ s ∈ b, s < g.nsymbols) → ∃ w, (∀ t ∈ w, t < g.nterminals) ∧ Derives g b w := by
      intro b
      induction b with
      | nil => intro _; exact ⟨[], by simp, Derives.refl _⟩
      | cons s b ih =>
        intro h
        obtain ⟨w, w1, w2⟩ := hp s (h s (by simp))
        obtain ⟨v, v1, v2⟩ := ih (fun s hs => h s (List.mem_cons_of_mem _ hs))
        refine ⟨w ++ v, ?_, Derives.append (a := [s]) w2 v2⟩
        intro t ht
        rcases List.mem_append.1 ht with h | h
        · exact w1 t h
        · exact v1 t h
    have hsr : s < g.nsymbols := by rw [← h2]; exact (List.getElem?_eq_some_iff.1 hs).1
    have hbr := hrange _ _ hb (by simp [hsr])
    obtain ⟨w, w1, w2⟩ := hall b (fun s hs => hbr s (List.mem_cons_of_mem _ hs))
    refine ⟨w, ?_, Derives.trans hb (Derives.append (a := [t]) (b := [t]) (Derives.refl _) w2)⟩
    intro t' ht'
    rcases List.mem_cons.1 ht' with rfl | h
    · exact ht
    · exact w1 t' h
  · rintro ⟨w, hw, hd⟩
    exact ⟨hw t (by simp), w, hd⟩

/-- `S ::= A S | `, `A ::= B a`, `B ::= b | `, with `a` = 0, `b` = 1, `S` = 2, `A` = 3, `B` = 4. -/
def exampleGrammar : Grammar := ⟨5, 2, [(2, [3, 2]), (2, []), (3, [4, 0]), (4, [1]), (4, [])]⟩

example : GrammarOk exampleGrammar := ⟨by decide, by decide, by decide⟩

example : exampleGrammar.firstSets (fun _ => 0) 40 = .done [[0], [1], [-425, 0, 1], [0, 1], [-425, 1]] := by decide +kernel

end OmegaH
