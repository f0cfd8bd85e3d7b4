import Verif.Model.Adj
import Verif.Spec.Polygon
import Verif.Lemmas.SelSort
import Verif.Props.C09

/-! # Canonical forms and matching of polygons -/

namespace OmegaH

open Spec

theorem rotate_mod {α : Type} (n : Nat) (hn : n = 2 ∨ n = 3 ∨ n = 4) (l : List α) (hl : l.length = n)
    (r : Nat) : ∃ k, k < n ∧ rotate r l = rotate k l := by
  induction r with
  | zero => exact ⟨0, by omega, rfl⟩
  | succ r ih =>
    obtain ⟨k, hk, e⟩ := ih
    by_cases hkn : k + 1 < n
    · exact ⟨k + 1, hkn, by rw [rotate, rotate, e]⟩
    · refine ⟨0, by omega, ?_⟩
      show rotateOnce (rotate r l) = l
      rw [e]
      have hk' : k = n - 1 := by omega
      subst hk'
      rcases hn with rfl | rfl | rfl
      · match l, hl with
        | [a, b], _ => rfl
      · match l, hl with
        | [a, b, c], _ => rfl
      · match l, hl with
        | [a, b, c, d], _ => rfl

theorem samePolygon_iff {α : Type} (n : Nat) (hn : n = 2 ∨ n = 3 ∨ n = 4) (a b : List α)
    (ha : a.length = n) : SamePolygon a b ↔ ∃ (f : Bool) (k : Nat), k < n ∧ align f k a = b := by
  constructor
  · rintro ⟨f, r, e⟩
    obtain ⟨k, hk, e'⟩ := rotate_mod n hn a ha r
    refine ⟨f, k, hk, ?_⟩
    rw [← e]; unfold align; rw [e']
  · rintro ⟨f, k, _, e⟩; exact ⟨f, k, e⟩

theorem Spec.SamePolygon.length_eq {α : Type} {a b : List α} (h : SamePolygon a b) : b.length = a.length := by
  obtain ⟨f, r, rfl⟩ := h
  exact align_length f r a

theorem Spec.SamePolygon.refl {α : Type} (a : List α) : SamePolygon a a := ⟨false, 0, rfl⟩

theorem Spec.SamePolygon.symm {α : Type} {n : Nat} (hn : n = 2 ∨ n = 3 ∨ n = 4) {a b : List α}
    (ha : a.length = n) (h : SamePolygon a b) : SamePolygon b a := by
  obtain ⟨f, k, hk, rfl⟩ := (samePolygon_iff n hn a b ha).1 h
  refine ⟨f, if f then k else (n - k) % n, ?_⟩
  rcases hn with rfl | rfl | rfl
  · match a, ha, k, hk with
    | [a, b], _, 0, _ => cases f <;> rfl
    | [a, b], _, 1, _ => cases f <;> rfl
  · match a, ha, k, hk with
    | [a, b, c], _, 0, _ => cases f <;> rfl
    | [a, b, c], _, 1, _ => cases f <;> rfl
    | [a, b, c], _, 2, _ => cases f <;> rfl
  · match a, ha, k, hk with
    | [a, b, c, d], _, 0, _ => cases f <;> rfl
    | [a, b, c, d], _, 1, _ => cases f <;> rfl
    | [a, b, c, d], _, 2, _ => cases f <;> rfl
    | [a, b, c, d], _, 3, _ => cases f <;> rfl

theorem Spec.SamePolygon.trans {α : Type} {n : Nat} (hn : n = 2 ∨ n = 3 ∨ n = 4) {a b c : List α}
    (ha : a.length = n) (h : SamePolygon a b) (h' : SamePolygon b c) : SamePolygon a c := by
  have hb := h.length_eq.trans ha
  obtain ⟨f, k, hk, rfl⟩ := (samePolygon_iff n hn a b ha).1 h
  obtain ⟨f', k', hk', rfl⟩ := (samePolygon_iff n hn _ c hb).1 h'
  refine ⟨f != f', if f then (k + (n - k')) else k + k', ?_⟩
  rcases hn with rfl | rfl | rfl
  · match a, ha, k, hk, k', hk' with
    | [a, b], _, 0, _, 0, _ | [a, b], _, 0, _, 1, _ | [a, b], _, 1, _, 0, _
    | [a, b], _, 1, _, 1, _ => cases f <;> cases f' <;> rfl
  · match a, ha, k, hk, k', hk' with
    | [a, b, c], _, 0, _, 0, _ | [a, b, c], _, 0, _, 1, _ | [a, b, c], _, 0, _, 2, _
    | [a, b, c], _, 1, _, 0, _ | [a, b, c], _, 1, _, 1, _ | [a, b, c], _, 1, _, 2, _
    | [a, b, c], _, 2, _, 0, _ | [a, b, c], _, 2, _, 1, _ | [a, b, c], _, 2, _, 2, _ =>
      cases f <;> cases f' <;> rfl
  · match a, ha, k, hk, k', hk' with
    | [a, b, c, d], _, 0, _, 0, _ | [a, b, c, d], _, 0, _, 1, _ | [a, b, c, d], _, 0, _, 2, _
    | [a, b, c, d], _, 0, _, 3, _
    | [a, b, c, d], _, 1, _, 0, _ | [a, b, c, d], _, 1, _, 1, _ | [a, b, c, d], _, 1, _, 2, _
    | [a, b, c, d], _, 1, _, 3, _
    | [a, b, c, d], _, 2, _, 0, _ | [a, b, c, d], _, 2, _, 1, _ | [a, b, c, d], _, 2, _, 2, _
    | [a, b, c, d], _, 2, _, 3, _
    | [a, b, c, d], _, 3, _, 0, _ | [a, b, c, d], _, 3, _, 1, _ | [a, b, c, d], _, 3, _, 2, _
    | [a, b, c, d], _, 3, _, 3, _ => cases f <;> cases f' <;> rfl

/-- Canonical lists start with their smallest vertex and have the smaller neighbour second. -/
def IsCanon : List Nat → Prop
  | [a, b] => a < b
  | [a, b, c] => a < b ∧ a < c ∧ b < c
  | [a, b, c, d] => a < b ∧ a < c ∧ a < d ∧ b < d
  | _ => False

theorem canon_unique {n : Nat} (hn : n = 2 ∨ n = 3 ∨ n = 4) {a b : List Nat} (ha : a.length = n)
    (h1 : IsCanon a) (h2 : IsCanon b) (h : SamePolygon a b) : a = b := by
  obtain ⟨f, k, hk, rfl⟩ := (samePolygon_iff n hn a b ha).1 h
  rcases hn with rfl | rfl | rfl
  · match a, ha, k, hk with
    | [a, b], _, 0, _ | [a, b], _, 1, _ =>
      cases f <;> simp only [align, rotate, rotateOnce, Spec.flip, IsCanon, List.getLast?, List.dropLast,
        List.getLast, List.reverse_cons, List.reverse_nil, List.nil_append, if_true, if_false,
        Bool.false_eq_true] at h1 h2 ⊢ <;> omega
  · match a, ha, k, hk with
    | [a, b, c], _, 0, _ | [a, b, c], _, 1, _ | [a, b, c], _, 2, _ =>
      cases f <;> simp only [align, rotate, rotateOnce, Spec.flip, IsCanon, List.getLast?, List.dropLast,
        List.getLast, List.reverse_cons, List.reverse_nil, List.nil_append, List.cons_append, if_true,
        if_false, Bool.false_eq_true] at h1 h2 ⊢ <;> omega
  · match a, ha, k, hk with
    | [a, b, c, d], _, 0, _ | [a, b, c, d], _, 1, _ | [a, b, c, d], _, 2, _ | [a, b, c, d], _, 3, _ =>
      cases f <;> simp only [align, rotate, rotateOnce, Spec.flip, IsCanon, List.getLast?, List.dropLast,
        List.getLast, List.reverse_cons, List.reverse_nil, List.nil_append, List.cons_append, if_true,
        if_false, Bool.false_eq_true] at h1 h2 ⊢ <;> omega

theorem makeCode_dec (f : Bool) (k : Nat) (hk : k < 4) : ∃ c, makeCode f (k : Int) 0 = some c ∧
    0 ≤ c ∧ c < 8 ∧ codeIsFlipped c = f ∧ codeRotation c = k ∧ codeWhichDown c = 0 := by
  have : ∀ (f : Bool) (r : Fin 4), ∃ c : Fin 8,
      makeCode f (r.val : Int) 0 = some (c.val : Int) ∧
      codeIsFlipped (c.val : Int) = f ∧ codeRotation (c.val : Int) = r.val ∧
      codeWhichDown (c.val : Int) = 0 := by decide +kernel
  obtain ⟨c, h1, h2, h3, h4⟩ := this f ⟨k, hk⟩
  exact ⟨c.val, h1, by omega, by omega, h2, h3, h4⟩

/-- The code computed for a row with distinct vertices turns it into its canonical form. -/
theorem canonCode_spec {n : Nat} (hn : n = 2 ∨ n = 3 ∨ n = 4) (r : List Nat) (hl : r.length = n)
    (hd : r.Nodup) : ∃ c, canonCode n r = some c ∧ 0 ≤ c ∧ c < 8 ∧
      IsCanon (align (codeIsFlipped c) (codeRotation c).toNat r) := by
  obtain ⟨k, m, e1, _, e2, e3, e4⟩ := minFrom_spec r 0 n (by omega) (by omega)
  have key : ∀ (rot : Nat) (tmp : List Nat) (fl : Bool), rot < 4 → rotationToFirst n k = rot →
      (rotateAdj n (rot : Int) r).bind Mem.toArray? = some tmp → isFlippedRow n tmp = some fl →
      IsCanon (align fl rot r) → ∃ c, canonCode n r = some c ∧ 0 ≤ c ∧ c < 8 ∧
      IsCanon (align (codeIsFlipped c) (codeRotation c).toNat r) := by
    intro rot tmp fl h1 h2 h3 h4 h5
    obtain ⟨c, c1, c2, c3, c4, c5, _⟩ := makeCode_dec fl rot h1
    refine ⟨c, ?_, c2, c3, by rw [c4, c5]; exact h5⟩
    unfold canonCode
    simp only [e1, Option.bind_eq_bind, Option.bind_some, h2, h3, h4, c1]
  rcases hn with rfl | rfl | rfl
  · match r, hl, k, e2 with
    | [a, b], _, 0, _ =>
      have m1 := e4 1 b (by omega) (by omega) rfl
      obtain rfl : a = m := by simpa using e3
      have : a ≠ b := by simpa using hd
      exact key 0 _ _ (by omega) rfl rfl rfl (by show a < b; omega)
    | [a, b], _, 1, _ =>
      have m1 := e4 0 a (by omega) (by omega) rfl
      obtain rfl : b = m := by simpa using e3
      have : a ≠ b := by simpa using hd
      exact key 1 _ _ (by omega) rfl rfl rfl (by show b < a; omega)
  · match r, hl, k, e2 with
    | [a, b, c], _, 0, _ =>
      have m1 := e4 1 b (by omega) (by omega) rfl
      have m2 := e4 2 c (by omega) (by omega) rfl
      obtain rfl : a = m := by simpa using e3
      simp at hd
      refine key 0 [a, b, c] (decide (c < b)) (by omega) rfl rfl rfl ?_
      by_cases h : c < b
      · simp only [h, decide_true]; show a < c ∧ a < b ∧ c < b; omega
      · simp only [h, decide_false]; show a < b ∧ a < c ∧ b < c; omega
    | [a, b, c], _, 1, _ =>
      have m1 := e4 0 a (by omega) (by omega) rfl
      have m2 := e4 2 c (by omega) (by omega) rfl
      obtain rfl : b = m := by simpa using e3
      simp at hd
      refine key 2 [b, c, a] (decide (a < c)) (by omega) rfl rfl rfl ?_
      by_cases h : a < c
      · simp only [h, decide_true]; show b < a ∧ b < c ∧ a < c; omega
      · simp only [h, decide_false]; show b < c ∧ b < a ∧ c < a; omega
    | [a, b, c], _, 2, _ =>
      have m1 := e4 0 a (by omega) (by omega) rfl
      have m2 := e4 1 b (by omega) (by omega) rfl
      obtain rfl : c = m := by simpa using e3
      simp at hd
      refine key 1 [c, a, b] (decide (b < a)) (by omega) rfl rfl rfl ?_
      by_cases h : b < a
      · simp only [h, decide_true]; show c < b ∧ c < a ∧ b < a; omega
      · simp only [h, decide_false]; show c < a ∧ c < b ∧ a < b; omega
  · match r, hl, k, e2 with
    | [a, b, c, d], _, 0, _ =>
      have m1 := e4 1 b (by omega) (by omega) rfl
      have m2 := e4 2 c (by omega) (by omega) rfl
      have m3 := e4 3 d (by omega) (by omega) rfl
      obtain rfl : a = m := by simpa using e3
      simp at hd
      refine key 0 [a, b, c, d] (decide (d < b)) (by omega) rfl rfl rfl ?_
      by_cases h : d < b
      · simp only [h, decide_true]; show a < d ∧ a < c ∧ a < b ∧ d < b; omega
      · simp only [h, decide_false]; show a < b ∧ a < c ∧ a < d ∧ b < d; omega
    | [a, b, c, d], _, 1, _ =>
      have m1 := e4 0 a (by omega) (by omega) rfl
      have m2 := e4 2 c (by omega) (by omega) rfl
      have m3 := e4 3 d (by omega) (by omega) rfl
      obtain rfl : b = m := by simpa using e3
      simp at hd
      refine key 3 [b, c, d, a] (decide (a < c)) (by omega) rfl rfl rfl ?_
      by_cases h : a < c
      · simp only [h, decide_true]; show b < a ∧ b < d ∧ b < c ∧ a < c; omega
      · simp only [h, decide_false]; show b < c ∧ b < d ∧ b < a ∧ c < a; omega
    | [a, b, c, d], _, 2, _ =>
      have m1 := e4 0 a (by omega) (by omega) rfl
      have m2 := e4 1 b (by omega) (by omega) rfl
      have m3 := e4 3 d (by omega) (by omega) rfl
      obtain rfl : c = m := by simpa using e3
      simp at hd
      refine key 2 [c, d, a, b] (decide (b < d)) (by omega) rfl rfl rfl ?_
      by_cases h : b < d
      · simp only [h, decide_true]; show c < b ∧ c < a ∧ c < d ∧ b < d; omega
      · simp only [h, decide_false]; show c < d ∧ c < a ∧ c < b ∧ d < b; omega
    | [a, b, c, d], _, 3, _ =>
      have m1 := e4 0 a (by omega) (by omega) rfl
      have m2 := e4 1 b (by omega) (by omega) rfl
      have m3 := e4 2 c (by omega) (by omega) rfl
      obtain rfl : d = m := by simpa using e3
      simp at hd
      refine key 1 [d, a, b, c] (decide (c < a)) (by omega) rfl rfl rfl ?_
      by_cases h : c < a
      · simp only [h, decide_true]; show d < c ∧ d < b ∧ d < a ∧ c < a; omega
      · simp only [h, decide_false]; show d < a ∧ d < b ∧ d < c ∧ a < c; omega

/-- Matching two rows whose vertices `a[0]` and `b[w]` agree: either it reports a code that turns `b`
into `a`, or it reports none, and then (for distinct vertices) they are different polygons. -/
theorem isMatch_spec {n : Nat} (hn : n = 2 ∨ n = 3 ∨ n = 4) (a b : List Nat) (ha : a.length = n)
    (hb : b.length = n) (hd : b.Nodup) (w : Nat) (hw : w < n) (h0 : a[0]? = b[w]?) :
    (∃ c, isMatch n a b w = some (some c) ∧ 0 ≤ c ∧ c < 8 ∧
      align (codeIsFlipped c) (codeRotation c).toNat b = a) ∨
    (isMatch n a b w = some none ∧ ¬ SamePolygon b a) := by
  have pos : ∀ (f : Bool) (rot : Nat) (x : Int), rot < 4 → x = (rot : Int) →
      isMatch n a b w = (makeCode f x 0).map some → align f rot b = a →
      ∃ c, isMatch n a b w = some (some c) ∧ 0 ≤ c ∧ c < 8 ∧
      align (codeIsFlipped c) (codeRotation c).toNat b = a := by
    intro f rot x hr hx he hal
    obtain ⟨c, c1, c2, c3, c4, c5, _⟩ := makeCode_dec f rot hr
    refine ⟨c, ?_, c2, c3, by rw [c4, c5]; exact hal⟩
    rw [he, hx, c1]; rfl
  have neg : (∀ (f : Bool) (k : Nat), k < n → align f k b ≠ a) → ¬ SamePolygon b a := by
    intro h hs
    obtain ⟨f, k, hk, e⟩ := (samePolygon_iff n hn b a hb).1 hs
    exact h f k hk e
  have hrl : ∀ (f : Bool) (k : Nat), align f k b = a → a[0]? = (align f k b)[0]? := by
    intro f k e; rw [e]
  rcases hn with rfl | rfl | rfl
  · match a, b, ha, hb, w, hw with
    | [a0, a1], [b0, b1], _, _, 0, _ =>
      obtain rfl : a0 = b0 := by simpa using h0
      simp at hd
      by_cases h : a1 = b1
      · subst h
        exact Or.inl (pos false 0 0 (by omega) rfl (by simp [isMatch]) rfl)
      · refine Or.inr ⟨by simp [isMatch, h], neg ?_⟩
        intro f k hk e
        match k, hk with
        | 0, _ | 1, _ => cases f <;> simp [align, rotate, rotateOnce, Spec.flip] at e <;> omega
    | [a0, a1], [b0, b1], _, _, 1, _ =>
      obtain rfl : a0 = b1 := by simpa using h0
      simp at hd
      by_cases h : a1 = b0
      · subst h
        exact Or.inl (pos false 1 1 (by omega) rfl (by simp [isMatch]) rfl)
      · refine Or.inr ⟨by simp [isMatch, h], neg ?_⟩
        intro f k hk e
        match k, hk with
        | 0, _ | 1, _ => cases f <;> simp [align, rotate, rotateOnce, Spec.flip] at e <;> omega
  · match a, b, ha, hb, w, hw with
    | [a0, a1, a2], [b0, b1, b2], _, _, 0, _ | [a0, a1, a2], [b2, b0, b1], _, _, 1, _
    | [a0, a1, a2], [b1, b2, b0], _, _, 2, _ =>
      obtain rfl : a0 = b0 := by simpa using h0
      simp at hd
      by_cases h : a1 = b1 ∧ a2 = b2
      · obtain ⟨rfl, rfl⟩ := h
        refine Or.inl ?_
        first
        | exact pos false 0 0 (by omega) rfl (by simp [isMatch, rotationToFirst, invertRotation]) rfl
        | exact pos false 2 2 (by omega) rfl (by simp [isMatch, rotationToFirst, invertRotation]) rfl
        | exact pos false 1 1 (by omega) rfl (by simp [isMatch, rotationToFirst, invertRotation]) rfl
      · by_cases h' : a1 = b2 ∧ a2 = b1
        · obtain ⟨rfl, rfl⟩ := h'
          refine Or.inl ?_
          first
          | exact pos true 0 0 (by omega) rfl (by simp [isMatch, rotationToFirst, invertRotation, h]) rfl
          | exact pos true 2 2 (by omega) rfl (by simp [isMatch, rotationToFirst, invertRotation, h]) rfl
          | exact pos true 1 1 (by omega) rfl (by simp [isMatch, rotationToFirst, invertRotation, h]) rfl
        · refine Or.inr ⟨by simp [isMatch, h, h'], neg ?_⟩
          intro f k hk e
          match k, hk with
          | 0, _ | 1, _ | 2, _ =>
            cases f <;> simp [align, rotate, rotateOnce, Spec.flip] at e <;> omega
  · match a, b, ha, hb, w, hw with
    | [a0, a1, a2, a3], [b0, b1, b2, b3], _, _, 0, _ | [a0, a1, a2, a3], [b3, b0, b1, b2], _, _, 1, _
    | [a0, a1, a2, a3], [b2, b3, b0, b1], _, _, 2, _ | [a0, a1, a2, a3], [b1, b2, b3, b0], _, _, 3, _ =>
      obtain rfl : a0 = b0 := by simpa using h0
      simp at hd
      by_cases h2 : a2 = b2
      · subst h2
        by_cases h : a1 = b1 ∧ a3 = b3
        · obtain ⟨rfl, rfl⟩ := h
          refine Or.inl ?_
          first
          | exact pos false 0 0 (by omega) rfl (by simp [isMatch, rotationToFirst, invertRotation]) rfl
          | exact pos false 3 3 (by omega) rfl (by simp [isMatch, rotationToFirst, invertRotation]) rfl
          | exact pos false 2 2 (by omega) rfl (by simp [isMatch, rotationToFirst, invertRotation]) rfl
          | exact pos false 1 1 (by omega) rfl (by simp [isMatch, rotationToFirst, invertRotation]) rfl
        · by_cases h' : a1 = b3 ∧ a3 = b1
          · obtain ⟨rfl, rfl⟩ := h'
            refine Or.inl ?_
            first
            | exact pos true 0 0 (by omega) rfl (by simp [isMatch, rotationToFirst, invertRotation, h]) rfl
            | exact pos true 3 3 (by omega) rfl (by simp [isMatch, rotationToFirst, invertRotation, h]) rfl
            | exact pos true 2 2 (by omega) rfl (by simp [isMatch, rotationToFirst, invertRotation, h]) rfl
            | exact pos true 1 1 (by omega) rfl (by simp [isMatch, rotationToFirst, invertRotation, h]) rfl
          · refine Or.inr ⟨by simp [isMatch, h, h'], neg ?_⟩
            intro f k hk e
            match k, hk with
            | 0, _ | 1, _ | 2, _ | 3, _ =>
              cases f <;> simp [align, rotate, rotateOnce, Spec.flip] at e <;> omega
      · refine Or.inr ⟨by simp [isMatch, h2], neg ?_⟩
        intro f k hk e
        match k, hk with
        | 0, _ | 1, _ | 2, _ | 3, _ =>
          cases f <;> simp [align, rotate, rotateOnce, Spec.flip] at e <;> omega

end OmegaH
