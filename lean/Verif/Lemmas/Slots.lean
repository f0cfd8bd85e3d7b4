import Verif.Lemmas.Blocks
import Verif.Lemmas.Perm
import Mathlib.Data.List.Nodup
import Mathlib.Data.List.Perm.Subperm
/-!
# Numbering by blocks

Every old entity `r < N` has a block: itself, if it stays, and then the products of the items `ms r`
that it represents. New numbers are positions in the concatenation of the blocks.
-/
namespace OmegaH

/-- The block of the old entity `r`. -/
def slotBlock {X : Type} (stays : Nat → Bool) (ms : Nat → List X) (lo len : X → Nat) (r : Nat) : List (Nat ⊕ Nat) :=
  (if stays r then [Sum.inl r] else []) ++ (ms r).flatMap (fun x => (List.range' (lo x) (len x)).map Sum.inr)

/-- The products before item `i` of a list. -/
def before {X : Type} (len : X → Nat) (l : List X) (i : Nat) : Nat := ((l.take i).map len).sum

theorem before_succ {X : Type} (len : X → Nat) (l : List X) (i : Nat) (x : X) (h : l[i]? = some x) :
    before len l (i + 1) = before len l i + len x := by
  unfold before
  rw [List.take_add_one, h]
  simp

theorem before_length {X : Type} (len : X → Nat) (l : List X) : before len l l.length = (l.map len).sum := by
  unfold before; rw [List.take_length]

theorem flatMap_before {X Y : Type} (f : X → List Y) (len : X → Nat) (hf : ∀ x, (f x).length = len x)
    (l : List X) (i : Nat) (x : X) (h : l[i]? = some x) (j : Nat) (hj : j < len x) :
    (l.flatMap f)[before len l i + j]? = (f x)[j]? := by
  induction l generalizing i with
  | nil => simp at h
  | cons a l ih =>
    rw [List.flatMap_cons]
    cases i with
    | zero =>
      simp only [List.getElem?_cons_zero, Option.some.injEq] at h
      subst h
      rw [show before len (a :: l) 0 = 0 by simp [before], Nat.zero_add,
        List.getElem?_append_left (by rw [hf]; exact hj)]
    | succ i =>
      rw [List.getElem?_cons_succ] at h
      have e : before len (a :: l) (i + 1) = len a + before len l i := by simp [before]
      rw [e, List.getElem?_append_right (by rw [hf]; omega), hf,
        show len a + before len l i + j - len a = before len l i + j by omega]
      exact ih i h

theorem slotBlock_length {X : Type} (stays : Nat → Bool) (ms : Nat → List X) (lo len : X → Nat) (r : Nat) :
    (slotBlock stays ms lo len r).length = (if stays r then 1 else 0) + ((ms r).map len).sum := by
  unfold slotBlock
  rw [List.length_append, List.length_flatMap]
  simp only [List.length_map, List.length_range']
  split <;> rfl

variable {X : Type} (N : Nat) (stays : Nat → Bool) (ms : Nat → List X) (lo len : X → Nat)

/-- All blocks. -/
def slots : List (Nat ⊕ Nat) := (List.range N).flatMap (slotBlock stays ms lo len)

theorem slots_self (r : Nat) (hr : r < N) (h : stays r = true) :
    (slots N stays ms lo len)[blockOff (slotBlock stays ms lo len) r]? = some (Sum.inl r) := by
  have := blocks_get (slotBlock stays ms lo len) (n := N) (i := r) (j := 0) hr (by
    rw [slotBlock_length, if_pos h]; omega)
  rw [Nat.add_zero] at this
  unfold slots
  rw [this]
  unfold slotBlock
  rw [if_pos h]; rfl

theorem slots_prod (r : Nat) (hr : r < N) (i : Nat) (x : X) (hx : (ms r)[i]? = some x) (j : Nat) (hj : j < len x) :
    (slots N stays ms lo len)[blockOff (slotBlock stays ms lo len) r + ((if stays r then 1 else 0) +
      (before len (ms r) i + j))]? = some (Sum.inr (lo x + j)) := by
  have hlen : ∀ x : X, ((List.range' (lo x) (len x)).map (Sum.inr : Nat → Nat ⊕ Nat)).length = len x := by simp
  have hfm := flatMap_before (fun x => (List.range' (lo x) (len x)).map (Sum.inr : Nat → Nat ⊕ Nat)) len hlen
    (ms r) i x hx j hj
  have hg : ((ms r).flatMap (fun x => (List.range' (lo x) (len x)).map (Sum.inr : Nat → Nat ⊕ Nat)))[before len (ms r) i + j]? =
      some (Sum.inr (lo x + j)) := by
    rw [hfm, List.getElem?_map, List.getElem?_range' hj]; simp
  have hlt := (List.getElem?_eq_some_iff.1 hg).1
  have hb : (slotBlock stays ms lo len r)[(if stays r then 1 else 0) + (before len (ms r) i + j)]? =
      some (Sum.inr (lo x + j)) := by
    unfold slotBlock
    have e : ((if stays r then [Sum.inl r] else []) : List (Nat ⊕ Nat)).length = if stays r then 1 else 0 := by
      split <;> rfl
    rw [List.getElem?_append_right (by rw [e]; omega), e, Nat.add_sub_cancel_left, hg]
  have := blocks_get (slotBlock stays ms lo len) (n := N) (i := r)
    (j := (if stays r then 1 else 0) + (before len (ms r) i + j)) hr (List.getElem?_eq_some_iff.1 hb).1
  unfold slots
  rw [this, hb]

/-- `slots` lists every entity that stays and every product exactly once. -/
theorem slots_nodup (P : Nat)
    (hnd : ∀ r, r < N → (ms r).Nodup) (hdis : ∀ r r', r < N → r' < N → r ≠ r' → ∀ x ∈ ms r, x ∉ ms r')
    (hlt : ∀ r, r < N → ∀ x ∈ ms r, 0 < len x → lo x + len x ≤ P)
    (huniq : ∀ r r', r < N → r' < N → ∀ x ∈ ms r, ∀ y ∈ ms r', ∀ p, lo x ≤ p → p < lo x + len x → lo y ≤ p →
      p < lo y + len y → x = y)
    (hcov : ∀ p, p < P → ∃ r, r < N ∧ ∃ x ∈ ms r, lo x ≤ p ∧ p < lo x + len x) :
    (slots N stays ms lo len).Nodup ∧ (∀ r, Sum.inl r ∈ slots N stays ms lo len ↔ r < N ∧ stays r = true) ∧
      ∀ p, Sum.inr p ∈ slots N stays ms lo len ↔ p < P := by
  have hl : ∀ r r', Sum.inl r' ∈ slotBlock stays ms lo len r ↔ r' = r ∧ stays r = true := by
    intro r r'
    unfold slotBlock
    rw [List.mem_append, List.mem_flatMap]
    constructor
    · rintro (h | ⟨x, _, h⟩)
      · split at h
        · exact ⟨by simpa using h, by assumption⟩
        · simp at h
      · simp at h
    · rintro ⟨rfl, h⟩
      left; rw [if_pos h]; simp
  have hr' : ∀ r p, Sum.inr p ∈ slotBlock stays ms lo len r ↔ ∃ x ∈ ms r, lo x ≤ p ∧ p < lo x + len x := by
    intro r p
    unfold slotBlock
    rw [List.mem_append, List.mem_flatMap]
    constructor
    · rintro (h | ⟨x, hx, h⟩)
      · split at h <;> simp at h
      · rw [List.mem_map] at h
        obtain ⟨q, hq, e⟩ := h
        obtain rfl : q = p := by simpa using e
        rw [List.mem_range'_1] at hq
        exact ⟨x, hx, hq⟩
    · rintro ⟨x, hx, h⟩
      right
      exact ⟨x, hx, List.mem_map.2 ⟨p, List.mem_range'_1.2 h, rfl⟩⟩
  refine ⟨?_, ?_, ?_⟩
  · unfold slots
    rw [List.nodup_flatMap]
    refine ⟨?_, ?_⟩
    · intro r hr
      rw [List.mem_range] at hr
      unfold slotBlock
      rw [List.nodup_append]
      refine ⟨by split <;> simp, ?_, ?_⟩
      · rw [List.nodup_flatMap]
        refine ⟨fun x _ => (List.nodup_range').map (fun a b h => by simpa using h), ?_⟩
        refine List.Pairwise.imp_of_mem ?_ (hnd r hr)
        intro x y hx hy hne v hv hv'
        rw [List.mem_map] at hv hv'
        obtain ⟨p, hp, rfl⟩ := hv
        obtain ⟨q, hq, e⟩ := hv'
        obtain rfl : q = p := by simpa using e
        rw [List.mem_range'_1] at hp hq
        exact hne (huniq r r hr hr x hx y hy q hp.1 hp.2 hq.1 hq.2)
      · intro a ha b hb
        rw [List.mem_flatMap] at hb
        obtain ⟨x, _, hb⟩ := hb
        rw [List.mem_map] at hb
        obtain ⟨p, _, rfl⟩ := hb
        split at ha
        · simp at ha; rw [ha]; simp
        · simp at ha
    · refine List.Pairwise.imp_of_mem ?_ (List.nodup_range (n := N))
      intro r r2 h1 h2 hne v hv hv'
      rw [List.mem_range] at h1 h2
      cases v with
      | inl v =>
        exact hne (((hl r v).1 hv).1.symm.trans ((hl r2 v).1 hv').1)
      | inr p =>
        obtain ⟨x, hx, x1, x2⟩ := (hr' r p).1 hv
        obtain ⟨y, hy, y1, y2⟩ := (hr' r2 p).1 hv'
        have := huniq r r2 h1 h2 x hx y hy p x1 x2 y1 y2
        subst this
        exact hdis r r2 h1 h2 hne x hx hy
  · intro r
    unfold slots
    rw [List.mem_flatMap]
    constructor
    · rintro ⟨r', h1, h2⟩
      obtain ⟨rfl, h3⟩ := (hl r' r).1 h2
      exact ⟨List.mem_range.1 h1, h3⟩
    · rintro ⟨h1, h2⟩
      exact ⟨r, List.mem_range.2 h1, (hl r r).2 ⟨rfl, h2⟩⟩
  · intro p
    unfold slots
    rw [List.mem_flatMap]
    constructor
    · rintro ⟨r, h1, h2⟩
      rw [List.mem_range] at h1
      obtain ⟨x, hx, x1, x2⟩ := (hr' r p).1 h2
      have := hlt r h1 x hx
      omega
    · intro hp
      obtain ⟨r, h1, h2⟩ := hcov p hp
      exact ⟨r, List.mem_range.2 h1, (hr' r p).2 h2⟩

/-- Numbers that read back the listed items in `flat` are a permutation of the positions. -/
theorem positions_perm {Y : Type} (flat items : List Y) (pos : List Nat) (hf : flat.Nodup) (hi : items.Nodup)
    (hmem : ∀ y, y ∈ flat ↔ y ∈ items) (hlen : pos.length = items.length)
    (hpos : ∀ (i k : Nat), pos[i]? = some k → flat[k]? = items[i]?) :
    pos.Perm (List.range flat.length) := by
  have hlen2 : flat.length = items.length := ((List.perm_ext_iff_of_nodup hf hi).2 hmem).length_eq
  have hnd : pos.Nodup := by
    rw [List.nodup_iff_getElem?_ne_getElem?]
    intro i j hij hj he
    have hi' := List.getElem?_eq_getElem (show i < pos.length by omega)
    rw [hi'] at he
    have a := hpos i _ hi'
    have b := hpos j _ he.symm
    rw [a] at b
    have := (List.getElem?_inj (by omega) hi).1 b
    omega
  refine (List.subperm_of_subset hnd ?_).perm_of_length_le (by rw [List.length_range]; omega)
  intro k hk
  obtain ⟨i, hi', e⟩ := List.mem_iff_getElem.1 hk
  have e' := List.getElem?_eq_getElem hi'
  rw [e] at e'
  have := hpos i k e'
  rw [List.getElem?_eq_getElem (show i < items.length by omega)] at this
  exact List.mem_range.2 (List.getElem?_eq_some_iff.1 this).1

end OmegaH
