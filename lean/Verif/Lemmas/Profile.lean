import Verif.Model.Profile
import Verif.Spec.Profile
import Mathlib.Algebra.Group.Defs
/-!
# The tree of a profile
-/
namespace OmegaH
open Spec

variable {K : Type}

/-- The frames with a given parent. -/
def PHistory.kids (h : PHistory K) (p : Option Nat) : List Nat :=
  (List.range h.frames.length).filter (fun j => decide ((h.frames[j]?).map PFrame.parent = some p))

theorem PHistory.mem_kids {h : PHistory K} {p : Option Nat} {j : Nat} :
    j ∈ h.kids p ↔ ∃ f, h.frames[j]? = some f ∧ f.parent = p := by
  unfold PHistory.kids
  rw [List.mem_filter, List.mem_range, decide_eq_true_iff]
  constructor
  · rintro ⟨hj, e⟩
    rw [List.getElem?_eq_getElem hj] at e ⊢
    exact ⟨_, rfl, Option.some.inj e⟩
  · rintro ⟨f, hf, rfl⟩
    exact ⟨(List.getElem?_eq_some_iff.1 hf).1, by rw [hf]; rfl⟩

theorem PHistory.kids_sorted (h : PHistory K) (p : Option Nat) : (h.kids p).Pairwise (· < ·) :=
  List.pairwise_lt_range.filter _

theorem PHistory.kids_length (h : PHistory K) (p : Option Nat) : (h.kids p).length ≤ h.frames.length := by
  have := List.length_filter_le (fun j => decide ((h.frames[j]?).map PFrame.parent = some p)) (List.range h.frames.length)
  rw [List.length_range] at this
  exact this

theorem sorted_filter_gt {a b : List Nat} {i : Nat} (h : (a ++ i :: b).Pairwise (· < ·)) :
    (a ++ i :: b).filter (fun j => decide (i < j)) = b := by
  rw [List.pairwise_append] at h
  obtain ⟨_, h2, h3⟩ := h
  rw [List.pairwise_cons] at h2
  rw [List.filter_append, List.filter_cons, if_neg (by simp), List.filter_eq_nil_iff.2, List.filter_eq_self.2]
  · rfl
  · intro j hj; simpa using h2.1 j hj
  · intro j hj
    have := h3 j hj i List.mem_cons_self
    simp; omega

/-- The links of the tree agree with the parents; siblings have different names. -/
structure PHistory.WF (h : PHistory K) : Prop where
  par : ∀ (i : Nat) f, h.frames[i]? = some f → ∀ p, f.parent = some p → p < i
  first : ∀ (i : Nat) f, h.frames[i]? = some f → f.firstChild = (h.kids (some i)).head?
  last : ∀ (i : Nat) f, h.frames[i]? = some f → f.lastChild = (h.kids (some i)).getLast?
  next : ∀ (i : Nat) f, h.frames[i]? = some f → f.nextSibling = ((h.kids f.parent).filter (fun j => decide (i < j))).head?
  root : h.frames ≠ [] → h.lastRoot = (h.kids none).getLast?
  named : ∀ (i : Nat) f, h.frames[i]? = some f → ∃ x, h.name i = some x
  distinct : ∀ (p : Option Nat) (i j : Nat) x, i ∈ h.kids p → j ∈ h.kids p → h.name i = some x → h.name j = some x → i = j

theorem PHistory.WF.empty (c r : Option Nat) : (⟨[], c, r, []⟩ : PHistory K).WF := by
  refine ⟨?_, ?_, ?_, ?_, fun h => absurd rfl h, ?_, ?_⟩
  · intro i f hf; simp at hf
  · intro i f hf; simp at hf
  · intro i f hf; simp at hf
  · intro i f hf; simp at hf
  · intro i f hf; simp at hf
  · intro p i j x hi
    obtain ⟨f, hf, _⟩ := PHistory.mem_kids.1 hi
    simp at hf

/-- Frame 0 is the first root. -/
theorem PHistory.WF.zero {h : PHistory K} (hw : h.WF) (hne : h.frames ≠ []) : (h.kids none).head? = some 0 := by
  have hl : 0 < h.frames.length := List.length_pos_iff.2 hne
  have h0 : 0 ∈ h.kids none := by
    refine PHistory.mem_kids.2 ⟨_, List.getElem?_eq_getElem hl, ?_⟩
    cases hp : (h.frames[0]).parent with
    | none => rfl
    | some p => exact absurd (hw.par 0 _ (List.getElem?_eq_getElem hl) p hp) (by omega)
  have hs := h.kids_sorted none
  cases hk : h.kids none with
  | nil => rw [hk] at h0; simp at h0
  | cons a l =>
    rw [hk] at h0 hs
    rcases List.mem_cons.1 h0 with e | e
    · rw [← e]; rfl
    · have := (List.pairwise_cons.1 hs).1 0 e; omega

theorem PHistory.WF.nextOf {h : PHistory K} (hw : h.WF) {p : Option Nat} {a l : List Nat} {i : Nat} (hk : h.kids p = a ++ i :: l) :
    ∃ f, h.frames[i]? = some f ∧ f.parent = p ∧ f.nextSibling = l.head? := by
  obtain ⟨f, hf, hp⟩ := PHistory.mem_kids.1 (show i ∈ h.kids p by rw [hk]; simp)
  refine ⟨f, hf, hp, ?_⟩
  rw [hw.next i f hf, hp, hk, sorted_filter_gt (by rw [← hk]; exact h.kids_sorted p)]

theorem PHistory.WF.chainOf {h : PHistory K} (hw : h.WF) {p : Option Nat} : ∀ (l a : List Nat) (fuel : Nat), h.kids p = a ++ l →
    l.length ≤ fuel → h.chain fuel l.head? = some l := by
  intro l
  induction l with
  | nil => intro a fuel _ _; cases fuel <;> rfl
  | cons i l ih =>
    intro a fuel hk hf
    cases fuel with
    | zero => simp at hf
    | succ fuel =>
      obtain ⟨f, e1, _, e2⟩ := hw.nextOf hk
      show (h.next i).bind _ = _
      unfold PHistory.next
      rw [e1, Option.map_some, Option.bind_some, e2, ih (a ++ [i]) fuel (by rw [hk]; simp) (by simp at hf; omega)]
      rfl

theorem PHistory.WF.searchOf {h : PHistory K} (hw : h.WF) {p : Option Nat} {ro : Bool} (hro : ro = true → p = none) (name : PName) :
    ∀ (l a : List Nat) (fuel : Nat), h.kids p = a ++ l → l.length ≤ fuel →
    h.search ro name fuel l.head? = some (l.find? (fun j => decide (h.name j = some name))) := by
  intro l
  induction l with
  | nil => intro a fuel _ _; cases fuel <;> rfl
  | cons i l ih =>
    intro a fuel hk hf
    cases fuel with
    | zero => simp at hf
    | succ fuel =>
      obtain ⟨f, e1, e3, e2⟩ := hw.nextOf hk
      obtain ⟨x, hx⟩ := hw.named i f e1
      show (h.frames[i]?).bind _ = _
      rw [e1, Option.bind_some, hx, Option.bind_some, List.find?_cons, hx]
      by_cases hn : x = name
      · rw [if_pos ⟨fun hr => by rw [e3]; exact hro hr, hn⟩, hn]
        simp
      · rw [if_neg (fun hh => hn hh.2), e2, ih (a ++ [i]) fuel (by rw [hk]; simp) (by simp at hf; omega)]
        simp [hn]

/-- The search finds the child with the name. -/
theorem PHistory.WF.find {h : PHistory K} (hw : h.WF) (p : Option Nat) (hp : ∀ q, p = some q → q < h.frames.length) (name : PName) :
    h.findChildOf p name = some ((h.kids p).find? (fun j => decide (h.name j = some name))) := by
  cases p with
  | none =>
    show h.findRoot name = _
    unfold PHistory.findRoot
    cases hf : h.frames with
    | nil =>
      have : h.kids none = [] := by unfold PHistory.kids; rw [hf]; rfl
      rw [this]; rfl
    | cons a l =>
      rw [if_neg (by simp), ← hf, ← hw.zero (by rw [hf]; simp)]
      exact hw.searchOf (fun _ => rfl) name _ [] _ rfl (h.kids_length none)
  | some q =>
    have hq := hp q rfl
    show (h.frames[q]?).bind _ = _
    rw [List.getElem?_eq_getElem hq, Option.bind_some, hw.first q _ (List.getElem?_eq_getElem hq)]
    exact hw.searchOf (fun hh => absurd hh (by simp)) name _ [] _ rfl (h.kids_length (some q))

theorem PHistory.WF.childrenOf {h : PHistory K} (hw : h.WF) (p : Option Nat) (hp : ∀ q, p = some q → q < h.frames.length) :
    h.children p = some (h.kids p) := by
  unfold PHistory.children
  cases p with
  | none =>
    show Option.bind (some (if h.frames.isEmpty then none else some 0)) _ = _
    cases hf : h.frames with
    | nil =>
      have : h.kids none = [] := by unfold PHistory.kids; rw [hf]; rfl
      rw [this]; rfl
    | cons a l =>
      rw [if_neg (by simp), Option.bind_some, ← hf, ← hw.zero (by rw [hf]; simp)]
      exact hw.chainOf _ [] _ rfl (h.kids_length none)
  | some q =>
    have hq := hp q rfl
    show Option.bind ((h.frames[q]?).map _) _ = _
    rw [List.getElem?_eq_getElem hq, Option.map_some, Option.bind_some, hw.first q _ (List.getElem?_eq_getElem hq)]
    exact hw.chainOf _ [] _ rfl (h.kids_length (some q))

/-! Names -/

theorem charsGet_append {c d : List Nat} {i : Nat} {x : PName} (h : charsGet c i = some x) : charsGet (c ++ d) i = some x := by
  unfold charsGet at h ⊢
  split at h
  · next h0 =>
    have hi : i < c.length := by
      refine Nat.lt_of_not_le (fun hc => ?_)
      rw [List.drop_eq_nil_of_le hc] at h0
      simp at h0
    rw [List.drop_append_of_le_length (by omega), if_pos (List.mem_append_left _ h0), ← Option.some.inj h]
    congr 1
    generalize c.drop i = l at h0
    clear h hi
    induction l with
    | nil => simp at h0
    | cons a l ih =>
      rw [List.cons_append, List.takeWhile_cons, List.takeWhile_cons]
      by_cases ha : a = 0
      · simp [ha]
      · rcases List.mem_cons.1 h0 with e | e
        · exact absurd e.symm ha
        · simp only [ne_eq, ha, not_false_eq_true, decide_true, if_true]
          rw [← ih e]
  · cases h

theorem charsGet_new {c : List Nat} {x : PName} (hx : 0 ∉ x) : charsGet (c ++ x ++ [0]) c.length = some x := by
  unfold charsGet
  rw [List.append_assoc, List.drop_left, if_pos (by simp)]
  congr 1
  induction x with
  | nil => simp
  | cons a l ih =>
    rw [List.cons_append, List.takeWhile_cons]
    have ha : a ≠ 0 := fun e => hx (by rw [e]; exact List.mem_cons_self)
    simp only [ne_eq, ha, not_false_eq_true, decide_true, if_true]
    rw [ih (fun h => hx (List.mem_cons_of_mem _ h))]

/-! Creation -/

theorem PHistory.WF.createDesc [Zero K] {h : PHistory K} (hw : h.WF) (p : Option Nat) (hp : ∀ q, p = some q → q < h.frames.length) (name : PName) :
    ∃ h', h.createChildOf p name = some (h', h.frames.length) ∧ h'.frames.length = h.frames.length + 1 ∧
      (∀ (i : Nat) f, h.frames[i]? = some f → h'.frames[i]? = some { f with
        nextSibling := if (h.kids p).getLast? = some i then some h.frames.length else f.nextSibling
        firstChild := if p = some i ∧ h.kids p = [] then some h.frames.length else f.firstChild
        lastChild := if p = some i then some h.frames.length else f.lastChild }) ∧
      h'.frames[h.frames.length]? = some ⟨p, none, none, none, h.chars.length, 0, 0, 0⟩ ∧ h'.chars = h.chars ++ name ++ [0] ∧
      h'.current = h.current ∧ h'.lastRoot = if p = none then some h.frames.length else h.lastRoot := by
  have hkl : ∀ {p l}, (h.kids p).getLast? = some l → l < h.frames.length := by
    intro p l hl
    obtain ⟨f, hf, _⟩ := PHistory.mem_kids.1 (List.mem_of_getLast? hl)
    exact (List.getElem?_eq_some_iff.1 hf).1
  cases p with
  | none =>
    show ∃ h', h.createRoot name = _ ∧ _
    unfold PHistory.createRoot
    dsimp only
    by_cases h0 : h.frames.length = 0
    · have hnil : h.frames = [] := List.length_eq_zero_iff.1 h0
      rw [if_neg (by simpa using h0)]
      refine ⟨_, rfl, by simp, ?_, by simp, rfl, rfl, rfl⟩
      intro i f hf
      rw [hnil] at hf; simp at hf
    · rw [if_pos h0]
      have hne : h.frames ≠ [] := fun e => h0 (by rw [e]; rfl)
      have hroot := hw.root hne
      have hz := hw.zero hne
      obtain ⟨l, hl⟩ : ∃ l, (h.kids none).getLast? = some l := by
        cases hk : h.kids none with
        | nil => rw [hk] at hz; simp at hz
        | cons a t => exact ⟨_, List.getLast?_eq_some_getLast (by simp)⟩
      have hll := hkl hl
      rw [hroot, hl, Option.bind_some]
      unfold PHistory.modify
      rw [if_pos (by simp; omega)]
      refine ⟨_, rfl, by simp, ?_, ?_, rfl, rfl, rfl⟩
      · intro i f hf
        have hi := (List.getElem?_eq_some_iff.1 hf).1
        show (List.modify _ l _)[i]? = _
        rw [List.getElem?_modify, List.getElem?_append_left hi, hf]
        by_cases e : l = i
        · subst e; simp
        · simp [e]
      · show (List.modify _ l _)[_]? = _
        rw [List.getElem?_modify]
        simp [show l ≠ h.frames.length by omega]
  | some q =>
    have hq := hp q rfl
    unfold PHistory.createChildOf
    dsimp only
    rw [List.getElem?_append_left hq, List.getElem?_eq_getElem hq, Option.bind_some, hw.last q _ (List.getElem?_eq_getElem hq)]
    cases hl : (h.kids (some q)).getLast? with
    | none =>
      have hnil : h.kids (some q) = [] := List.getLast?_eq_none_iff.1 hl
      dsimp only
      unfold PHistory.modify
      rw [if_pos (by simp; omega), Option.bind_some, if_pos (by simp; omega)]
      refine ⟨_, rfl, by simp, ?_, ?_, rfl, rfl, rfl⟩
      · intro i f hf
        have hi := (List.getElem?_eq_some_iff.1 hf).1
        show (List.modify (List.modify _ q _) q _)[i]? = _
        rw [List.getElem?_modify, List.getElem?_modify, List.getElem?_append_left hi, hf]
        by_cases e : q = i
        · subst e; simp [hnil]
        · simp [e]
      · show (List.modify (List.modify _ q _) q _)[_]? = _
        rw [List.getElem?_modify, List.getElem?_modify]
        simp [show q ≠ h.frames.length by omega]
    | some l =>
      have hll := hkl hl
      have hne : h.kids (some q) ≠ [] := fun e => by rw [e] at hl; simp at hl
      dsimp only
      unfold PHistory.modify
      rw [if_pos (by simp; omega), Option.bind_some, if_pos (by simp; omega)]
      refine ⟨_, rfl, by simp, ?_, ?_, rfl, rfl, rfl⟩
      · intro i f hf
        have hi := (List.getElem?_eq_some_iff.1 hf).1
        show (List.modify (List.modify _ l _) q _)[i]? = _
        rw [List.getElem?_modify, List.getElem?_modify, List.getElem?_append_left hi, hf]
        by_cases e : q = i
        · by_cases e' : l = i
          · subst e; subst e'; simp [hne]
          · subst e; simp [hne, e']
        · by_cases e' : l = i
          · subst e'; simp [e]
          · simp [e, e']
      · show (List.modify (List.modify _ l _) q _)[_]? = _
        rw [List.getElem?_modify, List.getElem?_modify]
        simp [show q ≠ h.frames.length by omega, show l ≠ h.frames.length by omega]

theorem kids_eq_of_parents {h h' : PHistory K} {n : Nat} (hn : h.frames.length = n) (hn' : h'.frames.length = n)
    (hp : ∀ i, i < n → (h'.frames[i]?).map PFrame.parent = (h.frames[i]?).map PFrame.parent) (q : Option Nat) : h'.kids q = h.kids q := by
  unfold PHistory.kids
  rw [hn, hn']
  refine List.filter_congr (fun j hj => ?_)
  rw [hp j (List.mem_range.1 hj)]

/-- What stays of the frames of a history when it grows. -/
structure PHistory.Grows (h h' : PHistory K) : Prop where
  keep : ∀ (i : Nat) f, h.frames[i]? = some f → ∃ f', h'.frames[i]? = some f' ∧ f'.parent = f.parent ∧
    f'.totalRuntime = f.totalRuntime ∧ f'.calls = f.calls ∧ f'.startTime = f.startTime
  name : ∀ i x, h.name i = some x → h'.name i = some x
  current : h'.current = h.current

theorem PHistory.Grows.refl (h : PHistory K) : h.Grows h :=
  ⟨fun _ f hf => ⟨f, hf, rfl, rfl, rfl, rfl⟩, fun _ _ hx => hx, rfl⟩

/-- A child that is not there is made. -/
theorem PHistory.WF.create [Zero K] {h : PHistory K} (hw : h.WF) (p : Option Nat) (hp : ∀ q, p = some q → q < h.frames.length) (name : PName)
    (hx : 0 ∉ name) (hnot : ∀ j ∈ h.kids p, h.name j ≠ some name) :
    ∃ h', h.createChildOf p name = some (h', h.frames.length) ∧ h'.WF ∧ h.Grows h' ∧ h'.frames.length = h.frames.length + 1 ∧
      h'.name h.frames.length = some name ∧
      (∃ f, h'.frames[h.frames.length]? = some f ∧ f.parent = p ∧ f.totalRuntime = 0 ∧ f.calls = 0) := by
  obtain ⟨h', e, hl, hold, hnew, hch, hcur, hroot⟩ := hw.createDesc p hp name
  have hname : ∀ i x, h.name i = some x → h'.name i = some x := by
    intro i x hi
    unfold PHistory.name at hi ⊢
    cases hf : h.frames[i]? with
    | none => rw [hf] at hi; simp at hi
    | some f =>
      rw [hf, Option.bind_some] at hi
      rw [hold i f hf, Option.bind_some, hch, List.append_assoc]
      exact charsGet_append hi
  have hname2 : h'.name h.frames.length = some name := by
    unfold PHistory.name
    rw [hnew, Option.bind_some, hch]
    exact charsGet_new hx
  have hkids : ∀ q, h'.kids q = h.kids q ++ (if q = p then [h.frames.length] else []) := by
    intro q
    unfold PHistory.kids
    rw [hl, List.range_succ, List.filter_append]
    congr 1
    · refine List.filter_congr (fun j hj => ?_)
      have hj := List.mem_range.1 hj
      rw [hold j _ (List.getElem?_eq_getElem hj), List.getElem?_eq_getElem hj]
      rfl
    · rw [List.filter_cons, hnew]
      by_cases hq : q = p
      · simp [hq]
      · rw [if_neg hq, if_neg]
        · rfl
        · simpa using fun e => hq e.symm
  -- a frame of the new history is an old one or the new one
  have hcase : ∀ i f, h'.frames[i]? = some f → (∃ g, h.frames[i]? = some g) ∨ i = h.frames.length := by
    intro i f hf
    have hi := (List.getElem?_eq_some_iff.1 hf).1
    by_cases e : i = h.frames.length
    · exact .inr e
    · exact .inl ⟨_, List.getElem?_eq_getElem (by omega)⟩
  have hlt : ∀ {q j}, j ∈ h.kids q → j < h.frames.length := by
    intro q j hj
    obtain ⟨f, hf, _⟩ := PHistory.mem_kids.1 hj
    exact (List.getElem?_eq_some_iff.1 hf).1
  have hnone : h.kids (some h.frames.length) = [] := by
    cases hk : h.kids (some h.frames.length) with
    | nil => rfl
    | cons a l =>
      obtain ⟨f, hf, hpf⟩ := PHistory.mem_kids.1 (show a ∈ h.kids (some h.frames.length) by rw [hk]; simp)
      have := hw.par a f hf _ hpf
      have := (List.getElem?_eq_some_iff.1 hf).1
      omega
  have hpn : p ≠ some h.frames.length := fun e => absurd (hp _ e) (by omega)
  refine ⟨h', e, ⟨?_, ?_, ?_, ?_, ?_, ?_, ?_⟩, ⟨?_, hname, hcur⟩, hl, hname2, _, hnew, rfl, rfl, rfl⟩
  · intro i f hf q hq
    rcases hcase i f hf with ⟨g, hg⟩ | rfl
    · rw [hold i g hg] at hf
      cases hf
      exact hw.par i g hg q hq
    · rw [hnew] at hf
      cases hf
      exact hp q hq
  · intro i f hf
    rcases hcase i f hf with ⟨g, hg⟩ | rfl
    · rw [hold i g hg] at hf
      cases hf
      dsimp only
      rw [hkids, hw.first i g hg]
      by_cases hi : p = some i
      · subst hi
        cases hk : h.kids (some i) with
        | nil => simp
        | cons a l => simp
      · rw [if_neg (fun hh => hi hh.1), if_neg (fun hh => hi hh.symm), List.append_nil]
    · rw [hnew] at hf
      cases hf
      rw [hkids, hnone, if_neg (fun hh => hpn hh.symm)]; rfl
  · intro i f hf
    rcases hcase i f hf with ⟨g, hg⟩ | rfl
    · rw [hold i g hg] at hf
      cases hf
      dsimp only
      rw [hkids, hw.last i g hg]
      by_cases hi : p = some i
      · subst hi; simp
      · rw [if_neg hi, if_neg (fun hh => hi hh.symm), List.append_nil]
    · rw [hnew] at hf
      cases hf
      rw [hkids, hnone, if_neg (fun hh => hpn hh.symm)]; rfl
  · intro i f hf
    rcases hcase i f hf with ⟨g, hg⟩ | rfl
    · have hi := (List.getElem?_eq_some_iff.1 hg).1
      rw [hold i g hg] at hf
      cases hf
      dsimp only
      rw [hkids, hw.next i g hg]
      by_cases hgp : g.parent = p
      · rw [if_pos hgp, List.filter_append]
        obtain ⟨a, b, hab⟩ := List.append_of_mem (PHistory.mem_kids.2 ⟨g, hg, hgp⟩)
        have hs := h.kids_sorted p
        rw [hab] at hs
        rw [hgp, hab, sorted_filter_gt hs]
        have : decide (i < h.frames.length) = true := by simpa using hi
        rw [List.filter_cons, if_pos this, List.filter_nil]
        cases b with
        | nil => simp
        | cons c b =>
          have hne : (a ++ i :: c :: b).getLast? ≠ some i := by
            intro hh
            have hm : i ∈ c :: b := by
              rw [show a ++ i :: c :: b = (a ++ [i]) ++ (c :: b) by simp, List.getLast?_append] at hh
              have : (c :: b).getLast? = some ((c :: b).getLast (by simp)) := List.getLast?_eq_some_getLast (by simp)
              rw [this] at hh
              simp only [Option.some_or, Option.some.injEq] at hh
              have hm := List.getLast_mem (l := c :: b) (by simp)
              rw [hh] at hm
              exact hm
            have := (List.pairwise_cons.1 (List.pairwise_append.1 hs).2.1).1 i hm
            omega
          rw [if_neg hne]; rfl
      · rw [if_neg hgp, List.append_nil, if_neg]
        intro hh
        obtain ⟨g', hg', hp'⟩ := PHistory.mem_kids.1 (List.mem_of_getLast? hh)
        rw [hg] at hg'
        cases hg'
        exact hgp hp'
    · rw [hnew] at hf
      cases hf
      dsimp only
      rw [hkids, if_pos rfl, List.filter_append, List.filter_eq_nil_iff.2]
      · simp
      · intro j hj
        have := hlt hj
        simp; omega
  · intro _
    rw [hroot, hkids]
    by_cases hpp : p = none
    · subst hpp; simp
    · rw [if_neg hpp, if_neg (fun hh => hpp hh.symm), List.append_nil]
      refine hw.root (fun hh => ?_)
      cases p with
      | none => exact hpp rfl
      | some q => have := hp q rfl; rw [hh] at this; simp at this
  · intro i f hf
    rcases hcase i f hf with ⟨g, hg⟩ | rfl
    · obtain ⟨x, hx⟩ := hw.named i g hg
      exact ⟨x, hname i x hx⟩
    · exact ⟨name, hname2⟩
  · have hback : ∀ {q i x}, i ∈ h.kids q → h'.name i = some x → h.name i = some x := by
      intro q i x hi hn
      obtain ⟨f, hf, _⟩ := PHistory.mem_kids.1 hi
      obtain ⟨y, hy⟩ := hw.named i f hf
      rw [hname i y hy] at hn
      rw [hy, hn]
    intro q i j x hi hj hni hnj
    rw [hkids] at hi hj
    by_cases hq : q = p
    · subst hq
      rw [if_pos rfl, List.mem_append, List.mem_singleton] at hi hj
      rcases hi with hi | rfl
      · rcases hj with hj | rfl
        · exact hw.distinct q i j x hi hj (hback hi hni) (hback hj hnj)
        · rw [hname2] at hnj
          cases hnj
          exact absurd (hback hi hni) (hnot i hi)
      · rcases hj with hj | rfl
        · rw [hname2] at hni
          cases hni
          exact absurd (hback hj hnj) (hnot j hj)
        · rfl
    · rw [if_neg hq, List.append_nil] at hi hj
      exact hw.distinct q i j x hi hj (hback hi hni) (hback hj hnj)
  · intro i f hf
    exact ⟨_, hold i f hf, rfl, rfl, rfl, rfl⟩

/-- The child with a name is found, or made at the end with nothing counted. -/
theorem PHistory.WF.foc [Zero K] {h : PHistory K} (hw : h.WF) (p : Option Nat) (hp : ∀ q, p = some q → q < h.frames.length) (name : PName)
    (hx : 0 ∉ name) :
    ∃ h' i f, h.findOrCreate p name = some (h', i) ∧ h'.WF ∧ h.Grows h' ∧ h'.frames[i]? = some f ∧ f.parent = p ∧ h'.name i = some name ∧
      ((h' = h ∧ i < h.frames.length) ∨ (i = h.frames.length ∧ h'.frames.length = h.frames.length + 1 ∧ f.totalRuntime = 0 ∧ f.calls = 0 ∧
        ∀ j ∈ h.kids p, h.name j ≠ some name)) := by
  unfold PHistory.findOrCreate
  rw [hw.find p hp name, Option.bind_some]
  cases hfi : (h.kids p).find? (fun j => decide (h.name j = some name)) with
  | some i =>
    have hm := List.mem_of_find?_eq_some hfi
    have hn := List.find?_some hfi
    obtain ⟨f, hf, hpf⟩ := PHistory.mem_kids.1 hm
    exact ⟨h, i, f, rfl, hw, .refl h, hf, hpf, by simpa using hn, .inl ⟨rfl, (List.getElem?_eq_some_iff.1 hf).1⟩⟩
  | none =>
    have hnot : ∀ j ∈ h.kids p, h.name j ≠ some name := by
      intro j hj
      simpa using List.find?_eq_none.1 hfi j hj
    obtain ⟨h', e, hw', hg, hl, hn, f, hf, hpf, ht, hc⟩ := hw.create p hp name hx hnot
    exact ⟨h', _, f, e, hw', hg, hf, hpf, hn, .inr ⟨rfl, hl, ht, hc, hnot⟩⟩

/-- Changing the counts of a frame keeps the tree. -/
theorem PHistory.WF.count {h : PHistory K} (hw : h.WF) (i : Nat) (g : PFrame K → PFrame K)
    (hg : ∀ f, (g f).parent = f.parent ∧ (g f).firstChild = f.firstChild ∧ (g f).lastChild = f.lastChild ∧
      (g f).nextSibling = f.nextSibling ∧ (g f).namePtr = f.namePtr) (c : Option Nat) :
    ({ h with frames := h.frames.modify i g, current := c } : PHistory K).WF ∧
    ∀ j, ({ h with frames := h.frames.modify i g, current := c } : PHistory K).name j = h.name j := by
  have hget : ∀ j : Nat, (h.frames.modify i g)[j]? = (h.frames[j]?).map (fun f => if i = j then g f else f) := by
    intro j
    rw [List.getElem?_modify]
    by_cases e : i = j
    · simp [e]
    · simp [e]
  have hk : ∀ q, ({ h with frames := h.frames.modify i g, current := c } : PHistory K).kids q = h.kids q := by
    refine kids_eq_of_parents (n := h.frames.length) rfl (by simp) (fun j hj => ?_)
    show ((h.frames.modify i g)[j]?).map _ = _
    rw [hget, List.getElem?_eq_getElem hj]
    by_cases e : i = j
    · simp [e, (hg _).1]
    · simp [e]
  have hname : ∀ j, ({ h with frames := h.frames.modify i g, current := c } : PHistory K).name j = h.name j := by
    intro j
    unfold PHistory.name
    show ((h.frames.modify i g)[j]?).bind _ = _
    rw [hget]
    cases h.frames[j]? with
    | none => rfl
    | some f =>
      by_cases e : i = j
      · simp [e, (hg f).2.2.2.2]
      · simp [e]
  have hcase : ∀ (j : Nat) f, (h.frames.modify i g)[j]? = some f → ∃ f0, h.frames[j]? = some f0 ∧ f.parent = f0.parent ∧
      f.firstChild = f0.firstChild ∧ f.lastChild = f0.lastChild ∧ f.nextSibling = f0.nextSibling := by
    intro j f hf
    rw [hget] at hf
    cases h0 : h.frames[j]? with
    | none => rw [h0] at hf; simp at hf
    | some f0 =>
      rw [h0, Option.map_some] at hf
      refine ⟨f0, rfl, ?_⟩
      rw [← Option.some.inj hf]
      by_cases e : i = j
      · rw [if_pos e]; exact ⟨(hg f0).1, (hg f0).2.1, (hg f0).2.2.1, (hg f0).2.2.2.1⟩
      · rw [if_neg e]; exact ⟨rfl, rfl, rfl, rfl⟩
  refine ⟨⟨?_, ?_, ?_, ?_, ?_, ?_, ?_⟩, hname⟩
  · intro j f hf q hq
    obtain ⟨f0, h0, a, _⟩ := hcase j f hf
    exact hw.par j f0 h0 q (by rw [← a]; exact hq)
  · intro j f hf
    obtain ⟨f0, h0, _, a, _⟩ := hcase j f hf
    rw [hk, a]; exact hw.first j f0 h0
  · intro j f hf
    obtain ⟨f0, h0, _, _, a, _⟩ := hcase j f hf
    rw [hk, a]; exact hw.last j f0 h0
  · intro j f hf
    obtain ⟨f0, h0, b, _, _, a⟩ := hcase j f hf
    rw [hk, a, b]; exact hw.next j f0 h0
  · intro hne
    rw [hk]
    refine hw.root (fun e => hne ?_)
    show h.frames.modify i g = []
    rw [e]; simp
  · intro j f hf
    obtain ⟨f0, h0, _⟩ := hcase j f hf
    rw [hname]; exact hw.named j f0 h0
  · intro q a b x ha hb hna hnb
    rw [hk] at ha hb
    rw [hname] at hna hnb
    exact hw.distinct q a b x ha hb hna hnb

/-! Paths -/

/-- Frame `i` of a history has path `p`. -/
def PHistory.HasPath (h : PHistory K) (i : Nat) (p : List (List Nat)) : Prop := PathOf h.parent h.name i p

theorem PHistory.HasPath.lt {h : PHistory K} {i : Nat} {p : List (List Nat)} (hp : h.HasPath i p) : i < h.frames.length := by
  have : ∃ q, h.parent i = some q := by
    cases hp with
    | root _ _ a _ => exact ⟨_, a⟩
    | child _ _ _ _ a _ _ => exact ⟨_, a⟩
  obtain ⟨q, hq⟩ := this
  unfold PHistory.parent at hq
  cases hf : h.frames[i]? with
  | none => rw [hf] at hq; simp at hq
  | some f => exact (List.getElem?_eq_some_iff.1 hf).1

theorem PHistory.HasPath.mono {h h' : PHistory K} (hg : h.Grows h') {i : Nat} {p : List (List Nat)} (hp : h.HasPath i p) :
    h'.HasPath i p := by
  have hpar : ∀ i q, h.parent i = some q → h'.parent i = some q := by
    intro i q hq
    unfold PHistory.parent at hq ⊢
    cases hf : h.frames[i]? with
    | none => rw [hf] at hq; simp at hq
    | some f =>
      obtain ⟨f', e, e2, _⟩ := hg.keep i f hf
      rw [hf] at hq
      rw [e, Option.map_some, e2]
      exact hq
  induction hp with
  | root i x a b => exact .root i x (hpar _ _ a) (hg.name _ _ b)
  | child i j x p a b _ ih => exact .child i j x p (hpar _ _ a) (hg.name _ _ b) ih

/-- Every frame has a path. -/
theorem PHistory.WF.hasPath {h : PHistory K} (hw : h.WF) : ∀ i, i < h.frames.length → ∃ p, h.HasPath i p := by
  intro i
  induction i using Nat.strongRecOn with
  | ind i ih =>
    intro hi
    have hf := List.getElem?_eq_getElem hi
    obtain ⟨x, hx⟩ := hw.named i _ hf
    cases hp : (h.frames[i]).parent with
    | none => exact ⟨[x], .root i x (by unfold PHistory.parent; rw [hf, Option.map_some, hp]) hx⟩
    | some j =>
      have hj := hw.par i _ hf j hp
      obtain ⟨p, hpj⟩ := ih j hj (by omega)
      exact ⟨p ++ [x], .child i j x p (by unfold PHistory.parent; rw [hf, Option.map_some, hp]) hx hpj⟩

theorem PHistory.HasPath.ne_nil {h : PHistory K} {i : Nat} {p : List (List Nat)} (hp : h.HasPath i p) : p ≠ [] := by
  cases hp with
  | root => simp
  | child => simp

theorem PHistory.mem_kids_parent {h : PHistory K} {i : Nat} {q : Option Nat} : i ∈ h.kids q ↔ h.parent i = some q := by
  rw [PHistory.mem_kids]
  unfold PHistory.parent
  cases h.frames[i]? with
  | none => simp
  | some f => simp

/-- A frame has one path, and a path one frame. -/
theorem PHistory.HasPath.path_unique {h : PHistory K} {i : Nat} {p q : List (List Nat)} (hp : h.HasPath i p) (hq : h.HasPath i q) : p = q := by
  unfold PHistory.HasPath at hp hq
  induction hp generalizing q with
  | root i x a b =>
    cases hq with
    | root _ _ a' b' => rw [b] at b'; rw [Option.some.inj b']
    | child _ _ _ _ a' _ _ => rw [a] at a'; cases a'
  | child i j x p a b _ ih =>
    cases hq with
    | root _ _ a' b' => rw [a] at a'; cases a'
    | child _ _ _ _ a' b' c' =>
      rw [a] at a'
      rw [b] at b'
      cases a'
      cases b'
      rw [ih c']

theorem PHistory.WF.frame_unique {h : PHistory K} (hw : h.WF) {i j : Nat} {p : List (List Nat)} (hi : h.HasPath i p)
    (hj : h.HasPath j p) : i = j := by
  unfold PHistory.HasPath at hi hj
  induction hi generalizing j with
  | root i x a b =>
    generalize hp : [x] = p at hj
    cases hj with
    | root _ y a' b' =>
      cases hp
      exact hw.distinct none i j x (PHistory.mem_kids_parent.2 a) (PHistory.mem_kids_parent.2 a') b b'
    | child _ k y q _ _ c =>
      have : q ≠ [] := PHistory.HasPath.ne_nil (h := h) c
      cases q with
      | nil => exact absurd rfl this
      | cons _ _ => simp at hp
  | child i k x p a b c ih =>
    generalize hp : p ++ [x] = p' at hj
    cases hj with
    | root _ y a' b' =>
      have : p ≠ [] := PHistory.HasPath.ne_nil (h := h) c
      cases p with
      | nil => exact absurd rfl this
      | cons _ _ => simp at hp
    | child _ k' y q a' b' c' =>
      obtain ⟨h1, h2⟩ := List.append_inj' hp rfl
      cases h1
      cases h2
      have := ih c'
      subst this
      exact hw.distinct (some k) i j x (PHistory.mem_kids_parent.2 a) (PHistory.mem_kids_parent.2 a') b b'

end OmegaH
