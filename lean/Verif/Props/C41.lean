import Verif.Model.Amr
import Verif.Spec.Amr
import Verif.Lemmas.Blocks
import Verif.Lemmas.Fan
/-!
# C41: division of hypercubes
-/
namespace OmegaH
open Spec

/-! ## Child codes -/

/-- Codes of children pack and unpack losslessly for every child a parent can have. -/
theorem C41_codes {parentDim childDim child : Nat} (hp : parentDim ≤ 3) (hc : childDim ≤ parentDim)
    (h : (child : Int) < hypercubeSplitDegree parentDim childDim) :
    amrWhichChild (amrMakeCode child parentDim) = child ∧ amrParentDim (amrMakeCode child parentDim) = parentDim := by
  have key : ∀ p ∈ List.range 4, ∀ c ∈ List.range 32,
      amrWhichChild (amrMakeCode c p) = c ∧ amrParentDim (amrMakeCode c p) = p := by decide +kernel
  have hdeg : ∀ p ∈ List.range 4, ∀ c ∈ List.range (p + 1), hypercubeSplitDegree ((p : Nat) : Int) ((c : Nat) : Int) ≤ 12 := by decide +kernel
  have := hdeg parentDim (List.mem_range.2 (by omega)) childDim (List.mem_range.2 (by omega))
  exact key parentDim (List.mem_range.2 (by omega)) child (List.mem_range.2 (by omega))

/-- The codes hold children up to 31 only: beyond, the byte overflows. -/
theorem C41_codes_limit : amrWhichChild (amrMakeCode 32 3) = -32 := by decide +kernel

/-! ## Split templates -/

/-- The children of the same dimension are the cells of the divided parent: each child is a cell with its corners in the
canonical order, and each cell occurs once. -/
theorem C41_children_tile (d : Nat) (hd : d = 1 ∨ d = 2 ∨ d = 3) :
    hypercubeSplitDegree d d = ((2 ^ d : Nat) : Int) ∧
    (∀ child, child < 2 ^ d → ∃ base ∈ bits d, childPoints d d child =
      (List.range (2 ^ d)).map (fun w => (List.range d).map (fun a => base.getD a 0 + cornerOff w a))) ∧
    (∀ child child', child < 2 ^ d → child' < 2 ^ d → (childPoints d d child).Perm (childPoints d d child') → child = child') := by
  have key : ∀ d ∈ [1, 2, 3], hypercubeSplitDegree ((d : Nat) : Int) ((d : Nat) : Int) = ((2 ^ d : Nat) : Int) ∧
      (∀ child ∈ List.range (2 ^ d), ∃ base ∈ bits d, childPoints d d child =
        (List.range (2 ^ d)).map (fun w => (List.range d).map (fun a => base.getD a 0 + cornerOff w a))) ∧
      (∀ child ∈ List.range (2 ^ d), ∀ child' ∈ List.range (2 ^ d),
        (childPoints d d child).Perm (childPoints d d child') → child = child') := by
    decide +kernel
  obtain ⟨k1, k2, k3⟩ := key d (by simp; omega)
  exact ⟨k1, fun c hc => k2 c (List.mem_range.2 hc), fun c c' hc hc' => k3 c (List.mem_range.2 hc) c' (List.mem_range.2 hc')⟩

/-- The children of any dimension are the unit cells of that dimension inside the parent, each once. A child face lists
its corners going round. -/
theorem C41_children_inner (d c : Nat) (hd : d = 1 ∨ d = 2 ∨ d = 3) (hc : c ≤ d) :
    hypercubeSplitDegree d c = ((innerCells d c).length : Int) ∧
    (∀ child, child < (innerCells d c).length → ∃ cell ∈ innerCells d c, (childPoints d c child).Perm cell) ∧
    (∀ cell ∈ innerCells d c, ∃ child, child < (innerCells d c).length ∧ (childPoints d c child).Perm cell) ∧
    (∀ child child', child < (innerCells d c).length → child' < (innerCells d c).length →
      (childPoints d c child).Perm (childPoints d c child') → child = child') ∧
    (c = 2 → ∀ child, child < (innerCells d c).length → ∃ p0 p1 p2 p3, childPoints d c child = [p0, p1, p2, p3] ∧
      unitApart p0 p1 ∧ unitApart p1 p2 ∧ unitApart p2 p3 ∧ unitApart p3 p0) := by
  have key : ∀ d ∈ [1, 2, 3], ∀ c ∈ List.range (d + 1),
      hypercubeSplitDegree ((d : Nat) : Int) ((c : Nat) : Int) = ((innerCells d c).length : Int) ∧
      (∀ child ∈ List.range (innerCells d c).length, ∃ cell ∈ innerCells d c, (childPoints d c child).Perm cell) ∧
      (∀ cell ∈ innerCells d c, ∃ child ∈ List.range (innerCells d c).length, (childPoints d c child).Perm cell) ∧
      (∀ child ∈ List.range (innerCells d c).length, ∀ child' ∈ List.range (innerCells d c).length,
        (childPoints d c child).Perm (childPoints d c child') → child = child') := by
    decide +kernel
  have key2 : ∀ d ∈ [2, 3], ∀ child ∈ List.range (innerCells d 2).length,
      (match childPoints d 2 child with
      | [p0, p1, p2, p3] => unitApart p0 p1 && unitApart p1 p2 && unitApart p2 p3 && unitApart p3 p0
      | _ => false) = true := by decide +kernel
  obtain ⟨k1, k2, k3, k4⟩ := key d (by simp; omega) c (List.mem_range.2 (by omega))
  refine ⟨k1, fun x hx => k2 x (List.mem_range.2 hx), ?_, fun x y hx hy => k4 x (List.mem_range.2 hx) y (List.mem_range.2 hy), ?_⟩
  · intro cell hcell
    obtain ⟨x, h1, h2⟩ := k3 cell hcell
    exact ⟨x, List.mem_range.1 h1, h2⟩
  · rintro rfl child hch
    have := key2 d (by simp; omega) child (List.mem_range.2 hch)
    split at this
    next p0 p1 p2 p3 heq =>
      simp only [Bool.and_eq_true] at this
      exact ⟨p0, p1, p2, p3, heq, this.1.1.1, this.1.1.2, this.1.2, this.2⟩
    next => simp at this

/-! ## 2-to-1 marking -/

/-- A loop that raises a flag. -/
theorem foldlM_flag {α : Type} (f : Int → α → Option Int) (P : α → Prop) (l : List α)
    (h : ∀ x ∈ l, ∀ acc, ∃ r, f acc x = some r ∧ (P x → r = 1) ∧ (¬ P x → r = acc)) (acc : Int) :
    ∃ r, l.foldlM f acc = some r ∧ ((∃ x ∈ l, P x) → r = 1) ∧ ((¬ ∃ x ∈ l, P x) → r = acc) := by
  induction l generalizing acc with
  | nil => exact ⟨acc, rfl, by simp, by simp⟩
  | cons x l ih =>
    obtain ⟨r, r1, r2, r3⟩ := h x (by simp) acc
    obtain ⟨q, q1, q2, q3⟩ := ih (fun y hy => h y (by simp [hy])) r
    refine ⟨q, ?_, ?_, ?_⟩
    · rw [List.foldlM_cons, r1]; exact q1
    · rintro ⟨y, hy, hp⟩
      by_cases ht : ∃ x ∈ l, P x
      · exact q2 ht
      · rw [q3 ht]
        rcases List.mem_cons.1 hy with rfl | hy
        · exact r2 hp
        · exact absurd ⟨y, hy, hp⟩ ht
    · intro hn
      rw [q3 (fun ⟨y, hy, hp⟩ => hn ⟨y, by simp [hy], hp⟩)]
      exact r3 (fun hp => hn ⟨x, by simp, hp⟩)

/-- An entry of an array of bytes that is not zero. -/
def NonZero (l : List Int) (i : Nat) : Prop := ∃ x, l[i]? = some x ∧ x ≠ 0

section
variable {V : AmrView} {n nb : Nat}

theorem shouldRefine_spec (h : AmrConsistent V n nb) {marked mem : List Int} (hm : marked.length = n) (hmem : mem.length = n)
    {e : Nat} (he : e < n) :
    ∃ v, shouldRefine V marked mem e = some v ∧
      ((∃ e', FinerNeighbour V e e' ∧ (NonZero marked e' ∨ NonZero mem e')) → v = 1) ∧
      ((¬ ∃ e', FinerNeighbour V e e' ∧ (NonZero marked e' ∨ NonZero mem e')) → v = 0) := by
  obtain ⟨v, v1, v2, v3⟩ := foldlM_flag (refineBridge V marked mem e)
    (fun b => ∃ bridge c child e', V.elems2bridges[e * V.nb + b]? = some bridge ∧
      (∃ x, V.isInterior[bridge]? = some x ∧ x ≠ 0) ∧ V.isBridgeLeaf[bridge]? = some 0 ∧
      InFan V.children.a2ab bridge c ∧ V.children.ab2b[c]? = some child ∧
      (∃ k, InFan V.bridges2elems.a2ab child k ∧ V.bridges2elems.ab2b[k]? = some e') ∧
      (NonZero marked e' ∨ NonZero mem e')) (List.range V.nb) (by
    intro b hb acc
    have hb := List.mem_range.1 hb
    have hlt : e * V.nb + b < V.elems2bridges.length := by
      rw [h.e2bLen]
      have := Nat.mul_le_mul_right V.nb (show e + 1 ≤ n by omega)
      rw [Nat.add_mul] at this; omega
    obtain ⟨bridge, hbr⟩ : ∃ x, V.elems2bridges[e * V.nb + b]? = some x := ⟨_, List.getElem?_eq_getElem hlt⟩
    have hbn := h.e2bRange bridge (List.mem_of_getElem? hbr)
    obtain ⟨ins, hins⟩ : ∃ x, V.isInterior[bridge]? = some x := ⟨_, List.getElem?_eq_getElem (by rw [h.inLen]; exact hbn)⟩
    obtain ⟨lf, hlf⟩ : ∃ x, V.isBridgeLeaf[bridge]? = some x := ⟨_, List.getElem?_eq_getElem (by rw [h.bleafLen]; exact hbn)⟩
    unfold refineBridge
    rw [hbr, Option.bind_some, hins, Option.bind_some]
    by_cases hi0 : ins = 0
    · refine ⟨acc, if_pos hi0, ?_, fun _ => rfl⟩
      rintro ⟨br', c, child, e', b1, ⟨x, b2, b3⟩, _⟩
      obtain rfl := Option.some.inj b1
      obtain rfl := Option.some.inj (hins.symm.trans b2)
      exact absurd hi0 b3
    rw [if_neg hi0, hlf, Option.bind_some]
    by_cases hl0 : lf = 0
    swap
    · refine ⟨acc, if_pos hl0, ?_, fun _ => rfl⟩
      rintro ⟨br', c, child, e', b1, _, b3, _⟩
      obtain rfl := Option.some.inj b1
      exact absurd (Option.some.inj (hlf.symm.trans b3)) hl0
    subst hl0
    obtain ⟨c0, hc0⟩ : ∃ x, V.children.a2ab[bridge]? = some x := ⟨_, List.getElem?_eq_getElem (by rw [h.childLen]; omega)⟩
    obtain ⟨c1, hc1⟩ : ∃ x, V.children.a2ab[bridge + 1]? = some x := ⟨_, List.getElem?_eq_getElem (by rw [h.childLen]; omega)⟩
    rw [if_neg (by simp), hc0, Option.bind_some, hc1, Option.bind_some]
    obtain ⟨w, w1, w2, w3⟩ := foldlM_flag (refineChild V marked mem)
      (fun c => ∃ child e', V.children.ab2b[c]? = some child ∧
        (∃ k, InFan V.bridges2elems.a2ab child k ∧ V.bridges2elems.ab2b[k]? = some e') ∧
        (NonZero marked e' ∨ NonZero mem e')) (List.range' c0 (c1 - c0)) (by
      intro c hc acc
      have hc : c0 ≤ c ∧ c < c1 := by
        have := List.mem_range'_1.1 hc; omega
      have hfan : InFan V.children.a2ab bridge c := ⟨c0, c1, hc0, hc1, hc.1, hc.2⟩
      obtain ⟨nc, n1, n2⟩ := fan_last h.childFan
      have hcl : c < V.children.ab2b.length := by
        have := (inFan_lt h.childFan hfan n2).1
        rw [h.childEnd] at n1
        have := Option.some.inj n1; omega
      obtain ⟨child, hch⟩ : ∃ x, V.children.ab2b[c]? = some x := ⟨_, List.getElem?_eq_getElem hcl⟩
      obtain ⟨k, k1, k2⟩ := h.single e b bridge c child he hb hbr ⟨ins, hins, hi0⟩ hlf hfan hch
      have hkf : InFan V.bridges2elems.a2ab child k := ⟨k, k + 1, k1, k2, by omega, by omega⟩
      obtain ⟨ne, m1, m2⟩ := fan_last h.upFan
      have hkl : k < V.bridges2elems.ab2b.length := by
        have := (inFan_lt h.upFan hkf m2).1
        rw [h.upEnd] at m1
        have := Option.some.inj m1; omega
      obtain ⟨adj, hadj⟩ : ∃ x, V.bridges2elems.ab2b[k]? = some x := ⟨_, List.getElem?_eq_getElem hkl⟩
      have hadjn := h.upRange adj (List.mem_of_getElem? hadj)
      obtain ⟨m1', hm1⟩ : ∃ x, marked[adj]? = some x := ⟨_, List.getElem?_eq_getElem (by omega)⟩
      obtain ⟨m2', hm2⟩ : ∃ x, mem[adj]? = some x := ⟨_, List.getElem?_eq_getElem (by omega)⟩
      have heq : refineChild V marked mem acc c = some (if m2' ≠ 0 then 1 else if m1' ≠ 0 then 1 else acc) := by
        unfold refineChild
        rw [hch, Option.bind_some, k1, Option.bind_some, k2, Option.bind_some, if_neg (by omega), hadj, Option.bind_some,
          hm1, Option.bind_some, hm2, Option.map_some]
      refine ⟨_, heq, ?_, ?_⟩
      · rintro ⟨child', e', c1', ⟨k', ⟨lo, hi, f1, f2, f3, f4⟩, f5⟩, hz⟩
        obtain rfl := Option.some.inj (hch.symm.trans c1')
        obtain rfl := Option.some.inj (k1.symm.trans f1)
        obtain rfl := Option.some.inj (k2.symm.trans f2)
        have : k' = k := by omega
        subst this
        obtain rfl := Option.some.inj (hadj.symm.trans f5)
        rcases hz with ⟨x, x1, x2⟩ | ⟨x, x1, x2⟩
        · obtain rfl := Option.some.inj (hm1.symm.trans x1)
          rw [if_pos x2]
          split <;> rfl
        · obtain rfl := Option.some.inj (hm2.symm.trans x1)
          rw [if_pos x2]
      · intro hno
        have z1 : m1' = 0 := by
          by_contra hz
          exact hno ⟨child, adj, hch, ⟨k, hkf, hadj⟩, Or.inl ⟨m1', hm1, hz⟩⟩
        have z2 : m2' = 0 := by
          by_contra hz
          exact hno ⟨child, adj, hch, ⟨k, hkf, hadj⟩, Or.inr ⟨m2', hm2, hz⟩⟩
        rw [if_neg (by simp [z2]), if_neg (by simp [z1])]) acc
    refine ⟨w, w1, ?_, ?_⟩
    · rintro ⟨br', c, child, e', b1, _, _, ⟨lo, hi, f1, f2, f3, f4⟩, b5, b6⟩
      obtain rfl := Option.some.inj b1
      obtain rfl := Option.some.inj (hc0.symm.trans f1)
      obtain rfl := Option.some.inj (hc1.symm.trans f2)
      exact w2 ⟨c, List.mem_range'_1.2 (by omega), child, e', b5, b6⟩
    · intro hno
      apply w3
      rintro ⟨c, hc, child, e', b5, b6, b7⟩
      have hc := List.mem_range'_1.1 hc
      exact hno ⟨bridge, c, child, e', rfl, ⟨ins, hins, hi0⟩, hlf, ⟨c0, c1, hc0, hc1, by omega, by omega⟩, b5, b6, b7⟩) 0
  refine ⟨v, v1, ?_, ?_⟩
  · rintro ⟨e', ⟨b, bridge, c, child, hb, b1, b2, b3, b4, b5, b6⟩, hz⟩
    exact v2 ⟨b, List.mem_range.2 hb, bridge, c, child, e', b1, b2, b3, b4, b5, b6, hz⟩
  · intro hno
    apply v3
    rintro ⟨b, hb, bridge, c, child, e', b1, b2, b3, b4, b5, b6, hz⟩
    exact hno ⟨e', ⟨b, bridge, c, child, List.mem_range.1 hb, b1, b2, b3, b4, b5, b6⟩, hz⟩

/-- The loop, with an invariant `G` of the array and what is known of each value when it is written. -/
theorem enforce_loop {marked : List Int} (G : List Int → Prop) (Q : Nat → Int → Prop)
    (hstep : ∀ mem e, mem.length = n → G mem → e < n →
      ∃ v, enforceStep V marked mem e = some (mem.set e v) ∧ Q e v ∧ G (mem.set e v)) :
    ∀ (l : List Nat) (mem : List Int), l.Nodup → (∀ e ∈ l, e < n) → mem.length = n → G mem →
    ∃ out, l.foldlM (enforceStep V marked) mem = some out ∧ out.length = n ∧ G out ∧
      (∀ e ∈ l, ∃ v, out[e]? = some v ∧ Q e v) ∧ (∀ e, e ∉ l → out[e]? = mem[e]?) := by
  intro l
  induction l with
  | nil => intro mem _ _ hl hg; exact ⟨mem, rfl, hl, hg, by simp, fun _ _ => rfl⟩
  | cons a l ih =>
    intro mem hnd hlt hl hg
    obtain ⟨v, v1, v2, v3⟩ := hstep mem a hl hg (hlt a (by simp))
    have hna : a ∉ l := (List.nodup_cons.1 hnd).1
    obtain ⟨out, o1, o2, o3, o4, o5⟩ := ih (mem.set a v) (List.nodup_cons.1 hnd).2 (fun e he => hlt e (by simp [he])) (by simpa using hl) v3
    refine ⟨out, by rw [List.foldlM_cons, v1]; exact o1, o2, o3, ?_, ?_⟩
    · intro e he
      rcases List.mem_cons.1 he with rfl | he
      · refine ⟨v, ?_, v2⟩
        rw [o5 e hna, List.getElem?_set_self (by rw [hl]; exact hlt e (by simp))]
      · exact o4 e he
    · intro e he
      rw [o5 e (fun h => he (by simp [h])), List.getElem?_set_ne (fun h => he (by simp [h]))]

theorem enforce_all (s : Sched) {marked garbage : List Int} (G : List Int → Prop) (Q : Nat → Int → Prop)
    (hg : garbage.length = n) (hG : G garbage)
    (hstep : ∀ mem e, mem.length = n → G mem → e < n →
      ∃ v, enforceStep V marked mem e = some (mem.set e v) ∧ Q e v ∧ G (mem.set e v)) :
    ∃ out, enforce2to1 s V n marked garbage = some out ∧ out.length = n ∧ G out ∧
      ∀ e, e < n → ∃ v, out[e]? = some v ∧ Q e v := by
  have hp := s.ok n
  obtain ⟨out, o1, o2, o3, o4, _⟩ := enforce_loop G Q hstep (s.order n) garbage
    (hp.nodup_iff.2 List.nodup_range) (fun e he => List.mem_range.1 (hp.mem_iff.1 he)) hg hG
  exact ⟨out, o1, o2, o3, fun e he => o4 e (hp.mem_iff.2 (List.mem_range.2 he))⟩

/-- What one iteration writes. -/
theorem step_spec (h : AmrConsistent V n nb) {marked mem : List Int} (hm : marked.length = n) (hmem : mem.length = n)
    {e : Nat} (he : e < n) :
    ∃ v, enforceStep V marked mem e = some (mem.set e v) ∧ (v = 0 ∨ v = 1) ∧
      (v = 1 ↔ NonZero V.isElemLeaf e ∧ (NonZero marked e ∨
        ∃ e', FinerNeighbour V e e' ∧ (NonZero marked e' ∨ NonZero mem e'))) := by
  obtain ⟨lf, hlf⟩ : ∃ x, V.isElemLeaf[e]? = some x := ⟨_, List.getElem?_eq_getElem (by rw [h.leafLen]; exact he)⟩
  obtain ⟨m, hm1⟩ : ∃ x, marked[e]? = some x := ⟨_, List.getElem?_eq_getElem (by omega)⟩
  unfold enforceStep
  rw [hlf, Option.bind_some, hm1, Option.bind_some]
  by_cases h0 : lf = 0
  · refine ⟨0, ?_, Or.inl rfl, ?_⟩
    · rw [if_pos h0, Option.bind_some, if_pos (by omega)]
    · constructor
      · simp
      · rintro ⟨⟨x, x1, x2⟩, _⟩
        obtain rfl := Option.some.inj (hlf.symm.trans x1)
        exact absurd h0 x2
  rw [if_neg h0]
  have hleaf : NonZero V.isElemLeaf e := ⟨lf, hlf, h0⟩
  by_cases h1 : m = 0
  swap
  · refine ⟨1, ?_, Or.inr rfl, ?_⟩
    · rw [if_pos h1, Option.bind_some, if_pos (by omega)]
    · exact ⟨fun _ => ⟨hleaf, Or.inl ⟨m, hm1, h1⟩⟩, fun _ => rfl⟩
  rw [if_neg (by simp [h1])]
  obtain ⟨v, v1, v2, v3⟩ := shouldRefine_spec h hm hmem he
  refine ⟨v, by rw [v1, Option.bind_some, if_pos (by omega)], ?_, ?_⟩
  · by_cases hx : ∃ e', FinerNeighbour V e e' ∧ (NonZero marked e' ∨ NonZero mem e')
    · exact Or.inr (v2 hx)
    · exact Or.inl (v3 hx)
  · constructor
    · intro hv
      refine ⟨hleaf, Or.inr ?_⟩
      by_contra hx
      have := v3 hx
      omega
    · rintro ⟨_, ⟨x, x1, x2⟩ | hx⟩
      · obtain rfl := Option.some.inj (hm1.symm.trans x1)
        exact absurd h1 x2
      · exact v2 hx

/-- What the marking guarantees in every execution: no divided element is marked, the marked leaves and their coarser
neighbours are, and a leaf without finer neighbours is marked only if it was. Missing: leaves whose finer neighbours
are themselves added by the marking. -/
theorem C41_2to1_partial (h : AmrConsistent V n nb) (s : Sched) {marked garbage : List Int} (hm : marked.length = n)
    (hg : garbage.length = n) :
    ∃ out, enforce2to1 s V n marked garbage = some out ∧ out.length = n ∧ ∀ e, e < n → ∃ v, out[e]? = some v ∧
      (v = 0 ∨ v = 1) ∧ (V.isElemLeaf[e]? = some 0 → v = 0) ∧
      (NonZero V.isElemLeaf e → (NonZero marked e ∨ ∃ e', FinerNeighbour V e e' ∧ NonZero marked e') → v = 1) ∧
      (¬ NonZero marked e → (∀ e', ¬ FinerNeighbour V e e') → v = 0) := by
  obtain ⟨out, o1, o2, _, o4⟩ := enforce_all (V := V) (n := n) (marked := marked) s (fun _ => True)
    (fun e v => (v = 0 ∨ v = 1) ∧ (V.isElemLeaf[e]? = some 0 → v = 0) ∧
      (NonZero V.isElemLeaf e → (NonZero marked e ∨ ∃ e', FinerNeighbour V e e' ∧ NonZero marked e') → v = 1) ∧
      (¬ NonZero marked e → (∀ e', ¬ FinerNeighbour V e e') → v = 0)) hg trivial (by
    intro mem e hl _ he
    obtain ⟨v, v1, v2, v3⟩ := step_spec h hm hl he
    refine ⟨v, v1, ⟨v2, ?_, ?_, ?_⟩, trivial⟩
    · intro h0
      rcases v2 with rfl | rfl
      · rfl
      · obtain ⟨⟨x, x1, x2⟩, _⟩ := v3.1 rfl
        exact absurd (Option.some.inj (h0.symm.trans x1)).symm x2
    · rintro hleaf (hx | ⟨e', hf, hx⟩)
      · exact v3.2 ⟨hleaf, Or.inl hx⟩
      · exact v3.2 ⟨hleaf, Or.inr ⟨e', hf, Or.inl hx⟩⟩
    · intro hn hno
      rcases v2 with rfl | rfl
      · rfl
      · rcases (v3.1 rfl).2 with hx | ⟨e', hf, _⟩
        · exact absurd hx hn
        · exact absurd hf (hno e'))
  exact ⟨out, o1, o2, o4⟩

/-- If the array happens to contain zeros at the start, only leaves that must be divided are marked. -/
theorem C41_2to1_zeroed (h : AmrConsistent V n nb) (s : Sched) {marked : List Int} (hm : marked.length = n) :
    ∃ out, enforce2to1 s V n marked (List.replicate n 0) = some out ∧
      ∀ e, NonZero out e → MustDivide V marked e := by
  obtain ⟨out, o1, o2, o3, _⟩ := enforce_all (V := V) (n := n) (marked := marked) s (fun mem => ∀ e, NonZero mem e → MustDivide V marked e)
    (fun _ _ => True) (garbage := List.replicate n 0) (by simp) (by
      rintro e ⟨x, x1, x2⟩
      have := List.mem_of_getElem? x1
      exact absurd (List.eq_of_mem_replicate this) x2) (by
    intro mem e hl hg he
    obtain ⟨v, v1, v2, v3⟩ := step_spec h hm hl he
    refine ⟨v, v1, trivial, ?_⟩
    rintro e' ⟨x, x1, x2⟩
    by_cases hee : e = e'
    · subst hee
      rw [List.getElem?_set_self (by omega)] at x1
      obtain rfl := Option.some.inj x1
      obtain ⟨⟨l, l1, l2⟩, hx⟩ := v3.1 (by omega)
      rcases hx with ⟨m, m1, m2⟩ | ⟨e', hf, ⟨m, m1, m2⟩ | hx⟩
      · exact .marked l1 l2 m1 m2
      · exact .next l1 l2 hf m1 m2
      · exact .again l1 l2 hf (hg e' hx)
    · rw [List.getElem?_set_ne hee] at x1
      exact hg e' ⟨x, x1, x2⟩)
  exact ⟨out, o1, o3⟩

/-- If every unmarked leaf that has finer neighbours has a marked one, the result is the set of leaves that must be divided,
whatever the schedule and the initial content of the array. -/
theorem C41_2to1_settled (h : AmrConsistent V n nb) {marked : List Int} (hm : marked.length = n)
    (hset : ∀ e e', NonZero V.isElemLeaf e → ¬ NonZero marked e → FinerNeighbour V e e' → ∃ e'', FinerNeighbour V e e'' ∧ NonZero marked e'') :
    ∃ out, (∀ s garbage, garbage.length = n → enforce2to1 s V n marked garbage = some out) ∧
      ∀ e, e < n → ∃ v, out[e]? = some v ∧ (v = 0 ∨ v = 1) ∧ (v = 1 ↔ MustDivide V marked e) := by
  have hmd : ∀ e, e < n → (MustDivide V marked e ↔
      NonZero V.isElemLeaf e ∧ (NonZero marked e ∨ ∃ e', FinerNeighbour V e e' ∧ NonZero marked e')) := by
    intro e he
    constructor
    · intro hx
      cases hx with
      | marked l1 l2 m1 m2 => exact ⟨⟨_, l1, l2⟩, Or.inl ⟨_, m1, m2⟩⟩
      | next l1 l2 hf m1 m2 => exact ⟨⟨_, l1, l2⟩, Or.inr ⟨_, hf, _, m1, m2⟩⟩
      | again l1 l2 hf hx =>
        refine ⟨⟨_, l1, l2⟩, ?_⟩
        by_cases hme : NonZero marked e
        · exact Or.inl hme
        · exact Or.inr (hset e _ ⟨_, l1, l2⟩ hme hf)
    · rintro ⟨⟨l, l1, l2⟩, ⟨m, m1, m2⟩ | ⟨e', hf, m, m1, m2⟩⟩
      · exact .marked l1 l2 m1 m2
      · exact .next l1 l2 hf m1 m2
  have hall : ∀ s garbage, garbage.length = n → ∃ out, enforce2to1 s V n marked garbage = some out ∧ out.length = n ∧
      ∀ e, e < n → ∃ v, out[e]? = some v ∧ (v = 0 ∨ v = 1) ∧ (v = 1 ↔ MustDivide V marked e) := by
    intro s garbage hg
    obtain ⟨out, o1, o2, _, o4⟩ := enforce_all (V := V) (n := n) (marked := marked) s (fun _ => True)
      (fun e v => (v = 0 ∨ v = 1) ∧ (v = 1 ↔ MustDivide V marked e)) hg trivial (by
      intro mem e hl _ he
      obtain ⟨v, v1, v2, v3⟩ := step_spec h hm hl he
      refine ⟨v, v1, ⟨v2, ?_⟩, trivial⟩
      rw [v3, hmd e he]
      constructor
      · rintro ⟨hl, hx | ⟨e', hf, hx⟩⟩
        · exact ⟨hl, Or.inl hx⟩
        · by_cases hme : NonZero marked e
          · exact ⟨hl, Or.inl hme⟩
          · exact ⟨hl, Or.inr (hset e e' hl hme hf)⟩
      · rintro ⟨hl, hx | ⟨e', hf, hx⟩⟩
        · exact ⟨hl, Or.inl hx⟩
        · exact ⟨hl, Or.inr ⟨e', hf, Or.inl hx⟩⟩)
    exact ⟨out, o1, o2, o4⟩
  obtain ⟨out, o1, o2, o3⟩ := hall Sched.serial (List.replicate n 0) (by simp)
  refine ⟨out, ?_, o3⟩
  intro s garbage hg
  obtain ⟨out', q1, q2, q3⟩ := hall s garbage hg
  rw [q1]
  congr 1
  apply List.ext_getElem?
  intro e
  by_cases he : e < n
  · obtain ⟨v, a1, a2, a3⟩ := o3 e he
    obtain ⟨w, b1, b2, b3⟩ := q3 e he
    rw [a1, b1]
    have : v = 1 ↔ w = 1 := a3.trans b3.symm
    congr 1
    omega
  · rw [List.getElem?_eq_none (by omega), List.getElem?_eq_none (by omega)]

end

/-- Two squares, 0 and 1, side by side. Square 1 is divided into 2, 3, 4, 5 and square 3 into 6, 7, 8, 9. -/
def threeLevels : AmrView where
  nb := 4
  isElemLeaf := [1, 0, 1, 0, 1, 1, 1, 1, 1, 1]
  isBridgeLeaf := [1, 0, 1, 1, 0, 0, 0, 1, 0, 1, 1, 0, 0, 0, 1, 1, 1, 1, 1, 1, 1, 1, 1, 1, 1, 1, 1, 1, 1, 1, 1]
  elems2bridges := [0, 1, 2, 3, 4, 5, 6, 1, 7, 8, 9, 10, 11, 12, 13, 8, 13, 14, 15, 16, 9, 16, 17, 18, 19, 20, 21, 22, 23, 24, 25, 20, 25, 26, 27, 28, 21, 28, 29, 30]
  bridges2elems := ⟨[0, 1, 3, 4, 5, 6, 7, 8, 9, 11, 13, 14, 15, 16, 18, 19, 20, 22, 23, 24, 25, 27, 29, 30, 31, 32, 34, 35, 36, 38, 39, 40], [0, 0, 1, 0, 0, 1, 1, 1, 2, 2, 3, 2, 5, 2, 3, 3, 3, 4, 4, 4, 4, 5, 5, 5, 6, 6, 7, 6, 9, 6, 7, 7, 7, 8, 8, 8, 8, 9, 9, 9]⟩
  isInterior := [0, 1, 0, 0, 0, 0, 0, 0, 1, 1, 1, 0, 0, 1, 0, 0, 1, 0, 1, 0, 1, 1, 1, 0, 0, 1, 0, 1, 1, 1, 1]
  children := ⟨[0, 0, 2, 2, 2, 4, 6, 8, 8, 10, 10, 10, 12, 14, 16, 16, 16, 16, 16, 16, 16, 16, 16, 16, 16, 16, 16, 16, 16, 16, 16, 16], [10, 18, 7, 11, 12, 14, 17, 15, 22, 30, 19, 23, 24, 26, 29, 27]⟩

theorem fan_of_pairs (o : List Nat) (h0 : o[0]? = some 0) (h : ∀ p ∈ o.zip o.tail, p.1 ≤ p.2) : IsFan o := by
  refine ⟨h0, ?_⟩
  intro i lo hi h1 h2
  apply h (lo, hi)
  rw [List.mem_iff_getElem?]
  refine ⟨i, ?_⟩
  rw [List.getElem?_zip_eq_some, List.getElem?_tail]
  exact ⟨h1, h2⟩

theorem threeLevels_ok : AmrConsistent threeLevels 10 31 := by
  refine ⟨rfl, rfl, rfl, rfl, by decide, fan_of_pairs _ rfl (by decide), rfl, rfl, by decide, rfl, fan_of_pairs _ rfl (by decide), rfl, by decide, ?_⟩
  have key : (List.range 40).all (fun i => (threeLevels.elems2bridges[i]?).all (fun bridge =>
      (threeLevels.isInterior[bridge]? == some 0) || (threeLevels.children.a2ab[bridge]?).all (fun lo =>
        (threeLevels.children.a2ab[bridge + 1]?).all (fun hi => (List.range 16).all (fun c => c < lo || hi ≤ c ||
          (threeLevels.children.ab2b[c]?).all (fun child => (threeLevels.bridges2elems.a2ab[child]?).any (fun x =>
            threeLevels.bridges2elems.a2ab[child + 1]? == some (x + 1)))))))) = true := by decide +kernel
  intro e b bridge c child he hb h1 ⟨x, h2, h3⟩ _ ⟨lo, hi, f1, f2, f3, f4⟩ h5
  have hb : b < 4 := hb
  have h1 : threeLevels.elems2bridges[e * 4 + b]? = some bridge := h1
  have hc : c < 16 := by
    have : c < threeLevels.children.ab2b.length := (List.getElem?_eq_some_iff.1 h5).1
    exact this
  have k := List.all_eq_true.1 key (e * 4 + b) (List.mem_range.2 (by omega))
  rw [h1, Option.all_some, h2, f1, Option.all_some, f2, Option.all_some] at k
  have hx : (some x == some (0 : Int)) = false := by simpa using h3
  rw [hx, Bool.false_or] at k
  have k := List.all_eq_true.1 k c (List.mem_range.2 hc)
  rw [h5, Option.all_some] at k
  have e1 : decide (c < lo) = false := by simp; omega
  have e2 : decide (hi ≤ c) = false := by simp; omega
  rw [e1, e2, Bool.false_or, Bool.false_or] at k
  cases hy : threeLevels.bridges2elems.a2ab[child]? with
  | none => rw [hy] at k; simp at k
  | some y =>
    rw [hy, Option.any_some] at k
    exact ⟨y, rfl, by simpa using k⟩

/-- Square 2 is coarser than its neighbours 6 and 9. -/
theorem finer_2_6 : FinerNeighbour threeLevels 2 6 :=
  ⟨1, 8, 8, 22, by decide, rfl, ⟨1, rfl, by decide⟩, rfl, ⟨8, 10, rfl, rfl, by decide, by decide⟩, rfl,
    29, ⟨29, 30, rfl, rfl, by decide, by decide⟩, rfl⟩

/-- Square 0 is coarser than its neighbours 2 and 5. -/
theorem finer_0_2 : FinerNeighbour threeLevels 0 2 :=
  ⟨1, 1, 0, 10, by decide, rfl, ⟨1, rfl, by decide⟩, rfl, ⟨0, 2, rfl, rfl, by decide, by decide⟩, rfl,
    13, ⟨13, 14, rfl, rfl, by decide, by decide⟩, rfl⟩

/-- Only square 6 is chosen for division. -/
def chosen6 : List Int := [0, 0, 0, 0, 0, 0, 1, 0, 0, 0]

/-- Dividing 6 forces dividing 2, and that forces dividing 0. -/
theorem must_0 : MustDivide threeLevels chosen6 0 :=
  .again (l := 1) rfl (by decide) finer_0_2 (.next (l := 1) rfl (by decide) finer_2_6 (m := 1) rfl (by decide))

/-- A leaf that must be divided is missed; the result depends on the schedule and on what the array contained before the
loop, and a leaf may be marked that need not be divided. -/
theorem C41_2to1_refuted :
    AmrConsistent threeLevels 10 31 ∧ MustDivide threeLevels chosen6 0 ∧
    enforce2to1 Sched.serial threeLevels 10 chosen6 (List.replicate 10 0) = some [0, 0, 1, 0, 0, 0, 1, 0, 0, 0] ∧
    enforce2to1 Sched.reversed threeLevels 10 chosen6 (List.replicate 10 0) = some [1, 0, 1, 0, 0, 0, 1, 0, 0, 0] ∧
    (∀ e, ¬ MustDivide threeLevels (List.replicate 10 0) e) ∧
    enforce2to1 Sched.serial threeLevels 10 (List.replicate 10 0) (List.replicate 10 7) = some [1, 0, 1, 0, 1, 0, 0, 0, 0, 0] := by
  refine ⟨threeLevels_ok, must_0, by decide +kernel, by decide +kernel, ?_, by decide +kernel⟩
  intro e he
  induction he with
  | marked _ _ m1 m2 => exact m2 (List.eq_of_mem_replicate (List.mem_of_getElem? m1))
  | next _ _ _ m1 m2 => exact m2 (List.eq_of_mem_replicate (List.mem_of_getElem? m1))
  | again _ _ _ _ ih => exact ih

/-- Square 4 is coarser than its neighbours 8 and 9. -/
theorem finer_4_8 : FinerNeighbour threeLevels 4 8 :=
  ⟨0, 13, 15, 27, by decide, rfl, ⟨1, rfl, by decide⟩, rfl, ⟨14, 16, rfl, rfl, by decide, by decide⟩, rfl,
    35, ⟨35, 36, rfl, rfl, by decide, by decide⟩, rfl⟩

/-- The settled hypothesis is met when squares 2, 6 and 8 are chosen. -/
example : ∃ out, (∀ s garbage, garbage.length = 10 →
    enforce2to1 s threeLevels 10 [0, 0, 1, 0, 0, 0, 1, 0, 1, 0] garbage = some out) ∧ out[0]? = some 1 := by
  obtain ⟨out, h1, h2⟩ := C41_2to1_settled threeLevels_ok (marked := [0, 0, 1, 0, 0, 0, 1, 0, 1, 0]) rfl (by
    intro e e' ⟨l, l1, l2⟩ hn ⟨b, bridge, c, child, hb, h1, ⟨x, h2, h3⟩, h4, _⟩
    have key : (List.range 10).all (fun e => (List.range 4).all (fun b => (threeLevels.elems2bridges[e * 4 + b]?).all (fun bridge =>
      threeLevels.isInterior[bridge]? == some 0 || threeLevels.isBridgeLeaf[bridge]? != some 0 ||
        threeLevels.isElemLeaf[e]? == some 0 || e == 0 || e == 2 || e == 4))) = true := by
      decide +kernel
    have hb : b < 4 := hb
    have he : e < 10 := (List.getElem?_eq_some_iff.1 l1).1
    have h1 : threeLevels.elems2bridges[e * 4 + b]? = some bridge := h1
    have k := List.all_eq_true.1 (List.all_eq_true.1 key e (List.mem_range.2 he)) b (List.mem_range.2 hb)
    rw [h1, Option.all_some, h2, h4, l1] at k
    have hx : (some x == some (0 : Int)) = false := by simpa using h3
    have hl : (some l == some (0 : Int)) = false := by simpa using l2
    rw [hx, hl] at k
    have : e = 0 ∨ e = 2 ∨ e = 4 := by simpa [or_assoc] using k
    rcases this with rfl | rfl | rfl
    · exact ⟨2, finer_0_2, 1, rfl, by decide⟩
    · exact absurd ⟨1, rfl, by decide⟩ hn
    · exact ⟨8, finer_4_8, 1, rfl, by decide⟩)
  obtain ⟨v, v1, v2, v3⟩ := h2 0 (by decide)
  refine ⟨out, h1, ?_⟩
  rw [v1, v3.2 (.next (l := 1) rfl (by decide) finer_0_2 (m := 1) rfl (by decide))]

/-! ## Vertices of the children -/

/-- A loop that appends blocks of the same length after the part of an array that is already written. -/
theorem parSegment {α : Type} (s : Sched) (n w r : Nat) (B : Nat → List α) (done : List α)
    (W : Nat → Option (List (Nat × α)))
    (hB : ∀ i, i < n → (B i).length = w) (hr : n * w ≤ r)
    (hW : ∀ i, i < n → W i = some (blockWrites (done.length + i * w) (B i))) :
    parScatter s n W (done.map some ++ List.replicate r none) =
      some ((done ++ (List.range n).flatMap B).map some ++ List.replicate (r - n * w) none) := by
  have hoff : ∀ i, i ≤ n → blockOff B i = i * w := by
    intro i hi
    induction i with
    | zero => simp [blockOff]
    | succ k ih => rw [blockOff_succ, ih (by omega), hB k (by omega), Nat.add_mul, Nat.one_mul]
  have hlen : ((List.range n).flatMap B).length = n * w := by
    rw [← hoff n (Nat.le_refl n), ← blocks_length, List.flatMap_def]
  have hget : ∀ i j, i < n → j < w → ((List.range n).flatMap B)[i * w + j]? = (B i)[j]? := by
    intro i j hi hj
    have := blocks_get B hi (j := j) (by rw [hB i hi]; exact hj)
    rw [hoff i (by omega)] at this
    rw [List.flatMap_def]; exact this
  obtain ⟨m', p1, p2, p3, p4⟩ := parScatter_specO s n W (fun i => blockWrites (done.length + i * w) (B i))
    (fun p => (done ++ (List.range n).flatMap B)[p]?) (done.map some ++ List.replicate r none) hW (by
      intro i hi p v hp
      obtain ⟨j, rfl, hj⟩ := (mem_blockWrites _ _ _ _).1 hp
      have hjw : j < w := by
        have := (List.getElem?_eq_some_iff.1 hj).1
        rw [hB i hi] at this; exact this
      have : i * w + j < n * w := by
        have := Nat.mul_le_mul_right w (show i + 1 ≤ n by omega)
        rw [Nat.add_mul] at this; omega
      constructor
      · simp; omega
      · rw [List.getElem?_append_right (by omega)]
        rw [show done.length + i * w + j - done.length = i * w + j by omega, hget i j hi hjw]
        exact hj)
  rw [p1]
  congr 1
  apply List.ext_getElem?
  intro p
  by_cases h1 : p < done.length
  · rw [p4 p (by
      intro i hi v hp
      obtain ⟨j, rfl, hj⟩ := (mem_blockWrites _ _ _ _).1 hp
      omega)]
    rw [List.map_append, List.append_assoc, List.getElem?_append_left (by simpa using h1), List.getElem?_append_left (by simpa using h1)]
  · by_cases h2 : p < done.length + n * w
    · have hw : 0 < w := by
        rcases Nat.eq_zero_or_pos w with rfl | h
        · omega
        · exact h
      have hi : (p - done.length) / w < n := (Nat.div_lt_iff_lt_mul hw).2 (by omega)
      have hj : (p - done.length) % w < w := Nat.mod_lt _ hw
      have hp : p = done.length + (p - done.length) / w * w + (p - done.length) % w := by
        have := Nat.div_add_mod' (p - done.length) w; omega
      have hv : ∃ v, (B ((p - done.length) / w))[(p - done.length) % w]? = some v :=
        ⟨_, List.getElem?_eq_getElem (by rw [hB _ hi]; exact hj)⟩
      obtain ⟨v, hv⟩ := hv
      rw [p3 _ hi p v ((mem_blockWrites _ _ _ _).2 ⟨_, hp, hv⟩)]
      symm
      rw [List.getElem?_append_left (by simp [hlen]; omega), List.getElem?_map]
      rw [List.getElem?_eq_getElem (by simp [hlen]; omega)]
      rfl
    · rw [p4 p (by
        intro i hi v hp
        obtain ⟨j, rfl, hj⟩ := (mem_blockWrites _ _ _ _).1 hp
        have hjw : j < w := by
          have := (List.getElem?_eq_some_iff.1 hj).1
          rw [hB i hi] at this; exact this
        have := Nat.mul_le_mul_right w (show i + 1 ≤ n by omega)
        rw [Nat.add_mul] at this; omega)]
      rw [List.getElem?_append_right (by simp; omega), List.getElem?_append_right (by simp [hlen]; omega)]
      rw [List.getElem?_replicate, List.getElem?_replicate]
      simp only [List.length_map, List.length_append, hlen]
      by_cases h3 : p < done.length + r
      · rw [if_pos (by omega), if_pos (by omega)]
      · rw [if_neg (by omega), if_neg (by omega)]

theorem midVertex_spec {mds2mods : Nat → List Int} {mods2midverts : Nat → List Nat} {childVerts : Nat → Graph}
    {old2new : List Nat} {dim low v : Nat} (h : HasMid mds2mods mods2midverts childVerts old2new dim low v) :
    midVertex mds2mods mods2midverts childVerts old2new dim low = some v := by
  unfold midVertex
  rcases h with ⟨m, h1, h2⟩ | ⟨h1, k, old, h2, h3, h4, h5⟩
  · rw [h1, Option.bind_some, if_neg (by omega), if_neg (by omega), Int.toNat_natCast]; exact h2
  · rw [h1, Option.bind_some, if_pos rfl, h2, Option.bind_some, h3, Option.bind_some, if_neg (by omega), h4]; exact h5

/-- The vertices of the children of all divided entities: `get_refined_topology` lists, parent dimension by parent
dimension, entity by entity, child by child, the vertices in the middle of the sides the templates choose. `X d mod child vert` is any
naming of those middle vertices. -/
theorem C41_topology (s : Nat → Sched) {spatialDim childDim : Nat} (hs : spatialDim ≤ 3) (hc1 : 1 ≤ childDim) (hc : childDim ≤ spatialDim)
    {numChildren : Nat} {mods2mds : Nat → List Nat} {mds2mods : Nat → List Int} {mods2midverts : Nat → List Nat}
    {childVerts : Nat → Graph} {old2new : List Nat} {lows : Nat → Nat → List Nat}
    (hn : numChildren = ((List.range' childDim (spatialDim + 1 - childDim)).map
      (fun d => (mods2midverts d).length * (hypercubeSplitDegree d childDim).toNat)).sum)
    (X : Nat → Nat → Nat → Nat → Nat)
    (hX : ∀ d, childDim ≤ d → d ≤ spatialDim → ∀ mod, mod < (mods2midverts d).length → ∃ md, (mods2mds d)[mod]? = some md ∧
      ∀ child : Nat, (child : Int) < hypercubeSplitDegree d childDim → ∀ vert : Nat, vert < 2 ^ childDim →
      ∃ lowDim low id : Nat, hypercubeSplitTemplate d childDim child vert = ((lowDim : Int), (low : Int)) ∧
        (lows d lowDim)[md * (hypercubeDegree d lowDim).toNat + low]? = some id ∧
        HasMid mds2mods mods2midverts childVerts old2new lowDim id (X d mod child vert)) :
    refinedTopology s spatialDim childDim numChildren mods2mds mds2mods mods2midverts childVerts old2new lows =
      some ((List.range' childDim (spatialDim + 1 - childDim)).flatMap (fun d =>
        (List.range (mods2midverts d).length).flatMap (fun mod =>
          (List.range (hypercubeSplitDegree d childDim).toNat).flatMap (fun child : Nat =>
            (List.range (2 ^ childDim)).map (fun vert : Nat => X d mod child vert))))) := by
  have hnv : (hypercubeDegree (childDim : Int) 0).toNat = 2 ^ childDim := by
    have : ∀ c ∈ [1, 2, 3], (hypercubeDegree ((c : Nat) : Int) 0).toNat = 2 ^ c := by decide
    exact this childDim (by simp; omega)
  have hkids : ∀ d, childDim ≤ d → d ≤ spatialDim → ∀ mod, mod < (mods2midverts d).length → ∃ md, (mods2mds d)[mod]? = some md ∧
      childVertsOf d childDim (lows d) (midVertex mds2mods mods2midverts childVerts old2new) md =
        some ((List.range (hypercubeSplitDegree d childDim).toNat).flatMap (fun child : Nat =>
            (List.range (2 ^ childDim)).map (fun vert : Nat => X d mod child vert))) := by
    intro d hd1 hd2 mod hmod
    obtain ⟨md, e1, e2⟩ := hX d hd1 hd2 mod hmod
    refine ⟨md, e1, ?_⟩
    unfold childVertsOf
    rw [mapM_range_some _ _ (fun child => (List.range (2 ^ childDim)).map (fun vert => X d mod child vert))]
    · rw [Option.map_some, List.flatMap_def]
    · intro child hch
      rw [hnv]
      apply mapM_range_some
      intro vert hv
      obtain ⟨lowDim, low, id, t1, t2, t3⟩ := e2 child (by omega) vert hv
      simp only [t1]
      rw [if_neg (by omega), Int.toNat_natCast, Int.toNat_natCast, t2, Option.bind_some]
      exact midVertex_spec t3
  have hfold : ∀ k a (done : List Nat) (r : Nat), childDim ≤ a → a + k = spatialDim + 1 →
      r = ((List.range' a k).map (fun d => (mods2midverts d).length * (hypercubeSplitDegree d childDim).toNat)).sum * 2 ^ childDim →
      ((List.range' a k).foldlM (fun (st : Nat × Mem Nat) (d : Nat) =>
        let nc := (hypercubeSplitDegree d childDim).toNat
        let nmods := (mods2midverts d).length
        (parScatter (s d) nmods (fun mod =>
          ((mods2mds d)[mod]?).bind (fun md =>
          (childVertsOf d childDim (lows d) (midVertex mds2mods mods2midverts childVerts old2new) md).map (fun vs =>
            blockWrites (st.1 + mod * nc * 2 ^ childDim) vs))) st.2).map (fun m => (st.1 + nmods * nc * 2 ^ childDim, m)))
        (done.length, (done.map some ++ List.replicate r none : Mem Nat))) =
      some (done.length + r, (done ++ (List.range' a k).flatMap (fun d =>
        (List.range (mods2midverts d).length).flatMap (fun mod =>
          (List.range (hypercubeSplitDegree d childDim).toNat).flatMap (fun child : Nat =>
            (List.range (2 ^ childDim)).map (fun vert : Nat => X d mod child vert))))).map some) := by
    intro k
    induction k with
    | zero => intro a done r _ _ hr; simp at hr; subst hr; simp
    | succ k ih =>
      intro a done r ha hk hr
      rw [List.range'_succ, List.map_cons, List.sum_cons, Nat.add_mul] at hr
      rw [List.range'_succ, List.foldlM_cons, List.flatMap_cons]
      have hB : ∀ mod, mod < (mods2midverts a).length →
          ((List.range (hypercubeSplitDegree a childDim).toNat).flatMap (fun child : Nat =>
            (List.range (2 ^ childDim)).map (fun vert : Nat => X a mod child vert))).length =
          (hypercubeSplitDegree a childDim).toNat * 2 ^ childDim := by
        intro mod _
        simp [List.length_flatMap]
      simp only []
      rw [parSegment (s a) _ ((hypercubeSplitDegree a childDim).toNat * 2 ^ childDim) r
        (fun mod => (List.range (hypercubeSplitDegree a childDim).toNat).flatMap (fun child : Nat =>
            (List.range (2 ^ childDim)).map (fun vert : Nat => X a mod child vert))) done _ hB
        (by rw [← Nat.mul_assoc]; omega) (by
          intro mod hmod
          obtain ⟨md, m1, m2⟩ := hkids a ha (by omega) mod hmod
          rw [m1, Option.bind_some, m2, Option.map_some, Nat.mul_assoc])]
      rw [Option.map_some, Option.bind_eq_bind, Option.bind_some]
      have hl : done.length + (mods2midverts a).length * (hypercubeSplitDegree a childDim).toNat * 2 ^ childDim =
          (done ++ (List.range (mods2midverts a).length).flatMap (fun mod =>
            (List.range (hypercubeSplitDegree a childDim).toNat).flatMap (fun child : Nat =>
            (List.range (2 ^ childDim)).map (fun vert : Nat => X a mod child vert)))).length := by
        simp [List.length_flatMap, Nat.mul_assoc]
      rw [hl, ih (a + 1) _ (r - (mods2midverts a).length * ((hypercubeSplitDegree a childDim).toNat * 2 ^ childDim)) (by omega) (by omega)
        (by rw [← Nat.mul_assoc]; omega)]
      rw [← hl, List.append_assoc]
      congr 2
      rw [← Nat.mul_assoc]
      omega
  unfold refinedTopology
  simp only [hnv]
  have := hfold (spatialDim + 1 - childDim) childDim [] (numChildren * 2 ^ childDim) (Nat.le_refl _) (by omega) (by rw [hn])
  simp only [List.map_nil, List.nil_append, List.length_nil] at this
  rw [show (Mem.alloc (numChildren * 2 ^ childDim) : Mem Nat) = List.replicate (numChildren * 2 ^ childDim) none from rfl]
  rw [this, Option.bind_some]
  exact Mem.toArray?_map_some _

/-- A square with vertices 0 to 3 divided in four: 4 to 7 are the middles of its edges, 8 is its centre. -/
def oneSquareMids : Nat → List Nat
  | 0 => [0, 1, 2, 3]
  | 1 => [4, 5, 6, 7]
  | 2 => [8]
  | _ => []

example (s : Nat → Sched) :
    refinedTopology s 2 2 4 (fun d => if d = 2 then [0] else [0, 1, 2, 3]) (fun d => if d = 2 then [0] else [0, 1, 2, 3])
      oneSquareMids (fun _ => ⟨[], []⟩) [] (fun _ low => if low = 2 then [0] else [0, 1, 2, 3]) =
    some [0, 4, 8, 7, 4, 1, 5, 8, 8, 5, 2, 6, 7, 8, 6, 3] := by
  rw [C41_topology s (by decide) (by decide) (by decide) (by decide +kernel)
    (fun _ _ child vert => [[0, 4, 8, 7], [4, 1, 5, 8], [8, 5, 2, 6], [7, 8, 6, 3]][child]![vert]!)]
  · decide +kernel
  · intro d h1 h2 mod hmod
    have : d = 2 := by omega
    subst this
    have : mod = 0 := by
      have : mod < 1 := hmod
      omega
    subst this
    refine ⟨0, rfl, ?_⟩
    intro child hch vert hv
    have hch : child < 4 := by
      have : hypercubeSplitDegree 2 2 = 4 := by decide
      have h : (child : Int) < hypercubeSplitDegree 2 2 := hch
      omega
    have key : ∀ child ∈ List.range 4, ∀ vert ∈ List.range 4, ∃ lowDim ∈ List.range 3, ∃ low ∈ List.range 4,
        hypercubeSplitTemplate 2 2 ((child : Nat) : Int) ((vert : Nat) : Int) = (((lowDim : Nat) : Int), ((low : Nat) : Int)) ∧
        (if lowDim = 2 then [0] else [0, 1, 2, 3])[0 * (hypercubeDegree 2 ((lowDim : Nat) : Int)).toNat + low]? = some low ∧
        (if lowDim = 2 then [(0 : Int)] else [0, 1, 2, 3])[low]? = some (low : Int) ∧
        (oneSquareMids lowDim)[low]? = some ([[0, 4, 8, 7], [4, 1, 5, 8], [8, 5, 2, 6], [7, 8, 6, 3]][child]![vert]!) := by
      decide +kernel
    obtain ⟨lowDim, _, low, _, k1, k2, k3, k4⟩ := key child (List.mem_range.2 hch) vert (List.mem_range.2 hv)
    exact ⟨lowDim, low, low, k1, k2, Or.inl ⟨low, k3, k4⟩⟩

end OmegaH
