import Verif.Lemmas.Build
import Verif.Lemmas.Expr
import Verif.Props.C21
import Verif.Props.C43
/-!
# Canonical entities and their servers
-/
namespace OmegaH
open Spec

theorem getD_lt {l : List Nat} {k : Nat} (h : k < l.length) : l.getD k 0 = l[k] := by
  rw [List.getD_eq_getElem?_getD, List.getElem?_eq_getElem h]; rfl

theorem rotateOnce_map {α β : Type} (f : α → β) (l : List α) : rotateOnce (l.map f) = (rotateOnce l).map f := by
  unfold rotateOnce
  rw [List.getLast?_map]
  cases l.getLast? with
  | none => rfl
  | some x => simp

theorem rotate_map {α β : Type} (f : α → β) (r : Nat) (l : List α) : rotate r (l.map f) = (rotate r l).map f := by
  induction r with
  | zero => rfl
  | succ r ih =>
    show rotateOnce (rotate r (l.map f)) = (rotateOnce (rotate r l)).map f
    rw [ih, rotateOnce_map]

theorem align_map {α β : Type} (f : α → β) (fl : Bool) (r : Nat) (l : List α) : align fl r (l.map f) = (align fl r l).map f := by
  unfold align
  rw [rotate_map]
  cases fl with
  | false => rfl
  | true =>
    show Spec.flip _ = (Spec.flip _).map f
    cases rotate r l with
    | nil => rfl
    | cons x l => simp [Spec.flip]

theorem rotateOnce_perm {α : Type} (l : List α) : (rotateOnce l).Perm l := by
  unfold rotateOnce
  cases h : l.getLast? with
  | none => rw [List.getLast?_eq_none_iff] at h; subst h; exact List.Perm.refl _
  | some x =>
    have this : l.dropLast ++ [x] = l := by
      obtain ⟨l', rfl⟩ : ∃ l', l = l' ++ [x] := List.getLast?_eq_some_iff.1 h
      rw [List.dropLast_concat]
    calc (x :: l.dropLast).Perm (l.dropLast ++ [x]) := (List.perm_append_singleton x l.dropLast).symm
      _ = l := this

theorem align_perm {α : Type} (fl : Bool) (r : Nat) (l : List α) : (align fl r l).Perm l := by
  have h1 : ∀ r, (rotate r l).Perm l := by
    intro r
    induction r with
    | zero => exact List.Perm.refl _
    | succ r ih => exact (rotateOnce_perm _).trans ih
  unfold align
  cases fl with
  | false => exact h1 r
  | true =>
    refine List.Perm.trans ?_ (h1 r)
    show (Spec.flip _).Perm _
    cases rotate r l with
    | nil => exact List.Perm.refl _
    | cons x l => exact (List.reverse_perm l).cons x

theorem samePolygon_perm {α : Type} {a b : List α} (h : SamePolygon a b) : b.Perm a := by
  obtain ⟨f, r, rfl⟩ := h
  exact align_perm f r a

theorem samePolygon_map {α β : Type} (f : α → β) {a b : List α} (h : SamePolygon a b) : SamePolygon (a.map f) (b.map f) := by
  obtain ⟨fl, r, rfl⟩ := h
  exact ⟨fl, r, align_map f fl r a⟩

/-- Two lists of vertices of a rank describe the same polygon if their global numbers do. -/
theorem samePolygon_of_map {α β : Type} (f : α → β) {a b : List α} (hf : ∀ x ∈ a, ∀ y ∈ b, f x = f y → x = y)
    (h : SamePolygon (a.map f) (b.map f)) : SamePolygon a b := by
  obtain ⟨fl, r, e⟩ := h
  refine ⟨fl, r, ?_⟩
  rw [align_map] at e
  have hl : (align fl r a).length = b.length := by
    have := congrArg List.length e
    simpa using this
  apply List.ext_getElem? 
  intro k
  have ek := congrArg (fun l : List β => l[k]?) e
  simp only [List.getElem?_map] at ek
  cases h1 : (align fl r a)[k]? with
  | none =>
    rw [h1] at ek
    cases h2 : b[k]? with
    | none => rfl
    | some y => rw [h2] at ek; simp at ek
  | some x =>
    rw [h1] at ek
    cases h2 : b[k]? with
    | none => rw [h2] at ek; simp at ek
    | some y =>
      rw [h2] at ek
      rw [hf x ((align_perm fl r a).mem_iff.1 (List.mem_of_getElem? h1)) y (List.mem_of_getElem? h2) (Option.some.inj ek)]

theorem vertGlobals_map {globals ev2v : List Nat} {deg ne i : Nat} (hl : ev2v.length = ne * deg) (hr : ∀ v ∈ ev2v, v < globals.length)
    (hi : i < ne) : vertGlobals globals ev2v deg i = some ((row ev2v deg i).map (fun v => globals.getD v 0)) := by
  unfold vertGlobals
  rw [if_pos (by rw [hl]; exact Nat.mul_le_mul_right _ hi)]
  have hm : ∀ v ∈ row ev2v deg i, globals[v]? = some (globals.getD v 0) := by
    intro v hv
    have := hr v (List.mem_of_mem_drop (List.mem_of_mem_take hv))
    rw [getD_lt this, List.getElem?_eq_getElem this]
  clear hl hr
  generalize row ev2v deg i = l at hm
  induction l with
  | nil => rfl
  | cons v l ih =>
    rw [List.mapM_cons, hm v List.mem_cons_self, ih (fun w hw => hm w (List.mem_cons_of_mem _ hw))]; rfl

theorem vertGlobals_some {globals ev2v : List Nat} {deg ne i : Nat} (hd : 0 < deg) (hl : ev2v.length = ne * deg) {a : List Nat}
    (h : vertGlobals globals ev2v deg i = some a) : i < ne := by
  unfold vertGlobals at h
  split at h
  · next hc =>
    rw [hl] at hc
    exact Nat.le_of_mul_le_mul_right hc hd
  · cases h

theorem canonicalEnts_spec (s : Nat → Sched) {deg : Nat} (hn : deg = 2 ∨ deg = 3 ∨ deg = 4) {total p : Nat} (hp : 0 < p) (hp' : p < 2 ^ 31)
    (hsz : total / p + 1 < 2 ^ 31) {size : Nat → Nat} (hsize : ∀ r : Nat, r < p → linearPartitionSize total p r = some (size r : Int))
    {globals ev2v : List Nat} {ne : Nat} (hg : ∀ g ∈ globals, g < total) (hl : ev2v.length = ne * deg) (hr : ∀ v ∈ ev2v, v < globals.length)
    (hd : ∀ i a, vertGlobals globals ev2v deg i = some a → a.Nodup) :
    ∃ x, canonicalEnts s deg total p globals ev2v = some x ∧ x.1.length = ne * deg ∧ x.2.1.length = ne * deg ∧
      x.2.2.ranks.length = ne ∧ x.2.2.idxs.length = ne ∧
      ∀ i, i < ne → (row x.2.1 deg i).Nodup ∧ IsCanon (row x.2.1 deg i) ∧ SamePolygon (row ev2v deg i) (row x.1 deg i) ∧
        row x.2.1 deg i = (row x.1 deg i).map (fun v => globals.getD v 0) ∧
        SamePolygon ((row ev2v deg i).map (fun v => globals.getD v 0)) (row x.2.1 deg i) ∧
        ∃ q y : Nat, x.2.2.ranks[i]? = some q ∧ x.2.2.idxs[i]? = some y ∧ q < p ∧ y < size q ∧
          (row x.2.1 deg i)[0]? = some (globalOf size q y) := by
  have hd0 : 0 < deg := by omega
  obtain ⟨ev2vg, u1, u2, u3⟩ := C05_unmap (s 0) ev2v globals 1 globals.length (by omega) hr
  rw [Nat.mul_one] at u2
  have hvg : ev2vg = ev2v.map (fun v => globals.getD v 0) := by
    apply List.ext_getElem?
    intro k
    rw [List.getElem?_map]
    by_cases hk : k < ev2v.length
    · have h1 := u3 k _ 0 (List.getElem?_eq_getElem hk) (by omega)
      rw [entry_one, entry_one] at h1
      have := hr _ (List.getElem_mem hk)
      rw [h1, List.getElem?_eq_getElem hk, Option.map_some, getD_lt this, List.getElem?_eq_getElem this]
    · rw [List.getElem?_eq_none (by omega), List.getElem?_eq_none (by omega)]; rfl
  have hlg : ev2vg.length = ne * deg := u2.trans hl
  have hrowg : ∀ i, row ev2vg deg i = (row ev2v deg i).map (fun v => globals.getD v 0) := by
    intro i
    rw [hvg, row_map]
  have hnd : ∀ i, i < ne → (row ev2vg deg i).Nodup := by
    intro i hi
    rw [hrowg]
    exact hd i _ (vertGlobals_map hl hr hi)
  have hc : ∀ u, u < ne → ∃ c, canonCode deg (row ev2vg deg u) = some c ∧ 0 ≤ c ∧ c < 8 ∧
      IsCanon (align (codeIsFlipped c) (codeRotation c).toNat (row ev2vg deg u)) := fun u hu =>
    canonCode_spec hn _ (row_length hlg hu) (hnd u hu)
  obtain ⟨codes, c1, c2, c3⟩ := parEach (s 1) ne (fun e => (rowAt ev2vg deg e).bind (canonCode deg)) (by
    intro u hu
    obtain ⟨c, h, _⟩ := hc u hu
    rw [rowAt_eq hlg hu, Option.bind_some, h]; rfl)
  have hcodes : getCodesToCanonical (s 1) deg ev2vg = some codes := by
    unfold getCodesToCanonical
    rw [if_pos hn, divide_no_rem (by omega) hlg, Option.bind_some, ← c1]
    congr 2
    funext e
    cases rowAt ev2vg deg e <;> rfl
  obtain ⟨canon, d1, d2, d3⟩ := C09_align_ev2v (s 2) deg hn ev2v codes (by rw [c2, hl])
  obtain ⟨cg, e1, e2, e3⟩ := C09_align_ev2v (s 3) deg hn ev2vg codes (by rw [c2, hlg])
  have hcode : ∀ i, i < ne → ∃ c, codes[i]? = some c ∧ IsCanon (align (codeIsFlipped c) (codeRotation c).toNat (row ev2vg deg i)) := by
    intro i hi
    obtain ⟨c, h, _, _, h'⟩ := hc i hi
    have := c3 i hi
    rw [rowAt_eq hlg hi, Option.bind_some, h] at this
    exact ⟨c, this, h'⟩
  obtain ⟨fv, f1, f2, f3⟩ := C43_get_component (s 4) canon ne deg 0 hd0 (d2.trans hl)
  obtain ⟨size', out, o1, o2, o3, o4⟩ := C07_linear_owners (s 5) globals total p hp hp' hsz hg
  have hsame : ∀ q, q < p → size' q = size q := by
    intro q hq
    have := Option.some.inj ((o3 q hq).symm.trans (hsize q hq))
    omega
  have hval : ∀ (k : Nat) o, out[k]? = some o → ∃ p x : Nat, o = ((p : Int), (x : Int)) := by
    intro k o hk
    have hkl := (List.getElem?_eq_some_iff.1 hk).1
    obtain ⟨p, x, h1, _⟩ := o4 k _ (List.getElem?_eq_getElem (show k < globals.length by omega))
    exact ⟨p, x, Option.some.inj (hk.symm.trans h1)⟩
  obtain ⟨ranks, a1, a2⟩ := toIndices?_of_nonneg (out.map Prod.fst) (by
    intro v hv
    obtain ⟨o, ho, rfl⟩ := List.mem_map.1 hv
    obtain ⟨k, hk⟩ := List.getElem?_of_mem ho
    obtain ⟨p, x, rfl⟩ := hval k o hk
    exact Int.natCast_nonneg p)
  obtain ⟨idxs, b1, b2⟩ := toIndices?_of_nonneg (out.map Prod.snd) (by
    intro v hv
    obtain ⟨o, ho, rfl⟩ := List.mem_map.1 hv
    obtain ⟨k, hk⟩ := List.getElem?_of_mem ho
    obtain ⟨p, x, rfl⟩ := hval k o hk
    exact Int.natCast_nonneg x)
  have hlr : ranks.length = globals.length := by
    have := congrArg List.length a2
    rw [← o2]
    simpa using this.symm
  have hli : idxs.length = globals.length := by
    have := congrArg List.length b2
    rw [← o2]
    simpa using this.symm
  have hfv : ∀ i, i < ne → ∃ v, fv[i]? = some v ∧ (row canon deg i)[0]? = some v ∧ v < globals.length := by
    intro i hi
    have h1 := f3 i hi
    rw [← row_get canon i hd0] at h1
    have hlen := row_length (d2.trans hl) hi
    obtain ⟨c, hc1, _⟩ := hcode i hi
    refine ⟨(row canon deg i)[0]'(by omega), by rw [h1, List.getElem?_eq_getElem], List.getElem?_eq_getElem _, ?_⟩
    have hm2 := (samePolygon_perm ⟨_, _, (d3 i c hc1).symm⟩).mem_iff.1 (List.getElem_mem (l := row canon deg i) (n := 0) (by omega))
    exact hr _ (List.mem_of_mem_drop (List.mem_of_mem_take hm2))
  obtain ⟨e2ov, w1, w2, w3, w4⟩ := unmapRemotes_spec (s 6) (s 7) fv ⟨ranks, idxs⟩ globals.length (by
    intro v hv
    obtain ⟨k, hk⟩ := List.getElem?_of_mem hv
    obtain ⟨v', e, _, h⟩ := hfv k (by have := (List.getElem?_eq_some_iff.1 hk).1; omega)
    rw [Option.some.inj (hk.symm.trans e)]; exact h) hlr hli
  refine ⟨(canon, cg, e2ov), ?_, d2.trans hl, e2.trans hlg, by rw [w2, f2], by rw [w3, f2], ?_⟩
  · unfold canonicalEnts
    rw [u1, Option.bind_some, hcodes, Option.bind_some, d1, Option.bind_some, e1, Option.bind_some, f1, Option.bind_some,
      o1, Option.bind_some, a1, Option.bind_some, b1, Option.bind_some, w1]
    rfl
  · intro i hi
    obtain ⟨c, hc1, hc2⟩ := hcode i hi
    have r1 := d3 i c hc1
    have r2 := e3 i c hc1
    have hmap : row cg deg i = (row canon deg i).map (fun v => globals.getD v 0) := by
      rw [r1, r2, hrowg, align_map]
    obtain ⟨v, v1, v2, v3⟩ := hfv i hi
    obtain ⟨q, y, h1, h2, h3, h4⟩ := o4 v _ (List.getElem?_eq_getElem v3)
    have hget : ∀ (l : List Int) (m : List Nat) (z : Nat), l = m.map Int.ofNat → l[v]? = some (z : Int) → m[v]? = some z := by
      intro l m z e hv
      rw [e, List.getElem?_map] at hv
      cases hm : m[v]? with
      | none => rw [hm] at hv; simp at hv
      | some y =>
        rw [hm] at hv
        have hv : Int.ofNat y = (z : Int) := Option.some.inj hv
        rw [Int.ofNat.inj hv]
    have hq := hget _ _ q a2 (by rw [List.getElem?_map, h1]; rfl)
    have hy := hget _ _ y b2 (by rw [List.getElem?_map, h1]; rfl)
    obtain ⟨x1, x2⟩ := w4 i v v1
    refine ⟨?_, ?_, ⟨_, _, r1.symm⟩, hmap, ?_, q, y, x1.trans hq, x2.trans hy, h2, ?_, ?_⟩
    · show (row cg deg i).Nodup
      rw [r2]
      exact (align_perm _ _ _).nodup_iff.2 (hnd i hi)
    · show IsCanon (row cg deg i)
      rw [r2]; exact hc2
    · rw [← hrowg]; exact ⟨_, _, r2.symm⟩
    · rw [← hsame q h2]; exact h3
    · show (row cg deg i)[0]? = _
      rw [hmap, List.getElem?_map, v2, Option.map_some, getD_lt v3, h4]
      congr 1
      unfold globalOf
      congr 2
      apply List.map_congr_left
      intro t ht
      exact hsame t (by have := List.mem_range.1 ht; omega)

end OmegaH
