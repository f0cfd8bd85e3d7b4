import Verif.Spec.Closure
import Verif.Props.C56World
import Verif.Props.C39
import Verif.Props.C43
/-!
# Marking entities of a distributed mesh
-/
namespace OmegaH
open Spec

theorem beside_lt {g : Graph} {nl nh l h : Nat} (hg : GoodGraph g nl nh) (hb : Beside g l h) : l < nl ∧ h < nh := by
  obtain ⟨lo, hi, k, h1, h2, h3, h4, h5⟩ := hb
  obtain ⟨_, g2, _, g4⟩ := hg
  have := (List.getElem?_eq_some_iff.1 h2).1
  exact ⟨by omega, g4 h (List.mem_of_getElem? h5)⟩

/-- What is read in a row of a good graph is there. -/
theorem goodRow_get {g : Graph} {nl nh l : Nat} (hg : GoodGraph g nl nh) (hl : l < nl) : ∃ lo hi : Nat,
    g.a2ab[l]? = some lo ∧ g.a2ab[l + 1]? = some hi ∧ lo ≤ hi ∧ ∀ k, k < hi → ∃ h, g.ab2b[k]? = some h ∧ h < nh := by
  obtain ⟨g1, g2, g3, g4⟩ := hg
  have e1 : g.a2ab[l]? = some g.a2ab[l] := List.getElem?_eq_getElem (by omega)
  have e2 : g.a2ab[l + 1]? = some g.a2ab[l + 1] := List.getElem?_eq_getElem (by omega)
  obtain ⟨m, f1, f2⟩ := fan_last g1
  obtain rfl := Option.some.inj (f1.symm.trans g3)
  have hle := fan_le g1 (show l + 1 ≤ g.a2ab.length - 1 by omega) e2 f2
  refine ⟨_, _, e1, e2, fan_le g1 (Nat.le_succ l) e1 e2, ?_⟩
  intro k hk
  have e3 : g.ab2b[k]? = some g.ab2b[k] := List.getElem?_eq_getElem (by omega)
  exact ⟨_, e3, g4 _ (List.getElem_mem _)⟩

/-- `mark_down` on a graph. -/
theorem markDown_spec (s : Sched) (g : Graph) {nl nh : Nat} (hg : GoodGraph g nl nh) (high : List Int) (hh : high.length = nh) :
    ∃ out, markDown s g high = some out ∧ out.length = nl ∧ IsMarks out ∧
      ∀ l, l < nl → (Marked out l ↔ ∃ h m, Beside g l h ∧ high[h]? = some m ∧ m ≠ 0) := by
  have hn : g.a2ab.length - 1 = nl := by have := hg.2.1; omega
  obtain ⟨out, o1, o2, o3, o4⟩ := parScatter_ontoR s nl (fun l => (fanMembers g.a2ab l).bind (fun lhs =>
    (lhs.mapM (fun lh => (g.ab2b[lh]?).bind (fun h => (high[h]?).map (fun m =>
      if m ≠ 0 then [(l, (1 : Int))] else [])))).map List.flatten))
    (fun l p v => p = l ∧ v = 1 ∧ ∃ h m, Beside g l h ∧ high[h]? = some m ∧ m ≠ 0)
    (fun _ => some 1) (List.replicate nl 0) (by
      intro l hl
      obtain ⟨lo, hi, e1, e2, e3, e4⟩ := goodRow_get hg hl
      have hf : fanMembers g.a2ab l = some (List.range' lo (hi - lo)) := by unfold fanMembers; rw [e1, e2]
      obtain ⟨rows, r1, r2, r3, r4⟩ := mapM_list_spec (List.range' lo (hi - lo))
        (fun lh => (g.ab2b[lh]?).bind (fun h => (high[h]?).map (fun m => if m ≠ 0 then [(l, (1 : Int))] else []))) (by
          intro k hk
          rw [List.mem_range'_1] at hk
          obtain ⟨h, k1, k2⟩ := e4 k (by omega)
          rw [k1, Option.bind_some, List.getElem?_eq_getElem (show h < high.length by omega)]
          rfl)
      rw [hf, Option.bind_some, r1]
      refine ⟨_, rfl, ?_⟩
      intro p v
      rw [List.mem_flatten]
      constructor
      · rintro ⟨row, hrow, hp⟩
        obtain ⟨k, hk, e⟩ := (r3 row).1 hrow
        rw [List.mem_range'_1] at hk
        obtain ⟨h, k1, k2⟩ := e4 k (by omega)
        have lm := List.getElem?_eq_getElem (show h < high.length by omega)
        rw [k1, Option.bind_some, lm, Option.map_some, Option.some.injEq] at e
        subst e
        split at hp
        next hne =>
          simp only [List.mem_singleton, Prod.mk.injEq] at hp
          exact ⟨hp.1, hp.2, h, _, ⟨lo, hi, k, e1, e2, by omega, by omega, k1⟩, lm, hne⟩
        next => simp at hp
      · rintro ⟨rfl, rfl, h, m, ⟨lo', hi', k, b1, b2, b3, b4, b5⟩, hm, hne⟩
        obtain rfl := Option.some.inj (b1.symm.trans e1)
        obtain rfl := Option.some.inj (b2.symm.trans e2)
        refine ⟨[(p, 1)], (r3 _).2 ⟨k, by rw [List.mem_range'_1]; omega, ?_⟩, by simp⟩
        rw [b5, Option.bind_some, hm, Option.map_some, if_pos hne]) (by
      rintro h hh p v ⟨rfl, rfl, _⟩
      exact ⟨by simpa using hh, rfl⟩)
  have hval : ∀ l, l < nl → ((∃ h m, Beside g l h ∧ high[h]? = some m ∧ m ≠ 0) ∧ out[l]? = some 1) ∨
      ((¬ ∃ h m, Beside g l h ∧ high[h]? = some m ∧ m ≠ 0) ∧ out[l]? = some 0) := by
    intro l hl
    by_cases hw : ∃ h m, Beside g l h ∧ high[h]? = some m ∧ m ≠ 0
    · exact Or.inl ⟨hw, o3 l hl l 1 ⟨rfl, rfl, hw⟩⟩
    · refine Or.inr ⟨hw, ?_⟩
      rw [o4 l (by rintro i _ v ⟨rfl, _, h⟩; exact hw h), List.getElem?_replicate, if_pos hl]
  refine ⟨out, ?_, by simpa using o2, ?_, ?_⟩
  · unfold markDown
    rw [hn, Mem.filled_eq]; exact o1
  · intro m hm
    obtain ⟨p, hp⟩ := List.mem_iff_getElem?.1 hm
    have hpl : p < nl := by
      have := (List.getElem?_eq_some_iff.1 hp).1
      simpa [o2] using this
    rcases hval p hpl with ⟨_, h⟩ | ⟨_, h⟩ <;> rw [hp] at h
    · exact Or.inr (Option.some.inj h)
    · exact Or.inl (Option.some.inj h)
  · intro l hl
    unfold Marked
    rcases hval l hl with ⟨h1, h2⟩ | ⟨h1, h2⟩
    · exact ⟨fun _ => h1, fun _ => h2⟩
    · constructor
      · intro h; rw [h2] at h; cases h
      · intro h; exact absurd h h1

/-! ## Reducing to owners -/

theorem foldl_max_marks (l : List Int) (hl : IsMarks l) : ∀ i : Int, i ≤ 1 →
    (1 ∈ l → l.foldl max i = 1) ∧ (1 ∉ l → l ≠ [] → l.foldl max i = max i 0) := by
  induction l with
  | nil => intro i _; exact ⟨fun h => by simp at h, fun _ h => absurd rfl h⟩
  | cons a l ih =>
    intro i hi
    have ha := hl a (List.mem_cons_self ..)
    have hl' : IsMarks l := fun m hm => hl m (List.mem_cons_of_mem _ hm)
    rw [List.foldl_cons]
    have hm : max i a ≤ 1 := by rcases ha with rfl | rfl <;> omega
    obtain ⟨i1, i2⟩ := ih hl' (max i a) hm
    constructor
    · intro h
      by_cases h1 : (1 : Int) ∈ l
      · exact i1 h1
      · have : a = 1 := by rcases List.mem_cons.1 h with h | h; exacts [h.symm, absurd h h1]
        subst this
        have e : max i 1 = 1 := by omega
        rw [e] at i2 ⊢
        by_cases hn : l = []
        · subst hn; rfl
        · rw [i2 h1 hn]; rfl
    · intro h _
      have h1 : (1 : Int) ∉ l := fun hh => h (List.mem_cons_of_mem _ hh)
      have h0 : a = 0 := by
        rcases ha with h' | h'
        · exact h'
        · subst h'; exact absurd (List.mem_cons_self ..) h
      subst h0
      by_cases hn : l = []
      · subst hn; rfl
      · rw [i2 h1 hn]; omega

theorem wrap_marks {x : Int} (h : x = 0 ∨ x = 1) : wrapSigned 8 x = x := by
  rcases h with rfl | rfl <;> decide

/-- Reducing marks with the maximum: an owner is marked if any copy was. -/
theorem reduceMarks_spec {n : Nat} {shared : Bool} {nents : Nat → Nat} {owner : Nat → Nat → Nat × Nat}
    (hn : n ≤ 2147483648) (h : OwnersFine n shared nents owner) (s : Nat → Nat → Sched)
    (data : Nat → List Int) (hl : ∀ r, r < n → (data r).length = nents r ∧ IsMarks (data r)) :
    ∃ out, reduceValues s (maxFunctor 8) (ownersArg n shared nents owner) 1 (world n data) = some (world n out) ∧
      ∀ p, p < n → (out p).length = nents p ∧ ∀ x, x < nents p → owner p x = (p, x) →
        ((∃ r i, r < n ∧ i < nents r ∧ owner r i = (p, x) ∧ Marked (data r) i) ∧ (out p)[x]? = some 1) ∨
        ((¬ ∃ r i, r < n ∧ i < nents r ∧ owner r i = (p, x) ∧ Marked (data r) i) ∧ (out p)[x]? = some 0) := by
  cases shared with
  | false =>
    refine ⟨data, rfl, fun p hp => ⟨(hl p hp).1, fun x hx hown => ?_⟩⟩
    have hxl : x < (data p).length := by rw [(hl p hp).1]; exact hx
    have e : (data p)[x]? = some (data p)[x] := List.getElem?_eq_getElem hxl
    rcases (hl p hp).2 _ (List.getElem_mem (show x < (data p).length by rw [(hl p hp).1]; exact hx)) with h0 | h1
    · refine Or.inr ⟨?_, by rw [e, h0]⟩
      rintro ⟨r, i, hr, hi, ho, hm⟩
      rw [h.alone rfl r i hr hi] at ho
      obtain ⟨rfl, rfl⟩ := Prod.mk.inj ho
      unfold Marked at hm
      rw [e, h0] at hm
      cases hm
    · exact Or.inl ⟨⟨p, x, hp, hx, hown, by unfold Marked; rw [e, h1]⟩, by rw [e, h1]⟩
  | true =>
    have hD := remotes_ok hn h
    have hlen : ∀ r, (remotesOf nents owner r).ranks.length = nents r := fun r => by simp [remotesOf]
    obtain ⟨D, d1⟩ := C20_new s hD
    obtain ⟨items, i1, i2⟩ := C20_reduce hD d1
    obtain ⟨out, o1, o2⟩ := i2 (fun r k => s r (k + 10)) (maxFunctor 8) 1 data (by omega) (by
      intro r hr; rw [hlen, (hl r hr).1, Nat.mul_one])
    refine ⟨out, ?_, ?_⟩
    · show (newDist s (world n (remotesOf nents owner)) ((world n (remotesOf nents owner)).map (fun o => o.ranks.length))).bind _ = _
      rw [world_map, world_congr (f := fun r => (remotesOf nents owner r).ranks.length) (g := nents) (fun r _ => hlen r),
        d1, Option.bind_some, o1]
    · intro p hp
      obtain ⟨a, b⟩ := o2 p hp
      refine ⟨by rw [a, Nat.mul_one], ?_⟩
      intro x hx hown
      obtain ⟨_, b2⟩ := b x 0 hx (by omega)
      rw [entry_one] at b2
      have hitem : ∀ r i, (r, i) ∈ items p x ↔ r < n ∧ i < nents r ∧ owner r i = (p, x) := by
        intro r i
        rw [(i1 p x hp hx).mem_iff]
        unfold addressed
        rw [List.mem_filter]
        constructor
        · rintro ⟨h1, h2⟩
          obtain ⟨hr, h3⟩ := arrivals_mem h1
          have hi : i < nents r := by
            have := (List.getElem?_eq_some_iff.1 h3).1
            rw [hlen] at this; exact this
          refine ⟨hr, hi, ?_⟩
          obtain ⟨e1, e2⟩ := destOf_eq.1 (remotes_dest (owner := owner) hi)
          have h2 : (remotesOf nents owner r).idxs[i]? = some x := by simpa using h2
          rw [h2] at e2
          have h3 : (remotesOf nents owner r).ranks[i]? = some p := h3
          rw [h3] at e1
          exact Prod.ext (Option.some.inj e1).symm (Option.some.inj e2).symm
        · rintro ⟨hr, hi, ho⟩
          obtain ⟨e1, e2⟩ := destOf_eq.1 (remotes_dest (owner := owner) hi)
          rw [ho] at e1 e2
          refine ⟨?_, by simpa using e2⟩
          unfold arrivals
          refine List.mem_flatMap.2 ⟨r, List.mem_range.2 hr, List.mem_map.2 ⟨i, List.mem_filter.2 ⟨?_, by simpa using e1⟩, rfl⟩⟩
          rw [List.mem_range, hlen]; exact hi
      have hrow : ∀ v, v ∈ rowsOf data 1 0 (items p x) ↔ ∃ r i, r < n ∧ i < nents r ∧ owner r i = (p, x) ∧ (data r)[i]? = some v := by
        intro v
        unfold rowsOf
        rw [List.mem_filterMap]
        constructor
        · rintro ⟨⟨r, i⟩, h1, h2⟩
          obtain ⟨q1, q2, q3⟩ := (hitem r i).1 h1
          rw [entry_one] at h2
          exact ⟨r, i, q1, q2, q3, h2⟩
        · rintro ⟨r, i, q1, q2, q3, q4⟩
          exact ⟨(r, i), (hitem r i).2 ⟨q1, q2, q3⟩, by rw [entry_one]; exact q4⟩
      have hmarks : IsMarks (rowsOf data 1 0 (items p x)) := by
        intro v hv
        obtain ⟨r, i, q1, q2, q3, q4⟩ := (hrow v).1 hv
        exact (hl r q1).2 v (List.mem_of_getElem? q4)
      have hne : rowsOf data 1 0 (items p x) ≠ [] := by
        have hxl : x < (data p).length := by rw [(hl p hp).1]; exact hx
        have e : (data p)[x]? = some (data p)[x] := List.getElem?_eq_getElem hxl
        exact List.ne_nil_of_mem ((hrow _).2 ⟨p, x, hp, hx, hown, e⟩)
      obtain ⟨f1, f2⟩ := foldl_max_marks _ hmarks (-2 ^ (8 - 1)) (by decide)
      have hf : (rowsOf data 1 0 (items p x)).foldl (fun r x => (maxFunctor 8).join r ((maxFunctor 8).up x)) (maxFunctor 8).init
          = (rowsOf data 1 0 (items p x)).foldl max (-2 ^ (8 - 1)) := rfl
      rw [hf] at b2
      have hd : ∀ v, (maxFunctor 8).down v = wrapSigned 8 v := fun _ => rfl
      by_cases h1 : (1 : Int) ∈ rowsOf data 1 0 (items p x)
      · refine Or.inl ⟨?_, by rw [b2, f1 h1, hd, wrap_marks (Or.inr rfl)]⟩
        exact (hrow 1).1 h1
      · refine Or.inr ⟨fun hh => h1 ((hrow 1).2 hh), ?_⟩
        rw [b2, f2 h1 hne, hd]
        decide

end OmegaH
