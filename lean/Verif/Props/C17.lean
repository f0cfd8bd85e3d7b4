import Verif.Model.SharedAlloc

/-! # C17 — storage is freed exactly once, exactly when its last counted handle goes away -/

namespace OmegaH

/-- How many handles refer, counted, to the allocation at `a`. -/
def handlesOf (S : Handles) (a : Nat) : Nat := S.vars.count (some a)

/-- A word that looks like the address of an `Alloc` (aligned to eight bytes, not null). -/
def IsAddr (a : Nat) : Prop := isCounted a = true

/-- What holds at all times: live allocations have distinct, aligned addresses, their count is the
number of handles, which is positive; a counted handle refers to a live allocation; everything
obtained from `new` was deleted once or is live. -/
structure HandleInv (S : Handles) : Prop where
  nodup : (S.heap.map Prod.fst).Nodup
  addr : ∀ e ∈ S.heap, IsAddr e.1
  count : ∀ e ∈ S.heap, e.2.2 = handlesOf S e.1 ∧ 0 < e.2.2
  live : ∀ a, some a ∈ S.vars → isCounted a = true → a ∈ S.heap.map Prod.fst
  once : S.news.Perm (S.dels ++ S.heap.map Prod.fst)

/-- Handle `w` is constructed and counted. -/
def wordCounted (S : Handles) (w : Nat) : Bool :=
  match S.vars[w]? with
  | some (some x) => isCounted x
  | _ => false

/-- The uses the claim is about: handles are not assigned to themselves, `new` returns an aligned
address that is not in use, and counted handles are not moved while entering a parallel region. -/
def wellUsed (S : Handles) : HandleOp → Prop
  | .new _ _ a => isCounted a = true ∧ a ∉ S.heap.map Prod.fst
  | .assign v w => v ≠ w
  | .moveAssign v w => v ≠ w ∧ (S.par = true → wordCounted S w = false)
  | .move _ w => S.par = true → wordCounted S w = false
  | _ => True

theorem wordCounted_of {S : Handles} {w x : Nat} (h : S.word w = .ok x) :
    wordCounted S w = isCounted x := by
  unfold Handles.word at h
  unfold wordCounted
  split at h
  · rename_i e; simp only [Res.ok.injEq] at h; subst h; rw [e]
  · simp at h

theorem at?_mem {S : Handles} {a : Nat} (h : a ∈ S.heap.map Prod.fst) :
    ∃ e ∈ S.heap, e.1 = a ∧ S.at? a = some e.2 := by
  unfold Handles.at?
  cases hf : S.heap.find? (fun e => e.1 == a) with
  | none =>
    rw [List.find?_eq_none] at hf
    obtain ⟨e, he, rfl⟩ := List.mem_map.1 h
    exact absurd (by simp) (hf e he)
  | some e =>
    exact ⟨e, List.mem_of_find?_eq_some hf, by simpa using List.find?_some hf, rfl⟩

theorem parallelWord_uncounted (size : Nat) : isCounted (parallelWord size) = false := by
  have h : parallelWord size &&& freeMask ≠ 0 := by
    intro e
    have := congrArg (fun x => x.testBit 0) e
    simp [parallelWord, inParallelBit, freeMask] at this
  unfold isCounted
  simp [h]

theorem isCounted_zero : isCounted 0 = false := rfl

/-- The heap part of the invariant, for a given number of references to each address. -/
structure HeapInv (S : Handles) (c : Nat → Nat) : Prop where
  nodup : (S.heap.map Prod.fst).Nodup
  addr : ∀ e ∈ S.heap, IsAddr e.1
  count : ∀ e ∈ S.heap, e.2.2 = (c e.1 : Int) ∧ 0 < c e.1
  live : ∀ a, isCounted a = true → 0 < c a → a ∈ S.heap.map Prod.fst
  once : S.news.Perm (S.dels ++ S.heap.map Prod.fst)

theorem HeapInv.congr {S : Handles} {c d : Nat → Nat} (h : HeapInv S c)
    (e : ∀ a, isCounted a = true → c a = d a) : HeapInv S d where
  nodup := h.nodup
  addr := h.addr
  count := fun x hx => by rw [← e x.1 (h.addr x hx)]; exact h.count x hx
  live := fun a ha hd => h.live a ha (by rw [e a ha]; exact hd)
  once := h.once

theorem HandleInv.heap {S : Handles} (h : HandleInv S) : HeapInv S (handlesOf S) where
  nodup := h.nodup
  addr := h.addr
  count := fun e he => ⟨(h.count e he).1, by have := h.count e he; omega⟩
  live := fun a ha hc => h.live a (List.count_pos_iff.1 hc) ha
  once := h.once

theorem HeapInv.handle {S : Handles} (h : HeapInv S (handlesOf S)) : HandleInv S where
  nodup := h.nodup
  addr := h.addr
  count := fun e he => ⟨(h.count e he).1, by have := h.count e he; omega⟩
  live := fun a hm ha => h.live a ha (List.count_pos_iff.2 hm)
  once := h.once

/-- Changing the variables only matters through the counts. -/
theorem HeapInv.setVars {S : Handles} {c : Nat → Nat} (h : HeapInv S c) (vars : List (Option Nat)) :
    HeapInv { S with vars := vars } c := ⟨h.nodup, h.addr, h.count, h.live, h.once⟩

theorem HeapInv.setPar {S : Handles} {c : Nat → Nat} (h : HeapInv S c) (b : Bool) :
    HeapInv { S with par := b } c := ⟨h.nodup, h.addr, h.count, h.live, h.once⟩

theorem addCount_fst (S : Handles) (a : Nat) (d : Int) :
    (S.addCount a d).heap.map Prod.fst = S.heap.map Prod.fst := by
  unfold Handles.addCount
  rw [List.map_map]
  apply List.map_congr_left
  intro e _
  simp only [Function.comp]
  split <;> rfl

theorem HeapInv.addCount {S : Handles} {c c' : Nat → Nat} (h : HeapInv S c) (a : Nat) (d : Int)
    (hne : ∀ b, b ≠ a → c' b = c b) (heq : (c' a : Int) = c a + d) (hpos : 0 < c' a)
    (hca : 0 < c a) : HeapInv (S.addCount a d) c' where
  nodup := by rw [addCount_fst]; exact h.nodup
  addr := by
    intro e he
    have : e.1 ∈ (S.addCount a d).heap.map Prod.fst := List.mem_map_of_mem he
    rw [addCount_fst] at this
    obtain ⟨e', he', h1⟩ := List.mem_map.1 this
    rw [← h1]; exact h.addr e' he'
  count := by
    intro e he
    obtain ⟨e', he', rfl⟩ := List.mem_map.1 he
    have := h.count e' he'
    by_cases hea : e'.1 = a
    · simp only [if_pos hea]
      rw [hea] at this ⊢
      omega
    · simp only [if_neg hea]
      rw [hne _ hea]; exact this
  live := by
    intro b hb hc
    rw [addCount_fst]
    by_cases hba : b = a
    · subst hba; exact h.live _ hb hca
    · exact h.live b hb (by rw [← hne b hba]; exact hc)
  once := by rw [addCount_fst]; exact h.once

/-- The number of references after dropping one to `w`. -/
def dropRef (c : Nat → Nat) (w : Nat) : Nat → Nat := fun a => if a = w then c a - 1 else c a
def addRef (c : Nat → Nat) (w : Nat) : Nat → Nat := fun a => if a = w then c a + 1 else c a

theorem HeapInv.clear {S : Handles} {c : Nat → Nat} (h : HeapInv S c) (w : Nat)
    (hw : isCounted w = true → 0 < c w) :
    ∃ S', S.clear w = .ok S' ∧ HeapInv S' (dropRef c w) ∧ S'.vars = S.vars ∧ S'.par = S.par := by
  unfold Handles.clear
  by_cases hc : isCounted w = true
  · rw [if_pos hc]
    obtain ⟨e, he, h1, h2⟩ := at?_mem (h.live w hc (hw hc))
    rw [h2]
    have hcnt := h.count e he
    rw [h1] at hcnt
    by_cases hz : e.2.2 - 1 = 0
    · simp only [if_pos hz]
      refine ⟨_, rfl, ?_, rfl, rfl⟩
      have hfst : ∀ b, b ∈ (S.heap.filter (fun e => e.1 != w)).map Prod.fst ↔
          b ∈ S.heap.map Prod.fst ∧ b ≠ w := by
        intro b
        simp only [List.mem_map, List.mem_filter, bne_iff_ne]
        constructor
        · rintro ⟨x, ⟨hx, hne⟩, rfl⟩; exact ⟨⟨x, hx, rfl⟩, hne⟩
        · rintro ⟨⟨x, hx, rfl⟩, hne⟩; exact ⟨x, ⟨hx, hne⟩, rfl⟩
      refine ⟨?_, ?_, ?_, ?_, ?_⟩
      · exact h.nodup.sublist (List.filter_sublist.map _)
      · exact fun x hx => h.addr x (List.mem_filter.1 hx).1
      · intro x hx
        obtain ⟨hx, hne⟩ := List.mem_filter.1 hx
        have hne' : x.1 ≠ w := by simpa using hne
        unfold dropRef; rw [if_neg hne']; exact h.count x hx
      · intro a ha hpos
        rw [hfst]
        by_cases haw : a = w
        · subst haw; unfold dropRef at hpos; rw [if_pos rfl] at hpos; omega
        · unfold dropRef at hpos; rw [if_neg haw] at hpos; exact ⟨h.live a ha hpos, haw⟩
      · refine h.once.trans ?_
        have hp : (S.heap.map Prod.fst).Perm
            (w :: (S.heap.filter (fun e => e.1 != w)).map Prod.fst) := by
          have hm : w ∈ S.heap.map Prod.fst := h.live w hc (hw hc)
          have e1 : (S.heap.filter (fun e => e.1 != w)).map Prod.fst = (S.heap.map Prod.fst).erase w := by
            rw [List.Nodup.erase_eq_filter h.nodup, List.filter_map]; rfl
          rw [e1]; exact List.perm_cons_erase hm
        refine (List.Perm.append_left _ hp).trans ?_
        exact List.perm_middle
    · simp only [if_neg hz]
      refine ⟨_, rfl, ?_, rfl, rfl⟩
      have hcw : 1 < c w := by omega
      refine h.addCount w (-1) ?_ ?_ ?_ (by omega)
      · intro b hb; unfold dropRef; rw [if_neg hb]
      · unfold dropRef; rw [if_pos rfl]; omega
      · unfold dropRef; rw [if_pos rfl]; omega
  · rw [if_neg hc]
    refine ⟨S, rfl, h.congr ?_, rfl, rfl⟩
    intro a ha
    unfold dropRef
    rw [if_neg]
    intro e; subst e; exact hc ha

theorem HeapInv.copyFrom {S : Handles} {c : Nat → Nat} (h : HeapInv S c) (w : Nat)
    (hw : isCounted w = true → 0 < c w) :
    ∃ y S', S.copyFrom w = .ok (y, S') ∧ S'.vars = S.vars ∧ S'.par = S.par ∧
      HeapInv S' (addRef c y) := by
  unfold Handles.copyFrom
  by_cases hc : isCounted w = true
  · rw [if_pos hc]
    obtain ⟨e, he, h1, h2⟩ := at?_mem (h.live w hc (hw hc))
    rw [h2]
    by_cases hp : S.par = true
    · simp only [if_pos hp]
      refine ⟨_, S, rfl, rfl, rfl, h.congr ?_⟩
      intro a ha
      unfold addRef; rw [if_neg]
      intro e; rw [e, parallelWord_uncounted] at ha; simp at ha
    · simp only [if_neg hp]
      refine ⟨w, _, rfl, rfl, rfl, h.addCount w 1 ?_ ?_ ?_ (hw hc)⟩
      · intro b hb; unfold addRef; rw [if_neg hb]
      · unfold addRef; rw [if_pos rfl]; omega
      · unfold addRef; rw [if_pos rfl]; omega
  · rw [if_neg hc]
    refine ⟨w, S, rfl, rfl, rfl, h.congr ?_⟩
    intro a ha
    unfold addRef; rw [if_neg]
    intro e; subst e; exact hc ha

theorem word_get {S : Handles} {v w : Nat} (h : S.word v = .ok w) : S.vars[v]? = some (some w) := by
  unfold Handles.word at h
  split at h
  · rename_i e; simp only [Res.ok.injEq] at h; subst h; exact e
  · simp at h

theorem handlesOf_pos {S : Handles} {v w : Nat} (h : S.word v = .ok w) : 0 < handlesOf S w :=
  List.count_pos_iff.2 (List.mem_of_getElem? (word_get h))

theorem count_set_opt (vars : List (Option Nat)) (v : Nat) (old new : Option Nat)
    (h : vars[v]? = some old) (a : Nat) :
    (vars.set v new).count (some a) + (if old = some a then 1 else 0) =
      vars.count (some a) + (if new = some a then 1 else 0) := by
  obtain ⟨hl, he⟩ := List.getElem?_eq_some_iff.1 h
  rw [List.count_set hl, he]
  have : old = some a → 0 < vars.count (some a) := fun e =>
    List.count_pos_iff.2 (List.mem_of_getElem? (e ▸ h))
  simp only [beq_iff_eq]
  split <;> split <;> simp_all <;> omega

theorem step_inv (S S' : Handles) (op : HandleOp) (hi : HandleInv S) (hu : wellUsed S op)
    (h : S.step op = .ok S') : HandleInv S' := by
  cases op with
  | new v size a =>
    obtain ⟨ha, hfresh⟩ := hu
    rw [Handles.step, Handles.construct] at h
    by_cases hv : S.vars[v]? = some none
    rotate_left
    · rw [if_neg hv] at h; simp at h
    rw [if_pos hv] at h
    simp only [Res.ok.injEq] at h
    subst h
    apply HeapInv.handle
    have hcs := count_set_opt S.vars v none (some a) hv
    have hnone : handlesOf S a = 0 := by
      rcases Nat.eq_zero_or_pos (handlesOf S a) with h0 | h0
      · exact h0
      · exact absurd (hi.heap.live a ha h0) hfresh
    refine ⟨?_, ?_, ?_, ?_, ?_⟩
    · simp only [List.map_cons, List.nodup_cons]; exact ⟨hfresh, hi.nodup⟩
    · intro e he
      rcases List.mem_cons.1 he with rfl | he
      · exact ha
      · exact hi.addr e he
    · intro e he
      have hce := hcs e.1
      simp only [reduceCtorEq, if_false, Option.some.injEq] at hce
      show e.2.2 = ((S.vars.set v (some a)).count (some e.1) : Int) ∧
        0 < (S.vars.set v (some a)).count (some e.1)
      rcases List.mem_cons.1 he with rfl | he
      · simp only [if_true] at hce
        have : S.vars.count (some a) = 0 := hnone
        simp only
        omega
      · have hne : a ≠ e.1 := fun e' => hfresh (e' ▸ List.mem_map_of_mem he)
        rw [if_neg hne] at hce
        have := hi.heap.count e he
        unfold handlesOf at this
        omega
    · intro b hb hpos
      have hcb := hcs b
      simp only [reduceCtorEq, if_false, Option.some.injEq] at hcb
      simp only [List.map_cons, List.mem_cons]
      by_cases hab : a = b
      · exact .inl hab.symm
      · rw [if_neg hab] at hcb
        refine .inr (hi.heap.live b hb ?_)
        unfold handlesOf at hpos ⊢
        simp only at hpos
        omega
    · simp only [List.map_cons]
      exact (List.Perm.cons a hi.once).trans List.perm_middle.symm
  | empty v =>
    rw [Handles.step, Handles.construct] at h
    by_cases hv : S.vars[v]? = some none
    rotate_left
    · rw [if_neg hv] at h; simp at h
    rw [if_pos hv] at h
    simp only [Res.ok.injEq] at h
    subst h
    apply HeapInv.handle
    refine (hi.heap.setVars _).congr ?_
    intro a ha
    have := count_set_opt S.vars v none (some 0) hv a
    have h0 : (0 : Nat) ≠ a := by intro e; subst e; simp [isCounted] at ha
    simp only [reduceCtorEq, if_false, Option.some.injEq, if_neg h0] at this
    unfold handlesOf
    simp only
    omega
  | copy v w =>
    rw [Handles.step] at h
    obtain ⟨x, hx, h⟩ := Res.bind_eq_ok.1 h
    obtain ⟨y, S1, e1, hv1, hp1, hi1⟩ := hi.heap.copyFrom x (fun _ => handlesOf_pos hx)
    rw [e1, Res.bind_ok] at h
    simp only [Handles.construct] at h
    by_cases hv : S1.vars[v]? = some none
    rotate_left
    · rw [if_neg hv] at h; simp at h
    rw [if_pos hv] at h
    simp only [Res.ok.injEq] at h
    subst h
    apply HeapInv.handle
    refine (hi1.setVars _).congr ?_
    intro a ha
    have := count_set_opt S1.vars v none (some y) hv a
    unfold addRef handlesOf
    simp only [reduceCtorEq, if_false, Option.some.injEq] at this ⊢
    rw [hv1] at this ⊢
    by_cases hya : y = a
    · rw [if_pos hya] at this; rw [if_pos hya.symm]; omega
    · rw [if_neg hya] at this; rw [if_neg (fun e => hya e.symm)]; omega
  | move v w =>
    rw [Handles.step] at h
    obtain ⟨x, hx, h⟩ := Res.bind_eq_ok.1 h
    have hm : S.moveFrom x = .ok (x, S) := by
      unfold Handles.moveFrom
      rw [if_neg]
      intro hcp
      simp only [Bool.and_eq_true] at hcp
      have := hu hcp.2
      rw [wordCounted_of hx] at this
      rw [this] at hcp; simp at hcp
    rw [hm, Res.bind_ok] at h
    simp only [Handles.construct] at h
    by_cases hv : S.vars[v]? = some none
    rotate_left
    · rw [if_neg hv] at h; simp at h
    rw [if_pos hv, Res.bind_ok] at h
    simp only [Res.ok.injEq] at h
    subst h
    apply HeapInv.handle
    refine ((hi.heap.setVars _).setVars _).congr ?_
    intro a ha
    have h1 := count_set_opt S.vars v none (some x) hv a
    have hvw : v ≠ w := by
      intro e; subst e; rw [word_get hx] at hv; simp at hv
    have hxw : (S.vars.set v (some x))[w]? = some (some x) := by
      rw [List.getElem?_set_ne hvw]; exact word_get hx
    have h2 := count_set_opt _ w (some x) (some 0) hxw a
    have h0 : (0 : Nat) ≠ a := by intro e; subst e; simp [isCounted] at ha
    simp only [reduceCtorEq, if_false, Option.some.injEq, if_neg h0] at h1 h2
    unfold handlesOf Handles.setVar
    simp only
    omega
  | assign v w =>
    have hvw : v ≠ w := hu
    rw [Handles.step] at h
    obtain ⟨old, ho, h⟩ := Res.bind_eq_ok.1 h
    obtain ⟨S1, e1, hi1, hv1, hp1⟩ := hi.heap.clear old (fun _ => handlesOf_pos ho)
    rw [e1, Res.bind_ok] at h
    obtain ⟨x, hx, h⟩ := Res.bind_eq_ok.1 h
    have hx0 : S.vars[w]? = some (some x) := by rw [← hv1]; exact word_get hx
    have hpos : isCounted x = true → 0 < dropRef (handlesOf S) old x := by
      intro hc
      unfold dropRef
      by_cases hxo : x = old
      · rw [if_pos hxo]
        -- two different handles refer to it
        have h1 := count_set_opt S.vars v (some old) none (word_get ho) x
        have h2 : 0 < (S.vars.set v none).count (some x) :=
          List.count_pos_iff.2 (List.mem_of_getElem? (i := w) (by
            rw [List.getElem?_set_ne hvw]; exact hx0))
        simp only [reduceCtorEq, if_false, Option.some.injEq, if_pos hxo.symm] at h1
        unfold handlesOf; omega
      · rw [if_neg hxo]
        exact List.count_pos_iff.2 (List.mem_of_getElem? hx0)
    obtain ⟨y, S2, e2, hv2, hp2, hi2⟩ := hi1.copyFrom x hpos
    rw [e2, Res.bind_ok] at h
    simp only [Res.ok.injEq] at h
    subst h
    apply HeapInv.handle
    refine (hi2.setVars _).congr ?_
    intro a ha
    have h1 := count_set_opt S.vars v (some old) (some y) (word_get ho) a
    simp only [Option.some.injEq] at h1
    have hop : handlesOf S old > 0 := handlesOf_pos ho
    unfold addRef dropRef handlesOf Handles.setVar at *
    simp only [hv2, hv1] at *
    by_cases hoa : old = a
    · subst hoa
      by_cases hya : y = old
      · subst hya; simp only [if_true] at *; omega
      · simp only [if_true, if_neg hya, if_neg (fun e => hya (Eq.symm e))] at *; omega
    · by_cases hya : y = a
      · subst hya; simp only [if_true, if_neg hoa, if_neg (fun e => hoa (Eq.symm e))] at *; omega
      · simp only [if_neg hoa, if_neg hya, if_neg (fun e => hoa (Eq.symm e)),
          if_neg (fun e => hya (Eq.symm e))] at *; omega
  | moveAssign v w =>
    obtain ⟨hvw, hu⟩ := hu
    rw [Handles.step] at h
    obtain ⟨old, ho, h⟩ := Res.bind_eq_ok.1 h
    obtain ⟨S1, e1, hi1, hv1, hp1⟩ := hi.heap.clear old (fun _ => handlesOf_pos ho)
    rw [e1, Res.bind_ok] at h
    obtain ⟨x, hx, h⟩ := Res.bind_eq_ok.1 h
    have hx0 : S.word w = .ok x := by
      have : S.word w = S1.word w := by unfold Handles.word; rw [hv1]
      rw [this]; exact hx
    have hm : S1.moveFrom x = .ok (x, S1) := by
      unfold Handles.moveFrom
      rw [if_neg]
      intro hcp
      simp only [Bool.and_eq_true, hp1] at hcp
      have := hu hcp.2
      rw [wordCounted_of hx0] at this
      rw [this] at hcp; simp at hcp
    rw [hm, Res.bind_ok] at h
    simp only [Res.ok.injEq] at h
    subst h
    apply HeapInv.handle
    refine ((hi1.setVars _).setVars _).congr ?_
    intro a ha
    have h1 := count_set_opt S.vars v (some old) (some x) (word_get ho) a
    have hxw : (S.vars.set v (some x))[w]? = some (some x) := by
      rw [List.getElem?_set_ne hvw]; exact word_get hx0
    have h2 := count_set_opt _ w (some x) (some 0) hxw a
    have h0 : (0 : Nat) ≠ a := by intro e; subst e; simp [isCounted] at ha
    have hop : handlesOf S old > 0 := handlesOf_pos ho
    simp only [Option.some.injEq, if_neg h0] at h1 h2
    unfold dropRef handlesOf Handles.setVar at *
    simp only [hv1] at *
    by_cases hoa : old = a
    · subst hoa; simp only [if_true] at *; omega
    · simp only [if_neg hoa, if_neg (fun e => hoa (Eq.symm e))] at *; omega
  | destroy v =>
    rw [Handles.step] at h
    obtain ⟨old, ho, h⟩ := Res.bind_eq_ok.1 h
    obtain ⟨S1, e1, hi1, hv1, hp1⟩ := hi.heap.clear old (fun _ => handlesOf_pos ho)
    rw [e1, Res.bind_ok] at h
    simp only [Res.ok.injEq] at h
    subst h
    apply HeapInv.handle
    refine (hi1.setVars _).congr ?_
    intro a ha
    have h1 := count_set_opt S.vars v (some old) none (word_get ho) a
    have hop : handlesOf S old > 0 := handlesOf_pos ho
    simp only [reduceCtorEq, if_false, Option.some.injEq] at h1
    unfold dropRef handlesOf Handles.setVar at *
    simp only [hv1] at *
    by_cases hoa : old = a
    · subst hoa; simp only [if_true] at *; omega
    · simp only [if_neg hoa, if_neg (fun e => hoa (Eq.symm e))] at *; omega
  | setPar b =>
    rw [Handles.step] at h
    simp only [Res.ok.injEq] at h
    subst h
    exact (hi.heap.setPar b).handle

/-- Variable `v` is constructed / not constructed. -/
def Constructed (S : Handles) (v : Nat) : Prop := ((S.vars[v]?).join).isSome = true
def Unconstructed (S : Handles) (v : Nat) : Prop := S.vars[v]? = some none

/-- The statement is one a C++ program can contain at this point: it constructs unconstructed
variables and uses constructed ones. -/
def Scoped (S : Handles) : HandleOp → Prop
  | .new v _ _ => Unconstructed S v
  | .empty v => Unconstructed S v
  | .copy v w | .move v w => Unconstructed S v ∧ Constructed S w
  | .assign v w | .moveAssign v w => Constructed S v ∧ Constructed S w
  | .destroy v => Constructed S v
  | .setPar _ => True

theorem Constructed.word {S : Handles} {v : Nat} (h : Constructed S v) :
    ∃ w, S.vars[v]? = some (some w) := by
  unfold Constructed at h
  cases e : S.vars[v]? with
  | none => rw [e] at h; simp at h
  | some o =>
    cases o with
    | none => rw [e] at h; simp at h
    | some w => exact ⟨w, rfl⟩

instance (S : Handles) (op : HandleOp) : Decidable (Scoped S op) := by
  cases op <;> unfold Scoped <;> (try unfold Constructed) <;> (try unfold Unconstructed) <;> infer_instance

instance (S : Handles) (op : HandleOp) : Decidable (wellUsed S op) := by
  cases op <;> unfold wellUsed <;> infer_instance

theorem word_of {S : Handles} {v w : Nat} (h : S.vars[v]? = some (some w)) : S.word v = .ok w := by
  unfold Handles.word; rw [h]

theorem moveFrom_ok {S : Handles} {x : Nat} (h : S.par = true → isCounted x = false) :
    S.moveFrom x = .ok (x, S) := by
  unfold Handles.moveFrom
  rw [if_neg]
  intro hcp
  simp only [Bool.and_eq_true] at hcp
  rw [h hcp.2] at hcp; simp at hcp

/-- A well-used statement of the program never touches freed storage. -/
theorem step_defined (S : Handles) (op : HandleOp) (hi : HandleInv S) (hu : wellUsed S op)
    (hs : Scoped S op) : ∃ S', S.step op = .ok S' := by
  cases op with
  | new v size a =>
    exact ⟨{ S with heap := (a, size, 1) :: S.heap, news := a :: S.news,
                    vars := S.vars.set v (some a) }, by rw [Handles.step, Handles.construct]; exact if_pos hs⟩
  | empty v =>
    exact ⟨{ S with vars := S.vars.set v (some 0) }, by
      rw [Handles.step, Handles.construct]; exact if_pos hs⟩
  | copy v w =>
    obtain ⟨hv, hx⟩ := hs
    obtain ⟨x, hx⟩ := hx.word
    obtain ⟨y, S1, e1, hv1, hp1, hi1⟩ := hi.heap.copyFrom x (fun _ => handlesOf_pos (word_of hx))
    rw [Handles.step, word_of hx, Res.bind_ok, e1, Res.bind_ok]
    simp only
    rw [Handles.construct, if_pos (by rw [hv1]; exact hv)]
    exact ⟨_, rfl⟩
  | move v w =>
    obtain ⟨hv, hx⟩ := hs
    obtain ⟨x, hx⟩ := hx.word
    rw [Handles.step, word_of hx, Res.bind_ok, moveFrom_ok (fun hp => by rw [← wordCounted_of (word_of hx)]; exact hu hp),
      Res.bind_ok]
    simp only
    change S.vars[v]? = some none at hv
    rw [Handles.construct, if_pos hv, Res.bind_ok]
    exact ⟨_, rfl⟩
  | assign v w =>
    obtain ⟨ho, hx⟩ := hs
    obtain ⟨old, ho⟩ := ho.word
    obtain ⟨x, hx⟩ := hx.word
    have hvw : v ≠ w := hu
    obtain ⟨S1, e1, hi1, hv1, hp1⟩ := hi.heap.clear old (fun _ => handlesOf_pos (word_of ho))
    have hpos : isCounted x = true → 0 < dropRef (handlesOf S) old x := by
      intro hc
      unfold dropRef
      by_cases hxo : x = old
      · rw [if_pos hxo]
        have h1 := count_set_opt S.vars v (some old) none ho x
        have h2 : 0 < (S.vars.set v none).count (some x) :=
          List.count_pos_iff.2 (List.mem_of_getElem? (i := w) (by
            rw [List.getElem?_set_ne hvw]; exact hx))
        simp only [reduceCtorEq, if_false, Option.some.injEq, if_pos hxo.symm] at h1
        unfold handlesOf; omega
      · rw [if_neg hxo]
        exact List.count_pos_iff.2 (List.mem_of_getElem? hx)
    obtain ⟨y, S2, e2, hv2, hp2, hi2⟩ := hi1.copyFrom x hpos
    rw [Handles.step, word_of ho, Res.bind_ok, e1, Res.bind_ok,
      word_of (S := S1) (by rw [hv1]; exact hx), Res.bind_ok, e2, Res.bind_ok]
    exact ⟨_, rfl⟩
  | moveAssign v w =>
    obtain ⟨ho, hx⟩ := hs
    obtain ⟨old, ho⟩ := ho.word
    obtain ⟨x, hx⟩ := hx.word
    obtain ⟨hvw, hu⟩ := hu
    obtain ⟨S1, e1, hi1, hv1, hp1⟩ := hi.heap.clear old (fun _ => handlesOf_pos (word_of ho))
    rw [Handles.step, word_of ho, Res.bind_ok, e1, Res.bind_ok,
      word_of (S := S1) (by rw [hv1]; exact hx), Res.bind_ok,
      moveFrom_ok (fun hp => by
        rw [← wordCounted_of (word_of hx)]; exact hu (by rw [← hp1]; exact hp)), Res.bind_ok]
    exact ⟨_, rfl⟩
  | destroy v =>
    obtain ⟨old, ho⟩ := Constructed.word hs
    obtain ⟨S1, e1, hi1, hv1, hp1⟩ := hi.heap.clear old (fun _ => handlesOf_pos (word_of ho))
    rw [Handles.step, word_of ho, Res.bind_ok, e1, Res.bind_ok]
    exact ⟨_, rfl⟩
  | setPar b => exact ⟨_, rfl⟩

/-- Every statement of the history is scoped and well-used at its time. -/
def LegalRun : Handles → List HandleOp → Prop
  | _, [] => True
  | S, op :: ops => Scoped S op ∧ wellUsed S op ∧
      match S.step op with
      | .ok S' => LegalRun S' ops
      | _ => True

instance LegalRun.dec : ∀ (ops : List HandleOp) (S : Handles), Decidable (LegalRun S ops)
  | [], S => .isTrue trivial
  | op :: ops, S => by
    unfold LegalRun
    have h : Decidable (match S.step op with | .ok S' => LegalRun S' ops | _ => True) := by
      cases S.step op with
      | ok S' => exact LegalRun.dec ops S'
      | fail => exact .isTrue trivial
      | ub => exact .isTrue trivial
    infer_instance

theorem run_inv : ∀ (ops : List HandleOp) (S : Handles), HandleInv S → LegalRun S ops →
    ∃ S', S.run ops = .ok S' ∧ HandleInv S'
  | [], S, hi, _ => ⟨S, rfl, hi⟩
  | op :: ops, S, hi, ⟨hs, hu, hl⟩ => by
    obtain ⟨S1, e1⟩ := step_defined S op hi hu hs
    obtain ⟨S', e, hi'⟩ := run_inv ops S1 (step_inv S S1 op hi hu e1) (by rw [e1] at hl; exact hl)
    exact ⟨S', by rw [Handles.run, e1, Res.bind_ok, e], hi'⟩

theorem HandleInv.init (n : Nat) : HandleInv (Handles.init n) where
  nodup := by simp [Handles.init]
  addr := by simp [Handles.init]
  count := by simp [Handles.init]
  live := by
    intro a h
    simp only [Handles.init, List.mem_replicate] at h
    simp at h
  once := by simp [Handles.init]

/-- After any legal history (any number of handles, inside and outside parallel regions) no freed
storage was touched, and: storage at an address is live exactly when a counted handle refers to it;
every allocation was freed once or is live; the count is the number of handles. Missing for the full
claim: self-assignment and moving counted handles while entering a parallel region (refuted below). -/
theorem C17_freed_exactly_with_last_handle_partial (n : Nat) (ops : List HandleOp)
    (h : LegalRun (Handles.init n) ops) :
    ∃ S, (Handles.init n).run ops = .ok S ∧
      (∀ a, isCounted a = true → (a ∈ S.heap.map Prod.fst ↔ some a ∈ S.vars)) ∧
      (∀ a, S.news.count a = S.dels.count a + (if a ∈ S.heap.map Prod.fst then 1 else 0)) ∧
      (∀ e ∈ S.heap, e.2.2 = (S.vars.count (some e.1) : Int)) := by
  obtain ⟨S, e, hi⟩ := run_inv ops _ (HandleInv.init n) h
  refine ⟨S, e, ?_, ?_, fun x hx => (hi.count x hx).1⟩
  · intro a ha
    constructor
    · intro hm
      obtain ⟨x, hx, rfl⟩ := List.mem_map.1 hm
      exact List.count_pos_iff.1 (by have := hi.heap.count x hx; unfold handlesOf at this; omega)
    · exact fun hm => hi.live a hm ha
  · intro a
    rw [hi.once.count_eq a, List.count_append]
    congr 1
    split
    · rename_i hm
      have h1 := List.nodup_iff_count.1 hi.nodup a
      have h2 := List.count_pos_iff.2 hm
      omega
    · rename_i hm; exact List.count_eq_zero.2 hm

/-- Once all handles are gone, all storage has been freed. -/
theorem C17_no_leak_partial (n : Nat) (ops : List HandleOp) (h : LegalRun (Handles.init n) ops)
    (S : Handles) (hr : (Handles.init n).run ops = .ok S) (hgone : ∀ w, some w ∉ S.vars) :
    S.heap = [] ∧ S.news.Perm S.dels := by
  obtain ⟨S', e, hi⟩ := run_inv ops _ (HandleInv.init n) h
  rw [hr] at e
  simp only [Res.ok.injEq] at e
  subst e
  have hh : S.heap = [] := by
    cases hS : S.heap with
    | nil => rfl
    | cons x l =>
      have hx : x ∈ S.heap := by rw [hS]; simp
      have := hi.heap.count x hx
      exact absurd (List.count_pos_iff.1 this.2) (hgone x.1)
  refine ⟨hh, ?_⟩
  have := hi.once
  rwa [hh, List.map_nil, List.append_nil] at this

theorem or_one_even (x : Nat) (h : x % 2 = 0) : x ||| 1 = x + 1 := by
  apply Nat.eq_of_testBit_eq
  intro i
  rw [Nat.testBit_or]
  cases i with
  | zero => simp only [Nat.testBit_zero]; rw [show (x + 1) % 2 = 1 by omega, h]; rfl
  | succ i =>
    simp only [Nat.testBit_succ]
    rw [show (x + 1) / 2 = x / 2 by omega, show 1 / 2 = 0 by rfl]
    simp

theorem parallelWord_eq {size : Nat} (hs : size < 2 ^ 61) : parallelWord size = size * 8 + 1 := by
  unfold parallelWord inParallelBit
  rw [Nat.shiftLeft_eq, Nat.mod_eq_of_lt (by omega), or_one_even _ (by omega)]

/-- The handle made for a parallel region reports the size of the storage, like the original. -/
theorem C17_parallel_copy_keeps_size (S : Handles) (w size : Nat) (n : Int) (hs : size < 2 ^ 61)
    (hc : isCounted w = true) (ha : S.at? w = some (size, n)) (hp : S.par = true) :
    ∃ y, S.copyFrom w = .ok (y, S) ∧ isCounted y = false ∧ S.size y = .ok size ∧
      S.size w = .ok size := by
  refine ⟨parallelWord size, ?_, parallelWord_uncounted size, ?_, ?_⟩
  · unfold Handles.copyFrom; rw [if_pos hc, ha]; simp only [hp, if_true]
  · unfold Handles.size
    have h1 : parallelWord size &&& inParallelBit = 1 := by
      rw [parallelWord_eq hs]
      show (size * 8 + 1) &&& 1 = 1
      rw [Nat.and_one_is_mod]; omega
    rw [if_neg (by omega), parallelWord_eq hs, Nat.shiftRight_eq_div_pow]
    congr 1; omega
  · unfold Handles.size
    have h1 : w &&& inParallelBit = 0 := by
      unfold isCounted freeMask at hc
      simp only [Bool.and_eq_true, bne_iff_ne, beq_iff_eq] at hc
      show w &&& 1 = 0
      have h7 : (7 : Nat) = 2 ^ 3 - 1 := rfl
      rw [Nat.and_one_is_mod]
      have := hc.2
      rw [h7, Nat.and_two_pow_sub_one_eq_mod] at this
      omega
    rw [if_pos h1, ha]

/-! ## What fails -/

/-- Assigning a sole handle to itself uses its storage after freeing it. -/
theorem C17_self_assignment_refuted :
    (Handles.init 1).run [.new 0 40 16, .assign 0 0] = .ub := by decide +kernel

/-- Move-assigning a handle to itself destroys the storage and empties the handle. -/
theorem C17_self_move_refuted : (Handles.init 1).run [.new 0 40 16, .moveAssign 0 0] =
    .ok ⟨[some 0], [], false, [16], [16]⟩ := by decide +kernel

/-- Moving the last counted handle while entering a parallel region leaks the storage: all handles
are gone, it is still allocated with use count 0, and nothing was deleted. -/
theorem C17_parallel_move_leak_refuted :
    (Handles.init 2).run [.new 0 40 16, .setPar true, .move 1 0, .setPar false, .destroy 0, .destroy 1] =
    .ok ⟨[none, none], [(16, 40, 0)], false, [16], []⟩ := by decide +kernel

/-- `SharedAlloc::identity(n)` is an empty handle, whatever `n`: its size is undefined and indexing
it dereferences a null pointer. -/
theorem C17_identity_refuted (S : Handles) (hi : HandleInv S) (n i : Nat) :
    identityWord n = 0 ∧ S.size (identityWord n) = .ub ∧
    maybeIdentityIndex (identityWord n) none i = .ub := by
  have h0 : identityWord n = 0 := by
    unfold identityWord isIdentityBit
    apply Nat.eq_of_testBit_eq
    intro j
    rw [Nat.testBit_and, Nat.testBit_mod_two_pow, Nat.testBit_shiftLeft, Nat.zero_testBit]
    by_cases hj : j < 3
    · simp; omega
    · have : Nat.testBit 2 j = false := Nat.testBit_lt_two_pow (by
        have : 2 ^ 3 ≤ 2 ^ j := Nat.pow_le_pow_right (by omega) (by omega)
        omega)
      rw [this]; simp
  refine ⟨h0, ?_, ?_⟩
  · rw [h0]
    unfold Handles.size
    have : S.at? 0 = none := by
      unfold Handles.at?
      rw [List.find?_eq_none.2]
      · rfl
      · intro e he
        have := hi.addr e he
        simp only [beq_iff_eq]
        intro e0
        rw [IsAddr, e0] at this
        simp [isCounted] at this
    rw [this]; rfl
  · rw [h0]; rfl

/-! Non-vacuity: a legal history with copies, a parallel region, assignment and destruction. -/
def sampleHistory : List HandleOp :=
  [.new 0 40 16, .copy 1 0, .setPar true, .copy 2 0, .destroy 2, .setPar false, .empty 2,
   .assign 2 1, .new 3 8 24, .moveAssign 3 2, .destroy 0, .destroy 1]

example : (Handles.init 4).run sampleHistory =
    .ok ⟨[none, none, some 0, some 16], [(16, 40, 1)], false, [24, 16], [24]⟩ := by decide +kernel

example : LegalRun (Handles.init 4) sampleHistory := by decide +kernel

end OmegaH
