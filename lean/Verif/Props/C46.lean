import Verif.Spec.Any

/-! # C46: `any` owns its payload like a value -/

namespace OmegaH

/-- The typed value an object holds. -/
def anyVal (m : AMem) (a : AnyObj) : Option (PTy × Nat) :=
  match a.vtable with
  | none => none
  | some t =>
    match t.big, a.store with
    | true, .dynamic p => match m.at? p with
      | some (t', v) => if t' = t then some (t, v) else none
      | none => none
    | false, .stack t' v => if t' = t then some (t, v) else none
    | _, _ => none

/-- The heap object an `any` owns. -/
def anyPtr (a : AnyObj) : Option Nat :=
  match a.vtable, a.store with
  | some t, .dynamic p => if t.big then some p else none
  | _, _ => none

/-- The three shapes of a well-formed object. -/
inductive AnyWF (m : AMem) : AnyObj → Prop
  | empty : AnyWF m anyEmpty
  | dyn (t : PTy) (p v : Nat) (hb : t.big = true) (h : m.at? p = some (t, v)) :
      AnyWF m ⟨some t, .dynamic p⟩
  | stk (t : PTy) (v : Nat) (hb : t.big = false) : AnyWF m ⟨some t, .stack t v⟩

/-- `os` are all the `any` objects of the program, including temporaries: they own the heap objects
one to one, and the payload objects alive are those they hold. -/
structure Owns (m : AMem) (os : List AnyObj) : Prop where
  wf : ∀ a ∈ os, AnyWF m a
  own : (os.filterMap anyPtr).Perm (m.heap.map Prod.fst)
  nodup : (m.heap.map Prod.fst).Nodup
  count : m.born = m.died + (os.filter (fun a => a.vtable.isSome)).length

theorem Owns.perm {m : AMem} {os os' : List AnyObj} (h : Owns m os) (hp : os.Perm os') :
    Owns m os' where
  wf := fun a ha => h.wf a (hp.mem_iff.2 ha)
  own := (hp.filterMap anyPtr).symm.trans h.own
  nodup := h.nodup
  count := by rw [h.count, (hp.filter _).length_eq]

/-- Constructing and destroying `k` more temporaries in place. -/
def AMem.bump (m : AMem) (k : Nat) : AMem := { m with born := m.born + k, died := m.died + k }

theorem AMem.bump_at (m : AMem) (k p : Nat) : (m.bump k).at? p = m.at? p := rfl

theorem AnyWF.bump {m : AMem} {a : AnyObj} (h : AnyWF m a) (k : Nat) : AnyWF (m.bump k) a := by
  cases h with
  | empty => exact .empty
  | dyn t p v hb h => exact .dyn t p v hb h
  | stk t v hb => exact .stk t v hb

theorem Owns.bump {m : AMem} {os : List AnyObj} (h : Owns m os) (k : Nat) : Owns (m.bump k) os where
  wf := fun a ha => (h.wf a ha).bump k
  own := h.own
  nodup := h.nodup
  count := by have := h.count; simp only [AMem.bump]; omega

theorem anyVal_bump (m : AMem) (k : Nat) (a : AnyObj) : anyVal (m.bump k) a = anyVal m a := rfl

theorem Owns.empty_iff {m : AMem} {os : List AnyObj} : Owns m (anyEmpty :: os) ↔ Owns m os := by
  constructor
  · intro h
    exact ⟨fun a ha => h.wf a (List.mem_cons_of_mem _ ha), h.own, h.nodup, h.count⟩
  · intro h
    refine ⟨?_, h.own, h.nodup, h.count⟩
    intro a ha
    rcases List.mem_cons.1 ha with rfl | ha
    · exact .empty
    · exact h.wf a ha

/-- Moving a payload keeps pointer and value. -/
theorem vtMove_wf {m : AMem} {a : AnyObj} {t : PTy} (h : AnyWF m a) (ht : a.vtable = some t) :
    ∃ k, vtMove t m a.store = .ok (m.bump k, a.store) := by
  cases h with
  | empty => simp [anyEmpty] at ht
  | dyn t' p v hb hp =>
    simp only [Option.some.injEq] at ht; subst ht
    exact ⟨0, by simp [vtMove, hb, AMem.bump]⟩
  | stk t' v hb =>
    simp only [Option.some.injEq] at ht; subst ht
    exact ⟨1, by simp [vtMove, hb, AMem.bump]⟩

theorem anyMove_wf {m : AMem} {b : AnyObj} (h : AnyWF m b) :
    ∃ k, anyMove m b = .ok (m.bump k, b, anyEmpty) := by
  unfold anyMove
  cases hv : b.vtable with
  | none =>
    cases h with
    | empty => exact ⟨0, rfl⟩
    | dyn => simp at hv
    | stk => simp at hv
  | some t =>
    obtain ⟨k, e⟩ := vtMove_wf h hv
    refine ⟨k, ?_⟩
    simp only [e, Res.bind_ok]
    rw [← hv]; rfl

theorem AnyWF.eq_empty {m : AMem} {a : AnyObj} (h : AnyWF m a) (hv : a.vtable = none) :
    a = anyEmpty := by
  cases h with
  | empty => rfl
  | dyn => simp at hv
  | stk => simp at hv

theorem AMem.bump_bump (m : AMem) (j k : Nat) : (m.bump j).bump k = m.bump (j + k) := by
  simp [AMem.bump, Nat.add_assoc]

theorem anyTake_wf {m : AMem} {a : AnyObj} (ha : AnyWF m a) :
    ∃ k, anyTake m a .none = .ok (m.bump k, a) := by
  unfold anyTake
  cases hv : a.vtable with
  | none => exact ⟨0, by simp only; rw [ha.eq_empty hv]; rfl⟩
  | some t =>
    obtain ⟨k, e⟩ := vtMove_wf ha hv
    refine ⟨k, ?_⟩
    simp only [e, Res.bind_ok]
    rw [← hv]

theorem anySwap_wf {m : AMem} {a b : AnyObj} (ha : AnyWF m a) (hb : AnyWF m b) :
    ∃ k, anySwap m a b = .ok (m.bump k, b, a) := by
  unfold anySwap
  by_cases hne : a.vtable ≠ b.vtable
  · rw [if_pos hne]
    obtain ⟨k1, e1⟩ := anyMove_wf hb
    obtain ⟨k2, e2⟩ := anyTake_wf (ha.bump k1)
    obtain ⟨k3, e3⟩ := anyTake_wf ((hb.bump k1).bump k2)
    refine ⟨k1 + k2 + k3, ?_⟩
    rw [e1]
    simp only [Res.bind_ok]
    rw [show anyEmpty.store = AStore.none from rfl, e2]
    simp only [Res.bind_ok]
    rw [e3]
    simp only [Res.bind_ok, anyClear, AMem.bump_bump]
  · rw [if_neg hne]
    simp only [ne_eq, Decidable.not_not] at hne
    refine ⟨0, ?_⟩
    cases ha with
    | empty => rw [hb.eq_empty (by rw [← hne]; rfl)]; rfl
    | dyn t p v hbig h =>
      cases hb with
      | empty => simp [anyEmpty] at hne
      | dyn t' p' v' hbig' h' =>
        simp only [Option.some.injEq] at hne; subst hne
        simp [vtSwap, hbig, AMem.bump]
      | stk t' v' hbig' =>
        simp only [Option.some.injEq] at hne; subst hne
        rw [hbig] at hbig'; simp at hbig'
    | stk t v hbig =>
      cases hb with
      | empty => simp [anyEmpty] at hne
      | dyn t' p' v' hbig' h' =>
        simp only [Option.some.injEq] at hne; subst hne
        rw [hbig] at hbig'; simp at hbig'
      | stk t' v' hbig' =>
        simp only [Option.some.injEq] at hne; subst hne
        simp [vtSwap, hbig, AMem.bump]

theorem anySwapSelf_wf {m : AMem} {a : AnyObj} (ha : AnyWF m a) :
    anySwapSelf m a = .ok (m, a) := by
  cases ha with
  | empty => rfl
  | dyn t p v hb h => simp [anySwapSelf, vtSwap, hb]
  | stk t v hb => simp [anySwapSelf, vtSwap, hb]

/-! ### Memory -/

theorem at_alloc_ne {m : AMem} {p q : Nat} {t : PTy} {v : Nat} (h : q ≠ p) :
    (m.alloc p t v).at? q = m.at? q := by
  simp [AMem.at?, AMem.alloc, Ne.symm h]

theorem at_alloc_self {m : AMem} {p : Nat} {t : PTy} {v : Nat} :
    (m.alloc p t v).at? p = some (t, v) := by
  simp [AMem.at?, AMem.alloc]

theorem at_mem {m : AMem} {p : Nat} {x : PTy × Nat} (h : m.at? p = some x) :
    p ∈ m.heap.map Prod.fst := by
  unfold AMem.at? at h
  obtain ⟨e, he, _⟩ := Option.map_eq_some_iff.1 h
  have h1 := List.mem_of_find?_eq_some he
  have h2 := List.find?_some he
  simp only [beq_iff_eq] at h2
  exact List.mem_map.2 ⟨e, h1, h2⟩

theorem AnyWF.alloc {m : AMem} {a : AnyObj} {p : Nat} {t : PTy} {v : Nat} (h : AnyWF m a)
    (hp : p ∉ m.heap.map Prod.fst) :
    AnyWF (m.alloc p t v) a ∧ anyVal (m.alloc p t v) a = anyVal m a := by
  cases h with
  | empty => exact ⟨.empty, rfl⟩
  | dyn t' q v' hb h =>
    have hq : q ≠ p := by rintro rfl; exact hp (at_mem h)
    refine ⟨.dyn t' q v' hb (by rw [at_alloc_ne hq]; exact h), ?_⟩
    simp [anyVal, hb, at_alloc_ne hq]
  | stk t' v' hb => exact ⟨.stk t' v' hb, by simp [anyVal, hb]⟩

/-- What creating an object does. -/
structure Created (m m' : AMem) (os : List AnyObj) (a : AnyObj) (x : Option (PTy × Nat)) : Prop where
  owns : Owns m' (a :: os)
  val : anyVal m' a = x
  frame : ∀ c ∈ os, anyVal m' c = anyVal m c

theorem created_dyn {m : AMem} {os : List AnyObj} (h : Owns m os) {p : Nat} (t : PTy) (v : Nat)
    (hb : t.big = true) (hp : p ∉ m.heap.map Prod.fst) :
    Created m (m.alloc p t v) os ⟨some t, .dynamic p⟩ (some (t, v)) where
  owns := by
    refine ⟨?_, ?_, ?_, ?_⟩
    · intro a ha
      rcases List.mem_cons.1 ha with rfl | ha
      · exact .dyn t p v hb at_alloc_self
      · exact ((h.wf a ha).alloc hp).1
    · rw [List.filterMap_cons_some (b := p) (by simp [anyPtr, hb])]
      simp only [AMem.alloc, List.map_cons]
      exact h.own.cons p
    · simp only [AMem.alloc, List.map_cons, List.nodup_cons]
      exact ⟨hp, h.nodup⟩
    · have := h.count
      simp only [AMem.alloc]
      rw [List.filter_cons_of_pos (by simp), List.length_cons]
      omega
  val := by simp [anyVal, hb, at_alloc_self]
  frame := fun c hc => ((h.wf c hc).alloc hp).2

theorem created_stk {m : AMem} {os : List AnyObj} (h : Owns m os) (t : PTy) (v : Nat)
    (hb : t.big = false) :
    Created m { m with born := m.born + 1 } os ⟨some t, .stack t v⟩ (some (t, v)) where
  owns := by
    refine ⟨?_, ?_, h.nodup, ?_⟩
    · intro a ha
      rcases List.mem_cons.1 ha with rfl | ha
      · exact .stk t v hb
      · cases h.wf a ha with
        | empty => exact .empty
        | dyn t p v hb h => exact .dyn t p v hb h
        | stk t v hb => exact .stk t v hb
    · rw [List.filterMap_cons_none (by simp [anyPtr])]
      exact h.own
    · have := h.count
      rw [List.filter_cons_of_pos (by simp), List.length_cons]
      simp only
      omega
  val := by simp [anyVal, hb]
  frame := fun c hc => rfl

theorem anyOf_created {m : AMem} {os : List AnyObj} (h : Owns m os) (t : PTy) (v p : Nat)
    (hp : p ∉ m.heap.map Prod.fst) :
    Created m (anyOf m t v p).1 os (anyOf m t v p).2 (some (t, v)) := by
  unfold anyOf
  cases hb : t.big with
  | true => exact created_dyn h t v hb hp
  | false => exact created_stk h t v hb

theorem anyCopy_created {m : AMem} {os : List AnyObj} (h : Owns m os) (b : AnyObj) (p : Nat)
    (hbm : b ∈ os) (hp : p ∉ m.heap.map Prod.fst) :
    ∃ m' a, anyCopy m b p = .ok (m', a) ∧ Created m m' os a (anyVal m b) := by
  cases h.wf b hbm with
  | empty =>
    exact ⟨m, anyEmpty, rfl, Owns.empty_iff.2 h, rfl, fun _ _ => rfl⟩
  | dyn t q v hb hq =>
    refine ⟨m.alloc p t v, ⟨some t, .dynamic p⟩, ?_, ?_⟩
    rotate_left
    · have := created_dyn h t v hb hp
      rwa [show anyVal m ⟨some t, .dynamic q⟩ = some (t, v) by simp [anyVal, hb, hq]]
    · simp [anyCopy, vtCopy, hb, hq]
  | stk t v hb =>
    refine ⟨{ m with born := m.born + 1 }, ⟨some t, .stack t v⟩, ?_, ?_⟩
    rotate_left
    · have := created_stk h t v hb
      rwa [show anyVal m ⟨some t, .stack t v⟩ = some (t, v) by simp [anyVal, hb]]
    · simp [anyCopy, vtCopy, hb]

/-- Clearing an object destroys its payload and touches no other. -/
theorem anyClear_owns {m : AMem} {os : List AnyObj} {a : AnyObj} (h : Owns m (a :: os)) :
    ∃ m', anyClear m a = .ok (m', anyEmpty) ∧ Owns m' os ∧ ∀ c ∈ os, anyVal m' c = anyVal m c := by
  have hw := h.wf a (List.mem_cons_self ..)
  have hos : ∀ c ∈ os, AnyWF m c := fun c hc => h.wf c (List.mem_cons_of_mem _ hc)
  cases hw with
  | empty => exact ⟨m, rfl, Owns.empty_iff.1 h, fun _ _ => rfl⟩
  | stk t v hb =>
    refine ⟨{ m with died := m.died + 1 }, by simp [anyClear, vtDestroy, hb]; rfl,
      ⟨?_, ?_, h.nodup, ?_⟩, fun _ _ => rfl⟩
    · intro c hc
      cases hos c hc with
      | empty => exact .empty
      | dyn t p v hb h => exact .dyn t p v hb h
      | stk t v hb => exact .stk t v hb
    · have := h.own
      rwa [List.filterMap_cons_none (by simp [anyPtr])] at this
    · have := h.count
      rw [List.filter_cons_of_pos (by simp), List.length_cons] at this
      simp only
      omega
  | dyn t p v hb hp =>
    have hown := h.own
    rw [List.filterMap_cons_some (b := p) (by simp [anyPtr, hb])] at hown
    have hnd := hown.nodup_iff.2 h.nodup
    have hpos : p ∉ os.filterMap anyPtr := (List.nodup_cons.1 hnd).1
    let m' : AMem := { m with heap := m.heap.filter (fun e => e.1 != p), died := m.died + 1 }
    have hat : ∀ q, q ≠ p → m'.at? q = m.at? q := by
      intro q hq
      simp only [AMem.at?, m']
      congr 1
      rw [List.find?_filter]
      congr 1
      funext e
      by_cases he : e.1 = q
      · simp [he, hq]
      · simp [he]
    have hother : ∀ c ∈ os, AnyWF m' c ∧ anyVal m' c = anyVal m c := by
      intro c hc
      have hcw := hos c hc
      cases hcw with
      | empty => exact ⟨.empty, rfl⟩
      | stk t v hb => exact ⟨.stk t v hb, by simp [anyVal, hb]⟩
      | dyn t' q v' hb' hq' =>
        have hqp : q ≠ p := by
          rintro rfl
          exact hpos (List.mem_filterMap.2 ⟨_, hc, by simp [anyPtr, hb']⟩)
        refine ⟨.dyn t' q v' hb' (by rw [hat q hqp]; exact hq'), ?_⟩
        simp [anyVal, hb', hat q hqp]
    refine ⟨m', by simp [anyClear, vtDestroy, hb, AMem.delete, hp, m']; rfl,
      ⟨fun c hc => (hother c hc).1, ?_, ?_, ?_⟩, fun c hc => (hother c hc).2⟩
    · have e : m'.heap.map Prod.fst = (m.heap.map Prod.fst).filter (fun q => q != p) := by
        simp only [m', List.filter_map]; rfl
      rw [e]
      have := hown.filter (fun q => q != p)
      rw [List.filter_cons_of_neg (by simp)] at this
      refine List.Perm.trans (List.Perm.of_eq ?_) this
      symm
      apply List.filter_eq_self.2
      intro q hq
      simp only [bne_iff_ne, ne_eq]
      rintro rfl
      exact hpos hq
    · exact h.nodup.sublist (List.Sublist.map _ List.filter_sublist)
    · have := h.count
      rw [List.filter_cons_of_pos (by simp), List.length_cons] at this
      simp only [m']
      omega

/-! ### Programs -/

/-- The objects of a program state. -/
def AnyState.objs (S : AnyState) : List AnyObj := S.vars.filterMap id

/-- The abstract contents of a program state. -/
def AnyState.abs (S : AnyState) : Spec.AnyStore := S.vars.map (Option.map (anyVal S.mem))

theorem objs_split {vars : List (Option AnyObj)} {v : Nat} {x : Option AnyObj}
    (h : vars[v]? = some x) :
    (vars.filterMap id).Perm (x.toList ++ (vars.set v none).filterMap id) := by
  induction vars generalizing v with
  | nil => simp at h
  | cons y t ih =>
    cases v with
    | zero =>
      simp only [List.getElem?_cons_zero, Option.some.injEq] at h
      subst h
      cases y <;> simp
    | succ v =>
      simp only [List.getElem?_cons_succ] at h
      have := ih h
      cases y with
      | none => simpa using this
      | some b =>
        simp only [List.set_cons_succ, List.filterMap_cons, id_eq]
        refine (this.cons b).trans ?_
        cases x with
        | none => simp
        | some a => exact List.Perm.swap ..

theorem objs_set {vars : List (Option AnyObj)} {v : Nat} (a : Option AnyObj) (hv : v < vars.length) :
    ((vars.set v a).filterMap id).Perm (a.toList ++ (vars.set v none).filterMap id) := by
  have := objs_split (vars := vars.set v a) (v := v) (x := a) (by simp [hv])
  rwa [List.set_set] at this

theorem get_of {S : AnyState} {v : Nat} {a : AnyObj} (h : S.vars[v]? = some (some a)) :
    S.get v = .ok a := by
  simp [AnyState.get, h]

theorem lt_of_getElem? {α : Type} {l : List α} {i : Nat} {x : α} (h : l[i]? = some x) :
    i < l.length := (List.getElem?_eq_some_iff.1 h).1

theorem look_abs {S : AnyState} {v : Nat} {a : AnyObj} (h : S.vars[v]? = some (some a)) :
    Spec.anyLook S.abs v = some (anyVal S.mem a) := by
  simp [Spec.anyLook, AnyState.abs, h]

/-- Equality of abstract contents after a write. -/
theorem abs_set {vars : List (Option AnyObj)} {m m' : AMem} {v : Nat} (x : Option AnyObj)
    (hf : ∀ c ∈ (vars.set v none).filterMap id, anyVal m' c = anyVal m c) :
    (vars.set v x).map (Option.map (anyVal m')) =
      (vars.map (Option.map (anyVal m))).set v (x.map (anyVal m')) := by
  apply List.ext_getElem?
  intro i
  rw [List.getElem?_map, List.getElem?_set, List.getElem?_set, List.length_map, List.getElem?_map]
  by_cases hi : v = i
  · rw [if_pos hi, if_pos hi]
    split <;> rfl
  · rw [if_neg hi, if_neg hi]
    cases hx : vars[i]? with
    | none => rfl
    | some o =>
      cases o with
      | none => rfl
      | some c =>
        simp only [Option.map_some, Option.some.injEq]
        exact hf c (List.mem_filterMap.2 ⟨some c, List.mem_of_getElem? (i := i) (by
          rw [List.getElem?_set_ne hi]; exact hx), rfl⟩)

theorem abs_congr {vars : List (Option AnyObj)} {m m' : AMem}
    (hf : ∀ c ∈ vars.filterMap id, anyVal m' c = anyVal m c) :
    vars.map (Option.map (anyVal m')) = vars.map (Option.map (anyVal m)) := by
  apply List.map_congr_left
  intro o ho
  cases o with
  | none => rfl
  | some c =>
    simp only [Option.map_some, Option.some.injEq]
    exact hf c (List.mem_filterMap.2 ⟨_, ho, rfl⟩)

theorem set_self {α : Type} {l : List α} {i : Nat} {x : α} (h : l[i]? = some x) : l.set i x = l := by
  apply List.ext_getElem?
  intro j
  rw [List.getElem?_set]
  by_cases hj : i = j
  · subst hj; rw [if_pos rfl, if_pos (lt_of_getElem? h), h]
  · rw [if_neg hj]

/-- Storing a newly created object in a variable that did not exist. -/
theorem construct_ok {S : AnyState} {m : AMem} {v : Nat} {a : AnyObj} {x : Option (PTy × Nat)}
    (hv : S.vars[v]? = some none) (hc : Created S.mem m S.objs a x) :
    ∃ S', S.construct v m a = .ok S' ∧ Owns S'.mem S'.objs ∧ S'.abs = S.abs.set v (some x) ∧
      S' = { mem := m, vars := S.vars.set v (some a) } := by
  have hset : S.vars.set v none = S.vars := set_self hv
  refine ⟨{ mem := m, vars := S.vars.set v (some a) }, by rw [AnyState.construct, if_pos hv], ?_, ?_,
    rfl⟩
  · refine hc.owns.perm ?_
    have := objs_set (some a) (lt_of_getElem? hv)
    rw [hset] at this
    exact this.symm
  · simp only [AnyState.abs]
    rw [abs_set (m := S.mem) (some a) (by rw [hset]; exact hc.frame), Option.map_some, hc.val]

/-- The tail of the assignments. -/
theorem swapIn_ok {S : AnyState} {m : AMem} {v : Nat} {tmp a : AnyObj} {x : Option (PTy × Nat)}
    (hv : S.vars[v]? = some (some a)) (hc : Created S.mem m S.objs tmp x) :
    ∃ S', S.swapIn v m tmp = .ok S' ∧ Owns S'.mem S'.objs ∧ S'.abs = S.abs.set v (some x) := by
  have hsp := objs_split hv
  have ho : Owns m (a :: tmp :: (S.vars.set v none).filterMap id) := by
    refine hc.owns.perm ?_
    refine (hsp.cons tmp).trans ?_
    exact List.Perm.swap ..
  obtain ⟨k, e⟩ := anySwap_wf (ho.wf tmp (by simp)) (ho.wf a (by simp))
  obtain ⟨m', e2, ho2, hf2⟩ := anyClear_owns (ho.bump k)
  refine ⟨{ mem := m', vars := S.vars.set v (some tmp) }, ?_, ?_, ?_⟩
  · unfold AnyState.swapIn
    rw [get_of hv, Res.bind_ok, e, Res.bind_ok]
    simp only
    rw [e2]
    rfl
  · exact ho2.perm (objs_set (some tmp) (lt_of_getElem? hv)).symm
  · simp only [AnyState.abs]
    rw [abs_set (m := S.mem) (some tmp), Option.map_some, hf2 tmp (by simp), anyVal_bump, hc.val]
    intro c hcm
    rw [hf2 c (List.mem_cons_of_mem _ hcm), anyVal_bump]
    exact hc.frame c (hsp.mem_iff.2 (by simp [hcm]))

/-- One statement: it is defined, keeps the accounting and does what the specification says. -/
theorem any_step (S : AnyState) (op : AnyOp) (ho : Owns S.mem S.objs) (hl : Spec.anyLegal S op) :
    ∃ S', S.step op = .ok S' ∧ Owns S'.mem S'.objs ∧ S'.abs = Spec.anyStep S.abs op := by
  cases op with
  | empty v =>
    obtain ⟨S', e, h1, h2, _⟩ := construct_ok (a := anyEmpty) (x := none) hl
      ⟨Owns.empty_iff.2 ho, rfl, fun _ _ => rfl⟩
    exact ⟨S', e, h1, h2⟩
  | value v t x p =>
    obtain ⟨S', e, h1, h2, _⟩ := construct_ok hl.1 (anyOf_created ho t x p hl.2)
    exact ⟨S', e, h1, h2⟩
  | copy v w p =>
    obtain ⟨hv, ⟨b, hb⟩, hp⟩ := hl
    obtain ⟨m, a, e, hc⟩ := anyCopy_created ho b p (List.mem_filterMap.2 ⟨_, List.mem_of_getElem? hb, rfl⟩) hp
    obtain ⟨S', e', h1, h2, _⟩ := construct_ok hv hc
    refine ⟨S', ?_, h1, ?_⟩
    · rw [AnyState.step, get_of hb, Res.bind_ok, e, Res.bind_ok]; exact e'
    · rw [h2, Spec.anyStep, look_abs hb]
  | move v w =>
    obtain ⟨hv, ⟨b, hb⟩⟩ := hl
    have hbm : b ∈ S.objs := List.mem_filterMap.2 ⟨_, List.mem_of_getElem? hb, rfl⟩
    obtain ⟨k, e⟩ := anyMove_wf (ho.wf b hbm)
    have hvw : v ≠ w := by rintro rfl; rw [hv] at hb; simp at hb
    refine ⟨{ mem := S.mem.bump k, vars := (S.vars.set v (some b)).set w (some anyEmpty) }, ?_, ?_, ?_⟩
    · rw [AnyState.step, get_of hb, Res.bind_ok, e, Res.bind_ok]
      simp only
      rw [AnyState.construct, if_pos hv, Res.bind_ok]
      rfl
    · refine (Owns.empty_iff.2 (ho.bump k)).perm ?_
      simp only [AnyState.objs]
      have h1 := objs_set (vars := S.vars.set v (some b)) (v := w) (some anyEmpty)
        (by simpa using lt_of_getElem? hb)
      refine List.Perm.trans ?_ h1.symm
      simp only [Option.toList_some, List.singleton_append]
      refine List.Perm.cons _ ?_
      have h2 := objs_split hb
      refine h2.trans ?_
      rw [List.set_comm _ _ hvw]
      have h3 := objs_set (vars := S.vars.set w none) (v := v) (some b)
        (by simpa using lt_of_getElem? hv)
      refine List.Perm.trans ?_ h3.symm
      simp only [Option.toList_some, List.singleton_append]
      rw [set_self (l := S.vars.set w none) (i := v) (x := none) (by
        rw [List.getElem?_set_ne (Ne.symm hvw)]; exact hv)]
    · simp only [AnyState.abs, Spec.anyStep, Spec.anyLook]
      simp [List.map_set, hb, anyVal, anyEmpty]
      rfl
  | assign v w p =>
    obtain ⟨⟨a, ha⟩, ⟨b, hb⟩, hp⟩ := hl
    obtain ⟨m, tmp, e, hc⟩ := anyCopy_created ho b p (List.mem_filterMap.2 ⟨_, List.mem_of_getElem? hb, rfl⟩) hp
    obtain ⟨S', e', h1, h2⟩ := swapIn_ok ha hc
    refine ⟨S', ?_, h1, ?_⟩
    · rw [AnyState.step, get_of hb, Res.bind_ok, e, Res.bind_ok]; exact e'
    · rw [h2, Spec.anyStep, look_abs hb]
  | moveAssign v w =>
    obtain ⟨⟨a, ha⟩, ⟨b, hb⟩⟩ := hl
    have hbm : b ∈ S.objs := List.mem_filterMap.2 ⟨_, List.mem_of_getElem? hb, rfl⟩
    obtain ⟨k, e⟩ := anyMove_wf (ho.wf b hbm)
    -- the state in which the source is empty and the temporary owns its payload
    let S1 : AnyState := { mem := S.mem, vars := S.vars.set w (some anyEmpty) }
    have hc : Created S1.mem (S.mem.bump k) S1.objs b (anyVal S.mem b) := by
      refine ⟨?_, rfl, fun c _ => anyVal_bump ..⟩
      refine (Owns.empty_iff.2 (ho.bump k)).perm ?_
      have h1 := objs_set (vars := S.vars) (v := w) (some anyEmpty) (lt_of_getElem? hb)
      have h2 := objs_split hb
      simp only [Option.toList_some, List.singleton_append] at h1 h2
      refine (h2.cons _).trans ((List.Perm.swap ..).trans ?_)
      exact List.Perm.cons _ h1.symm
    obtain ⟨a', ha'⟩ : ∃ a', S1.vars[v]? = some (some a') := by
      by_cases hvw : w = v
      · subst hvw; exact ⟨anyEmpty, by simp [S1, lt_of_getElem? hb]⟩
      · exact ⟨a, by simp only [S1]; rw [List.getElem?_set_ne hvw]; exact ha⟩
    obtain ⟨S', e', h1, h2⟩ := swapIn_ok ha' hc
    refine ⟨S', ?_, h1, ?_⟩
    · rw [AnyState.step, get_of hb, Res.bind_ok, e, Res.bind_ok]; exact e'
    · rw [h2, Spec.anyStep, look_abs hb]
      have e1 : S1.abs = S.abs.set w (some none) := by
        simp only [AnyState.abs, S1, List.map_set]; rfl
      rw [e1]
      by_cases hvw : v = w
      · subst hvw
        rw [if_pos rfl, List.set_set]
        exact set_self (by simp [AnyState.abs, hb])
      · rw [if_neg hvw, List.set_comm _ _ (Ne.symm hvw)]
  | assignValue v t x p =>
    obtain ⟨⟨a, ha⟩, hp⟩ := hl
    exact swapIn_ok ha (anyOf_created ho t x p hp)
  | clear v =>
    obtain ⟨a, ha⟩ := hl
    have hsp := objs_split ha
    obtain ⟨m', e, h1, h2⟩ := anyClear_owns (ho.perm hsp)
    refine ⟨{ mem := m', vars := S.vars.set v (some anyEmpty) }, ?_, ?_, ?_⟩
    · rw [AnyState.step, get_of ha, Res.bind_ok, e, Res.bind_ok]
    · exact (Owns.empty_iff.2 h1).perm (objs_set (some anyEmpty) (lt_of_getElem? ha)).symm
    · simp only [AnyState.abs]
      rw [abs_set (m := S.mem) (some anyEmpty) h2]
      rfl
  | swap v w =>
    obtain ⟨⟨a, ha⟩, ⟨b, hb⟩⟩ := hl
    by_cases hvw : v = w
    · subst hvw
      rw [ha] at hb; cases hb
      refine ⟨S, ?_, ho, ?_⟩
      · rw [AnyState.step, if_pos rfl, get_of ha, Res.bind_ok,
          anySwapSelf_wf (ho.wf a (List.mem_filterMap.2 ⟨_, List.mem_of_getElem? ha, rfl⟩)), Res.bind_ok]
        simp only
        rw [set_self ha]
      · rw [Spec.anyStep, look_abs ha, List.set_set]
        symm
        exact set_self (by simp [AnyState.abs, ha])
    · obtain ⟨k, e⟩ := anySwap_wf (ho.wf a (List.mem_filterMap.2 ⟨_, List.mem_of_getElem? ha, rfl⟩))
        (ho.wf b (List.mem_filterMap.2 ⟨_, List.mem_of_getElem? hb, rfl⟩))
      refine ⟨{ mem := S.mem.bump k, vars := (S.vars.set v (some b)).set w (some a) }, ?_, ?_, ?_⟩
      · rw [AnyState.step, if_neg hvw, get_of ha, Res.bind_ok, get_of hb, Res.bind_ok, e, Res.bind_ok]
      · refine (ho.bump k).perm ?_
        simp only [AnyState.objs]
        have h1 := objs_split ha
        have h2 := objs_split (vars := S.vars.set v none) (v := w) (x := some b) (by
          rw [List.getElem?_set_ne hvw]; exact hb)
        have h3 := objs_set (vars := S.vars.set v (some b)) (v := w) (some a)
          (by simpa using lt_of_getElem? hb)
        have h4 := objs_set (vars := S.vars.set w none) (v := v) (some b)
          (by simpa using lt_of_getElem? ha)
        rw [List.set_comm _ _ (Ne.symm hvw)] at h4
        rw [List.set_comm (l := S.vars) _ _ (Ne.symm hvw)] at h4
        simp only [Option.toList_some, List.singleton_append] at h1 h2 h3 h4
        exact (h1.trans (h2.cons a)).trans ((h3.trans (h4.cons a)).symm)
      · simp only [AnyState.abs, Spec.anyStep, Spec.anyLook]
        simp [List.map_set, ha, hb]
        rfl
  | destroy v =>
    obtain ⟨a, ha⟩ := hl
    have hsp := objs_split ha
    obtain ⟨m', e, h1, h2⟩ := anyClear_owns (ho.perm hsp)
    refine ⟨{ mem := m', vars := S.vars.set v none }, ?_, h1, ?_⟩
    · rw [AnyState.step, get_of ha, Res.bind_ok, e, Res.bind_ok]
    · simp only [AnyState.abs]
      rw [abs_set (m := S.mem) none h2]
      rfl

theorem any_run : ∀ (ops : List AnyOp) (S : AnyState), Owns S.mem S.objs →
    Spec.anyLegalRun S ops → ∃ S', S.run ops = .ok S' ∧ Owns S'.mem S'.objs ∧
      S'.abs = ops.foldl Spec.anyStep S.abs := by
  intro ops
  induction ops with
  | nil => intro S h _; exact ⟨S, rfl, h, rfl⟩
  | cons op ops ih =>
    intro S h hl
    obtain ⟨S1, e1, h1, a1⟩ := any_step S op h hl.1
    obtain ⟨S2, e2, h2, a2⟩ := ih S1 h1 (hl.2 S1 e1)
    exact ⟨S2, by rw [AnyState.run, e1, Res.bind_ok]; exact e2, h2, by rw [a2, a1]; rfl⟩

theorem owns_init (n : Nat) : Owns (AnyState.init n).mem (AnyState.init n).objs := by
  have : (AnyState.init n).objs = [] := by
    simp [AnyState.objs, AnyState.init]
  rw [this]
  exact ⟨by simp, by simp [AnyState.init], by simp [AnyState.init], by simp [AnyState.init]⟩

/-- **C46.** Every program over any number of variables that obeys the language's rules runs without
undefined behaviour, and leaves in every variable exactly what value semantics prescribes: copies
are equal and independent of what is later done to the original, moves empty the source, swaps
exchange, self-assignments and self-swaps change nothing. -/
theorem C46_value_semantics (n : Nat) (ops : List AnyOp)
    (hl : Spec.anyLegalRun (AnyState.init n) ops) :
    ∃ S, (AnyState.init n).run ops = .ok S ∧
      ∀ v, v < n → ∃ o, S.vars[v]? = some o ∧
        o.map (anyVal S.mem) = Spec.anyLook (ops.foldl Spec.anyStep (List.replicate n none)) v := by
  obtain ⟨S, e, _, ha⟩ := any_run ops _ (owns_init n) hl
  have h0 : (AnyState.init n).abs = List.replicate n none := by
    simp [AnyState.abs, AnyState.init]
  rw [h0] at ha
  have hlen : ∀ (ops : List AnyOp) (s : Spec.AnyStore),
      (ops.foldl Spec.anyStep s).length = s.length := by
    intro ops
    induction ops with
    | nil => intro s; rfl
    | cons op ops ih =>
      intro s
      rw [List.foldl_cons, ih]
      cases op with
      | moveAssign v w => simp only [Spec.anyStep]; split <;> simp
      | _ => simp [Spec.anyStep]
  have hlen' : S.vars.length = n := by
    have := congrArg List.length ha
    rw [hlen] at this
    simpa [AnyState.abs] using this
  refine ⟨S, e, ?_⟩
  intro v hv
  have hv' : v < S.vars.length := by omega
  refine ⟨S.vars[v], List.getElem?_eq_getElem hv', ?_⟩
  rw [← ha]
  simp [Spec.anyLook, AnyState.abs, hv']

/-- **C46 (casts).** In any state a legal program reaches, `any_cast<T>` of a variable gives its value
exactly when the variable holds a `T`, and the null pointer otherwise. -/
theorem C46_cast (n : Nat) (ops : List AnyOp) (hl : Spec.anyLegalRun (AnyState.init n) ops)
    (S : AnyState) (hr : (AnyState.init n).run ops = .ok S) (v : Nat) (a : AnyObj)
    (ha : S.vars[v]? = some (some a)) (t : PTy) :
    ∃ r, anyCast S.mem a t = .ok r ∧
      ∀ x, r = some x ↔
        Spec.anyLook (ops.foldl Spec.anyStep (List.replicate n none)) v = some (some (t, x)) := by
  obtain ⟨S', e, ho, habs⟩ := any_run ops _ (owns_init n) hl
  rw [hr] at e
  cases e
  have h0 : (AnyState.init n).abs = List.replicate n none := by
    simp [AnyState.abs, AnyState.init]
  rw [h0] at habs
  rw [← habs, look_abs ha]
  cases ho.wf a (List.mem_filterMap.2 ⟨_, List.mem_of_getElem? ha, rfl⟩) with
  | empty => exact ⟨none, rfl, by simp [anyVal, anyEmpty]⟩
  | dyn t' p x hb hp =>
    by_cases ht : t' = t
    · subst ht
      exact ⟨some x, by simp [anyCast, hb, hp], by simp [anyVal, hb, hp]⟩
    · exact ⟨none, by simp [anyCast, ht], by simp [anyVal, hb, hp, ht]⟩
  | stk t' x hb =>
    by_cases ht : t' = t
    · subst ht
      exact ⟨some x, by simp [anyCast, hb], by simp [anyVal, hb]⟩
    · exact ⟨none, by simp [anyCast, ht], by simp [anyVal, hb, ht]⟩

/-- **C46 (no leak, no double destruction).** At any time the number of payload objects constructed
exceeds the number destroyed by exactly the number of variables that hold a value, and no two heap
objects share an address; after all variables are destroyed the heap is empty and every payload ever
constructed has been destroyed exactly once (destroying one twice would be undefined, and is
excluded by `C46_value_semantics`). -/
theorem C46_no_leak (n : Nat) (ops : List AnyOp) (hl : Spec.anyLegalRun (AnyState.init n) ops)
    (S : AnyState) (hr : (AnyState.init n).run ops = .ok S) :
    S.mem.born = S.mem.died + (S.vars.filter (fun o => (o.bind (anyVal S.mem)).isSome)).length ∧
    (S.mem.heap.map Prod.fst).Nodup ∧
    ((∀ v : Nat, v < n → S.vars[v]? = some none) → S.mem.heap = [] ∧ S.mem.born = S.mem.died) := by
  obtain ⟨S', e, ho, habs⟩ := any_run ops _ (owns_init n) hl
  rw [hr] at e
  cases e
  have hlen : S.vars.length = n := by
    have h1 : ∀ (ops : List AnyOp) (s : Spec.AnyStore),
        (ops.foldl Spec.anyStep s).length = s.length := by
      intro ops
      induction ops with
      | nil => intro s; rfl
      | cons op ops ih =>
        intro s
        rw [List.foldl_cons, ih]
        cases op with
        | moveAssign v w => simp only [Spec.anyStep]; split <;> simp
        | _ => simp [Spec.anyStep]
    have := congrArg List.length habs
    rw [h1] at this
    simpa [AnyState.abs, AnyState.init] using this
  have hcnt : ∀ vars : List (Option AnyObj), (∀ a ∈ vars.filterMap id, AnyWF S.mem a) →
      ((vars.filterMap id).filter (fun a => a.vtable.isSome)).length =
        (vars.filter (fun o => (o.bind (anyVal S.mem)).isSome)).length := by
    intro vars
    induction vars with
    | nil => intro _; rfl
    | cons o t ih =>
      intro hw
      cases o with
      | none =>
        have := ih (fun a ha => hw a (by simpa using ha))
        simpa using this
      | some a =>
        have h1 := ih (fun c hc => hw c (by simp only [List.filterMap_cons, id_eq]; exact List.mem_cons_of_mem _ hc))
        have h2 : a.vtable.isSome = (anyVal S.mem a).isSome := by
          cases hw a (by simp) with
          | empty => rfl
          | dyn t p v hb hp => simp [anyVal, hb, hp]
          | stk t v hb => simp [anyVal, hb]
        simp only [List.filterMap_cons, id_eq, List.filter_cons, Option.bind_some, h2]
        split <;> simp [h1]
  have hb := ho.count
  rw [show S.objs = S.vars.filterMap id from rfl, hcnt S.vars ho.wf] at hb
  refine ⟨hb, ho.nodup, ?_⟩
  intro hall
  have hobj : S.objs = [] := by
    simp only [AnyState.objs, List.filterMap_eq_nil_iff, id_eq]
    intro o ho
    obtain ⟨i, hi, rfl⟩ := List.mem_iff_getElem.1 ho
    have := hall i (by omega)
    rw [List.getElem?_eq_getElem hi] at this
    exact Option.some.inj this
  have h1 := ho.own
  have h2 := ho.count
  rw [hobj] at h1 h2
  refine ⟨?_, by simpa using h2⟩
  have := h1.symm.eq_nil
  simpa using this

/-- A small and a big type, copies, self-assignments, swaps and casts. -/
example : (AnyState.init 3).run [.value 0 ⟨1, true⟩ 42 10, .copy 1 0 11, .assign 0 0 12,
      .moveAssign 1 1, .value 2 ⟨2, false⟩ 7 0, .swap 0 2, .moveAssign 1 2, .swap 1 1,
      .assignValue 2 ⟨2, false⟩ 8 0, .destroy 2] =
    .ok ⟨⟨[(12, ⟨1, true⟩, 42)], 8, 6⟩,
      [some ⟨some ⟨2, false⟩, .stack ⟨2, false⟩ 7⟩, some ⟨some ⟨1, true⟩, .dynamic 12⟩, none]⟩ := by
  decide +kernel

/-- Its statements obey the rules. -/
example : Spec.anyLegalRun (AnyState.init 2) [.value 0 ⟨1, true⟩ 42 10, .copy 1 0 11, .assign 0 0 12,
    .swap 0 1, .destroy 1] := by
  refine ⟨⟨rfl, by decide⟩, ?_⟩
  intro S1 h1
  cases h1
  refine ⟨⟨rfl, ⟨_, rfl⟩, by decide⟩, ?_⟩
  intro S2 h2
  cases h2
  refine ⟨⟨⟨_, rfl⟩, ⟨_, rfl⟩, by decide⟩, ?_⟩
  intro S3 h3
  cases h3
  refine ⟨⟨⟨_, rfl⟩, ⟨_, rfl⟩⟩, ?_⟩
  intro S4 h4
  cases h4
  exact ⟨⟨_, rfl⟩, fun _ _ => trivial⟩

end OmegaH
