import Verif.Lemmas.ProfileRun
/-!
# Walks over a profile
-/
namespace OmegaH
open Spec

variable {K : Type}

theorem PHistory.kids_lt {h : PHistory K} {q : Option Nat} {j : Nat} (hj : j ∈ h.kids q) : j < h.frames.length := by
  obtain ⟨f, hf, _⟩ := PHistory.mem_kids.1 hj
  exact (List.getElem?_eq_some_iff.1 hf).1

theorem PHistory.WF.kids_gt {h : PHistory K} (hw : h.WF) {i j : Nat} (hj : j ∈ h.kids (some i)) : i < j := by
  obtain ⟨f, hf, hp⟩ := PHistory.mem_kids.1 hj
  exact hw.par j f hf i hp

/-- The walk order exists. -/
theorem PHistory.WF.walk {h : PHistory K} (hw : h.WF) : ∀ (m : Nat) (l : List Nat), (∀ i ∈ l, i < h.frames.length ∧ h.frames.length ≤ i + m) →
    ∃ a, PWalk (fun i => h.kids (some i)) l a := by
  intro m
  induction m with
  | zero =>
    intro l hl
    cases l with
    | nil => exact ⟨[], .nil⟩
    | cons i l => have := hl i List.mem_cons_self; omega
  | succ m ih =>
    intro l
    induction l with
    | nil => intro _; exact ⟨[], .nil⟩
    | cons i l ihl =>
      intro hl
      obtain ⟨a, ha⟩ := ih (h.kids (some i)) (fun j hj => by
        have := PHistory.kids_lt hj
        have := hw.kids_gt hj
        have := hl i List.mem_cons_self
        omega)
      obtain ⟨b, hb⟩ := ihl (fun j hj => hl j (List.mem_cons_of_mem _ hj))
      exact ⟨_, .cons i l a b ha hb⟩

theorem PWalk.mem {kids : Nat → List Nat} {l a : List Nat} (h : PWalk kids l a) : ∀ i ∈ l, i ∈ a := by
  induction h with
  | nil => intro i hi; exact hi
  | cons i l a b _ _ _ ih =>
    intro j hj
    rcases List.mem_cons.1 hj with rfl | hj
    · exact List.mem_cons_self
    · exact List.mem_cons_of_mem _ (List.mem_append_right _ (ih j hj))

theorem PWalk.closed {kids : Nat → List Nat} {l a : List Nat} (h : PWalk kids l a) : ∀ i ∈ a, ∀ j ∈ kids i, j ∈ a := by
  induction h with
  | nil => intro i hi; simp at hi
  | cons i l a b ha _ iha ihb =>
    intro k hk j hj
    rcases List.mem_cons.1 hk with rfl | hk
    · exact List.mem_cons_of_mem _ (List.mem_append_left _ (PWalk.mem ha j hj))
    · rcases List.mem_append.1 hk with hk | hk
      · exact List.mem_cons_of_mem _ (List.mem_append_left _ (iha k hk j hj))
      · exact List.mem_cons_of_mem _ (List.mem_append_right _ (ihb k hk j hj))

theorem PHistory.HasPath.kid {h : PHistory K} {i j : Nat} {P : List (List Nat)} (hj : j ∈ h.kids (some i)) (hP : h.HasPath j P) :
    ∃ Q x, h.HasPath i Q ∧ P = Q ++ [x] := by
  have hp := PHistory.mem_kids_parent.1 hj
  cases hP with
  | root _ x a b => rw [hp] at a; cases a
  | child _ k x Q a b c => rw [hp] at a; cases a; exact ⟨Q, x, c, rfl⟩

/-- What is visited is below one of the starting entries. -/
theorem PHistory.WF.under {h : PHistory K} (hw : h.WF) {l a : List Nat} (hwk : PWalk (fun i => h.kids (some i)) l a) :
    (∀ q ∈ l, q < h.frames.length) → ∀ j ∈ a, ∃ q ∈ l, ∃ P Q, h.HasPath q P ∧ h.HasPath j (P ++ Q) := by
  induction hwk with
  | nil => intro _ j hj; simp at hj
  | cons i l a b _ _ iha ihb =>
    intro hl j hj
    rcases List.mem_cons.1 hj with rfl | hj
    · obtain ⟨P, hP⟩ := hw.hasPath j (hl j List.mem_cons_self)
      exact ⟨j, List.mem_cons_self, P, [], hP, by rw [List.append_nil]; exact hP⟩
    · rcases List.mem_append.1 hj with hj | hj
      · obtain ⟨q, hq, P, Q, hP, hQ⟩ := iha (fun q hq => PHistory.kids_lt hq) j hj
        obtain ⟨P', x, hP', rfl⟩ := hP.kid hq
        exact ⟨i, List.mem_cons_self, P', [x] ++ Q, hP', by rw [← List.append_assoc]; exact hQ⟩
      · obtain ⟨q, hq, r⟩ := ihb (fun q hq => hl q (List.mem_cons_of_mem _ hq)) j hj
        exact ⟨q, List.mem_cons_of_mem _ hq, r⟩

theorem PHistory.HasPath.length_of_kids {h : PHistory K} {p : Option Nat} {i j : Nat} {P Q : List (List Nat)}
    (hi : i ∈ h.kids p) (hj : j ∈ h.kids p) (hP : h.HasPath i P) (hQ : h.HasPath j Q) : P.length = Q.length := by
  cases p with
  | none =>
    have h1 := PHistory.mem_kids_parent.1 hi
    have h2 := PHistory.mem_kids_parent.1 hj
    cases hP with
    | child _ _ _ _ a => rw [h1] at a; cases a
    | root =>
      cases hQ with
      | child _ _ _ _ a => rw [h2] at a; cases a
      | root => rfl
  | some k =>
    obtain ⟨P', x, a, rfl⟩ := hP.kid hi
    obtain ⟨Q', y, b, rfl⟩ := hQ.kid hj
    rw [PHistory.HasPath.path_unique a b]
    simp

/-- No entry is visited twice. -/
theorem PHistory.WF.walk_nodup {h : PHistory K} (hw : h.WF) {l a : List Nat} (hwk : PWalk (fun i => h.kids (some i)) l a) :
    ∀ p, (∀ q ∈ l, q ∈ h.kids p) → l.Nodup → a.Nodup := by
  induction hwk with
  | nil => intro _ _ _; exact List.nodup_nil
  | cons i l a b ha hb iha ihb =>
    intro p hp hl
    have hil := hp i List.mem_cons_self
    obtain ⟨hnot, hl'⟩ := List.nodup_cons.1 hl
    have hp' : ∀ q ∈ l, q ∈ h.kids p := fun q hq => hp q (List.mem_cons_of_mem _ hq)
    have na := iha (some i) (fun q hq => hq) ((h.kids_sorted (some i)).imp (fun hh => by omega))
    have nb := ihb p hp' hl'
    have ua := hw.under ha (fun q hq => PHistory.kids_lt hq)
    have ub := hw.under hb (fun q hq => PHistory.kids_lt (hp' q hq))
    obtain ⟨Pi, hPi⟩ := hw.hasPath i (PHistory.kids_lt hil)
    -- the path of `i` begins the path of no entry of `b`
    have key : ∀ j ∈ b, ∀ R, ¬ h.HasPath j (Pi ++ R) := by
      intro j hj R hR
      obtain ⟨q, hq, P, Q, hP, hQ⟩ := ub j hj
      have hlen := PHistory.HasPath.length_of_kids hil (hp' q hq) hPi hP
      have he := PHistory.HasPath.path_unique hR hQ
      have := (List.append_inj he hlen).1
      subst this
      have := hw.frame_unique hPi hP
      subst this
      exact hnot hq
    rw [List.nodup_cons, List.nodup_append]
    refine ⟨?_, na, nb, ?_⟩
    · rw [List.mem_append]
      rintro (hi | hi)
      · obtain ⟨q, hq, P, Q, hP, hQ⟩ := ua i hi
        obtain ⟨P', x, hP', rfl⟩ := hP.kid hq
        have e1 := PHistory.HasPath.path_unique hP' hPi
        have e2 := PHistory.HasPath.path_unique hQ hPi
        subst e1
        have := congrArg List.length e2
        simp at this
      · exact key i hi [] (by rw [List.append_nil]; exact hPi)
    · intro x hx y hy hxy
      subst hxy
      obtain ⟨q, hq, P, Q, hP, hQ⟩ := ua x hx
      obtain ⟨P', z, hP', rfl⟩ := hP.kid hq
      have e1 := PHistory.HasPath.path_unique hP' hPi
      subst e1
      exact key x hy ([z] ++ Q) (by rw [← List.append_assoc]; exact hQ)

/-- Every entry is visited. -/
theorem PHistory.WF.walk_perm {h : PHistory K} (hw : h.WF) {a : List Nat} (hwk : PWalk (fun i => h.kids (some i)) (h.kids none) a) :
    a.Perm (List.range h.frames.length) := by
  rw [List.perm_ext_iff_of_nodup (hw.walk_nodup hwk none (fun q hq => hq) ((h.kids_sorted none).imp (fun hh => by omega))) List.nodup_range]
  intro j
  rw [List.mem_range]
  constructor
  · intro hj
    obtain ⟨_, _, _, _, _, hh⟩ := hw.under hwk (fun q hq => PHistory.kids_lt hq) j hj
    exact hh.lt
  · induction j using Nat.strongRecOn with
    | ind j ih =>
      intro hj
      have hf := List.getElem?_eq_getElem hj
      cases hp : (h.frames[j]).parent with
      | none => exact PWalk.mem hwk j (PHistory.mem_kids.2 ⟨_, hf, hp⟩)
      | some q =>
        have hq := hw.par j _ hf q hp
        exact PWalk.closed hwk q (ih q hq (by omega)) j (PHistory.mem_kids.2 ⟨_, hf, hp⟩)

/-! The iterator -/

theorem PHistory.WF.climb_stable {h : PHistory K} (hw : h.WF) : ∀ (i : Nat), i < h.frames.length →
    ∃ r, ∀ fuel, i + 1 ≤ fuel → h.climb fuel (some i) = some r := by
  intro i
  induction i using Nat.strongRecOn with
  | ind i ih =>
    intro hi
    have hf := List.getElem?_eq_getElem hi
    have hn : h.next i = some (h.frames[i]).nextSibling := by unfold PHistory.next; rw [hf]; rfl
    have hp : h.parent i = some (h.frames[i]).parent := by unfold PHistory.parent; rw [hf]; rfl
    cases hns : (h.frames[i]).nextSibling with
    | some j =>
      refine ⟨some j, fun fuel hfu => ?_⟩
      cases fuel with
      | zero => omega
      | succ fuel =>
        unfold PHistory.climb
        rw [hn, Option.bind_some, hns]
    | none =>
      cases hpp : (h.frames[i]).parent with
      | none =>
        refine ⟨none, fun fuel hfu => ?_⟩
        cases fuel with
        | zero => omega
        | succ fuel =>
          unfold PHistory.climb
          rw [hn, Option.bind_some, hns, hp, hpp]
          dsimp only
          rw [Option.bind_some]
          cases fuel <;> rfl
      | some q =>
        have hq := hw.par i _ hf q hpp
        obtain ⟨r, hr⟩ := ih q hq (by omega)
        refine ⟨r, fun fuel hfu => ?_⟩
        cases fuel with
        | zero => omega
        | succ fuel =>
          unfold PHistory.climb
          rw [hn, Option.bind_some, hns, hp, hpp]
          dsimp only
          rw [Option.bind_some]
          exact hr fuel (by omega)

theorem PHistory.WF.climb_step {h : PHistory K} (hw : h.WF) {p : Option Nat} {x l : List Nat} {i : Nat} (hk : h.kids p = x ++ i :: l) :
    h.climb h.frames.length (some i) = match l.head? with
      | some j => some (some j)
      | none => h.climb h.frames.length p := by
  obtain ⟨f, hf, hp, hn⟩ := hw.nextOf hk
  have hi := (List.getElem?_eq_some_iff.1 hf).1
  have hne : h.next i = some l.head? := by unfold PHistory.next; rw [hf, Option.map_some, hn]
  have hpa : h.parent i = some p := by unfold PHistory.parent; rw [hf, Option.map_some, hp]
  obtain ⟨m, hm⟩ : ∃ m, h.frames.length = m + 1 := ⟨h.frames.length - 1, by omega⟩
  rw [hm]
  rw [show h.climb (m + 1) (some i) = (h.next i).bind (fun j => match j with
    | some j => some (some j)
    | none => (h.parent i).bind (fun p => h.climb m p)) from rfl]
  rw [hne, Option.bind_some, hpa]
  cases l with
  | cons j l => rfl
  | nil =>
    show h.climb m p = h.climb (m + 1) p
    cases p with
    | none => cases m <;> rfl
    | some q =>
      have hq := hw.par i f hf q hp
      obtain ⟨r, hr⟩ := hw.climb_stable q (by omega)
      rw [hr m (by omega), hr (m + 1) (by omega)]

theorem PHistory.WF.preOrder_walk {h : PHistory K} (hw : h.WF) {l a : List Nat} (hwk : PWalk (fun i => h.kids (some i)) l a) :
    ∀ (p : Option Nat) (x : List Nat) (fuel : Nat) (t : Option Nat), h.kids p = x ++ l → l ≠ [] → h.climb h.frames.length p = some t →
    h.preOrderFrom (a.length + fuel) l.head? = (h.preOrderFrom fuel t).map (fun r => a ++ r) := by
  induction hwk with
  | nil => intro _ _ _ _ _ hne; exact absurd rfl hne
  | cons i l a b ha hb iha ihb =>
    intro p x fuel t hk _ hc
    obtain ⟨f, hf, hp, hn⟩ := hw.nextOf hk
    have hstep := hw.climb_step hk
    -- what follows the tree below `i`
    have hrest : ∀ t', h.climb h.frames.length (some i) = some t' →
        h.preOrderFrom (b.length + fuel) t' = (h.preOrderFrom fuel t).map (fun r => b ++ r) := by
      intro t' ht'
      rw [hstep] at ht'
      cases l with
      | nil =>
        cases hb
        simp only [List.head?_nil] at ht'
        rw [hc] at ht'
        cases ht'
        simp
      | cons j l =>
        simp only [List.head?_cons] at ht'
        cases ht'
        exact ihb p (x ++ [i]) fuel t (by rw [hk]; simp) (by simp) hc
    obtain ⟨t', ht'⟩ : ∃ t', h.climb h.frames.length (some i) = some t' := by
      rw [hstep]
      cases l.head? with
      | none => exact ⟨t, hc⟩
      | some j => exact ⟨some j, rfl⟩
    rw [List.head?_cons]
    have hlen : (i :: (a ++ b)).length + fuel = (a.length + (b.length + fuel)) + 1 := by simp; omega
    rw [hlen]
    show (h.preOrderNext i).bind _ = _
    have hfirst : h.first (some i) = some (h.kids (some i)).head? := by
      show (h.frames[i]?).map _ = _
      rw [hf, Option.map_some, hw.first i f hf]
    cases hki : h.kids (some i) with
    | nil =>
      have ha0 : a = [] := by
        rw [hki] at ha
        cases ha; rfl
      subst ha0
      have hpn : h.preOrderNext i = some t' := by
        unfold PHistory.preOrderNext
        rw [hfirst, hki, Option.bind_some]
        show (h.next i).bind _ = _
        unfold PHistory.next
        rw [hf, Option.map_some, hn, Option.bind_some]
        cases l with
        | nil => exact ht'
        | cons j l => rw [hstep] at ht'; exact ht'
      rw [hpn, Option.bind_some, List.length_nil, Nat.zero_add, hrest t' ht', Option.map_map]
      rfl
    | cons c r =>
      have hpn : h.preOrderNext i = some (some c) := by
        unfold PHistory.preOrderNext
        rw [hfirst, hki, Option.bind_some]
        rfl
      have := iha (some i) [] (b.length + fuel) t' rfl (by rw [hki]; simp) ht'
      rw [hki, List.head?_cons] at this
      rw [hpn, Option.bind_some, this, hrest t' ht', Option.map_map, Option.map_map]
      congr 1
      funext r
      simp

theorem PHistory.WF.preOrderOf {h : PHistory K} (hw : h.WF) :
    ∃ a, h.preOrder = some a ∧ PWalk (fun i => h.kids (some i)) (h.kids none) a ∧ a.Perm (List.range h.frames.length) := by
  obtain ⟨a, ha⟩ := hw.walk h.frames.length (h.kids none) (fun i hi => ⟨PHistory.kids_lt hi, by omega⟩)
  have hperm := hw.walk_perm ha
  refine ⟨a, ?_, ha, hperm⟩
  have hlen : a.length = h.frames.length := by rw [hperm.length_eq, List.length_range]
  unfold PHistory.preOrder
  cases hf : h.frames with
  | nil =>
    rw [hf] at hlen
    rw [List.length_eq_zero_iff.1 hlen]
    rfl
  | cons f fs =>
    have hz := hw.zero (by rw [hf]; simp)
    rw [if_neg (by simp), ← hf, ← hz]
    have := hw.preOrder_walk ha none [] 0 none rfl (fun e => by rw [e] at hz; simp at hz) (by cases h.frames.length <;> rfl)
    rw [Nat.add_zero, hlen] at this
    rw [this]
    show some (a ++ []) = _
    rw [List.append_nil]

/-! Depths -/

theorem PHistory.WF.depths_walk {h : PHistory K} (hw : h.WF) {D : Nat → Nat} (hD : ∀ i P, h.HasPath i P → P.length = D i + 1)
    {l a : List Nat} (hwk : PWalk (fun i => h.kids (some i)) l a) :
    ∀ (p : Option Nat) (ds : List Nat), (∀ i ∈ l, i ∈ h.kids p) → (∀ q, p = some q → ds[q]? = some (D q)) →
      ds.length = h.frames.length →
    ∃ ds', a.foldlM h.depthStep ds = some ds' ∧ ds'.length = h.frames.length ∧ (∀ j ∈ a, ds'[j]? = some (D j)) ∧
      ∀ j : Nat, ds'[j]? = some (D j) ∨ ds'[j]? = ds[j]? := by
  induction hwk with
  | nil => intro p ds _ _ hl; exact ⟨ds, rfl, hl, fun j hj => by simp at hj, fun j => .inr rfl⟩
  | cons i l a b ha hb iha ihb =>
    intro p ds hk hp hl
    have hik := hk i List.mem_cons_self
    have hi := PHistory.kids_lt hik
    have hpar := PHistory.mem_kids_parent.1 hik
    obtain ⟨P, hP⟩ := hw.hasPath i hi
    have hDi := hD i P hP
    have hstep : h.depthStep ds i = some (ds.set i (D i)) := by
      unfold PHistory.depthStep
      rw [hpar, Option.bind_some]
      cases p with
      | none =>
        have : D i = 0 := by
          cases hP with
          | root => simp at hDi; omega
          | child _ _ _ _ a => rw [hpar] at a; cases a
        rw [this]
        show Option.bind (some 0) _ = _
        rw [Option.bind_some, if_pos (by omega)]
      | some q =>
        have : D i = D q + 1 := by
          obtain ⟨Q, x, hQ, rfl⟩ := hP.kid hik
          have := hD q Q hQ
          simp at hDi
          omega
        show Option.bind (Option.map _ ds[q]?) _ = _
        rw [hp q rfl, Option.map_some, Option.bind_some, if_pos (by omega), this]
    have hset : ∀ j : Nat, (ds.set i (D i))[j]? = some (D j) ∨ (ds.set i (D i))[j]? = ds[j]? := by
      intro j
      rw [List.getElem?_set]
      by_cases e : i = j
      · subst e; left; simp; omega
      · right; simp [e]
    obtain ⟨d1, e1, l1, m1, o1⟩ := iha (some i) (ds.set i (D i)) (fun j hj => hj) (fun q hq => by
      cases hq; rw [List.getElem?_set]; simp; omega) (by simp [hl])
    have hkeep : ∀ j : Nat, ds[j]? = some (D j) → d1[j]? = some (D j) := by
      intro j hj
      rcases o1 j with e | e
      · exact e
      · rcases hset j with e' | e'
        · rw [e, e']
        · rw [e, e', hj]
    obtain ⟨d2, e2, l2, m2, o2⟩ := ihb p d1 (fun j hj => hk j (List.mem_cons_of_mem _ hj)) (fun q hq => hkeep q (hp q hq)) l1
    have hkeep2 : ∀ j : Nat, d1[j]? = some (D j) → d2[j]? = some (D j) := by
      intro j hj
      rcases o2 j with e | e
      · exact e
      · rw [e, hj]
    refine ⟨d2, ?_, l2, ?_, ?_⟩
    · rw [List.foldlM_cons, hstep]
      show List.foldlM h.depthStep (ds.set i (D i)) (a ++ b) = _
      rw [List.foldlM_append, e1]
      exact e2
    · intro j hj
      rcases List.mem_cons.1 hj with rfl | hj
      · refine hkeep2 j ?_
        rcases o1 j with e | e
        · exact e
        · rw [e, List.getElem?_set]; simp; omega
      · rcases List.mem_append.1 hj with hj | hj
        · exact hkeep2 j (m1 j hj)
        · exact m2 j hj
    · intro j
      rcases o2 j with e | e
      · exact .inl e
      · rcases o1 j with e' | e'
        · left; rw [e, e']
        · rcases hset j with e'' | e''
          · left; rw [e, e', e'']
          · right; rw [e, e', e'']

end OmegaH
