import Verif.Model.Nbx

/-! # C45: the non-blocking exchange -/

namespace OmegaH

/-- The messages a rank `q` sends to rank `r`, counted. -/
def Spec.sentTo (dests : Nat → List Nat) (q r : Nat) : Nat := (dests q).count r

/-- What rank `q` has sent by now. -/
def nbxSent (dests : Nat → List Nat) (S : Nbx) (q : Nat) : List Nat :=
  if S.phase q = .sending then [] else dests q

/-- Invariant: every message sent is in flight or recorded by its destination, and no rank is past
the local test while one of its messages is in flight; a rank can only have finished if all ranks
have passed the local test. -/
structure NbxInv (n : Nat) (dests : Nat → List Nat) (S : Nbx) : Prop where
  conserve : ∀ q r, (nbxSent dests S q).count r = S.flight.count (q, r) + (S.sources r).count q
  outside : ∀ q, n ≤ q → S.phase q = .sending
  passed : ∀ q, S.phase q = .barrier ∨ S.phase q = .finished → ∀ d, (q, d) ∉ S.flight
  fin : ∀ q, S.phase q = .finished → ∀ p, p < n → S.phase p = .barrier ∨ S.phase p = .finished

theorem count_map_pair (l : List Nat) (q r x : Nat) :
    (l.map (fun d => (q, d))).count (x, r) = if x = q then l.count r else 0 := by
  induction l with
  | nil => simp
  | cons a t ih =>
    simp only [List.map_cons, List.count_cons, ih]
    by_cases h : x = q
    · subst h; simp
    · simp [h, Ne.symm h]

theorem NbxInv.step {n : Nat} {dests : Nat → List Nat} {S S' : Nbx} (h : NbxInv n dests S)
    (hs : Nbx.Step n dests S S') : NbxInv n dests S' := by
  cases hs with
  | send r hr hp =>
    refine ⟨?_, ?_, ?_, ?_⟩
    · intro q x
      have h0 := h.conserve q x
      simp only [nbxSent, upd] at *
      rw [List.count_append, count_map_pair]
      by_cases hq : q = r
      · subst hq
        rw [if_pos hp] at h0
        simp only [if_pos, reduceCtorEq, if_false]
        simp at h0 ⊢
        omega
      · simp only [if_neg hq]; omega
    · intro q hq
      simp only [upd]
      rw [if_neg (by omega)]
      exact h.outside q hq
    · intro q hq d
      simp only [upd] at hq
      by_cases hqr : q = r
      · simp [hqr] at hq
      · rw [if_neg hqr] at hq
        simp only [List.mem_append, List.mem_map, Prod.mk.injEq, not_or]
        refine ⟨?_, h.passed q hq d⟩
        rintro ⟨_, _, e, _⟩
        exact hqr e.symm
    · intro q hq p hpn
      simp only [upd] at hq
      by_cases hqr : q = r
      · simp [hqr] at hq
      · rw [if_neg hqr] at hq
        have := h.fin q hq r hr
        rw [hp] at this
        simp at this
  | recv r s hr hp hm =>
    refine ⟨?_, h.outside, ?_, h.fin⟩
    · intro q x
      have h0 := h.conserve q x
      have hpos : 0 < S.flight.count (s, r) := List.count_pos_iff.2 hm
      simp only [nbxSent, upd] at *
      rw [h0, List.count_erase]
      by_cases hx : x = r
      · subst hx
        simp only [if_true, List.count_cons]
        by_cases hq : s = q
        · subst hq; simp; omega
        · simp [hq]
      · simp [hx, Ne.symm hx]
    · intro q hq d hm'
      exact h.passed q hq d (List.mem_of_mem_erase hm')
  | enter r hr hp hno =>
    refine ⟨?_, ?_, ?_, ?_⟩
    · intro q x
      have h0 := h.conserve q x
      simp only [nbxSent, upd] at *
      by_cases hq : q = r
      · subst hq; simp [hp] at h0 ⊢; exact h0
      · simp only [if_neg hq]; exact h0
    · intro q hq
      simp only [upd]; rw [if_neg (by omega)]; exact h.outside q hq
    · intro q hq d
      simp only [upd] at hq
      by_cases hqr : q = r
      · subst hqr; exact hno d
      · rw [if_neg hqr] at hq; exact h.passed q hq d
    · intro q hq p hpn
      simp only [upd] at hq ⊢
      by_cases hqr : q = r
      · simp [hqr] at hq
      · rw [if_neg hqr] at hq
        by_cases hpr : p = r
        · simp [hpr]
        · rw [if_neg hpr]; exact h.fin q hq p hpn
  | finish r hr hp hb =>
    refine ⟨?_, ?_, ?_, ?_⟩
    · intro q x
      have h0 := h.conserve q x
      simp only [nbxSent, upd] at *
      by_cases hq : q = r
      · subst hq; simp [hp] at h0 ⊢; exact h0
      · simp only [if_neg hq]; exact h0
    · intro q hq
      simp only [upd]; rw [if_neg (by omega)]; exact h.outside q hq
    · intro q hq d
      simp only [upd] at hq
      by_cases hqr : q = r
      · subst hqr; exact h.passed q (Or.inl hp) d
      · rw [if_neg hqr] at hq; exact h.passed q hq d
    · intro q hq p hpn
      simp only [upd]
      by_cases hpr : p = r
      · simp [hpr]
      · rw [if_neg hpr]; exact hb p hpn

theorem NbxInv.reach {n : Nat} {dests : Nat → List Nat} {S : Nbx} (h : Nbx.Reach n dests S) :
    NbxInv n dests S := by
  induction h with
  | init =>
    refine ⟨?_, fun _ _ => rfl, ?_, ?_⟩
    · intro q r; simp [nbxSent, Nbx.init]
    · intro q hq; simp [Nbx.init] at hq
    · intro q hq; simp [Nbx.init] at hq
  | step _ h' ih => exact ih.step h'

/-- **C45 (safety).** Under every schedule, when any rank has left the loop, every message has been
received: each rank `r` has recorded each rank `q` exactly as often as `q` lists `r` among its
destinations, nothing is in flight, and nothing will be recorded later (no rank is still to send). -/
theorem C45_all_received (n : Nat) (dests : Nat → List Nat) (S : Nbx)
    (h : Nbx.Reach n dests S) (p : Nat) (hp : S.phase p = .finished) :
    (∀ q r, q < n → (S.sources r).count q = Spec.sentTo dests q r) ∧
      (∀ q r, n ≤ q → (S.sources r).count q = 0) ∧ S.flight = [] ∧
      ∀ q, q < n → S.phase q ≠ .sending := by
  have hi := NbxInv.reach h
  have hns : ∀ q, q < n → S.phase q ≠ .sending := by
    intro q hq e
    have := hi.fin p hp q hq
    rw [e] at this; simp at this
  have hfl : ∀ q d, (q, d) ∉ S.flight := by
    intro q d
    by_cases hq : q < n
    · exact hi.passed q (hi.fin p hp q hq) d
    · intro hm
      have h0 := hi.conserve q d
      have h1 : 0 < S.flight.count (q, d) := List.count_pos_iff.2 hm
      simp only [nbxSent, hi.outside q (by omega), if_true, List.count_nil] at h0
      omega
  have hc0 : ∀ q d, S.flight.count (q, d) = 0 := fun q d => List.count_eq_zero.2 (hfl q d)
  refine ⟨?_, ?_, ?_, hns⟩
  · intro q r hq
    have h0 := hi.conserve q r
    rw [hc0, nbxSent, if_neg (hns q hq)] at h0
    unfold Spec.sentTo
    omega
  · intro q r hq
    have h0 := hi.conserve q r
    rw [hc0, nbxSent, if_pos (hi.outside q hq)] at h0
    simp at h0
    omega
  · match hf : S.flight with
    | [] => rfl
    | (q, d) :: t => exact absurd (by rw [hf]; exact List.mem_cons_self ..) (hfl q d)

/-- Work left: three phase changes per rank, and one reception per message not yet sent or in
flight. -/
def nbxRank (dests : Nat → List Nat) (S : Nbx) (r : Nat) : Nat :=
  match S.phase r with
  | .sending => 3 + (dests r).length
  | .active => 2
  | .barrier => 1
  | .finished => 0

def nbxWork (n : Nat) (dests : Nat → List Nat) (S : Nbx) : Nat :=
  ((List.range n).map (nbxRank dests S)).sum + S.flight.length

theorem sum_upd (n r : Nat) (f g : Nat → Nat) (hr : r < n) (h : ∀ i, i ≠ r → f i = g i) :
    ((List.range n).map f).sum + g r = ((List.range n).map g).sum + f r := by
  induction n with
  | zero => omega
  | succ n ih =>
    rw [List.range_succ, List.map_append, List.map_append, List.sum_append_nat, List.sum_append_nat]
    simp only [List.map_cons, List.map_nil, List.sum_cons, List.sum_nil, Nat.add_zero]
    by_cases hrn : r = n
    · subst hrn
      have : (List.range r).map f = (List.range r).map g := by
        apply List.map_congr_left
        intro i hi
        have := List.mem_range.1 hi
        exact h i (by omega)
      rw [this]; omega
    · have := ih (by omega)
      have := h n (Ne.symm hrn)
      omega

/-- **C45 (bounded work).** Every step makes progress: no schedule has more than
`3 n + (number of messages)·2` steps. -/
theorem C45_bounded (n : Nat) (dests : Nat → List Nat) (S S' : Nbx)
    (hs : Nbx.Step n dests S S') : nbxWork n dests S' < nbxWork n dests S := by
  cases hs with
  | send r hr hp =>
    have := sum_upd n r (nbxRank dests { S with phase := upd S.phase r .active, flight := (dests r).map (fun d => (r, d)) ++ S.flight })
      (nbxRank dests S) hr (by intro i hi; simp [nbxRank, upd, hi])
    have e1 : nbxRank dests S r = 3 + (dests r).length := by simp [nbxRank, hp]
    simp only [nbxWork, List.length_append, List.length_map]
    rw [e1] at this
    simp only [nbxRank, upd, if_true] at this ⊢
    omega
  | recv r s hr hp hm =>
    simp only [nbxWork]
    have := List.length_erase_of_mem hm
    have := List.length_pos_of_mem hm
    have e : nbxRank dests { S with sources := upd S.sources r (s :: S.sources r), flight := S.flight.erase (s, r) } = nbxRank dests S := rfl
    rw [e]
    omega
  | enter r hr hp hno =>
    have := sum_upd n r (nbxRank dests { S with phase := upd S.phase r .barrier })
      (nbxRank dests S) hr (by intro i hi; simp [nbxRank, upd, hi])
    have e1 : nbxRank dests S r = 2 := by simp [nbxRank, hp]
    simp only [nbxWork]
    rw [e1] at this
    simp only [nbxRank, upd, if_true] at this ⊢
    omega
  | finish r hr hp hb =>
    have := sum_upd n r (nbxRank dests { S with phase := upd S.phase r .finished })
      (nbxRank dests S) hr (by intro i hi; simp [nbxRank, upd, hi])
    have e1 : nbxRank dests S r = 1 := by simp [nbxRank, hp]
    simp only [nbxWork]
    rw [e1] at this
    simp only [nbxRank, upd, if_true] at this ⊢
    omega

/-- **C45 (no deadlock).** If all destinations are ranks, some step is possible in every reachable
state in which some rank is still in the loop. With `C45_bounded`, every schedule that keeps
taking possible steps ends with all ranks out of the loop. -/
theorem C45_no_deadlock (n : Nat) (dests : Nat → List Nat)
    (hd : ∀ q d, q < n → d ∈ dests q → d < n) (S : Nbx) (h : Nbx.Reach n dests S)
    (p : Nat) (hp : p < n) (hpf : S.phase p ≠ .finished) : ∃ S', Nbx.Step n dests S S' := by
  have hi := NbxInv.reach h
  by_cases h1 : ∃ r, r < n ∧ S.phase r = .sending
  · obtain ⟨r, hr, e⟩ := h1
    exact ⟨_, .send S r hr e⟩
  by_cases h2 : ∃ q d, (q, d) ∈ S.flight
  · obtain ⟨q, d, hm⟩ := h2
    have hq : q < n := by
      apply Classical.byContradiction
      intro hq
      have h0 := hi.conserve q d
      have : 0 < S.flight.count (q, d) := List.count_pos_iff.2 hm
      simp only [nbxSent, hi.outside q (by omega), if_true, List.count_nil] at h0
      omega
    have hdn : d < n := by
      have h0 := hi.conserve q d
      have hc : 0 < S.flight.count (q, d) := List.count_pos_iff.2 hm
      rw [nbxSent, if_neg (fun e => h1 ⟨q, hq, e⟩)] at h0
      exact hd q d hq (List.count_pos_iff.1 (by omega))
    have hdp : S.phase d = .active ∨ S.phase d = .barrier := by
      cases e : S.phase d with
      | sending => exact absurd ⟨d, hdn, e⟩ h1
      | active => exact Or.inl rfl
      | barrier => exact Or.inr rfl
      | finished =>
        exact absurd hm (by
          have := (C45_all_received n dests S h d e).2.2.1
          rw [this]; simp)
    exact ⟨_, .recv S d q hdn hdp hm⟩
  by_cases h3 : ∃ r, r < n ∧ S.phase r = .active
  · obtain ⟨r, hr, e⟩ := h3
    exact ⟨_, .enter S r hr e (fun d hm => h2 ⟨r, d, hm⟩)⟩
  have hall : ∀ q, q < n → S.phase q = .barrier ∨ S.phase q = .finished := by
    intro q hq
    cases e : S.phase q with
    | sending => exact absurd ⟨q, hq, e⟩ h1
    | active => exact absurd ⟨q, hq, e⟩ h3
    | barrier => exact Or.inl rfl
    | finished => exact Or.inr rfl
  have hpb : S.phase p = .barrier := by
    rcases hall p hp with e | e
    · exact e
    · exact absurd e hpf
  exact ⟨_, .finish S p hp hpb hall⟩

/-- **C45 (termination).** From every reachable state the exchange can be completed, and it is
completed by every maximal schedule: a state without successors has all ranks out of the loop. -/
theorem C45_terminates (n : Nat) (dests : Nat → List Nat)
    (hd : ∀ q d, q < n → d ∈ dests q → d < n) :
    ∀ S, Nbx.Reach n dests S → (∀ S', ¬ Nbx.Step n dests S S') →
      ∀ p, p < n → S.phase p = .finished := by
  intro S h hmax p hp
  apply Classical.byContradiction
  intro e
  obtain ⟨S', hs⟩ := C45_no_deadlock n dests hd S h p hp e
  exact hmax S' hs

/-- The ranks that name `r` as a destination, in increasing order, each as often as it does. -/
def Spec.senders (n : Nat) (dests : Nat → List Nat) (r : Nat) : List Nat :=
  (List.range n).flatMap (fun q => List.replicate ((dests q).count r) q)

theorem count_senders (dests : Nat → List Nat) (r q n : Nat) :
    (Spec.senders n dests r).count q = if q < n then (dests q).count r else 0 := by
  induction n with
  | zero => simp [Spec.senders]
  | succ n ih =>
    have e : Spec.senders (n + 1) dests r =
        Spec.senders n dests r ++ List.replicate ((dests n).count r) n := by
      simp [Spec.senders, List.range_succ, List.flatMap_append]
    rw [e, List.count_append, ih, List.count_replicate]
    by_cases h1 : q < n
    · have hne : n ≠ q := by omega
      have h3 : q < n + 1 := by omega
      simp [h1, h3, hne]
    · by_cases h2 : q = n
      · subst h2; simp
      · have hne : n ≠ q := Ne.symm h2
        have h3 : ¬ q < n + 1 := by omega
        simp [h1, h3, hne]

theorem pairwise_senders (dests : Nat → List Nat) (r n : Nat) :
    (Spec.senders n dests r).Pairwise (· ≤ ·) ∧ ∀ q ∈ Spec.senders n dests r, q < n := by
  induction n with
  | zero => simp [Spec.senders]
  | succ n ih =>
    have e : Spec.senders (n + 1) dests r =
        Spec.senders n dests r ++ List.replicate ((dests n).count r) n := by
      simp [Spec.senders, List.range_succ, List.flatMap_append]
    rw [e]
    constructor
    · rw [List.pairwise_append]
      refine ⟨ih.1, List.pairwise_replicate.2 (Or.inr (Nat.le_refl _)), ?_⟩
      intro a ha b hb
      have := ih.2 a ha
      have := (List.mem_replicate.1 hb).2
      omega
    · intro q hq
      rcases List.mem_append.1 hq with hq | hq
      · have := ih.2 q hq; omega
      · have := (List.mem_replicate.1 hq).2; omega

/-- **C45 (result).** The sources a finished rank returns, which it sorts first
(src/Omega_h_comm.cpp:162), are the ranks that name it as a destination, in increasing order: any
sorted rearrangement of what it recorded is that list. The result does not depend on the schedule. -/
theorem C45_result (n : Nat) (dests : Nat → List Nat) (S : Nbx) (h : Nbx.Reach n dests S) (p : Nat)
    (hp : S.phase p = .finished) (sorted : List Nat) (hs : sorted.Perm (S.sources p))
    (ho : sorted.Pairwise (· ≤ ·)) : sorted = Spec.senders n dests p := by
  obtain ⟨h1, h2, _, _⟩ := C45_all_received n dests S h p hp
  apply List.Perm.eq_of_pairwise (le := fun a b => decide (a ≤ b))
  · intro a b _ _ hab hba
    simp only [decide_eq_true_eq] at hab hba
    omega
  · simpa using ho
  · simpa using (pairwise_senders dests p n).1
  · rw [List.perm_iff_count]
    intro q
    rw [List.perm_iff_count.1 hs q, count_senders]
    split
    · exact h1 q p (by assumption)
    · exact h2 q p (by omega)

/-- Two ranks, both sending to rank 1, under a schedule in which rank 0 enters the barrier before
its last message is received elsewhere: the exchange completes. -/
example : ∃ S, Nbx.Reach 2 (fun _ => [1]) S ∧ S.phase 0 = .finished ∧ S.phase 1 = .finished ∧
    S.sources 1 = [1, 0] ∧ S.sources 0 = [] := by
  have a0 := Nbx.Reach.init (n := 2) (dests := fun _ => [1])
  have a1 := a0.step (.send _ 0 (by decide) rfl)
  have a2 := a1.step (.send _ 1 (by decide) rfl)
  have a3 := a2.step (.recv _ 1 0 (by decide) (Or.inl rfl) (by decide))
  have a4 := a3.step (.enter _ 0 (by decide) rfl (by
    intro d hd
    have : (0, d) ∈ [(1, 1)] := hd
    simp at this))
  have a5 := a4.step (.recv _ 1 1 (by decide) (Or.inl rfl) (by decide))
  have a6 := a5.step (.enter _ 1 (by decide) rfl (by
    intro d hd
    have : (1, d) ∈ ([] : List (Nat × Nat)) := hd
    simp at this))
  have hb : ∀ (S : Nbx), (∀ q, q < 2 → S.phase q = .barrier ∨ S.phase q = .finished) →
      ∀ q, q < 2 → S.phase q = .barrier ∨ S.phase q = .finished := fun _ h => h
  have a7 := a6.step (.finish _ 0 (by decide) rfl (by
    intro q hq
    have : q = 0 ∨ q = 1 := by omega
    rcases this with rfl | rfl <;> exact Or.inl rfl))
  have a8 := a7.step (.finish _ 1 (by decide) rfl (by
    intro q hq
    have : q = 0 ∨ q = 1 := by omega
    rcases this with rfl | rfl
    · exact Or.inr rfl
    · exact Or.inl rfl))
  exact ⟨_, a8, rfl, rfl, rfl, rfl⟩

end OmegaH
