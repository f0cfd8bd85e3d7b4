import Verif.Lemmas.Statuses
/-!
# The errors after a modification
-/
namespace OmegaH
open Spec

theorem flatMap_swap_perm {α β γ : Type} (l : List α) (m : List β) (f : α → β → List γ) :
    (l.flatMap (fun a => m.flatMap (f a))).Perm (m.flatMap (fun b => l.flatMap (fun a => f a b))) := by
  induction l with
  | nil => simp
  | cons a l ih =>
    simp only [List.flatMap_cons]
    exact (List.Perm.append_left _ ih).trans (List.flatMap_append_perm m (f a) (fun b => l.flatMap (fun a => f a b)))

theorem flatMap_perm_left {α β : Type} (l : List α) {f g : α → List β} (h : ∀ a ∈ l, (f a).Perm (g a)) : (l.flatMap f).Perm (l.flatMap g) := by
  induction l with
  | nil => exact List.Perm.refl _
  | cons a l ih =>
    simp only [List.flatMap_cons]
    exact (h a (List.mem_cons_self ..)).append (ih (fun b hb => h b (List.mem_cons_of_mem _ hb)))

theorem tableOf_inj {K : Type} {n w : Nat} {F G : Nat → Nat → K} (h : tableOf (List.range n) w F = tableOf (List.range n) w G) :
    ∀ e, e < n → ∀ j, j < w → F e j = G e j := by
  intro e he j hj
  have h1 := tableOf_entry (List.range n) w F e j hj
  have h2 := tableOf_entry (List.range n) w G e j hj
  rw [h, h2, List.getElem?_range he] at h1
  exact (Option.some.inj h1).symm

section
variable {K : Type} [Field K] [LinearOrder K] [IsStrictOrderedRing K]

/-- Cavities in which errors can be accounted for. -/
structure GoodPart (keys : List Nat) (Ro Rn : Nat → List Nat) (no n : Nat) (Z : Nat → K) (oc nc : Nat → Int) : Prop where
  old_in : ∀ e ∈ keys.flatMap Ro, e < no
  nodup : (keys.flatMap Rn).Nodup
  new_in : ∀ e ∈ keys.flatMap Rn, e < n
  pos : ∀ e ∈ keys.flatMap Rn, 0 < Z e
  full : ∀ k ∈ keys, Rn k = [] → Ro k = []
  pure : ∀ k ∈ keys, ∃ c, (∀ e ∈ Ro k, oc e = c) ∧ ∀ e ∈ Rn k, nc e = c

omit [IsStrictOrderedRing K] in
theorem GoodPart.color {keys : List Nat} {Ro Rn : Nat → List Nat} {no n : Nat} {Z : Nat → K} {oc nc : Nat → Int}
    (h : GoodPart keys Ro Rn no n Z oc nc) (C : Int → Bool) :
    ∃ Q : Nat → Bool, (∀ k ∈ keys, ∀ e ∈ Rn k, C (nc e) = Q k) ∧ ∀ k ∈ keys, ∀ e ∈ Ro k, C (oc e) = Q k := by
  classical
  refine ⟨fun k => if hk : k ∈ keys then C (Classical.choose (h.pure k hk)) else false, ?_, ?_⟩
  · intro k hk e he
    have := (Classical.choose_spec (h.pure k hk)).2 e he
    simp only [hk, dif_pos, this]
  · intro k hk e he
    have := (Classical.choose_spec (h.pure k hk)).1 e he
    simp only [hk, dif_pos, this]

theorem introduceAll_spec (s : Nat → Sched) (old new : ElemMesh K) (keys : List Nat) (Zo Z : Nat → K) (w no n : Nat) (Do D : Nat → Nat → K)
    (oc nc : Nat → Int) (hno : no ≠ 0) (hne : old.nelems = no) (hso : old.sizes = (List.range no).map Zo)
    (hs : new.sizes = (List.range n).map Z) :
    ∀ (parts : List ((Nat → List Nat) × (Nat → List Nat))) (E : Nat → Nat → K), (∀ p ∈ parts, GoodPart keys p.1 p.2 no n Z oc nc) →
    ∃ E', (parts.map (fun p => cavsOn keys p.1 p.2)).foldlM (fun acc c => introduceError s old new c (tableOf (List.range no) w Do)
        (tableOf (List.range n) w D) acc) (tableOf (List.range n) w E) = some (tableOf (List.range n) w E') ∧
      ∀ (C : Int → Bool) j, j < w → sumOver (fun e => C (nc e)) (fun e => E' e j) (List.range n)
        = sumOver (fun e => C (nc e)) (fun e => E e j) (List.range n)
          + (sumOver (fun e => C (nc e)) (fun e => D e j * Z e) (parts.flatMap (fun p => keys.flatMap p.2))
            - sumOver (fun e => C (oc e)) (fun e => Do e j * Zo e) (parts.flatMap (fun p => keys.flatMap p.1))) := by
  intro parts
  induction parts with
  | nil =>
    intro E _
    refine ⟨E, rfl, ?_⟩
    intro C j hj
    simp [sumOver_nil]
  | cons p parts ih =>
    intro E hg
    have hp := hg p (List.mem_cons_self ..)
    obtain ⟨E1, e1, e2⟩ := introduceError_spec s old new keys p.1 p.2 Zo Z w no n Do D E hno hne hso hs hp.old_in hp.nodup hp.new_in hp.pos hp.full
    obtain ⟨E2, f1, f2⟩ := ih E1 (fun q hq => hg q (List.mem_cons_of_mem _ hq))
    refine ⟨E2, ?_, ?_⟩
    · rw [List.map_cons, List.foldlM_cons, e1]
      exact f1
    · intro C j hj
      obtain ⟨Q, q1, q2⟩ := hp.color C
      rw [f2 C j hj, e2 _ _ Q q1 q2 j hj, List.flatMap_cons, List.flatMap_cons, sumOver_append, sumOver_append]
      ring

theorem carryAll_spec (s : Nat → Sched) (new : ElemMesh K) (keys : List Nat) (Z : Nat → K) (w no n : Nat) (Eo : Nat → Nat → K)
    (oc nc : Nat → Int) (hs : new.sizes = (List.range n).map Z) :
    ∀ (parts : List ((Nat → List Nat) × (Nat → List Nat))) (E : Nat → Nat → K), (∀ p ∈ parts, GoodPart keys p.1 p.2 no n Z oc nc) →
    ∃ E', (parts.map (fun p => cavsOn keys p.1 p.2)).foldlM (fun acc c => carryError s new c (tableOf (List.range no) w Eo) w acc)
        (tableOf (List.range n) w E) = some (tableOf (List.range n) w E') ∧
      ∀ (C : Int → Bool) j, j < w → sumOver (fun e => C (nc e)) (fun e => E' e j) (List.range n)
        = sumOver (fun e => C (nc e)) (fun e => E e j) (List.range n)
          + sumOver (fun e => C (oc e)) (fun e => Eo e j) (parts.flatMap (fun p => keys.flatMap p.1)) := by
  intro parts
  induction parts with
  | nil =>
    intro E _
    refine ⟨E, rfl, ?_⟩
    intro C j hj
    simp [sumOver_nil]
  | cons p parts ih =>
    intro E hg
    have hp := hg p (List.mem_cons_self ..)
    obtain ⟨E1, e1, e2⟩ := carryError_spec s new keys p.1 p.2 Z w no n Eo E hs hp.old_in hp.nodup hp.new_in hp.pos hp.full
    obtain ⟨E2, f1, f2⟩ := ih E1 (fun q hq => hg q (List.mem_cons_of_mem _ hq))
    refine ⟨E2, ?_, ?_⟩
    · rw [List.map_cons, List.foldlM_cons, e1]
      exact f1
    · intro C j hj
      obtain ⟨Q, q1, q2⟩ := hp.color C
      rw [f2 C j hj, e2 _ _ Q q1 q2 j hj, List.flatMap_cons, sumOver_append]
      ring

omit [LinearOrder K] [IsStrictOrderedRing K] in
theorem transferStatus_bind [DecidableEq K] (s : Nat → Sched) (old new : ElemMesh K) (cavs : List Cavs) (d d' e : List K) (w : Nat) (flags : ConservedBools)
    (errors : List K) : transferStatus s old new cavs d d' e w flags errors
      = (if flags.thisTime then pure errors else cavs.foldlM (fun acc c => introduceError s old new c d d' acc) errors).bind
        (fun x => if flags.always then pure x else cavs.foldlM (fun acc c => carryError s new c e w acc) x) := by
  unfold transferStatus
  cases flags.thisTime <;> rfl

/-- One round of `transferIntegError`. `Ro` and `Rn` are the cavities before they are separated. -/
theorem transferStatus_spec (s : Nat → Sched) (old new : ElemMesh K) (keys : List Nat) (Zo Z : Nat → K) (w no n : Nat) (Do D Eo : Nat → Nat → K)
    (oc nc : Nat → Int) (hno : no ≠ 0) (hne : old.nelems = no) (hso : old.sizes = (List.range no).map Zo)
    (hs : new.sizes = (List.range n).map Z) (parts : List ((Nat → List Nat) × (Nat → List Nat))) (Ro Rn : Nat → List Nat)
    (hg : ∀ p ∈ parts, GoodPart keys p.1 p.2 no n Z oc nc)
    (ho : ∀ k ∈ keys, (parts.flatMap (fun p => p.1 k)).Perm (Ro k)) (hn : ∀ k ∈ keys, (parts.flatMap (fun p => p.2 k)).Perm (Rn k))
    (flags : ConservedBools) (E : Nat → Nat → K) :
    ∃ E', transferStatus s old new (parts.map (fun p => cavsOn keys p.1 p.2)) (tableOf (List.range no) w Do) (tableOf (List.range n) w D)
        (tableOf (List.range no) w Eo) w flags (tableOf (List.range n) w E) = some (tableOf (List.range n) w E') ∧
      ∀ (C : Int → Bool) j, j < w → sumOver (fun e => C (nc e)) (fun e => E' e j) (List.range n)
        = sumOver (fun e => C (nc e)) (fun e => E e j) (List.range n)
          + (if flags.thisTime then 0 else sumOver (fun e => C (nc e)) (fun e => D e j * Z e) (keys.flatMap Rn)
            - sumOver (fun e => C (oc e)) (fun e => Do e j * Zo e) (keys.flatMap Ro))
          + (if flags.always then 0 else sumOver (fun e => C (oc e)) (fun e => Eo e j) (keys.flatMap Ro)) := by
  have po : (parts.flatMap (fun p => keys.flatMap p.1)).Perm (keys.flatMap Ro) :=
    (flatMap_swap_perm parts keys (fun p => p.1)).trans (flatMap_perm_left keys ho)
  have pn : (parts.flatMap (fun p => keys.flatMap p.2)).Perm (keys.flatMap Rn) :=
    (flatMap_swap_perm parts keys (fun p => p.2)).trans (flatMap_perm_left keys hn)
  obtain ⟨E1, e1, e2⟩ : ∃ E1, (if flags.thisTime then pure (tableOf (List.range n) w E)
      else (parts.map (fun p => cavsOn keys p.1 p.2)).foldlM (fun acc c => introduceError s old new c (tableOf (List.range no) w Do)
        (tableOf (List.range n) w D) acc) (tableOf (List.range n) w E)) = some (tableOf (List.range n) w E1) ∧
      ∀ (C : Int → Bool) j, j < w → sumOver (fun e => C (nc e)) (fun e => E1 e j) (List.range n)
        = sumOver (fun e => C (nc e)) (fun e => E e j) (List.range n)
          + (if flags.thisTime then 0 else sumOver (fun e => C (nc e)) (fun e => D e j * Z e) (keys.flatMap Rn)
            - sumOver (fun e => C (oc e)) (fun e => Do e j * Zo e) (keys.flatMap Ro)) := by
    cases flags.thisTime with
    | true => exact ⟨E, rfl, by intro C j _; simp⟩
    | false =>
      obtain ⟨E1, e1, e2⟩ := introduceAll_spec s old new keys Zo Z w no n Do D oc nc hno hne hso hs parts E hg
      refine ⟨E1, e1, ?_⟩
      intro C j hj
      rw [e2 C j hj, sumOver_perm _ _ pn, sumOver_perm _ _ po]
      simp
  rw [transferStatus_bind, e1]
  simp only [Option.bind_some]
  cases flags.always with
  | true =>
    refine ⟨E1, rfl, ?_⟩
    intro C j hj
    rw [e2 C j hj]; simp
  | false =>
    obtain ⟨E2, f1, f2⟩ := carryAll_spec s new keys Z w no n Eo oc nc hs parts E1 hg
    refine ⟨E2, f1, ?_⟩
    intro C j hj
    rw [f2 C j hj, e2 C j hj, sumOver_perm _ _ po]
    simp

omit [LinearOrder K] [IsStrictOrderedRing K] in
theorem sumOver_split {α : Type} (P : α → Bool) (f : α → K) (keys : List Nat) (r : Nat → Bool) (R : Nat → List α) :
    sumOver P f (keys.flatMap R) = sumOver P f ((keys.filter r).flatMap R) + sumOver P f ((keys.filter (fun k => ! r k)).flatMap R) := by
  induction keys with
  | nil => simp [sumOver_nil]
  | cons k keys ih =>
    cases h : r k <;> simp only [List.filter_cons, h, List.flatMap_cons, sumOver_append, ih, Bool.not_false, Bool.not_true, if_true, if_false,
      Bool.false_eq_true] <;> ring

end
end OmegaH
