import Verif.Lemmas.LRTable
import Verif.Spec.Parse

/-! # Paths through the machine -/

namespace OmegaH

open Spec

/-- The states on the stack, the top first, and the symbols between them. -/
inductive LRPath (states : List LRState) : List Nat → List Nat → Prop
  | base : LRPath states [0] []
  | push {s y q : Nat} {ss ys : List Nat} {st : LRState} : LRPath states (s :: ss) ys → states[s]? = some st → (y, q) ∈ st.shifts →
      LRPath states (q :: s :: ss) (y :: ys)

theorem LRPath.length {states : List LRState} {ss ys : List Nat} (h : LRPath states ss ys) : ss.length = ys.length + 1 := by
  induction h with
  | base => rfl
  | push _ _ _ ih => simp only [List.length_cons] at ih ⊢; omega

theorem LRPath.drop {states : List LRState} {ss ys : List Nat} (h : LRPath states ss ys) : ∀ {n : Nat}, n ≤ ys.length →
    LRPath states (ss.drop n) (ys.drop n) := by
  induction h with
  | base => intro n hn; obtain rfl : n = 0 := by simpa using hn
            exact .base
  | push hp h1 h2 ih =>
    intro n hn
    cases n with
    | zero => exact .push hp h1 h2
    | succ n => exact ih (by simpa using hn)

/-- The machine of a grammar. -/
def Machine (g : Grammar) (states : List LRState) : Prop := LRInv g states.length [] states

theorem Machine.symbols {g : Grammar} {states : List LRState} (hm : Machine g states) {s : Nat} {st : LRState} (hs : states[s]? = some st) :
    (st.shifts.map Prod.fst).Pairwise (· < ·) ∧ ∀ x, (∃ q, (x, q) ∈ st.shifts) ↔ ∃ c ∈ st.configs, ∃ i, g.afterDot c = some (i, some x) := by
  obtain ⟨ys, h1, h2⟩ := hm.before s st hs (List.getElem?_eq_some_iff.1 hs).1
  obtain ⟨zs, h3, h4, h5⟩ := transitionSymbols_spec (hm.sets s st hs).2
  rw [h1] at h3; cases h3
  refine ⟨h2 ▸ h4, fun x => ?_⟩
  rw [← h5, ← h2]
  simp

theorem Machine.next {g : Grammar} {states : List LRState} (hm : Machine g states) {s : Nat} {st : LRState} (hs : states[s]? = some st) {x q q' : Nat}
    (h : (x, q) ∈ st.shifts) (h' : (x, q') ∈ st.shifts) : q = q' := by
  have hp := (hm.symbols hs).1
  rw [List.pairwise_map] at hp
  obtain ⟨i, hi⟩ := List.getElem?_of_mem h
  obtain ⟨j, hj⟩ := List.getElem?_of_mem h'
  obtain ⟨hi1, hi2⟩ := List.getElem?_eq_some_iff.1 hi
  obtain ⟨hj1, hj2⟩ := List.getElem?_eq_some_iff.1 hj
  rw [List.pairwise_iff_getElem] at hp
  rcases Nat.lt_trichotomy i j with hlt | rfl | hlt
  · have := hp i j hi1 hj1 hlt
    rw [hi2, hj2] at this
    simp at this
  · rw [hi] at hj; cases hj; rfl
  · have := hp j i hj1 hi1 hlt
    rw [hi2, hj2] at this
    simp at this

theorem LRPath.unique {g : Grammar} {states : List LRState} (hm : Machine g states) {ss ss' ys : List Nat} (h : LRPath states ss ys) (h' : LRPath states ss' ys) :
    ss = ss' := by
  induction h generalizing ss' with
  | base => cases h'; rfl
  | push hp h1 h2 ih =>
    cases h' with
    | push hp' h1' h2' =>
      cases ih hp'
      rw [h1] at h1'; cases h1'
      rw [hm.next h1 h2 h2']

/-- Where the configurations of a state on the stack come from. -/
theorem LRPath.origin {g : Grammar} {states : List LRState} (hm : Machine g states) {s : Nat} {ss ys : List Nat} (h : LRPath states (s :: ss) ys) :
    ∃ st, states[s]? = some st ∧ (∀ c ∈ st.configs, ∀ c', Opens g c c' → c' ∈ st.configs) ∧
    ∀ c ∈ st.configs, (∃ c' ∈ st.configs, Opens g c' c) ∨ (ys = [] ∧ c ∈ g.startConfigs (g.nsymbols - 1)) ∨
      (∃ y ys' s' ss' st', ys = y :: ys' ∧ ss = s' :: ss' ∧ states[s']? = some st' ∧ ∃ c' ∈ st'.configs, c = c' + 1 ∧ ∃ i, g.afterDot c' = some (i, some y)) := by
  cases h with
  | base =>
    obtain ⟨c0, st, h1, h2, h3⟩ := hm.start
    have hc0 : c0 ∈ g.startConfigs (g.nsymbols - 1) := List.mem_of_mem_head? h1
    obtain ⟨_, _, hg, _⟩ := mem_startConfigs.1 hc0
    obtain ⟨out, o1, _, _, o3, o4⟩ := close_spec (g := g) (kernel := [c0]) (by simp) (by simpa using (List.getElem?_eq_some_iff.1 hg).1)
    rw [h3] at o1; cases o1
    refine ⟨st, h2, o4, fun c hc => ?_⟩
    rcases o3 c hc with h | h
    · rw [List.mem_singleton.1 h]
      exact Or.inr (Or.inl ⟨rfl, hc0⟩)
    · exact Or.inl h
  | push hp h1 h2 =>
    obtain ⟨st, st', l1, l2, l3⟩ := hm.leads _ _ _ _ h1 h2
    obtain ⟨out, o1, _, _, o3, o4⟩ := close_spec (kernel_nodup (g := g) (hm.sets _ _ l1).1) (fun c hc => kernel_range hc)
    rw [l3] at o1; cases o1
    refine ⟨st', l2, o4, fun c hc => ?_⟩
    rcases o3 c hc with h | h
    · obtain ⟨c', k1, k2, k3⟩ := mem_kernel.1 h
      exact Or.inr (Or.inr ⟨_, _, _, _, st, rfl, rfl, l1, c', k1, k2, k3⟩)
    · exact Or.inl h

/-- The symbols before the position of a configuration are on top of the stack, and the state below them has the configuration at its start. -/
theorem LRPath.item {g : Grammar} {states : List LRState} (hm : Machine g states) (d : Nat) : ∀ {s : Nat} {ss ys : List Nat} {st : LRState} {c i : Nat}
    {p : Nat × List Nat}, LRPath states (s :: ss) ys → states[s]? = some st → c ∈ st.configs → g.configs[c]? = some (i, d) → g.prods[i]? = some p →
    d ≤ ys.length ∧ (ys.take d).reverse = p.2.take d ∧
    ∃ s0 ss0 st0 c0, (s :: ss).drop d = s0 :: ss0 ∧ states[s0]? = some st0 ∧ c0 ∈ st0.configs ∧ g.configs[c0]? = some (i, 0) := by
  induction d with
  | zero =>
    intro s ss ys st c i p _ hst hc hcfg hp
    exact ⟨by omega, by simp, s, ss, st, c, rfl, hst, hc, hcfg⟩
  | succ d ih =>
    intro s ss ys st c i p h hst hc hcfg hp
    obtain ⟨st', o1, _, o2⟩ := h.origin hm
    rw [hst] at o1; cases o1
    rcases o2 c hc with ⟨c', _, j, x, _, _, hcs⟩ | ⟨_, hcs⟩ | ⟨y, ys', s', ss', st', rfl, rfl, hs', c', hc', rfl, j, ha⟩
    · obtain ⟨_, _, h1, _⟩ := mem_startConfigs.1 hcs
      rw [hcfg] at h1
      injection h1 with h1; injection h1 with _ h1; omega
    · obtain ⟨_, _, h1, _⟩ := mem_startConfigs.1 hcs
      rw [hcfg] at h1
      injection h1 with h1; injection h1 with _ h1; omega
    · obtain ⟨d', p', a1, a2, a3⟩ := afterDot_some.1 ha
      have hlt := (List.getElem?_eq_some_iff.1 a3).1
      have hn := config_next a1 a2 hlt
      rw [hcfg] at hn
      injection hn with hn
      injection hn with hn1 hn2
      subst hn1
      obtain rfl : d = d' := by omega
      rw [hp] at a2; cases a2
      have hpath := h.drop (n := 1) (by simp)
      obtain ⟨i1, i2, i3⟩ := ih (by simpa using hpath) hs' hc' a1 hp
      refine ⟨by simpa using i1, ?_, ?_⟩
      · rw [List.take_succ_cons, List.reverse_cons, i2, List.take_add_one, a3]
        rfl
      · simpa using i3

/-- A production at its start in a state on the stack has a transition on its left-hand side, unless it is a production of the last symbol. -/
theorem LRPath.lhs {g : Grammar} {states : List LRState} (hm : Machine g states) {s : Nat} {ss ys : List Nat} (h : LRPath states (s :: ss) ys) {st : LRState}
    (hst : states[s]? = some st) {c i : Nat} {p : Nat × List Nat} (hc : c ∈ st.configs) (hcfg : g.configs[c]? = some (i, 0)) (hp : g.prods[i]? = some p) :
    (∃ q, (p.1, q) ∈ st.shifts) ∨ (ys = [] ∧ p.1 = g.nsymbols - 1) := by
  obtain ⟨st', o1, _, o2⟩ := h.origin hm
  rw [hst] at o1; cases o1
  rcases o2 c hc with ⟨c', hc', j, x, ha, _, hcs⟩ | ⟨hys, hcs⟩ | ⟨y, ys', s', ss', st', rfl, rfl, hs', c', hc', rfl, j, ha⟩
  · obtain ⟨_, p', h1, h2, h3⟩ := mem_startConfigs.1 hcs
    rw [hcfg] at h1; cases h1
    rw [hp] at h2; cases h2
    left
    rw [h3]
    exact ((hm.symbols hst).2 x).2 ⟨c', hc', j, ha⟩
  · obtain ⟨_, p', h1, h2, h3⟩ := mem_startConfigs.1 hcs
    rw [hcfg] at h1; cases h1
    rw [hp] at h2; cases h2
    exact Or.inr ⟨hys, h3⟩
  · obtain ⟨d', p', a1, a2, a3⟩ := afterDot_some.1 ha
    have hn := config_next a1 a2 (List.getElem?_eq_some_iff.1 a3).1
    rw [hcfg] at hn
    injection hn with hn; injection hn with _ hn; omega

/-- The symbol behind the position of a configuration has a transition to the configuration with the position moved on. -/
theorem LRPath.advance {g : Grammar} {states : List LRState} (hm : Machine g states) {s : Nat} {ss ys : List Nat} (h : LRPath states (s :: ss) ys) {st : LRState}
    (hst : states[s]? = some st) {c i x : Nat} (hc : c ∈ st.configs) (ha : g.afterDot c = some (i, some x)) :
    ∃ q st', (x, q) ∈ st.shifts ∧ LRPath states (q :: s :: ss) (x :: ys) ∧ states[q]? = some st' ∧ c + 1 ∈ st'.configs := by
  obtain ⟨q, hq⟩ := ((hm.symbols hst).2 x).2 ⟨c, hc, i, ha⟩
  obtain ⟨st1, st', l1, l2, l3⟩ := hm.leads s st x q hst hq
  rw [hst] at l1; cases l1
  obtain ⟨out, o1, _, o2, _⟩ := close_spec (kernel_nodup (g := g) (x := x) (hm.sets _ _ hst).1) (fun c hc => kernel_range hc)
  rw [l3] at o1; cases o1
  exact ⟨q, st', hq, .push h hst hq, l2, o2 _ (mem_kernel.2 ⟨c, hc, rfl, i, ha⟩)⟩

end OmegaH
