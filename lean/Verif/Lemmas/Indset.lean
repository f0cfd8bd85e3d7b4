import Verif.Model.Indset
import Verif.Spec.Indset
import Verif.Lemmas.CopyDist
import Mathlib.Order.Basic

/-! # Lemmas about independent sets -/

namespace OmegaH
open Spec

theorem anyIn_spec {adj : List Nat} {state : List Int} : ∀ js : List Nat, (∀ j ∈ js, ∃ u : Nat, adj[j]? = some u ∧ u < state.length) →
    ∃ b, anyIn adj state js = some b ∧ (b = true ↔ ∃ j ∈ js, ∃ u : Nat, adj[j]? = some u ∧ state[u]? = some 1)
  | [], _ => ⟨false, rfl, by simp⟩
  | j :: js, h => by
    obtain ⟨u, hu, hul⟩ := h j (by simp)
    obtain ⟨x, hx⟩ : ∃ x, state[u]? = some x := ⟨_, List.getElem?_eq_getElem hul⟩
    obtain ⟨b, h1, h2⟩ := anyIn_spec js (fun k hk => h k (by simp [hk]))
    unfold anyIn
    rw [hu, Option.bind_some, hx, Option.bind_some]
    by_cases h0 : x = 1
    · rw [if_pos h0]
      exact ⟨true, rfl, by simp only [true_iff]; exact ⟨j, by simp, u, hu, by rw [hx, h0]⟩⟩
    · rw [if_neg h0]
      refine ⟨b, h1, ?_⟩
      rw [h2]
      constructor
      · rintro ⟨k, hk, y⟩; exact ⟨k, by simp [hk], y⟩
      · rintro ⟨k, hk, u', y1, y2⟩
        rcases List.mem_cons.1 hk with rfl | hk
        · rw [hu] at y1; cases y1
          rw [hx] at y2; exact absurd (Option.some.inj y2) h0
        · exact ⟨k, hk, u', y1, y2⟩

theorem allLess_spec {less : Nat → Nat → Option Bool} {adj : List Nat} {state : List Int} {v : Nat}
    (hless : ∀ u, u < state.length → ∃ b, less u v = some b) :
    ∀ js : List Nat, (∀ j ∈ js, ∃ u : Nat, adj[j]? = some u ∧ u < state.length) →
    ∃ b, allLess less adj state v js = some b ∧
      (b = true ↔ ∀ j ∈ js, ∀ u : Nat, adj[j]? = some u → state[u]? ≠ some 0 → less u v = some true)
  | [], _ => ⟨true, rfl, by simp⟩
  | j :: js, h => by
    obtain ⟨u, hu, hul⟩ := h j (by simp)
    obtain ⟨x, hx⟩ : ∃ x, state[u]? = some x := ⟨_, List.getElem?_eq_getElem hul⟩
    obtain ⟨b, h1, h2⟩ := allLess_spec hless js (fun k hk => h k (by simp [hk]))
    unfold allLess
    rw [hu, Option.bind_some, hx, Option.bind_some]
    by_cases h0 : x = 0
    · rw [if_pos h0]
      refine ⟨b, h1, ?_⟩
      rw [h2]
      constructor
      · intro hh k hk u' y1 y2
        rcases List.mem_cons.1 hk with rfl | hk
        · rw [hu] at y1; cases y1
          rw [hx, h0] at y2; exact absurd rfl y2
        · exact hh k hk u' y1 y2
      · intro hh k hk; exact hh k (by simp [hk])
    · rw [if_neg h0]
      obtain ⟨c, hc⟩ := hless u hul
      rw [hc, Option.bind_some]
      cases c with
      | false =>
        refine ⟨false, rfl, ?_⟩
        simp only [Bool.false_eq_true, false_iff]
        intro hh
        have := hh j (by simp) u hu (by rw [hx]; intro e; exact h0 (Option.some.inj e))
        rw [hc] at this; cases this
      | true =>
        refine ⟨b, h1, ?_⟩
        rw [h2]
        constructor
        · intro hh k hk u' y1 y2
          rcases List.mem_cons.1 hk with rfl | hk
          · rw [hu] at y1; cases y1; exact hc
          · exact hh k hk u' y1 y2
        · intro hh k hk; exact hh k (by simp [hk])

/-- The state of `v` after a round, from the states before it. -/
structure EntryStep (less : Nat → Nat → Option Bool) (xadj adj : List Nat) (state : List Int) (v : Nat) (y : Int) : Prop where
  keep : ∀ x, state[v]? = some x → x ≠ 2 → y = x
  reject : state[v]? = some 2 → (∃ k u : Nat, InFan xadj v k ∧ adj[k]? = some u ∧ state[u]? = some 1) → y = 0
  accept : state[v]? = some 2 → (¬ ∃ k u : Nat, InFan xadj v k ∧ adj[k]? = some u ∧ state[u]? = some 1) →
    (∀ k u : Nat, InFan xadj v k → adj[k]? = some u → state[u]? ≠ some 0 → less u v = some true) → y = 1
  wait : state[v]? = some 2 → (¬ ∃ k u : Nat, InFan xadj v k ∧ adj[k]? = some u ∧ state[u]? = some 1) →
    (¬ ∀ k u : Nat, InFan xadj v k → adj[k]? = some u → state[u]? ≠ some 0 → less u v = some true) → y = 2

theorem indsetEntry_spec {less : Nat → Nat → Option Bool} {xadj adj : List Nat} {state : List Int} {v : Nat}
    (hfan : IsFan xadj) (hlen : xadj.length = state.length + 1) (hlast : xadj.getLast? = some adj.length)
    (hadj : ∀ u ∈ adj, u < state.length) (hless : ∀ u, u < state.length → ∃ b, less u v = some b) {x : Int}
    (hx : state[v]? = some x) :
    ∃ o, indsetEntry less xadj adj state v = some o ∧ EntryStep less xadj adj state v (o.getD x) ∧ (∀ y, o = some y → y = 0 ∨ y = 1) := by
  have hv := (List.getElem?_eq_some_iff.1 hx).1
  unfold indsetEntry
  rw [hx, Option.bind_some]
  by_cases h2 : x = 2
  · rw [if_neg (by simpa using h2)]
    obtain ⟨js, b1, _, b3⟩ := fanMembers_spec (o := xadj) (a := v) (by omega)
    have hjs : ∀ j ∈ js, ∃ u : Nat, adj[j]? = some u ∧ u < state.length := by
      intro j hj
      have hl := (inFan_lt hfan ((b3 j).1 hj) (by rw [← List.getLast?_eq_getElem?]; exact hlast)).1
      exact ⟨_, List.getElem?_eq_getElem hl, hadj _ (List.getElem_mem hl)⟩
    obtain ⟨a, a1, a2⟩ := anyIn_spec js hjs
    obtain ⟨c, c1, c2⟩ := allLess_spec hless js hjs
    have a2' : a = true ↔ ∃ k u : Nat, InFan xadj v k ∧ adj[k]? = some u ∧ state[u]? = some 1 := by
      rw [a2]
      constructor
      · rintro ⟨j, hj, u, h⟩; exact ⟨j, u, (b3 j).1 hj, h⟩
      · rintro ⟨j, u, hj, h⟩; exact ⟨j, (b3 j).2 hj, u, h⟩
    have c2' : c = true ↔ ∀ k u : Nat, InFan xadj v k → adj[k]? = some u → state[u]? ≠ some 0 → less u v = some true := by
      rw [c2]
      constructor
      · intro h j u hj; exact h j ((b3 j).2 hj) u
      · intro h j hj u; exact h j u ((b3 j).1 hj)
    rw [b1, Option.bind_some, a1, Option.bind_some]
    have hk : ∀ z : Int, state[v]? = some z → z ≠ 2 → False := by
      intro z hz hn; rw [hx] at hz; exact hn ((Option.some.inj hz).symm.trans h2)
    cases a with
    | true =>
      rw [if_pos rfl]
      exact ⟨some 0, rfl, ⟨fun z hz hn => (hk z hz hn).elim, fun _ _ => rfl, fun _ hn => absurd (a2'.1 rfl) hn,
        fun _ hn => absurd (a2'.1 rfl) hn⟩, fun y hy => Or.inl (Option.some.inj hy).symm⟩
    | false =>
      rw [if_neg (by simp), c1]
      have hno : ¬ ∃ k u : Nat, InFan xadj v k ∧ adj[k]? = some u ∧ state[u]? = some 1 := by
        intro h; exact Bool.noConfusion (a2'.2 h)
      cases c with
      | true =>
        exact ⟨some 1, rfl, ⟨fun z hz hn => (hk z hz hn).elim, fun _ h => absurd h hno, fun _ _ _ => rfl, fun _ _ h => absurd (c2'.1 rfl) h⟩,
          fun y hy => Or.inr (Option.some.inj hy).symm⟩
      | false =>
        exact ⟨none, rfl, ⟨fun z hz hn => (hk z hz hn).elim, fun _ h => absurd h hno, fun _ _ h => Bool.noConfusion (c2'.2 h), fun _ _ _ => h2⟩,
          (by simp)⟩
  · rw [if_pos (by simpa using h2)]
    have hk : state[v]? ≠ some 2 := by rw [hx]; intro e; exact h2 (Option.some.inj e)
    exact ⟨none, rfl, ⟨fun z hz _ => Option.some.inj (hx.symm.trans hz), fun h => absurd h hk, fun h => absurd h hk, fun h => absurd h hk⟩,
      (by simp)⟩

theorem localIteration_spec {less : Nat → Nat → Option Bool} {xadj adj : List Nat} {state : List Int} (s : Sched)
    (hfan : IsFan xadj) (hlen : xadj.length = state.length + 1) (hlast : xadj.getLast? = some adj.length)
    (hadj : ∀ u ∈ adj, u < state.length) (hless : ∀ u v, u < state.length → v < state.length → ∃ b, less u v = some b) :
    ∃ out, localIteration s less xadj adj state = some out ∧ out.length = state.length ∧
      ∀ v y, out[v]? = some y → EntryStep less xadj adj state v y ∧ (y = 0 ∨ y = 1 ∨ state[v]? = some y) := by
  have hent : ∀ v, ∃ o, v < state.length → ∃ x, state[v]? = some x ∧ indsetEntry less xadj adj state v = some o ∧
      EntryStep less xadj adj state v (o.getD x) ∧ (∀ y, o = some y → y = 0 ∨ y = 1) := by
    intro v
    by_cases hv : v < state.length
    · obtain ⟨o, h⟩ := indsetEntry_spec hfan hlen hlast hadj (fun u hu => hless u v hu hv) (List.getElem?_eq_getElem hv)
      exact ⟨o, fun _ => ⟨_, List.getElem?_eq_getElem hv, h⟩⟩
    · exact ⟨none, fun h => absurd h hv⟩
  obtain ⟨O, hO⟩ := Classical.axiomOfChoice hent
  unfold localIteration
  rw [show xadj.length - 1 = state.length by omega]
  obtain ⟨out, p1, p2, p3, p4⟩ := parScatter_ontoR s state.length
    (fun v => (indsetEntry less xadj adj state v).map (fun o => o.toList.map (fun x => (v, x))))
    (fun i p y => p = i ∧ O i = some y) O state
    (by
      intro i hi
      obtain ⟨x, _, h2, _⟩ := hO i hi
      refine ⟨(O i).toList.map (fun x => (i, x)), by rw [h2]; rfl, ?_⟩
      intro p y
      cases O i with
      | none => simp
      | some z => simp; exact fun _ => eq_comm)
    (by
      rintro i hi p y ⟨rfl, h⟩
      exact ⟨hi, h⟩)
  refine ⟨out, p1, p2, ?_⟩
  intro v y hy
  have hv : v < state.length := p2 ▸ (List.getElem?_eq_some_iff.1 hy).1
  obtain ⟨x, hx, _, hs, h01⟩ := hO v hv
  cases hOv : O v with
  | none =>
    rw [p4 v (by rintro i hi z ⟨rfl, h⟩; rw [hOv] at h; cases h), hx] at hy
    rw [hOv] at hs
    have := Option.some.inj hy
    subst this
    exact ⟨hs, Or.inr (Or.inr hx)⟩
  | some z =>
    rw [p3 v hv v z ⟨rfl, hOv⟩] at hy
    have := Option.some.inj hy
    subst this
    rw [hOv] at hs
    exact ⟨hs, by rcases h01 z hOv with h | h <;> simp [h]⟩

theorem indsetStart_spec (s : Sched) (cand : List Int) : indsetStart s cand = some (cand.map (fun c => if c = 0 then 0 else 2)) := by
  obtain ⟨out, h1, h2, h3⟩ := parEach s cand.length (fun i => (cand[i]?).map (fun c => if c = 0 then (0 : Int) else 2))
    (by intro i hi; simp [hi])
  unfold indsetStart
  rw [h1]
  congr 1
  apply List.ext_getElem?
  intro i
  by_cases hi : i < cand.length
  · rw [h3 i hi, List.getElem?_map]
  · simp [hi, h2]

/-- A finite set that is not empty has a maximal element. -/
theorem exists_top {V : Type} (R : V → V → Prop) (trans : ∀ a b c, R a b → R b c → R a c) (irr : ∀ a, ¬ R a a) (P : V → Prop) :
    ∀ L : List V, (∃ v ∈ L, P v) → ∃ v ∈ L, P v ∧ ∀ u ∈ L, P u → ¬ R u v
  | [], h => by obtain ⟨v, hv, _⟩ := h; cases hv
  | a :: L, h => by
    by_cases hL : ∃ v ∈ L, P v
    · obtain ⟨v, hv, hp, ht⟩ := exists_top R trans irr P L hL
      by_cases ha : P a ∧ R a v
      · refine ⟨a, by simp, ha.1, ?_⟩
        intro u hu hpu hr
        rcases List.mem_cons.1 hu with rfl | hu
        · exact irr _ hr
        · exact ht u hu hpu (trans _ _ _ hr ha.2)
      · refine ⟨v, by simp [hv], hp, ?_⟩
        intro u hu hpu hr
        rcases List.mem_cons.1 hu with rfl | hu
        · exact ha ⟨hpu, hr⟩
        · exact ht u hu hpu hr
    · obtain ⟨v, hv, hp⟩ := h
      rcases List.mem_cons.1 hv with rfl | hv
      · refine ⟨v, by simp, hp, ?_⟩
        intro u hu hpu hr
        rcases List.mem_cons.1 hu with rfl | hu
        · exact irr _ hr
        · exact hL ⟨u, hu, hpu⟩
      · exact absurd ⟨v, hv, hp⟩ hL

theorem foldl_max_bounds : ∀ (l : List Int) (a : Int), a ≤ l.foldl max a ∧ (∀ x ∈ l, x ≤ l.foldl max a) ∧ (l.foldl max a = a ∨ l.foldl max a ∈ l)
  | [], a => by simp
  | b :: l, a => by
    obtain ⟨h1, h2, h3⟩ := foldl_max_bounds l (max a b)
    rw [List.foldl_cons]
    refine ⟨by omega, ?_, ?_⟩
    · intro x hx
      rcases List.mem_cons.1 hx with rfl | hx
      · omega
      · exact h2 x hx
    · rcases h3 with h3 | h3
      · rcases le_total a b with hab | hab
        · right; rw [h3, max_eq_right hab]; simp
        · left; rw [h3, max_eq_left hab]
      · right; simp [h3]

/-- The loop goes on if and only if an entity is undecided. -/
theorem commMax_unknown {st : List (List Int)} (h : ∀ l ∈ st, ∀ x ∈ l, x = 0 ∨ x = 1 ∨ x = 2) :
    commMax (-128) st = 2 ↔ ∃ l ∈ st, 2 ∈ l := by
  unfold commMax
  obtain ⟨h1, h2, h3⟩ := foldl_max_bounds (st.map (fun l => l.foldl max (-128))) (-128)
  have hrow : ∀ l ∈ st, l.foldl max (-128) ≤ 2 ∧ (l.foldl max (-128) = 2 ↔ 2 ∈ l) := by
    intro l hl
    obtain ⟨r1, r2, r3⟩ := foldl_max_bounds l (-128)
    have hle : l.foldl max (-128) ≤ 2 := by
      rcases r3 with r3 | r3
      · omega
      · rcases h l hl _ r3 with e | e | e <;> omega
    refine ⟨hle, ?_, ?_⟩
    · intro he
      rcases r3 with r3 | r3
      · omega
      · rw [he] at r3; exact r3
    · intro hm; have := r2 2 hm; omega
  constructor
  · intro he
    rcases h3 with h3 | h3
    · omega
    · rw [he] at h3
      obtain ⟨l, hl, e⟩ := List.mem_map.1 h3
      exact ⟨l, hl, (hrow l hl).2.1 e⟩
  · rintro ⟨l, hl, hm⟩
    have e := (hrow l hl).2.2 hm
    have := h2 _ (List.mem_map.2 ⟨l, hl, rfl⟩)
    have hle : (st.map (fun l => l.foldl max (-128))).foldl max (-128) ≤ 2 := by
      rcases h3 with h3 | h3
      · omega
      · obtain ⟨l', hl', e'⟩ := List.mem_map.1 h3
        rw [← e']; exact (hrow l' hl').1
    omega

/-- If undecided entries only disappear, their number does not grow, and it drops if one disappears. -/
theorem count_le_of {l l' : List Int} (hl : l'.length = l.length) (h : ∀ i : Nat, l'[i]? = some 2 → l[i]? = some 2) :
    l'.count 2 ≤ l.count 2 ∧ ((∃ i : Nat, l[i]? = some 2 ∧ l'[i]? ≠ some 2) → l'.count 2 < l.count 2) := by
  induction l generalizing l' with
  | nil =>
    have : l' = [] := List.length_eq_zero_iff.1 hl
    subst this
    simp
  | cons a l ih =>
    cases l' with
    | nil => simp at hl
    | cons b l' =>
      obtain ⟨i1, i2⟩ := ih (l' := l') (by simpa using hl) (fun i hi => by simpa using h (i + 1) (by simpa using hi))
      have h0 : b = 2 → a = 2 := fun e => by simpa using h 0 (by simp [e])
      rw [List.count_cons, List.count_cons]
      constructor
      · by_cases hb : b = 2
        · simp [hb, h0 hb, i1]
        · simp [hb]; omega
      · rintro ⟨i, hi, hn⟩
        cases i with
        | zero =>
          have ha : a = 2 := by simpa using hi
          have hb : b ≠ 2 := by simpa using hn
          simp [ha, hb]; omega
        | succ i =>
          have := i2 ⟨i, by simpa using hi, by simpa using hn⟩
          by_cases hb : b = 2
          · simp [hb, h0 hb]; omega
          · simp [hb]; omega

end OmegaH
