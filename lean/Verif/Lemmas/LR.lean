import Verif.Model.BuildParser
import Verif.Spec.Parse
import Verif.Props.C27

/-! # The LR(0) machine -/

namespace OmegaH

open Spec

theorem flatten_get {α : Type} {ls : List (List α)} {i j : Nat} {l : List α} {x : α} (hl : ls[i]? = some l) (hx : l[j]? = some x) :
    ls.flatten[(ls.take i).flatten.length + j]? = some x := by
  induction ls generalizing i with
  | nil => simp at hl
  | cons a ls ih =>
    cases i with
    | zero =>
      simp only [List.getElem?_cons_zero, Option.some.injEq] at hl
      subst hl
      have hj : j < a.length := (List.getElem?_eq_some_iff.1 hx).1
      simp only [List.take_zero, List.flatten_nil, List.length_nil, Nat.zero_add, List.flatten_cons]
      rw [List.getElem?_append_left hj, hx]
    | succ i =>
      simp only [List.getElem?_cons_succ] at hl
      simp only [List.take_succ_cons, List.flatten_cons, List.length_append]
      rw [List.getElem?_append_right (by omega), show a.length + (List.take i ls).flatten.length + j - a.length = (List.take i ls).flatten.length + j by omega]
      exact ih hl

theorem flatten_get_inv {α : Type} {ls : List (List α)} {c : Nat} {x : α} (h : ls.flatten[c]? = some x) :
    ∃ i j l, ls[i]? = some l ∧ l[j]? = some x ∧ c = (ls.take i).flatten.length + j := by
  induction ls generalizing c with
  | nil => simp at h
  | cons a ls ih =>
    rw [List.flatten_cons] at h
    by_cases hc : c < a.length
    · rw [List.getElem?_append_left hc] at h
      exact ⟨0, c, a, rfl, h, by simp⟩
    · rw [List.getElem?_append_right (by omega)] at h
      obtain ⟨i, j, l, h1, h2, h3⟩ := ih h
      exact ⟨i + 1, j, l, h1, h2, by simp only [List.take_succ_cons, List.flatten_cons, List.length_append]; omega⟩

/-- The configuration after one whose position is not at the end. -/
theorem config_next {g : Grammar} {c i d : Nat} {p : Nat × List Nat} (hc : g.configs[c]? = some (i, d)) (hp : g.prods[i]? = some p) (hd : d < p.2.length) :
    g.configs[c + 1]? = some (i, d + 1) := by
  unfold Grammar.configs at hc ⊢
  obtain ⟨i', j, l, h1, h2, h3⟩ := flatten_get_inv hc
  have hi : i' < g.prods.length := by
    have := (List.getElem?_eq_some_iff.1 h1).1
    simpa using this
  have h1' := h1
  rw [List.getElem?_map, List.getElem?_range hi, Option.map_some, Option.some.injEq] at h1
  have hp' : g.prods[i']? = some g.prods[i'] := List.getElem?_eq_getElem hi
  rw [hp'] at h1
  dsimp only at h1
  subst h1
  rw [List.getElem?_map] at h2
  obtain ⟨j', hj', he⟩ := Option.map_eq_some_iff.1 h2
  obtain ⟨hjlt, rfl⟩ : j < g.prods[i'].2.length + 1 ∧ j' = j := by
    have := List.getElem?_eq_some_iff.1 hj'
    obtain ⟨h, h'⟩ := this
    rw [List.length_range] at h
    rw [List.getElem_range] at h'
    exact ⟨h, h'.symm⟩
  cases he
  rw [hp'] at hp
  cases hp
  rw [h3, Nat.add_assoc]
  refine flatten_get h1' ?_
  rw [List.getElem?_map, List.getElem?_range (by omega)]
  rfl

theorem config_valid {g : Grammar} {c i d : Nat} (hc : g.configs[c]? = some (i, d)) : ∃ p, g.prods[i]? = some p ∧ d ≤ p.2.length := by
  unfold Grammar.configs at hc
  obtain ⟨i', j, l, h1, h2, h3⟩ := flatten_get_inv hc
  have hi : i' < g.prods.length := by
    have := (List.getElem?_eq_some_iff.1 h1).1
    simpa using this
  rw [List.getElem?_map, List.getElem?_range hi, Option.map_some, Option.some.injEq] at h1
  have hp' : g.prods[i']? = some g.prods[i'] := List.getElem?_eq_getElem hi
  rw [hp'] at h1
  dsimp only at h1
  subst h1
  rw [List.getElem?_map] at h2
  obtain ⟨j', hj', he⟩ := Option.map_eq_some_iff.1 h2
  obtain ⟨h, h'⟩ := List.getElem?_eq_some_iff.1 hj'
  rw [List.length_range] at h
  rw [List.getElem_range] at h'
  cases he
  exact ⟨_, hp', by omega⟩

theorem config_exists {g : Grammar} {i : Nat} {p : Nat × List Nat} (hp : g.prods[i]? = some p) : ∃ c : Nat, g.configs[c]? = some (i, 0) := by
  have hi : i < g.prods.length := (List.getElem?_eq_some_iff.1 hp).1
  refine ⟨_, flatten_get (i := i) (j := 0) (l := (List.range (p.2.length + 1)).map (fun j => (i, j))) ?_ ?_⟩
  · rw [List.getElem?_map, List.getElem?_range hi, Option.map_some, hp]
  · rw [List.getElem?_map, List.getElem?_range (by omega)]; rfl

/-- Configuration `c` is production `i` with position `d`. -/
theorem config_inj {g : Grammar} {c c' : Nat} {x : Nat × Nat} (h : g.configs[c]? = some x) (h' : g.configs[c']? = some x) : c = c' := by
  unfold Grammar.configs at h h'
  have key : ∀ c : Nat, (((List.range g.prods.length).map (fun i => match g.prods[i]? with
      | none => []
      | some p => (List.range (p.2.length + 1)).map (fun j => (i, j)))).flatten)[c]? = some x →
      c = (((List.range g.prods.length).map (fun i => match g.prods[i]? with
      | none => []
      | some p => (List.range (p.2.length + 1)).map (fun j => (i, j)))).take x.1).flatten.length + x.2 := by
    intro c hc
    obtain ⟨i', j, l, h1, h2, h3⟩ := flatten_get_inv hc
    have hi : i' < g.prods.length := by
      have := (List.getElem?_eq_some_iff.1 h1).1
      simpa using this
    rw [List.getElem?_map, List.getElem?_range hi, Option.map_some, Option.some.injEq] at h1
    have hp' : g.prods[i']? = some g.prods[i'] := List.getElem?_eq_getElem hi
    rw [hp'] at h1
    dsimp only at h1
    subst h1
    rw [List.getElem?_map] at h2
    obtain ⟨j', hj', he⟩ := Option.map_eq_some_iff.1 h2
    obtain ⟨h, h'⟩ := List.getElem?_eq_some_iff.1 hj'
    rw [List.getElem_range] at h'
    subst h'
    cases he
    exact h3
  rw [key c h, key c' h']

theorem afterDot_some {g : Grammar} {c i : Nat} {x : Option Nat} : g.afterDot c = some (i, x) ↔
    ∃ d p, g.configs[c]? = some (i, d) ∧ g.prods[i]? = some p ∧ p.2[d]? = x := by
  unfold Grammar.afterDot
  constructor
  · intro h
    obtain ⟨⟨i', d⟩, h1, h2⟩ := Option.bind_eq_some_iff.1 h
    obtain ⟨p, h3, h4⟩ := Option.map_eq_some_iff.1 h2
    cases h4
    exact ⟨d, p, h1, h3, rfl⟩
  · rintro ⟨d, p, h1, h2, rfl⟩
    rw [h1, Option.bind_some]
    dsimp only
    rw [h2, Option.map_some]

theorem afterDot_exists {g : Grammar} {c : Nat} (h : c < g.configs.length) : ∃ i x, g.afterDot c = some (i, x) := by
  obtain ⟨⟨i, d⟩, hc⟩ : ∃ q, g.configs[c]? = some q := ⟨_, List.getElem?_eq_getElem h⟩
  obtain ⟨p, hp, _⟩ := config_valid hc
  exact ⟨i, p.2[d]?, afterDot_some.2 ⟨d, p, hc, hp, rfl⟩⟩

theorem mem_startConfigs {g : Grammar} {c x : Nat} : c ∈ g.startConfigs x ↔ ∃ i p, g.configs[c]? = some (i, 0) ∧ g.prods[i]? = some p ∧ p.1 = x := by
  unfold Grammar.startConfigs
  rw [List.mem_filter, List.mem_range]
  constructor
  · rintro ⟨hc, h⟩
    obtain ⟨⟨i, d⟩, hq⟩ : ∃ q, g.configs[c]? = some q := ⟨_, List.getElem?_eq_getElem hc⟩
    rw [hq] at h
    dsimp only at h
    obtain ⟨p, hp, _⟩ := config_valid hq
    rw [hp] at h
    simp only [Bool.and_eq_true, decide_eq_true_eq] at h
    obtain ⟨rfl, h⟩ := h
    exact ⟨i, p, hq, hp, h⟩
  · rintro ⟨i, p, hq, hp, rfl⟩
    refine ⟨(List.getElem?_eq_some_iff.1 hq).1, ?_⟩
    rw [hq]
    dsimp only
    rw [hp]
    simp

/-- The configurations that `close` adds for a configuration. -/
def Opens (g : Grammar) (c c' : Nat) : Prop := ∃ i x, g.afterDot c = some (i, some x) ∧ g.nterminals ≤ x ∧ c' ∈ g.startConfigs x

theorem closeAdd_spec (l : List Nat) (queue set : List Nat) (hs : set.Pairwise (· < ·)) :
    ((l.foldl closeAdd (queue, set)).2).Pairwise (· < ·) ∧
    (∀ c, c ∈ (l.foldl closeAdd (queue, set)).2 ↔ c ∈ set ∨ c ∈ l) ∧
    (∀ c, c ∈ (l.foldl closeAdd (queue, set)).1 → c ∈ queue ∨ c ∈ l) ∧
    (∀ c, c ∈ queue → c ∈ (l.foldl closeAdd (queue, set)).1) ∧
    (∀ c, c ∈ (l.foldl closeAdd (queue, set)).2 → c ∈ set ∨ c ∈ (l.foldl closeAdd (queue, set)).1) ∧
    (l.foldl closeAdd (queue, set)).1.length + set.length = queue.length + (l.foldl closeAdd (queue, set)).2.length := by
  induction l generalizing queue set with
  | nil => exact ⟨hs, by simp, by simp, by simp, fun c h => Or.inl h, by simp⟩
  | cons a l ih =>
    rw [List.foldl_cons]
    unfold closeAdd at ih ⊢
    by_cases ha : a ∈ set
    · dsimp only
      rw [if_pos ha]
      obtain ⟨h1, h2, h3, h4, h5, h6⟩ := ih queue set hs
      refine ⟨h1, ?_, ?_, h4, h5, h6⟩
      · intro c
        rw [h2, List.mem_cons]
        constructor
        · tauto
        · rintro (h | rfl | h)
          · exact Or.inl h
          · exact Or.inl ha
          · exact Or.inr h
      · intro c hc
        rcases h3 c hc with h | h
        · exact Or.inl h
        · exact Or.inr (List.mem_cons_of_mem _ h)
    · dsimp only
      rw [if_neg ha]
      obtain ⟨h1, h2, h3, h4, h5, h6⟩ := ih (queue ++ [a]) (setInsert a set) (setInsert_sorted hs)
      refine ⟨h1, ?_, ?_, ?_, ?_, ?_⟩
      · intro c
        rw [h2, mem_setInsert, List.mem_cons]
        tauto
      · intro c hc
        rcases h3 c hc with h | h
        · rcases List.mem_append.1 h with h | h
          · exact Or.inl h
          · rw [List.mem_singleton.1 h]; exact Or.inr (by simp)
        · exact Or.inr (List.mem_cons_of_mem _ h)
      · intro c hc; exact h4 c (List.mem_append_left _ hc)
      · intro c hc
        rcases h5 c hc with h | h
        · rcases mem_setInsert.1 h with rfl | h
          · exact Or.inr (h4 _ (by simp))
          · exact Or.inl h
        · exact Or.inr h
      · have : (setInsert a set).length = set.length + 1 := by
          clear ih h1 h2 h3 h4 h5 h6 hs
          induction set with
          | nil => rfl
          | cons b set ih =>
            unfold setInsert
            by_cases hb : a < b
            · rw [if_pos hb]; rfl
            · rw [if_neg hb]
              by_cases hb' : a = b
              · subst hb'; exact absurd (by simp) ha
              · rw [if_neg hb', List.length_cons, ih (fun h => ha (List.mem_cons_of_mem _ h)), List.length_cons]
        rw [List.length_append] at h6
        simp only [List.length_cons, List.length_nil] at h6
        omega

theorem closeLoop_spec {g : Grammar} (fuel : Nat) : ∀ queue set : List Nat, set.Pairwise (· < ·) → (∀ c ∈ set, c < g.configs.length) →
    (∀ c ∈ queue, c ∈ set) → (∀ c ∈ set, c ∈ queue ∨ ∀ c', Opens g c c' → c' ∈ set) → queue.length + (g.configs.length - set.length) ≤ fuel →
    ∃ out, g.closeLoop fuel queue set = .done out ∧ out.Pairwise (· < ·) ∧ (∀ c ∈ out, c < g.configs.length) ∧ (∀ c ∈ set, c ∈ out) ∧
      (∀ c ∈ out, c ∈ set ∨ ∃ c' ∈ out, Opens g c' c) ∧ ∀ c ∈ out, ∀ c', Opens g c c' → c' ∈ out := by
  induction fuel with
  | zero =>
    intro queue set h1 h2 h3 h4 hf
    have : queue = [] := List.length_eq_zero_iff.1 (by omega)
    subst this
    refine ⟨set, by unfold Grammar.closeLoop; rfl, h1, h2, fun c h => h, fun c h => Or.inl h, ?_⟩
    intro c hc
    rcases h4 c hc with h | h
    · simp at h
    · exact h
  | succ fuel ih =>
    intro queue set h1 h2 h3 h4 hf
    cases queue with
    | nil =>
      refine ⟨set, by unfold Grammar.closeLoop; rfl, h1, h2, fun c h => h, fun c h => Or.inl h, ?_⟩
      intro c hc
      rcases h4 c hc with h | h
      · simp at h
      · exact h
    | cons a queue =>
      simp only [List.length_cons] at hf
      have ha := h3 a (by simp)
      obtain ⟨i, x, hax⟩ := afterDot_exists (h2 a ha)
      unfold Grammar.closeLoop
      rw [hax]
      cases x with
      | none =>
        refine ih queue set h1 h2 (fun c hc => h3 c (List.mem_cons_of_mem _ hc)) ?_ (by omega)
        intro c hc
        rcases h4 c hc with h | h
        · rcases List.mem_cons.1 h with rfl | h
          · right
            rintro c' ⟨i', x', hx, _⟩
            rw [hax] at hx; cases hx
          · exact Or.inl h
        · exact Or.inr h
      | some x =>
        dsimp only
        by_cases ht : x < g.nterminals
        · rw [if_pos (by unfold Grammar.isTerminal; simpa using ht)]
          refine ih queue set h1 h2 (fun c hc => h3 c (List.mem_cons_of_mem _ hc)) ?_ (by omega)
          intro c hc
          rcases h4 c hc with h | h
          · rcases List.mem_cons.1 h with rfl | h
            · right
              rintro c' ⟨i', x', hx, hx', _⟩
              rw [hax] at hx; cases hx; omega
            · exact Or.inl h
          · exact Or.inr h
        · rw [if_neg (by unfold Grammar.isTerminal; simpa using ht)]
          obtain ⟨q1, q2, q3, q4, q5, q6⟩ := closeAdd_spec (g.startConfigs x) queue set h1
          generalize (g.startConfigs x).foldl closeAdd (queue, set) = qs at *
          have hrange : ∀ c ∈ qs.2, c < g.configs.length := by
            intro c hc
            rcases (q2 c).1 hc with h | h
            · exact h2 c h
            · obtain ⟨i', p, h, _⟩ := mem_startConfigs.1 h
              exact (List.getElem?_eq_some_iff.1 h).1
          have hle := sorted_length_le q1 hrange
          have hle' := sorted_length_le h1 h2
          obtain ⟨out, o1, o2, o3, o4, o5, o6⟩ := ih qs.1 qs.2 q1 hrange (by
            intro c hc
            rcases q3 c hc with h | h
            · exact (q2 c).2 (Or.inl (h3 c (List.mem_cons_of_mem _ h)))
            · exact (q2 c).2 (Or.inr h)) (by
            intro c hc
            rcases q5 c hc with h | h
            · rcases h4 c h with h' | h'
              · rcases List.mem_cons.1 h' with rfl | h'
                · right
                  rintro c' ⟨i', x', hx, _, hc'⟩
                  rw [hax] at hx; cases hx
                  exact (q2 c').2 (Or.inr hc')
                · exact Or.inl (q4 c h')
              · exact Or.inr (fun c' h => (q2 c').2 (Or.inl (h' c' h)))
            · exact Or.inl h) (by omega)
          refine ⟨out, o1, o2, o3, fun c hc => o4 c ((q2 c).2 (Or.inl hc)), ?_, o6⟩
          intro c hc
          rcases o5 c hc with h | h
          · rcases (q2 c).1 h with h | h
            · exact Or.inl h
            · exact Or.inr ⟨a, o4 a ((q2 a).2 (Or.inl ha)), i, x, hax, by omega, h⟩
          · exact Or.inr h

theorem foldl_setInsert {l s : List Nat} (hs : s.Pairwise (· < ·)) : (l.foldl (fun s c => setInsert c s) s).Pairwise (· < ·) ∧
    ∀ c, c ∈ l.foldl (fun s c => setInsert c s) s ↔ c ∈ s ∨ c ∈ l := by
  induction l generalizing s with
  | nil => exact ⟨hs, by simp⟩
  | cons a l ih =>
    rw [List.foldl_cons]
    obtain ⟨h1, h2⟩ := ih (setInsert_sorted (x := a) hs)
    refine ⟨h1, fun c => ?_⟩
    rw [h2, mem_setInsert, List.mem_cons]
    tauto

/-- What `close` returns: the least set that holds the kernel and what its members open. -/
theorem close_spec {g : Grammar} {kernel : List Nat} (hn : kernel.Nodup) (hr : ∀ c ∈ kernel, c < g.configs.length) :
    ∃ out, g.close kernel = .done out ∧ StateSet g.configs.length out ∧ (∀ c ∈ kernel, c ∈ out) ∧
      (∀ c ∈ out, c ∈ kernel ∨ ∃ c' ∈ out, Opens g c' c) ∧ ∀ c ∈ out, ∀ c', Opens g c c' → c' ∈ out := by
  obtain ⟨f1, f2⟩ := foldl_setInsert (l := kernel) (s := []) List.Pairwise.nil
  have hmem : ∀ c, c ∈ kernel.foldl (fun s c => setInsert c s) [] ↔ c ∈ kernel := by intro c; rw [f2]; simp
  have hlen : (kernel.foldl (fun s c => setInsert c s) []).length = kernel.length :=
    ((List.perm_ext_iff_of_nodup (f1.imp (fun h => Nat.ne_of_lt h)) hn).2 hmem).length_eq
  have hle := sorted_length_le f1 (fun c hc => hr c ((hmem c).1 hc))
  obtain ⟨out, o1, o2, o3, o4, o5, o6⟩ := closeLoop_spec (g := g) g.configs.length kernel (kernel.foldl (fun s c => setInsert c s) []) f1
    (fun c hc => hr c ((hmem c).1 hc)) (fun c hc => (hmem c).2 hc) (fun c hc => Or.inl ((hmem c).1 hc)) (by omega)
  refine ⟨out, ?_, ⟨o2, o3⟩, fun c hc => o4 c ((hmem c).2 hc), ?_, o6⟩
  · unfold Grammar.close
    rw [if_pos hn, o1]
  · intro c hc
    rcases o5 c hc with h | h
    · exact Or.inl ((hmem c).1 h)
    · exact Or.inr h

theorem mem_kernel {g : Grammar} {configs : List Nat} {x c : Nat} : c ∈ g.kernel configs x ↔ ∃ c' ∈ configs, c = c' + 1 ∧ ∃ i, g.afterDot c' = some (i, some x) := by
  unfold Grammar.kernel
  simp only [List.mem_map, List.mem_filter, Option.any_eq_true, decide_eq_true_eq, Prod.exists]
  constructor
  · rintro ⟨c', ⟨h1, i, a, h2, h3⟩, rfl⟩
    exact ⟨c', h1, rfl, i, by rw [h2, h3]⟩
  · rintro ⟨c', h1, rfl, i, h⟩
    exact ⟨c', ⟨h1, i, some x, h, rfl⟩, rfl⟩

theorem kernel_range {g : Grammar} {configs : List Nat} {x c : Nat} (h : c ∈ g.kernel configs x) : c < g.configs.length := by
  obtain ⟨c', _, rfl, i, ha⟩ := mem_kernel.1 h
  obtain ⟨d, p, h1, h2, h3⟩ := afterDot_some.1 ha
  exact (List.getElem?_eq_some_iff.1 (config_next h1 h2 (List.getElem?_eq_some_iff.1 h3).1)).1

theorem kernel_nodup {g : Grammar} {configs : List Nat} {x : Nat} (h : configs.Pairwise (· < ·)) : (g.kernel configs x).Nodup := by
  unfold Grammar.kernel
  refine List.Nodup.map (fun a b h => by simpa using h) (List.Nodup.filter _ (h.imp (fun h => Nat.ne_of_lt h)))

theorem transitionSymbols_spec {g : Grammar} {configs : List Nat} (hr : ∀ c ∈ configs, c < g.configs.length) :
    ∃ xs, g.transitionSymbols configs = some xs ∧ xs.Pairwise (· < ·) ∧ ∀ x, x ∈ xs ↔ ∃ c ∈ configs, ∃ i, g.afterDot c = some (i, some x) := by
  obtain ⟨xs, h1, h2, h3⟩ := foldlM_list (fun (s : List Nat) c => (g.afterDot c).map (fun a => match a.2 with
      | none => s
      | some x => setInsert x s)) (fun pre xs => xs.Pairwise (· < ·) ∧ ∀ x, x ∈ xs ↔ ∃ c ∈ pre, ∃ i, g.afterDot c = some (i, some x))
    configs [] ⟨List.Pairwise.nil, by simp⟩ (by
      intro pre c post hl xs ⟨hx1, hx2⟩
      obtain ⟨i, a, ha⟩ := afterDot_exists (hr c (by rw [hl]; simp))
      cases a with
      | none =>
        refine ⟨xs, by rw [ha]; rfl, hx1, ?_⟩
        intro x
        rw [hx2]
        constructor
        · rintro ⟨c', h1, h2⟩; exact ⟨c', by simp [h1], h2⟩
        · rintro ⟨c', h1, j, h2⟩
          rcases List.mem_append.1 h1 with h | h
          · exact ⟨c', h, j, h2⟩
          · rw [List.mem_singleton.1 h, ha] at h2; cases h2
      | some y =>
        refine ⟨setInsert y xs, by rw [ha]; rfl, setInsert_sorted hx1, ?_⟩
        intro x
        rw [mem_setInsert, hx2]
        constructor
        · rintro (rfl | ⟨c', h1, h2⟩)
          · exact ⟨c, by simp, i, ha⟩
          · exact ⟨c', by simp [h1], h2⟩
        · rintro ⟨c', h1, j, h2⟩
          rcases List.mem_append.1 h1 with h | h
          · exact Or.inr ⟨c', h, j, h2⟩
          · rw [List.mem_singleton.1 h, ha] at h2; cases h2; exact Or.inl rfl)
  exact ⟨xs, h1, h2, h3⟩

theorem reductions_spec {g : Grammar} {configs : List Nat} (hr : ∀ c ∈ configs, c < g.configs.length) :
    ∃ ks, g.reductions configs = some ks ∧ ∀ k, k ∈ ks ↔ ∃ c ∈ configs, g.afterDot c = some (k, none) := by
  obtain ⟨xs, h1, h2⟩ := foldlM_list (fun (l : List Nat) c => (g.afterDot c).map (fun (a : Nat × Option Nat) => if a.2 = none then l ++ [a.1] else l))
    (fun pre ks => ∀ k, k ∈ ks ↔ ∃ c ∈ pre, g.afterDot c = some (k, none))
    configs [] (by simp) (by
      intro pre c post hl ks hk
      obtain ⟨i, a, ha⟩ := afterDot_exists (hr c (by rw [hl]; simp))
      cases a with
      | none =>
        refine ⟨ks ++ [i], by rw [ha]; rfl, ?_⟩
        intro k
        rw [List.mem_append, hk, List.mem_singleton]
        constructor
        · rintro (⟨c', h1, h2⟩ | rfl)
          · exact ⟨c', by simp [h1], h2⟩
          · exact ⟨c, by simp, ha⟩
        · rintro ⟨c', h1, h2⟩
          rcases List.mem_append.1 h1 with h | h
          · exact Or.inl ⟨c', h, h2⟩
          · rw [List.mem_singleton.1 h, ha] at h2; cases h2; exact Or.inr rfl
      | some y =>
        refine ⟨ks, by rw [ha]; rfl, ?_⟩
        intro k
        rw [hk]
        constructor
        · rintro ⟨c', h1, h2⟩; exact ⟨c', by simp [h1], h2⟩
        · rintro ⟨c', h1, h2⟩
          rcases List.mem_append.1 h1 with h | h
          · exact ⟨c', h, h2⟩
          · rw [List.mem_singleton.1 h, ha] at h2; cases h2)
  exact ⟨xs, h1, h2⟩

/-- State `q` is the one behind symbol `x` of state `s`. -/
def Leads (g : Grammar) (states : List LRState) (s x q : Nat) : Prop :=
  ∃ (st st' : LRState), states[s]? = some st ∧ states[q]? = some st' ∧ g.close (g.kernel st.configs x) = .done st'.configs

/-- States before `i` have all their transitions, state `i` those in `xs`, later ones none. -/
structure LRInv (g : Grammar) (i : Nat) (xs : List Nat) (states : List LRState) : Prop where
  nodup : (states.map LRState.configs).Nodup
  sets : ∀ (s : Nat) st, states[s]? = some st → StateSet g.configs.length st.configs
  start : ∃ c st, (g.startConfigs (g.nsymbols - 1)).head? = some c ∧ states[0]? = some st ∧ g.close [c] = .done st.configs
  leads : ∀ (s : Nat) st x q, states[s]? = some st → (x, q) ∈ st.shifts → Leads g states s x q
  before : ∀ (s : Nat) st, states[s]? = some st → s < i → ∃ ys, g.transitionSymbols st.configs = some ys ∧ st.shifts.map Prod.fst = ys
  now : ∀ st, states[i]? = some st → st.shifts.map Prod.fst = xs
  after : ∀ (s : Nat) st, states[s]? = some st → i < s → st.shifts = []

/-- The same configurations, with possibly more transitions and more states. -/
def Extends (states states' : List LRState) : Prop :=
  ∀ (s : Nat) st, states[s]? = some st → ∃ st', states'[s]? = some st' ∧ st'.configs = st.configs

theorem Leads.extends {g : Grammar} {states states' : List LRState} (h : Extends states states') {s x q : Nat} (hl : Leads g states s x q) :
    Leads g states' s x q := by
  obtain ⟨st, st', h1, h2, h3⟩ := hl
  obtain ⟨a, a1, a2⟩ := h s st h1
  obtain ⟨b, b1, b2⟩ := h q st' h2
  exact ⟨a, b, a1, b1, by rw [a2, b2]; exact h3⟩

theorem modify_shift {states : List LRState} {i x q : Nat} {s : Nat} {st' : LRState}
    (h : (states.modify i (fun s => { s with shifts := s.shifts ++ [(x, q)] }))[s]? = some st') :
    ∃ st, states[s]? = some st ∧ st'.configs = st.configs ∧ ((s = i ∧ st'.shifts = st.shifts ++ [(x, q)]) ∨ (s ≠ i ∧ st' = st)) := by
  rw [List.getElem?_modify] at h
  cases hs : states[s]? with
  | none => rw [hs] at h; simp at h
  | some st =>
    rw [hs] at h
    have h : (if i = s then { st with shifts := st.shifts ++ [(x, q)] } else st) = st' := by simpa using h
    by_cases his : i = s
    · rw [if_pos his] at h
      subst h
      exact ⟨st, rfl, rfl, Or.inl ⟨his.symm, rfl⟩⟩
    · rw [if_neg his] at h
      subst h
      exact ⟨st, rfl, rfl, Or.inr ⟨fun h => his h.symm, rfl⟩⟩

theorem modify_extends (states : List LRState) (i x q : Nat) :
    Extends states (states.modify i (fun s => { s with shifts := s.shifts ++ [(x, q)] })) := by
  intro s st hs
  rw [List.getElem?_modify, hs]
  by_cases his : i = s
  · exact ⟨{ st with shifts := st.shifts ++ [(x, q)] }, by simp [his], rfl⟩
  · exact ⟨st, by simp [his], rfl⟩

theorem modify_configs (states : List LRState) (i x q : Nat) :
    (states.modify i (fun s => { s with shifts := s.shifts ++ [(x, q)] })).map LRState.configs = states.map LRState.configs := by
  refine List.ext_getElem? fun s => ?_
  rw [List.getElem?_map, List.getElem?_map, List.getElem?_modify]
  cases states[s]? with
  | none => rfl
  | some st =>
    by_cases his : i = s <;> simp [his]

theorem addShift_spec {g : Grammar} {i x : Nat} {xs : List Nat} {states : List LRState} (hi : LRInv g i xs states) {st : LRState}
    (hst : states[i]? = some st) : ∃ states', g.addShift i st.configs states x = .done states' ∧ LRInv g i (xs ++ [x]) states' ∧ Extends states states' := by
  have hset := hi.sets i st hst
  obtain ⟨next, n1, n2, _⟩ := close_spec (kernel_nodup (g := g) (x := x) hset.1) (fun c hc => kernel_range hc)
  unfold Grammar.addShift
  rw [n1]
  dsimp only
  cases hj : (states.map LRState.configs).idxOf? next with
  | some j =>
    dsimp only
    obtain ⟨hj1, hj2, _⟩ := List.idxOf?_eq_some_iff.1 hj
    have hext := modify_extends states i x j
    obtain ⟨stj, hstj, hcj⟩ : ∃ stj, states[j]? = some stj ∧ stj.configs = next := by
      rw [List.length_map] at hj1
      refine ⟨states[j], List.getElem?_eq_getElem hj1, ?_⟩
      rw [List.getElem_map] at hj2
      simpa using hj2
    refine ⟨_, rfl, ⟨?_, ?_, ?_, ?_, ?_, ?_, ?_⟩, hext⟩
    · rw [modify_configs]; exact hi.nodup
    · intro s st' hs
      obtain ⟨a, a1, a2, _⟩ := modify_shift hs
      rw [a2]; exact hi.sets s a a1
    · obtain ⟨c, st0, c1, c2, c3⟩ := hi.start
      obtain ⟨b, b1, b2⟩ := hext 0 st0 c2
      exact ⟨c, b, c1, b1, by rw [b2]; exact c3⟩
    · intro s st' y q hs hm
      obtain ⟨a, a1, a2, a3⟩ := modify_shift hs
      rcases a3 with ⟨rfl, a3⟩ | ⟨_, rfl⟩
      · rw [a3] at hm
        rcases List.mem_append.1 hm with hm | hm
        · exact (hi.leads _ a y q a1 hm).extends hext
        · cases List.mem_singleton.1 hm
          rw [hst] at a1; cases a1
          refine Leads.extends hext ⟨st, stj, hst, hstj, by rw [hcj]; exact n1⟩
      · exact (hi.leads s _ y q a1 hm).extends hext
    · intro s st' hs hlt
      obtain ⟨a, a1, a2, a3⟩ := modify_shift hs
      rcases a3 with ⟨rfl, _⟩ | ⟨_, rfl⟩
      · omega
      · exact hi.before s _ a1 hlt
    · intro st' hs
      obtain ⟨a, a1, a2, a3⟩ := modify_shift hs
      rcases a3 with ⟨_, a3⟩ | ⟨h, _⟩
      · rw [a3, List.map_append, hi.now a a1]; rfl
      · exact absurd rfl h
    · intro s st' hs hlt
      obtain ⟨a, a1, a2, a3⟩ := modify_shift hs
      rcases a3 with ⟨rfl, _⟩ | ⟨_, rfl⟩
      · omega
      · exact hi.after s _ a1 hlt
  | none =>
    dsimp only
    have hnot : next ∉ states.map LRState.configs := List.idxOf?_eq_none_iff.1 hj
    have hlen : (states.modify i (fun s => { s with shifts := s.shifts ++ [(x, states.length)] })).length = states.length := by simp
    have hext : Extends states ((states.modify i (fun s => { s with shifts := s.shifts ++ [(x, states.length)] })) ++ [⟨next, []⟩]) := by
      intro s st' hs
      obtain ⟨b, b1, b2⟩ := modify_extends states i x states.length s st' hs
      exact ⟨b, by rw [List.getElem?_append_left (List.getElem?_eq_some_iff.1 b1).1, b1], b2⟩
    have hget : ∀ (s : Nat) st', ((states.modify i (fun s => { s with shifts := s.shifts ++ [(x, states.length)] })) ++ [⟨next, []⟩])[s]? = some st' →
        (s = states.length ∧ st' = ⟨next, []⟩) ∨ (states.modify i (fun s => { s with shifts := s.shifts ++ [(x, states.length)] }))[s]? = some st' := by
      intro s st' hs
      by_cases hlt : s < states.length
      · rw [List.getElem?_append_left (by omega)] at hs
        exact Or.inr hs
      · rw [List.getElem?_append_right (by omega), hlen] at hs
        have : s - states.length = 0 := by
          have := (List.getElem?_eq_some_iff.1 hs).1
          simp at this; omega
        rw [this] at hs
        cases hs
        exact Or.inl ⟨by omega, rfl⟩
    have hilt : i < states.length := (List.getElem?_eq_some_iff.1 hst).1
    refine ⟨_, rfl, ⟨?_, ?_, ?_, ?_, ?_, ?_, ?_⟩, hext⟩
    · rw [List.map_append, modify_configs]
      refine List.nodup_append.2 ⟨hi.nodup, by simp, ?_⟩
      intro a ha b hb
      simp only [List.map_cons, List.map_nil, List.mem_singleton] at hb
      rintro rfl
      exact hnot (hb ▸ ha)
    · intro s st' hs
      rcases hget s st' hs with ⟨_, rfl⟩ | hs
      · exact n2
      · obtain ⟨a, a1, a2, _⟩ := modify_shift hs
        rw [a2]; exact hi.sets s a a1
    · obtain ⟨c, st0, c1, c2, c3⟩ := hi.start
      obtain ⟨b, b1, b2⟩ := hext 0 st0 c2
      exact ⟨c, b, c1, b1, by rw [b2]; exact c3⟩
    · intro s st' y q hs hm
      rcases hget s st' hs with ⟨_, rfl⟩ | hs
      · simp at hm
      · obtain ⟨a, a1, a2, a3⟩ := modify_shift hs
        rcases a3 with ⟨rfl, a3⟩ | ⟨_, rfl⟩
        · rw [a3] at hm
          rcases List.mem_append.1 hm with hm | hm
          · exact (hi.leads _ a y q a1 hm).extends hext
          · cases List.mem_singleton.1 hm
            rw [hst] at a1; cases a1
            obtain ⟨b, b1, b2⟩ := hext _ st hst
            exact ⟨b, ⟨next, []⟩, b1, by rw [List.getElem?_append_right (by omega), hlen]; simp, by rw [b2]; exact n1⟩
        · exact (hi.leads s _ y q a1 hm).extends hext
    · intro s st' hs hlt
      rcases hget s st' hs with ⟨rfl, rfl⟩ | hs
      · omega
      · obtain ⟨a, a1, a2, a3⟩ := modify_shift hs
        rcases a3 with ⟨rfl, _⟩ | ⟨_, rfl⟩
        · omega
        · exact hi.before s _ a1 hlt
    · intro st' hs
      rcases hget i st' hs with ⟨h, rfl⟩ | hs
      · omega
      · obtain ⟨a, a1, a2, a3⟩ := modify_shift hs
        rcases a3 with ⟨_, a3⟩ | ⟨h, _⟩
        · rw [a3, List.map_append, hi.now a a1]; rfl
        · exact absurd rfl h
    · intro s st' hs hlt
      rcases hget s st' hs with ⟨_, rfl⟩ | hs
      · rfl
      · obtain ⟨a, a1, a2, a3⟩ := modify_shift hs
        rcases a3 with ⟨rfl, _⟩ | ⟨_, rfl⟩
        · omega
        · exact hi.after s _ a1 hlt

theorem Extends.refl (states : List LRState) : Extends states states := fun _ st h => ⟨st, h, rfl⟩

theorem Extends.trans {a b c : List LRState} (h : Extends a b) (h' : Extends b c) : Extends a c := by
  intro s st hs
  obtain ⟨x, x1, x2⟩ := h s st hs
  obtain ⟨y, y1, y2⟩ := h' s x x1
  exact ⟨y, y1, by rw [y2, x2]⟩

theorem addShifts_spec {g : Grammar} {i : Nat} (ys : List Nat) : ∀ {xs : List Nat} {states : List LRState}, LRInv g i xs states → ∀ {st : LRState},
    states[i]? = some st → ∃ states', g.addShifts i st.configs states ys = .done states' ∧ LRInv g i (xs ++ ys) states' ∧ Extends states states' := by
  induction ys with
  | nil =>
    intro xs states hi st hst
    exact ⟨states, rfl, by rw [List.append_nil]; exact hi, Extends.refl _⟩
  | cons y ys ih =>
    intro xs states hi st hst
    obtain ⟨s1, a1, a2, a3⟩ := addShift_spec (x := y) hi hst
    obtain ⟨st1, b1, b2⟩ := a3 i st hst
    obtain ⟨s2, c1, c2, c3⟩ := ih a2 b1
    refine ⟨s2, ?_, by simpa using c2, a3.trans c3⟩
    unfold Grammar.addShifts
    rw [a1]
    dsimp only
    rw [← b2, c1]

theorem lrLoop_spec {g : Grammar} (fuel : Nat) : ∀ i states, LRInv g i [] states → i ≤ states.length → 2 ^ g.configs.length - i ≤ fuel →
    ∃ out, g.lrLoop fuel i states = .done out ∧ LRInv g out.length [] out := by
  induction fuel with
  | zero =>
    intro i states hi hle hf
    have hb : states.length ≤ 2 ^ g.configs.length := by
      have := sets_length_le hi.nodup (n := g.configs.length) (by
        intro X hX
        obtain ⟨st, h1, rfl⟩ := List.mem_map.1 hX
        obtain ⟨s, hs⟩ := List.getElem?_of_mem h1
        exact hi.sets s st hs)
      simpa using this
    have hn : states[i]? = none := List.getElem?_eq_none (by omega)
    unfold Grammar.lrLoop
    rw [hn]
    obtain rfl : i = states.length := by
      have := List.getElem?_eq_none_iff.1 hn
      omega
    exact ⟨states, rfl, hi⟩
  | succ fuel ih =>
    intro i states hi hle hf
    unfold Grammar.lrLoop
    cases hst : states[i]? with
    | none =>
      obtain rfl : i = states.length := by
        have := List.getElem?_eq_none_iff.1 hst
        omega
      exact ⟨states, rfl, hi⟩
    | some st =>
      dsimp only
      obtain ⟨ys, y1, y2, _⟩ := transitionSymbols_spec (hi.sets i st hst).2
      rw [y1]
      dsimp only
      obtain ⟨s1, a1, a2, a3⟩ := addShifts_spec ys hi hst
      rw [a1]
      dsimp only
      rw [List.nil_append] at a2
      have hilt : i < s1.length := by
        obtain ⟨b, b1, _⟩ := a3 i st hst
        exact (List.getElem?_eq_some_iff.1 b1).1
      refine ih (i + 1) s1 ⟨a2.nodup, a2.sets, a2.start, a2.leads, ?_, ?_, ?_⟩ (by omega) (by omega)
      · intro s st' hs hlt
        by_cases hsi : s = i
        · subst hsi
          obtain ⟨b, b1, b2⟩ := a3 s st hst
          rw [hs] at b1; cases b1
          exact ⟨ys, by rw [b2]; exact y1, a2.now _ hs⟩
        · exact a2.before s st' hs (by omega)
      · intro st' hs
        rw [a2.after (i + 1) st' hs (by omega)]; rfl
      · intro s st' hs hlt
        exact a2.after s st' hs (by omega)

/-- The machine is built for every grammar with an accepting production. -/
theorem lr0_spec {g : Grammar} (hs : ∃ p ∈ g.prods, p.1 = g.nsymbols - 1) (fuel : Nat) (hf : 2 ^ g.configs.length ≤ fuel) :
    ∃ states, g.lr0 fuel = .done states ∧ LRInv g states.length [] states := by
  obtain ⟨p, hp, hp1⟩ := hs
  obtain ⟨i, hi⟩ := List.getElem?_of_mem hp
  obtain ⟨c, hc⟩ := config_exists hi
  have hmem := mem_startConfigs.2 ⟨i, p, hc, hi, hp1⟩
  cases hl : g.startConfigs (g.nsymbols - 1) with
  | nil => rw [hl] at hmem; simp at hmem
  | cons c0 l =>
    have hc0 : c0 < g.configs.length := by
      obtain ⟨_, _, h, _⟩ := mem_startConfigs.1 (show c0 ∈ g.startConfigs (g.nsymbols - 1) by rw [hl]; simp)
      exact (List.getElem?_eq_some_iff.1 h).1
    obtain ⟨out, o1, o2, _⟩ := close_spec (g := g) (kernel := [c0]) (by simp) (by simpa using hc0)
    unfold Grammar.lr0
    rw [hl]
    dsimp only [List.head?_cons]
    rw [o1]
    dsimp only
    refine lrLoop_spec fuel 0 _ ⟨by simp, ?_, ⟨c0, ⟨out, []⟩, by rw [hl]; rfl, rfl, o1⟩, ?_, ?_, ?_, ?_⟩ (by simp) (by omega)
    · intro s st h
      have := List.mem_of_getElem? h
      rw [List.mem_singleton.1 this]; exact o2
    · intro s st x q h hm
      have := List.mem_of_getElem? h
      rw [List.mem_singleton.1 this] at hm
      simp at hm
    · intro s st _ h; omega
    · intro st h
      have := List.mem_of_getElem? h
      rw [List.mem_singleton.1 this]; rfl
    · intro s st h _
      have := List.mem_of_getElem? h
      rw [List.mem_singleton.1 this]

end OmegaH
