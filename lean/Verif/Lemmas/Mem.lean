import Verif.Model.Mem

/-! Helper lemmas about memories and parallel scatter loops. -/

namespace OmegaH

theorem filterMap_getElem?_range {β : Type} (l : List β) :
    (List.range l.length).filterMap (fun i => l[i]?) = l := by
  induction l with
  | nil => simp
  | cons a l ih =>
    simp only [List.length_cons, List.range_succ_eq_map, List.filterMap_cons,
      List.getElem?_cons_zero, List.filterMap_map]
    congr 1

theorem Sched.permute_perm {β : Type} (s : Sched) (l : List β) : (s.permute l).Perm l := by
  have h := (s.ok l.length).filterMap (fun i => l[i]?)
  rw [filterMap_getElem?_range] at h
  exact h

theorem Sched.mem_permute {β : Type} (s : Sched) (l : List β) (x : β) :
    x ∈ s.permute l ↔ x ∈ l := (s.permute_perm l).mem_iff

/-- The writes `ws` all agree with `F` and are in range: pointwise effect. -/
theorem Mem.writes_spec {α : Type} (F : Nat → α) (ws : List (Nat × α)) :
    ∀ (m : Mem α), (∀ p v, (p, v) ∈ ws → p < m.length ∧ v = F p) →
    ∃ m', m.writes ws = some m' ∧ m'.length = m.length ∧
      (∀ p v, (p, v) ∈ ws → m'[p]? = some (some (F p))) ∧
      (∀ p, (∀ v, (p, v) ∉ ws) → m'[p]? = m[p]?) := by
  induction ws with
  | nil => intro m _; exact ⟨m, rfl, rfl, by simp, by simp⟩
  | cons w ws ih =>
    obtain ⟨i, v⟩ := w
    intro m h
    have hi := h i v (by simp)
    have hset : ∀ p v, (p, v) ∈ ws → p < (m.set i (some v)).length ∧ v = F p := by
      intro p v hp
      simpa using h p v (by simp [hp])
    obtain ⟨m', hm', hlen, hw, hn⟩ := ih (m.set i (some v)) (by
      intro p v' hp; simpa using h p v' (by simp [hp]))
    refine ⟨m', ?_, ?_, ?_, ?_⟩
    · simp [Mem.writes, Mem.write, hi.1, hm']
    · simpa using hlen
    · intro p v' hp
      by_cases hmem : ∃ u, (p, u) ∈ ws
      · obtain ⟨u, hu⟩ := hmem
        exact hw p u hu
      · have hpi : p = i := by
          rcases List.mem_cons.1 hp with h1 | h1
          · exact (Prod.mk.inj h1).1
          · exact absurd ⟨v', h1⟩ hmem
        subst hpi
        rw [hn p (fun u hu => hmem ⟨u, hu⟩)]
        rw [List.getElem?_set_self hi.1, hi.2]
    · intro p hp
      have hpi : i ≠ p := by
        intro e; subst e; exact hp v (by simp)
      rw [hn p (fun u hu => hp u (by simp [hu]))]
      exact List.getElem?_set_ne hpi

theorem mapM_range_some {β : Type} (n : Nat) (W : Nat → Option β) (w : Nat → β)
    (h : ∀ i, i < n → W i = some (w i)) :
    (List.range n).mapM W = some ((List.range n).map w) := by
  have : ∀ l : List Nat, (∀ i ∈ l, i < n) → l.mapM W = some (l.map w) := by
    intro l
    induction l with
    | nil => intro _; rfl
    | cons a l ih =>
      intro hl
      rw [List.mapM_cons, h a (hl a (by simp)), ih (fun i hi => hl i (by simp [hi]))]
      rfl
  exact this _ (fun i hi => List.mem_range.1 hi)

/-- Effect of a scatter loop whose writes agree with `F`, under any schedule. -/
theorem parScatter_spec {α : Type} (s : Sched) (n : Nat) (W : Nat → Option (List (Nat × α)))
    (w : Nat → List (Nat × α)) (F : Nat → α) (m : Mem α)
    (hW : ∀ i, i < n → W i = some (w i))
    (hF : ∀ i, i < n → ∀ p v, (p, v) ∈ w i → p < m.length ∧ v = F p) :
    ∃ m', parScatter s n W m = some m' ∧ m'.length = m.length ∧
      (∀ i, i < n → ∀ p v, (p, v) ∈ w i → m'[p]? = some (some (F p))) ∧
      (∀ p, (∀ i, i < n → ∀ v, (p, v) ∉ w i) → m'[p]? = m[p]?) := by
  have hmem : ∀ p v, (p, v) ∈ s.permute ((List.range n).map w).flatten ↔
      ∃ i, i < n ∧ (p, v) ∈ w i := by
    intro p v
    rw [s.mem_permute, List.mem_flatten]
    constructor
    · rintro ⟨l, hl, hp⟩
      obtain ⟨i, hi, rfl⟩ := List.mem_map.1 hl
      exact ⟨i, List.mem_range.1 hi, hp⟩
    · rintro ⟨i, hi, hp⟩
      exact ⟨w i, List.mem_map.2 ⟨i, List.mem_range.2 hi, rfl⟩, hp⟩
  obtain ⟨m', h1, h2, h3, h4⟩ := Mem.writes_spec F (s.permute ((List.range n).map w).flatten) m
    (by
      intro p v hp
      obtain ⟨i, hi, hp⟩ := (hmem p v).1 hp
      exact hF i hi p v hp)
  refine ⟨m', ?_, h2, ?_, ?_⟩
  · unfold parScatter
    rw [mapM_range_some n W w hW]
    exact h1
  · intro i hi p v hp
    exact h3 p v ((hmem p v).2 ⟨i, hi, hp⟩)
  · intro p hp
    refine h4 p ?_
    intro v hv
    obtain ⟨i, hi, hv⟩ := (hmem p v).1 hv
    exact hp i hi v hv

theorem Mem.toArray?_map_some {α : Type} (l : List α) : Mem.toArray? (l.map some) = some l := by
  unfold Mem.toArray?
  induction l with
  | nil => rfl
  | cons a l ih => rw [List.map_cons, List.mapM_cons, ih]; rfl

theorem Mem.toArray?_ofList {α : Type} (l : List α) : Mem.toArray? (Mem.ofList l) = some l :=
  Mem.toArray?_map_some l

theorem Mem.eq_map_some_of_getElem? {α : Type} (m : Mem α) (F : Nat → α)
    (h : ∀ p, p < m.length → m[p]? = some (some (F p))) :
    m = ((List.range m.length).map F).map some := by
  apply List.ext_getElem?
  intro p
  by_cases hp : p < m.length
  · rw [h p hp]; simp [hp]
  · simp [hp]

/-- A scatter loop that writes every cell, agreeing with `F`, produces `F`'s table. -/
theorem parScatter_full {α : Type} (s : Sched) (n : Nat) (W : Nat → Option (List (Nat × α)))
    (w : Nat → List (Nat × α)) (F : Nat → α) (m : Mem α)
    (hW : ∀ i, i < n → W i = some (w i))
    (hF : ∀ i, i < n → ∀ p v, (p, v) ∈ w i → p < m.length ∧ v = F p)
    (hcov : ∀ p, p < m.length → ∃ i, i < n ∧ ∃ v, (p, v) ∈ w i) :
    parScatter s n W m = some (Mem.ofList ((List.range m.length).map F)) := by
  obtain ⟨m', h1, h2, h3, _⟩ := parScatter_spec s n W w F m hW hF
  rw [h1]
  congr 1
  have := Mem.eq_map_some_of_getElem? m' F (by
    intro p hp
    obtain ⟨i, hi, v, hv⟩ := hcov p (h2 ▸ hp)
    exact h3 i hi p v hv)
  rw [this, h2]; rfl

/-- A scatter loop over an initialised array; `cov p` says whether cell `p` is written. -/
theorem parScatter_update {α : Type} (s : Sched) (n : Nat) (W : Nat → Option (List (Nat × α)))
    (w : Nat → List (Nat × α)) (F : Nat → α) (m : Mem α)
    (hW : ∀ i, i < n → W i = some (w i))
    (hF : ∀ i, i < n → ∀ p v, (p, v) ∈ w i → p < m.length ∧ v = F p)
    (cov : Nat → Bool)
    (hcov : ∀ p, p < m.length → (cov p = true ↔ ∃ i, i < n ∧ ∃ v, (p, v) ∈ w i)) :
    parScatter s n W m = some (m.mapIdx fun p c => if cov p then some (F p) else c) := by
  obtain ⟨m', h1, h2, h3, h4⟩ := parScatter_spec s n W w F m hW hF
  rw [h1]
  congr 1
  apply List.ext_getElem?
  intro p
  by_cases hp : p < m.length
  · rw [List.getElem?_mapIdx]
    by_cases hc : cov p = true
    · obtain ⟨i, hi, v, hv⟩ := (hcov p hp).1 hc
      rw [h3 i hi p v hv]; simp [hp, hc]
    · rw [h4 p (fun i hi v hv => hc ((hcov p hp).2 ⟨i, hi, v, hv⟩))]
      simp [hp, hc]
  · rw [List.getElem?_eq_none (by omega), List.getElem?_eq_none (by simp; omega)]

/-- The writes of different schedules have the same effect. -/
theorem parScatter_sched_indep {α : Type} (s t : Sched) (n : Nat)
    (W : Nat → Option (List (Nat × α)))
    (w : Nat → List (Nat × α)) (F : Nat → α) (m : Mem α)
    (hW : ∀ i, i < n → W i = some (w i))
    (hF : ∀ i, i < n → ∀ p v, (p, v) ∈ w i → p < m.length ∧ v = F p) :
    parScatter s n W m = parScatter t n W m := by
  classical
  have hc : ∀ p, p < m.length → (decide (∃ i, i < n ∧ ∃ v, (p, v) ∈ w i) = true ↔
      ∃ i, i < n ∧ ∃ v, (p, v) ∈ w i) := fun p _ => decide_eq_true_iff
  rw [parScatter_update s n W w F m hW hF _ hc, parScatter_update t n W w F m hW hF _ hc]

/-- Effect of a scatter loop whose writes agree with the partial table `F`. -/
theorem parScatter_specO {α : Type} (s : Sched) (n : Nat) (W : Nat → Option (List (Nat × α)))
    (w : Nat → List (Nat × α)) (F : Nat → Option α) (m : Mem α)
    (hW : ∀ i, i < n → W i = some (w i))
    (hF : ∀ i, i < n → ∀ p v, (p, v) ∈ w i → p < m.length ∧ F p = some v) :
    ∃ m', parScatter s n W m = some m' ∧ m'.length = m.length ∧
      (∀ i, i < n → ∀ p v, (p, v) ∈ w i → m'[p]? = some (F p)) ∧
      (∀ p, (∀ i, i < n → ∀ v, (p, v) ∉ w i) → m'[p]? = m[p]?) := by
  by_cases hα : Nonempty α
  · obtain ⟨d⟩ := hα
    obtain ⟨m', h1, h2, h3, h4⟩ := parScatter_spec s n W w (fun p => (F p).getD d) m hW (by
      intro i hi p v hp
      obtain ⟨ha, hb⟩ := hF i hi p v hp
      exact ⟨ha, by simp [hb]⟩)
    refine ⟨m', h1, h2, ?_, h4⟩
    intro i hi p v hp
    rw [h3 i hi p v hp, (hF i hi p v hp).2]; rfl
  · have hemp : ∀ i, i < n → ∀ p v, (p, v) ∉ w i := fun i _ p v _ => hα ⟨v⟩
    have hnil : ((List.range n).map w).flatten = [] := by
      apply List.eq_nil_iff_forall_not_mem.2
      rintro ⟨p, v⟩ h
      exact hα ⟨v⟩
    refine ⟨m, ?_, rfl, ?_, ?_⟩
    · unfold parScatter
      rw [mapM_range_some n W w hW]
      simp only [Option.bind_eq_bind, Option.bind_some, hnil]
      have : s.permute ([] : List (Nat × α)) = [] := by
        simpa using s.permute_perm ([] : List (Nat × α))
      rw [this]; rfl
    · intro i hi p v hp; exact absurd hp (hemp i hi p v)
    · intro p _; rfl

theorem Mem.toArray?_spec {α : Type} (m : Mem α) (F : Nat → Option α)
    (h : ∀ p, p < m.length → m[p]? = some (F p) ∧ (F p).isSome) :
    ∃ out, m.toArray? = some out ∧ out.length = m.length ∧ ∀ p, p < m.length → out[p]? = F p := by
  induction m generalizing F with
  | nil => exact ⟨[], rfl, rfl, by simp⟩
  | cons c m ih =>
    obtain ⟨out, h1, h2, h3⟩ := ih (fun p => F (p + 1)) (by
      intro p hp
      have := h (p + 1) (by simpa using hp)
      simpa using this)
    have h0 := h 0 (by simp)
    obtain ⟨v, hv⟩ := Option.isSome_iff_exists.1 h0.2
    have hc : c = some v := by simpa [hv] using h0.1
    refine ⟨v :: out, ?_, by simp [h2], ?_⟩
    · unfold Mem.toArray? at h1 ⊢
      rw [List.mapM_cons, h1, hc]; rfl
    · intro p hp
      cases p with
      | zero => simp [hv]
      | succ p => simpa using h3 p (by simpa using hp)

/-- A scatter loop that fills a freshly allocated array according to `F`. -/
theorem parScatter_build {α : Type} (s : Sched) (n N : Nat) (W : Nat → Option (List (Nat × α)))
    (w : Nat → List (Nat × α)) (F : Nat → Option α)
    (hW : ∀ i, i < n → W i = some (w i))
    (hF : ∀ i, i < n → ∀ p v, (p, v) ∈ w i → p < N ∧ F p = some v)
    (hcov : ∀ p, p < N → ∃ i, i < n ∧ ∃ v, (p, v) ∈ w i) :
    ∃ out, (parScatter s n W (Mem.alloc N)).bind Mem.toArray? = some out ∧ out.length = N ∧
      ∀ p, p < N → out[p]? = F p := by
  have hlen : (Mem.alloc N : Mem α).length = N := List.length_replicate
  obtain ⟨m', h1, h2, h3, _⟩ := parScatter_specO s n W w F (Mem.alloc N) hW (by rw [hlen]; exact hF)
  rw [hlen] at h2
  obtain ⟨out, o1, o2, o3⟩ := Mem.toArray?_spec m' F (by
    intro p hp
    obtain ⟨i, hi, v, hv⟩ := hcov p (h2 ▸ hp)
    refine ⟨h3 i hi p v hv, ?_⟩
    rw [(hF i hi p v hv).2]; rfl)
  refine ⟨out, by rw [h1]; exact o1, by omega, ?_⟩
  intro p hp
  exact o3 p (by omega)

/-- A scatter loop over an initialised array: covered cells get `F`, others keep their value. -/
theorem parScatter_onto {α : Type} (s : Sched) (n : Nat) (W : Nat → Option (List (Nat × α)))
    (w : Nat → List (Nat × α)) (F : Nat → Option α) (base : List α)
    (hW : ∀ i, i < n → W i = some (w i))
    (hF : ∀ i, i < n → ∀ p v, (p, v) ∈ w i → p < base.length ∧ F p = some v) :
    ∃ out, (parScatter s n W (Mem.ofList base)).bind Mem.toArray? = some out ∧
      out.length = base.length ∧
      (∀ i, i < n → ∀ p v, (p, v) ∈ w i → out[p]? = F p) ∧
      (∀ p, (∀ i, i < n → ∀ v, (p, v) ∉ w i) → out[p]? = base[p]?) := by
  have hlen : (Mem.ofList base : Mem α).length = base.length := List.length_map _
  obtain ⟨m', h1, h2, h3, h4⟩ := parScatter_specO s n W w F (Mem.ofList base) hW
    (by rw [hlen]; exact hF)
  rw [hlen] at h2
  obtain ⟨out, o1, o2, o3⟩ := Mem.toArray?_spec m' (fun p => (m'[p]?).join) (by
    intro p hp
    by_cases hc : ∃ i, i < n ∧ ∃ v, (p, v) ∈ w i
    · obtain ⟨i, hi, v, hv⟩ := hc
      have hh := h3 i hi p v hv
      rw [hh, (hF i hi p v hv).2]; exact ⟨rfl, rfl⟩
    · have hh := h4 p (fun i hi v hv => hc ⟨i, hi, v, hv⟩)
      rw [hh]
      have hb : p < base.length := by omega
      simp [Mem.ofList, hb])
  refine ⟨out, by rw [h1]; exact o1, by omega, ?_, ?_⟩
  · intro i hi p v hv
    have hp := (hF i hi p v hv).1
    rw [o3 p (by omega), h3 i hi p v hv]; rfl
  · intro p hp
    by_cases hb : p < base.length
    · rw [o3 p (by omega), h4 p hp]; simp [Mem.ofList, hb]
    · rw [List.getElem?_eq_none (by omega), List.getElem?_eq_none (by omega)]

/-- `parScatter_build` with the writes of iteration `i` described by a relation. -/
theorem parScatter_buildR {α : Type} (s : Sched) (n N : Nat) (W : Nat → Option (List (Nat × α)))
    (R : Nat → Nat → α → Prop) (F : Nat → Option α)
    (hW : ∀ i, i < n → ∃ ws, W i = some ws ∧ ∀ p v, (p, v) ∈ ws ↔ R i p v)
    (hF : ∀ i, i < n → ∀ p v, R i p v → p < N ∧ F p = some v)
    (hcov : ∀ p, p < N → ∃ i, i < n ∧ ∃ v, R i p v) :
    ∃ out, (parScatter s n W (Mem.alloc N)).bind Mem.toArray? = some out ∧ out.length = N ∧
      ∀ p, p < N → out[p]? = F p := by
  have hex : ∀ i, ∃ ws, i < n → W i = some ws ∧ ∀ p v, (p, v) ∈ ws ↔ R i p v := by
    intro i
    by_cases hi : i < n
    · obtain ⟨ws, h⟩ := hW i hi; exact ⟨ws, fun _ => h⟩
    · exact ⟨[], fun h => absurd h hi⟩
  obtain ⟨w, hw⟩ := Classical.skolem.1 hex
  refine parScatter_build s n N W w F (fun i hi => (hw i hi).1) ?_ ?_
  · intro i hi p v h; exact hF i hi p v (((hw i hi).2 p v).1 h)
  · intro p hp
    obtain ⟨i, hi, v, hv⟩ := hcov p hp
    exact ⟨i, hi, v, ((hw i hi).2 p v).2 hv⟩

/-- `parScatter_onto` with the writes of iteration `i` described by a relation. -/
theorem parScatter_ontoR {α : Type} (s : Sched) (n : Nat) (W : Nat → Option (List (Nat × α)))
    (R : Nat → Nat → α → Prop) (F : Nat → Option α) (base : List α)
    (hW : ∀ i, i < n → ∃ ws, W i = some ws ∧ ∀ p v, (p, v) ∈ ws ↔ R i p v)
    (hF : ∀ i, i < n → ∀ p v, R i p v → p < base.length ∧ F p = some v) :
    ∃ out, (parScatter s n W (Mem.ofList base)).bind Mem.toArray? = some out ∧
      out.length = base.length ∧
      (∀ i, i < n → ∀ p v, R i p v → out[p]? = some v) ∧
      (∀ p, (∀ i, i < n → ∀ v, ¬ R i p v) → out[p]? = base[p]?) := by
  have hex : ∀ i, ∃ ws, i < n → W i = some ws ∧ ∀ p v, (p, v) ∈ ws ↔ R i p v := by
    intro i
    by_cases hi : i < n
    · obtain ⟨ws, h⟩ := hW i hi; exact ⟨ws, fun _ => h⟩
    · exact ⟨[], fun h => absurd h hi⟩
  obtain ⟨w, hw⟩ := Classical.skolem.1 hex
  obtain ⟨out, h1, h2, h3, h4⟩ := parScatter_onto s n W w F base (fun i hi => (hw i hi).1) (by
    intro i hi p v h; exact hF i hi p v (((hw i hi).2 p v).1 h))
  refine ⟨out, h1, h2, ?_, ?_⟩
  · intro i hi p v h
    rw [h3 i hi p v (((hw i hi).2 p v).2 h)]
    exact (hF i hi p v h).2
  · intro p hp
    exact h4 p (fun i hi v hv => hp i hi v (((hw i hi).2 p v).1 hv))

theorem Mem.filled_eq {α : Type} (n : Nat) (v : α) :
    Mem.filled n v = Mem.ofList (List.replicate n v) := by
  simp [Mem.filled, Mem.ofList]

/-- `mapM` over an index range, pointwise. -/
theorem mapM_range_spec {β : Type} (n : Nat) (W : Nat → Option β)
    (h : ∀ i, i < n → (W i).isSome) :
    ∃ out, (List.range n).mapM W = some out ∧ out.length = n ∧ ∀ i, i < n → out[i]? = W i := by
  by_cases hn : n = 0
  · subst hn; exact ⟨[], rfl, rfl, by simp⟩
  · obtain ⟨d, _⟩ := Option.isSome_iff_exists.1 (h 0 (by omega))
    refine ⟨(List.range n).map (fun i => (W i).getD d), mapM_range_some n W _ ?_, by simp, ?_⟩
    · intro i hi
      obtain ⟨v, hv⟩ := Option.isSome_iff_exists.1 (h i hi)
      simp [hv]
    · intro i hi
      obtain ⟨v, hv⟩ := Option.isSome_iff_exists.1 (h i hi)
      simp [hi, hv]

end OmegaH
