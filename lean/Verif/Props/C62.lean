import Verif.Lemmas.Marks
/-!
# C62: marking the entities on parts of the model
-/
namespace OmegaH
open Spec

section
variable {W : MarkWorld} {n dim : Nat} {shared allUpward : Nat → Bool}

theorem MarkWorld_owner_entity (hW : W.Ok n dim shared allUpward) {d r e : Nat} (hr : r < n) (hd : d ≤ dim)
    (he : e < (W.rank r).nents d) : W.IsEntity n d (W.owner d r e) :=
  (hW.owners d hd).valid r e hr he

/-- From a dimension to a lower one, on all ranks. -/
theorem markDownBelow_spec (hW : W.Ok n dim shared allUpward) (s : Nat → Nat → Sched) {lo hi : Nat} (hlo : lo < hi) (hhi : hi ≤ dim)
    (marks : Nat → List Int) (M : Nat × Nat → Prop)
    (hm : ∀ r, r < n → (marks r).length = (W.rank r).nents hi ∧
      ∀ e, e < (W.rank r).nents hi → ((∃ m, (marks r)[e]? = some m ∧ m ≠ 0) ↔ M (W.owner hi r e))) :
    ∃ out, markDownBelow s (allUpward lo) (ownersArg n (shared lo) (fun r => (W.rank r).nents lo) (W.owner lo))
        (world n (fun r => (W.rank r).up lo hi)) (world n marks) = some (world n out) ∧
      W.Says n lo out (fun x => ∃ y, W.Bounds n lo hi x y ∧ M y) := by
  have hod := hW.owners lo (by omega)
  obtain ⟨low, l1, l2⟩ := onRanks_spec (n := n) (fun r => (W.rank r).up lo hi)
    (fun r l2h => ((world n marks)[r]?).bind (markDown (s r 0) l2h))
    (fun r out => out.length = (W.rank r).nents lo ∧ IsMarks out ∧
      ∀ l, l < (W.rank r).nents lo → (Marked out l ↔ ∃ h m, Beside ((W.rank r).up lo hi) l h ∧ (marks r)[h]? = some m ∧ m ≠ 0)) (by
    intro r hr
    rw [world_get _ hr, Option.bind_some]
    exact markDown_spec (s r 0) _ (hW.up r lo hi hr hlo hhi) (marks r) (hm r hr).1)
  -- a copy is marked if an entity beside it is
  have hcopy : ∀ r l, r < n → l < (W.rank r).nents lo → (Marked (low r) l ↔ ∃ h, Beside ((W.rank r).up lo hi) l h ∧ M (W.owner hi r h)) := by
    intro r l hr hl
    rw [(l2 r hr).2.2 l hl]
    constructor
    · rintro ⟨h, m, h1, h2, h3⟩
      exact ⟨h, h1, ((hm r hr).2 h (beside_lt (hW.up r lo hi hr hlo hhi) h1).2).1 ⟨m, h2, h3⟩⟩
    · rintro ⟨h, h1, h2⟩
      obtain ⟨m, h3, h4⟩ := ((hm r hr).2 h (beside_lt (hW.up r lo hi hr hlo hhi) h1).2).2 h2
      exact ⟨h, m, h1, h3, h4⟩
  -- owners
  have hown : ∃ all, (if allUpward lo = true then some (world n low) else reduceValues (fun r k => s r (k + 1)) (maxFunctor 8)
        (ownersArg n (shared lo) (fun r => (W.rank r).nents lo) (W.owner lo)) 1 (world n low)) = some (world n all) ∧
      ∀ p, p < n → (all p).length = (W.rank p).nents lo ∧ ∀ x, x < (W.rank p).nents lo → W.owner lo p x = (p, x) →
        ((∃ y, W.Bounds n lo hi (p, x) y ∧ M y) ∧ (all p)[x]? = some 1) ∨ ((¬ ∃ y, W.Bounds n lo hi (p, x) y ∧ M y) ∧ (all p)[x]? = some 0) := by
    by_cases hall : allUpward lo = true
    · rw [if_pos hall]
      refine ⟨low, rfl, ?_⟩
      intro p hp
      obtain ⟨a1, a2, a3⟩ := l2 p hp
      refine ⟨a1, ?_⟩
      intro x hx ho
      have hB : (∃ y, W.Bounds n lo hi (p, x) y ∧ M y) ↔ Marked (low p) x := by
        rw [hcopy p x hp hx]
        constructor
        · rintro ⟨y, b1, b2⟩
          obtain ⟨h, c1, c2⟩ := hW.upward lo hi hall hlo hhi (p, x) y ⟨hp, hx, ho⟩ b1
          exact ⟨h, c1, by rw [c2]; exact b2⟩
        · rintro ⟨h, c1, c2⟩
          exact ⟨_, ⟨p, x, h, hp, hx, c1, ho, rfl⟩, c2⟩
      rw [hB]
      have hxl : x < (low p).length := by omega
      have e : (low p)[x]? = some (low p)[x] := List.getElem?_eq_getElem hxl
      unfold Marked
      rw [e]
      rcases a2 _ (List.getElem_mem hxl) with h0 | h1
      · rw [h0]; exact Or.inr ⟨by decide, rfl⟩
      · rw [h1]; exact Or.inl ⟨rfl, rfl⟩
    · rw [if_neg hall]
      obtain ⟨all, a1, a2⟩ := reduceMarks_spec hW.size hod (fun r k => s r (k + 1)) low (fun r hr => ⟨(l2 r hr).1, (l2 r hr).2.1⟩)
      refine ⟨all, a1, ?_⟩
      intro p hp
      refine ⟨(a2 p hp).1, ?_⟩
      intro x hx ho
      have hB : (∃ y, W.Bounds n lo hi (p, x) y ∧ M y) ↔
          ∃ r i, r < n ∧ i < (W.rank r).nents lo ∧ W.owner lo r i = (p, x) ∧ Marked (low r) i := by
        constructor
        · rintro ⟨y, ⟨r, l, h, b1, b2, b3, b4, b5⟩, b6⟩
          exact ⟨r, l, b1, b2, b4, (hcopy r l b1 b2).2 ⟨h, b3, by rw [b5]; exact b6⟩⟩
        · rintro ⟨r, i, b1, b2, b3, b4⟩
          obtain ⟨h, c1, c2⟩ := (hcopy r i b1 b2).1 b4
          exact ⟨_, ⟨r, i, h, b1, b2, c1, b3, rfl⟩, c2⟩
      rw [hB]
      exact (a2 p hp).2 x hx ho
  obtain ⟨all, a1, a2⟩ := hown
  obtain ⟨out, o1, o2⟩ := syncValues_spec hW.size hod (fun r k => s r (k + 50)) 1 (by omega) all (fun r hr => by rw [(a2 r hr).1, Nat.mul_one])
  refine ⟨out, ?_, ?_⟩
  · unfold markDownBelow
    rw [show (onRanks (world n fun r => (W.rank r).up lo hi) fun r l2h => ((world n marks)[r]?).bind (markDown (s r 0) l2h)) = _ from l1]
    rw [Option.bind_some, a1, Option.bind_some, o1]
  · intro r hr
    obtain ⟨b1, b2⟩ := o2 r hr
    have hval : ∀ e, e < (W.rank r).nents lo → ((∃ y, W.Bounds n lo hi (W.owner lo r e) y ∧ M y) ∧ (out r)[e]? = some 1) ∨
        ((¬ ∃ y, W.Bounds n lo hi (W.owner lo r e) y ∧ M y) ∧ (out r)[e]? = some 0) := by
      intro e he
      obtain ⟨v1, v2, v3⟩ := hod.valid r e hr he
      have := b2 e he 0 (by omega)
      rw [entry_one, entry_one] at this
      rw [this]
      exact (a2 _ v1).2 _ v2 v3
    have hlen : (out r).length = (W.rank r).nents lo := by rw [b1, Nat.mul_one]
    refine ⟨hlen, ?_, ?_⟩
    · intro m hmem
      obtain ⟨p, hp⟩ := List.mem_iff_getElem?.1 hmem
      have hpl := (List.getElem?_eq_some_iff.1 hp).1
      rcases hval p (by omega) with ⟨_, h⟩ | ⟨_, h⟩ <;> rw [hp] at h
      · exact Or.inr (Option.some.inj h)
      · exact Or.inl (Option.some.inj h)
    · intro e he
      unfold Marked
      rcases hval e he with ⟨h1, h2⟩ | ⟨h1, h2⟩ <;> rw [h2]
      · exact ⟨fun _ => h1, fun _ => rfl⟩
      · exact ⟨fun h => (by cases h), fun h => absurd h h1⟩

theorem marks_iff {l : List Int} (h : IsMarks l) {e : Nat} : (∃ m, l[e]? = some m ∧ m ≠ 0) ↔ Marked l e := by
  constructor
  · rintro ⟨m, h1, h2⟩
    rcases h m (List.mem_of_getElem? h1) with h0 | h0
    · exact absurd h0 h2
    · unfold Marked; rw [h1, h0]
  · intro h1; exact ⟨1, h1, by decide⟩

/-- `mark_down`: exactly the entities in the closure of marked ones are marked, on every copy, however the mesh is distributed. -/
theorem C62_down (hW : W.Ok n dim shared allUpward) (s : Nat → Nat → Sched) {lo hi : Nat} (hlo : lo ≤ hi) (hhi : hi ≤ dim)
    (marks : Nat → List Int) (M : Nat × Nat → Prop) (hm : W.Says n hi marks M) :
    ∃ out, markDownRanks s (allUpward lo) (ownersArg n (shared lo) (fun r => (W.rank r).nents lo) (W.owner lo)) (world n W.rank) hi lo
        (world n marks) = some (world n out) ∧
      W.Says n lo out (fun x => ∃ y, W.InClosure n lo hi x y ∧ M y) := by
  unfold markDownRanks
  rw [if_pos ⟨hlo, by have := hW.small; omega⟩]
  by_cases he : hi = lo
  · subst he
    rw [if_pos rfl]
    refine ⟨marks, rfl, ?_⟩
    intro r hr
    refine ⟨(hm r hr).1, (hm r hr).2.1, ?_⟩
    intro e he
    rw [(hm r hr).2.2 e he]
    constructor
    · intro h; exact ⟨_, Or.inl ⟨rfl, rfl⟩, h⟩
    · rintro ⟨y, ⟨_, rfl⟩ | ⟨h, _⟩, h2⟩
      · exact h2
      · exact absurd h (by omega)
  · rw [if_neg he, world_map]
    obtain ⟨out, o1, o2⟩ := markDownBelow_spec hW s (show lo < hi by omega) hhi marks M (fun r hr => ⟨(hm r hr).1, fun e he => by
      rw [marks_iff (hm r hr).2.1]; exact (hm r hr).2.2 e he⟩)
    refine ⟨out, o1, ?_⟩
    intro r hr
    refine ⟨(o2 r hr).1, (o2 r hr).2.1, ?_⟩
    intro e hel
    rw [(o2 r hr).2.2 e hel]
    constructor
    · rintro ⟨y, h1, h2⟩; exact ⟨y, Or.inr ⟨by omega, h1⟩, h2⟩
    · rintro ⟨y, ⟨h, _⟩ | ⟨_, h1⟩, h2⟩
      · omega
      · exact ⟨y, h1, h2⟩

/-- `mark_up`: exactly the entities with a marked entity on their boundary are marked. -/
theorem C62_up (hW : W.Ok n dim shared allUpward) (s : Nat → Sched) {lo hi : Nat} (hlo : lo < hi) (hhi : hi ≤ dim)
    (marks : Nat → List Int) (M : Nat × Nat → Prop) (hm : W.Says n lo marks M) :
    ∃ out : Nat → List Int, (∀ r, r < n → markUp (s r) ((W.rank r).down hi lo) ((W.rank r).degree hi lo) ((W.rank r).nents hi) (marks r) = some (out r)) ∧
      W.Says n hi out (fun y => ∃ x, W.Bounds n lo hi x y ∧ M x) := by
  have h : ∀ r, ∃ out, r < n → markUp (s r) ((W.rank r).down hi lo) ((W.rank r).degree hi lo) ((W.rank r).nents hi) (marks r) = some out ∧
      out.length = (W.rank r).nents hi ∧ IsMarks out ∧
      ∀ e, e < (W.rank r).nents hi → (Marked out e ↔ ∃ x, W.Bounds n lo hi x (W.owner hi r e) ∧ M x) := by
    intro r
    by_cases hr : r < n
    · obtain ⟨out, o1, o2, o3, o4⟩ := markUp_spec (s r) ((W.rank r).down hi lo) ((W.rank r).degree hi lo) ((W.rank r).nents hi)
        ((W.rank r).nents lo) (marks r) (hm r hr).1 (hm r hr).2.1
        (fun h j hh hj => (hW.down r hi lo h hr hlo hhi hh).1 j hj)
      refine ⟨out, fun _ => ⟨o1, o2, o3, ?_⟩⟩
      intro e he
      rw [o4 e]
      obtain ⟨d1, d2⟩ := hW.down r hi lo e hr hlo hhi he
      constructor
      · rintro ⟨_, j, l, h1, h2, h3⟩
        obtain ⟨l', h4, h5⟩ := d1 j h1
        obtain rfl := Option.some.inj (h2.symm.trans h4)
        exact ⟨_, (d2 _).2 ⟨j, l, h1, h2, rfl⟩, ((hm r hr).2.2 l h5).1 h3⟩
      · rintro ⟨x, h1, h2⟩
        obtain ⟨j, l, h3, h4, rfl⟩ := (d2 x).1 h1
        obtain ⟨l', h5, h6⟩ := d1 j h3
        obtain rfl := Option.some.inj (h4.symm.trans h5)
        exact ⟨he, j, l, h3, h4, ((hm r hr).2.2 l h6).2 h2⟩
    · exact ⟨[], fun h => absurd h hr⟩
  obtain ⟨out, ho⟩ := Classical.skolem.1 h
  exact ⟨out, fun r hr => (ho r hr).1, fun r hr => (ho r hr).2⟩

/-- `mark_up_all`: exactly the entities are marked of which all entities on the boundary are. -/
theorem C62_up_all (hW : W.Ok n dim shared allUpward) (s : Nat → Sched) {lo hi : Nat} (hlo : lo < hi) (hhi : hi ≤ dim)
    (marks : Nat → List Int) (M : Nat × Nat → Prop) (hm : W.Says n lo marks M) :
    ∃ out : Nat → List Int, (∀ r, r < n → markUpAll (s r) ((W.rank r).down hi lo) ((W.rank r).degree hi lo) ((W.rank r).nents hi) (marks r) = some (out r)) ∧
      W.Says n hi out (fun y => ∀ x, W.Bounds n lo hi x y → M x) := by
  have h : ∀ r, ∃ out, r < n → markUpAll (s r) ((W.rank r).down hi lo) ((W.rank r).degree hi lo) ((W.rank r).nents hi) (marks r) = some out ∧
      out.length = (W.rank r).nents hi ∧ IsMarks out ∧
      ∀ e, e < (W.rank r).nents hi → (Marked out e ↔ ∀ x, W.Bounds n lo hi x (W.owner hi r e) → M x) := by
    intro r
    by_cases hr : r < n
    · obtain ⟨out, o1, o2, o3⟩ := parVals_spec (s r) ((W.rank r).nents hi)
        (fun h => ((List.range ((W.rank r).degree hi lo)).mapM (fun hhl =>
            (((W.rank r).down hi lo)[h * (W.rank r).degree hi lo + hhl]?).bind (fun l => (marks r)[l]?))).map
          (fun ms => [(h, b2i (ms.all (fun m => decide (m ≠ 0))))]))
        (fun h v => (v = 0 ∨ v = 1) ∧ (v = 1 ↔ ∀ x, W.Bounds n lo hi x (W.owner hi r h) → M x))
        (Mem.filled ((W.rank r).nents hi) 0) (by simp [Mem.filled]) (by
        intro h hh
        obtain ⟨d1, d2⟩ := hW.down r hi lo h hr hlo hhi hh
        have hread : ∀ j, j < (W.rank r).degree hi lo → ∃ l m, ((W.rank r).down hi lo)[h * (W.rank r).degree hi lo + j]? = some l ∧
            l < (W.rank r).nents lo ∧ (marks r)[l]? = some m := by
          intro j hj
          obtain ⟨l, l1, l2⟩ := d1 j hj
          exact ⟨l, _, l1, l2, List.getElem?_eq_getElem (by rw [(hm r hr).1]; exact l2)⟩
        obtain ⟨ms, m1, m2, m3, m4⟩ := mapM_list_spec (List.range ((W.rank r).degree hi lo))
          (fun hhl => (((W.rank r).down hi lo)[h * (W.rank r).degree hi lo + hhl]?).bind (fun l => (marks r)[l]?)) (by
            intro j hj
            obtain ⟨l, m, l1, l2, l3⟩ := hread j (List.mem_range.1 hj)
            rw [l1, Option.bind_some, l3]; rfl)
        refine ⟨b2i (ms.all (fun m => decide (m ≠ 0))), by rw [m1, Option.map_some], ?_, ?_⟩
        · unfold b2i; split <;> simp
        · have hb : b2i (ms.all (fun m => decide (m ≠ 0))) = 1 ↔ ∀ m ∈ ms, m ≠ 0 := by
            unfold b2i
            by_cases h1 : ms.all (fun m => decide (m ≠ 0)) = true
            · rw [if_pos h1]
              simp only [List.all_eq_true, decide_eq_true_eq] at h1
              exact ⟨fun _ => h1, fun _ => rfl⟩
            · rw [if_neg h1]
              simp only [List.all_eq_true, decide_eq_true_eq] at h1
              exact ⟨fun h => (by cases h), fun h => absurd h h1⟩
          rw [hb]
          constructor
          · intro hall x hx
            obtain ⟨j, l, j1, j2, rfl⟩ := (d2 x).1 hx
            obtain ⟨l', m, l1, l2, l3⟩ := hread j j1
            obtain rfl := Option.some.inj (j2.symm.trans l1)
            refine ((hm r hr).2.2 l l2).1 ((marks_iff (hm r hr).2.1).1 ⟨m, l3, hall m ?_⟩)
            exact (m3 m).2 ⟨j, List.mem_range.2 j1, by rw [j2, Option.bind_some]; exact l3⟩
          · intro hall m hmem
            obtain ⟨j, hj, e⟩ := (m3 m).1 hmem
            obtain ⟨l, m', l1, l2, l3⟩ := hread j (List.mem_range.1 hj)
            rw [l1, Option.bind_some] at e
            have hM := hall _ ((d2 _).2 ⟨j, l, List.mem_range.1 hj, l1, rfl⟩)
            have := ((hm r hr).2.2 l l2).2 hM
            unfold Marked at this
            rw [this] at e
            obtain rfl := Option.some.inj e
            decide)
      refine ⟨out, fun _ => ⟨o1, o2, ?_, ?_⟩⟩
      · intro m hmem
        obtain ⟨p, hp⟩ := List.mem_iff_getElem?.1 hmem
        have hpl := (List.getElem?_eq_some_iff.1 hp).1
        obtain ⟨v, v1, v2, _⟩ := o3 p (by omega)
        obtain rfl := Option.some.inj (hp.symm.trans v1)
        exact v2
      · intro e he
        obtain ⟨v, v1, v2, v3⟩ := o3 e he
        unfold Marked
        rw [v1, ← v3]
        simp
    · exact ⟨[], fun h => absurd h hr⟩
  obtain ⟨out, ho⟩ := Classical.skolem.1 h
  exact ⟨out, fun r hr => (ho r hr).1, fun r hr => (ho r hr).2⟩

/-! ## Model entities -/

/-- Searching a sorted array finds a value exactly if it is there. -/
theorem binarySearchIn_spec (a : List Int) (ha : a.Pairwise (· ≤ ·)) (v : Int) : ∀ (k : Nat) (l r : Int), (r + 1 - l).toNat ≤ k → 0 ≤ l →
    r < a.length → ∃ i, binarySearchIn a v l r = some i ∧ (i ≠ -1 ↔ ∃ j : Nat, l ≤ j ∧ (j : Int) ≤ r ∧ a[j]? = some v) := by
  intro k
  induction k with
  | zero =>
    intro l r hk hl hr
    unfold binarySearchIn
    rw [if_pos (by omega)]
    exact ⟨-1, rfl, fun h => absurd rfl h, fun ⟨j, h1, h2, _⟩ => by omega⟩
  | succ k ih =>
    intro l r hk hl hr
    unfold binarySearchIn
    by_cases hlr : l > r
    · rw [if_pos hlr]
      exact ⟨-1, rfl, fun h => absurd rfl h, fun ⟨j, h1, h2, _⟩ => by omega⟩
    rw [if_neg hlr]
    have hm1 : l ≤ (l + r) / 2 := by omega
    have hm2 : (l + r) / 2 ≤ r := by omega
    have hml : ((l + r) / 2).toNat < a.length := by omega
    have e : a[((l + r) / 2).toNat]? = some a[((l + r) / 2).toNat] := List.getElem?_eq_getElem hml
    have hsort : ∀ i j : Nat, ∀ x y : Int, a[i]? = some x → a[j]? = some y → i ≤ j → x ≤ y := by
      intro i j x y hx hy hij
      obtain ⟨h1, rfl⟩ := List.getElem?_eq_some_iff.1 hx
      obtain ⟨h2, rfl⟩ := List.getElem?_eq_some_iff.1 hy
      rcases Nat.lt_or_ge i j with h | h
      · exact List.pairwise_iff_getElem.1 ha i j h1 h2 h
      · have : i = j := by omega
        subst this; exact Int.le_refl _
    simp only [e]
    by_cases h1 : a[((l + r) / 2).toNat] < v
    · rw [if_pos h1]
      obtain ⟨i, i1, i2⟩ := ih ((l + r) / 2 + 1) r (by omega) (by omega) hr
      refine ⟨i, i1, i2.trans ⟨?_, ?_⟩⟩
      · rintro ⟨j, j1, j2, j3⟩; exact ⟨j, by omega, j2, j3⟩
      · rintro ⟨j, j1, j2, j3⟩
        refine ⟨j, ?_, j2, j3⟩
        by_contra hc
        have := hsort j _ _ _ j3 e (by omega)
        omega
    · rw [if_neg h1]
      by_cases h2 : a[((l + r) / 2).toNat] > v
      · rw [if_pos h2]
        obtain ⟨i, i1, i2⟩ := ih l ((l + r) / 2 - 1) (by omega) hl (by omega)
        refine ⟨i, i1, i2.trans ⟨?_, ?_⟩⟩
        · rintro ⟨j, j1, j2, j3⟩; exact ⟨j, j1, by omega, j3⟩
        · rintro ⟨j, j1, j2, j3⟩
          refine ⟨j, j1, ?_, j3⟩
          by_contra hc
          have := hsort _ j _ _ e j3 (by omega)
          omega
      · rw [if_neg h2]
        refine ⟨_, rfl, fun _ => ⟨((l + r) / 2).toNat, by omega, by omega, ?_⟩, fun _ => by omega⟩
        rw [e]; congr 1; omega

theorem binarySearch_spec (ids : List Int) (v : Int) :
    ∃ i, binarySearch (ids.mergeSort (fun x y => decide (x ≤ y))) v (ids.mergeSort (fun x y => decide (x ≤ y))).length = some i ∧
      (i ≠ -1 ↔ v ∈ ids) := by
  have hs : (ids.mergeSort (fun x y => decide (x ≤ y))).Pairwise (· ≤ ·) := by
    have := List.pairwise_mergeSort (le := fun x y : Int => decide (x ≤ y)) (by intro a b c; simp; omega) (by intro a b; simp; omega) ids
    exact this.imp (by intro a b h; simpa using h)
  obtain ⟨i, i1, i2⟩ := binarySearchIn_spec _ hs v _ 0 (((ids.mergeSort (fun x y => decide (x ≤ y))).length : Int) - 1) (Nat.le_refl _) (by omega) (by omega)
  refine ⟨i, i1, i2.trans ?_⟩
  rw [← (List.mergeSort_perm ids (fun x y => decide (x ≤ y))).mem_iff, List.mem_iff_getElem?]
  constructor
  · rintro ⟨j, _, _, h⟩; exact ⟨j, h⟩
  · rintro ⟨j, h⟩
    have := (List.getElem?_eq_some_iff.1 h).1
    exact ⟨j, by omega, by omega, h⟩

theorem wrap_dim {d : Nat} (h : d ≤ 3) : wrapSigned 8 d = d := by
  have : d = 0 ∨ d = 1 ∨ d = 2 ∨ d = 3 := by omega
  rcases this with rfl | rfl | rfl | rfl <;> decide

/-- The entities of the same dimension inside some model entities. -/
theorem getEqMarks_spec (hW : W.Ok n dim shared allUpward) (s : Sched) {d r : Nat} (hr : r < n) (hd : d ≤ dim) (ids : List Int) :
    ∃ out, getEqMarks s (W.rank r) d ids = some out ∧ out.length = (W.rank r).nents d ∧ IsMarks out ∧
      ∀ e, e < (W.rank r).nents d → (Marked out e ↔ ∃ i ∈ ids, W.ClassedOn d (W.owner d r e) d i) := by
  obtain ⟨c1, c2⟩ := hW.lengths r d hr hd
  obtain ⟨out, o1, o2, o3⟩ := parVals_spec s ((W.rank r).nents d) (fun e => (((W.rank r).classDim d)[e]?).bind (fun x =>
      if x = wrapSigned 8 d then (((W.rank r).classId d)[e]?).bind (fun i =>
        (binarySearch (ids.mergeSort (fun x y => decide (x ≤ y))) i (ids.mergeSort (fun x y => decide (x ≤ y))).length).map
          (fun k => [(e, b2i (-1 ≠ k))]))
      else some [(e, 0)]))
    (fun e v => (v = 0 ∨ v = 1) ∧ (v = 1 ↔ ∃ i ∈ ids, W.ClassedOn d (W.owner d r e) d i)) (Mem.alloc ((W.rank r).nents d)) (by simp [Mem.alloc]) (by
    intro e he
    obtain ⟨c, i, ⟨k1, k2⟩, k3, k4⟩ := hW.classes r d e hr hd he
    have k1 : ((W.rank r).classDim d)[e]? = some c := k1
    have k2 : ((W.rank r).classId d)[e]? = some i := k2
    have hcl : (∃ j ∈ ids, W.ClassedOn d (W.owner d r e) d j) ↔ c = d ∧ i ∈ ids := by
      constructor
      · rintro ⟨j, j1, j2, j3⟩
        obtain rfl := Option.some.inj (k4.symm.trans j3)
        exact ⟨Option.some.inj (k3.symm.trans j2), j1⟩
      · rintro ⟨rfl, h⟩
        exact ⟨i, h, k3, k4⟩
    rw [k1, Option.bind_some, wrap_dim (by have := hW.small; omega)]
    by_cases hc : c = d
    · rw [if_pos hc, k2, Option.bind_some]
      obtain ⟨k, b1, b2⟩ := binarySearch_spec ids i
      rw [b1, Option.map_some]
      refine ⟨_, rfl, ?_, ?_⟩
      · unfold b2i; split <;> simp
      · rw [hcl, ← b2]
        unfold b2i
        by_cases hk : k = -1
        · subst hk; simp
        · simp [hc, hk, Ne.symm hk]
    · rw [if_neg hc]
      exact ⟨0, rfl, Or.inl rfl, by rw [hcl]; simp [hc]⟩)
  refine ⟨out, o1, o2, ?_, ?_⟩
  · intro m hmem
    obtain ⟨p, hp⟩ := List.mem_iff_getElem?.1 hmem
    have hpl := (List.getElem?_eq_some_iff.1 hp).1
    obtain ⟨v, v1, v2, _⟩ := o3 p (by omega)
    obtain rfl := Option.some.inj (hp.symm.trans v1)
    exact v2
  · intro e he
    obtain ⟨v, v1, v2, v3⟩ := o3 e he
    unfold Marked
    rw [v1, ← v3]
    simp

/-- Closures of model entities of one dimension. -/
theorem markClosuresDim_spec (hW : W.Ok n dim shared allUpward) (s : Nat → Nat → Sched) {lo hi : Nat} (hlo : lo ≤ hi) (hhi : hi ≤ dim) (ids : List Int) :
    ∃ out, markClosuresDim s (allUpward lo) (ownersArg n (shared lo) (fun r => (W.rank r).nents lo) (W.owner lo)) (world n W.rank) lo hi ids
        = some (world n out) ∧
      W.Says n lo out (fun x => ∃ y, W.InClosure n lo hi x y ∧ ∃ i ∈ ids, W.ClassedOn hi y hi i) := by
  obtain ⟨eq, e1, e2⟩ := onRanks_spec (n := n) W.rank (fun r m => getEqMarks (s r 0) m hi ids)
    (fun r out => out.length = (W.rank r).nents hi ∧ IsMarks out ∧
      ∀ e, e < (W.rank r).nents hi → (Marked out e ↔ ∃ i ∈ ids, W.ClassedOn hi (W.owner hi r e) hi i))
    (fun r hr => getEqMarks_spec hW (s r 0) hr hhi ids)
  obtain ⟨out, o1, o2⟩ := C62_down hW (fun r k => s r (k + 1)) hlo hhi eq (fun y => ∃ i ∈ ids, W.ClassedOn hi y hi i) e2
  refine ⟨out, ?_, o2⟩
  unfold markClosuresDim
  rw [e1, Option.bind_some, o1]

theorem lorMarks_spec (s : Sched) {a b : List Int} (hl : a.length = b.length) (ha : IsMarks a) (hb : IsMarks b) :
    ∃ out, lorEach s a b = some out ∧ out.length = a.length ∧ IsMarks out ∧ ∀ e, Marked out e ↔ Marked a e ∨ Marked b e := by
  refine ⟨_, zipEach_eq s _ (fun x y => b2i (x ≠ 0 || y ≠ 0)) a b hl (fun i x y _ _ => ?_), by simp [hl], ?_, ?_⟩
  · rfl
  · intro m hm
    obtain ⟨i, hi⟩ := List.mem_iff_getElem?.1 hm
    rw [List.getElem?_zipWith] at hi
    split at hi
    · obtain rfl := Option.some.inj hi
      unfold b2i; split <;> simp
    · cases hi
  · intro e
    unfold Marked
    by_cases he : e < a.length
    · have h1 : a[e]? = some a[e] := List.getElem?_eq_getElem he
      have h2 : b[e]? = some (b[e]'(by omega)) := List.getElem?_eq_getElem (by omega)
      rw [List.getElem?_zipWith, h1, h2]
      rcases ha _ (List.getElem_mem he) with x | x <;> rcases hb _ (List.getElem_mem (show e < b.length by omega)) with y | y <;>
        rw [x, y] <;> simp [b2i]
    · rw [List.getElem?_zipWith, List.getElem?_eq_none (show a.length ≤ e by omega), List.getElem?_eq_none (show b.length ≤ e by omega)]
      simp

theorem mem_dimClassIds {d : Nat} {pairs : List (Int × Int)} {i : Int} : i ∈ dimClassIds d pairs ↔ ((d : Int), i) ∈ pairs := by
  unfold dimClassIds
  rw [List.mem_map]
  constructor
  · rintro ⟨⟨a, b⟩, h, rfl⟩
    obtain ⟨h1, h2⟩ := List.mem_filter.1 h
    simp only [decide_eq_true_eq] at h2
    subst h2; exact h1
  · intro h
    exact ⟨_, List.mem_filter.2 ⟨h, by simp⟩, rfl⟩

theorem markClosuresLoop_spec (hW : W.Ok n dim shared allUpward) (s : Nat → Nat → Nat → Sched) {lo : Nat} (pairs : List (Int × Int)) :
    ∀ (ds : List Nat) (marks : Nat → List Int) (M : Nat × Nat → Prop), (∀ d ∈ ds, lo ≤ d ∧ d ≤ dim) → W.Says n lo marks M →
    ∃ out, markClosuresLoop s (allUpward lo) (ownersArg n (shared lo) (fun r => (W.rank r).nents lo) (W.owner lo)) (world n W.rank) lo pairs ds
        (world n marks) = some (world n out) ∧
      W.Says n lo out (fun x => M x ∨ ∃ d ∈ ds, ∃ y i, ((d : Int), i) ∈ pairs ∧ W.InClosure n lo d x y ∧ W.ClassedOn d y d i) := by
  intro ds
  induction ds with
  | nil =>
    intro marks M _ hm
    refine ⟨marks, rfl, fun r hr => ⟨(hm r hr).1, (hm r hr).2.1, fun e he => ?_⟩⟩
    rw [(hm r hr).2.2 e he]
    simp
  | cons d ds ih =>
    intro marks M hd hm
    obtain ⟨d1, d2⟩ := hd d (List.mem_cons_self ..)
    have hds : ∀ d ∈ ds, lo ≤ d ∧ d ≤ dim := fun d h => hd d (List.mem_cons_of_mem _ h)
    unfold markClosuresLoop
    by_cases hem : dimClassIds d pairs = []
    · rw [if_pos hem]
      obtain ⟨out, o1, o2⟩ := ih marks M hds hm
      refine ⟨out, o1, fun r hr => ⟨(o2 r hr).1, (o2 r hr).2.1, fun e he => ?_⟩⟩
      rw [(o2 r hr).2.2 e he]
      constructor
      · rintro (h | ⟨d', h1, h2⟩)
        · exact Or.inl h
        · exact Or.inr ⟨d', List.mem_cons_of_mem _ h1, h2⟩
      · rintro (h | ⟨d', h1, y, i, h2, h3⟩)
        · exact Or.inl h
        · rcases List.mem_cons.1 h1 with rfl | h1
          · rw [← mem_dimClassIds, hem] at h2
            cases h2
          · exact Or.inr ⟨d', h1, y, i, h2, h3⟩
    · rw [if_neg hem]
      obtain ⟨more, m1, m2⟩ := markClosuresDim_spec hW (s d) d1 d2 (dimClassIds d pairs)
      obtain ⟨both, b1, b2⟩ := onRanks_spec (n := n) W.rank
        (fun r _ => ((world n marks)[r]?).bind (fun a => ((world n more)[r]?).bind (lorEach (s d r 200) a)))
        (fun r out => out.length = (W.rank r).nents lo ∧ IsMarks out ∧ ∀ e, Marked out e ↔ Marked (marks r) e ∨ Marked (more r) e) (by
        intro r hr
        rw [world_get _ hr, Option.bind_some, world_get _ hr, Option.bind_some]
        obtain ⟨out, o1, o2, o3, o4⟩ := lorMarks_spec (s d r 200) (show (marks r).length = (more r).length by rw [(hm r hr).1, (m2 r hr).1])
          (hm r hr).2.1 (m2 r hr).2.1
        exact ⟨out, o1, by rw [o2, (hm r hr).1], o3, o4⟩)
      rw [m1, Option.bind_some, b1, Option.bind_some]
      obtain ⟨out, o1, o2⟩ := ih both (fun x => M x ∨ ∃ y, W.InClosure n lo d x y ∧ ∃ i ∈ dimClassIds d pairs, W.ClassedOn d y d i) hds (by
        intro r hr
        refine ⟨(b2 r hr).1, (b2 r hr).2.1, ?_⟩
        intro e he
        rw [(b2 r hr).2.2 e, (hm r hr).2.2 e he, (m2 r hr).2.2 e he])
      refine ⟨out, o1, fun r hr => ⟨(o2 r hr).1, (o2 r hr).2.1, fun e he => ?_⟩⟩
      rw [(o2 r hr).2.2 e he]
      constructor
      · rintro ((h | ⟨y, h1, i, h2, h3⟩) | ⟨d', h1, h2⟩)
        · exact Or.inl h
        · exact Or.inr ⟨d, List.mem_cons_self .., y, i, mem_dimClassIds.1 h2, h1, h3⟩
        · exact Or.inr ⟨d', List.mem_cons_of_mem _ h1, h2⟩
      · rintro (h | ⟨d', h1, y, i, h2, h3, h4⟩)
        · exact Or.inl (Or.inl h)
        · rcases List.mem_cons.1 h1 with rfl | h1
          · exact Or.inl (Or.inr ⟨y, h3, i, mem_dimClassIds.2 h2, h4⟩)
          · exact Or.inr ⟨d', h1, y, i, h2, h3, h4⟩

/-- `mark_class_closures`: exactly the entities are marked that are in the closure of an entity inside one of the model entities, on
every copy. -/
theorem C62_closures (hW : W.Ok n dim shared allUpward) (s : Nat → Nat → Nat → Sched) {lo : Nat} (hlo : lo ≤ dim) (pairs : List (Int × Int)) :
    ∃ out, markClassClosures s (allUpward lo) (ownersArg n (shared lo) (fun r => (W.rank r).nents lo) (W.owner lo)) dim (world n W.rank) lo pairs
        = some (world n out) ∧
      W.Says n lo out (W.OnModel n dim lo pairs) := by
  obtain ⟨out, o1, o2⟩ := markClosuresLoop_spec hW s (lo := lo) pairs (List.range' lo (dim + 1 - lo))
    (fun r => List.replicate ((W.rank r).nents lo) 0) (fun _ => False) (by
      intro d hd; rw [List.mem_range'_1] at hd; omega) (by
      intro r hr
      refine ⟨by simp, ?_, ?_⟩
      · intro m hm; exact Or.inl (List.eq_of_mem_replicate hm)
      · intro e he
        unfold Marked
        rw [List.getElem?_replicate, if_pos he]
        simp)
  refine ⟨out, ?_, ?_⟩
  · unfold markClassClosures
    rw [world_map]
    exact o1
  · intro r hr
    refine ⟨(o2 r hr).1, (o2 r hr).2.1, fun e he => ?_⟩
    rw [(o2 r hr).2.2 e he]
    show (False ∨ _) ↔ _
    rw [false_or]
    unfold MarkWorld.OnModel
    constructor
    · rintro ⟨d, h1, h2⟩
      rw [List.mem_range'_1] at h1
      exact ⟨d, by omega, h2⟩
    · rintro ⟨d, h1, h2⟩
      refine ⟨d, ?_, h2⟩
      rw [List.mem_range'_1]
      by_cases hld : lo ≤ d
      · omega
      · obtain ⟨y, i, _, h3, _⟩ := h2
        rcases h3 with ⟨h, _⟩ | ⟨h, _⟩ <;> omega

/-- `ents_on_closure`: every rank gets the list of its copies of these entities, in ascending order. -/
theorem C62_entities (hW : W.Ok n dim shared allUpward) (s : Nat → Nat → Nat → Sched) {lo : Nat} (hlo : lo ≤ dim) (pairs : List (Int × Int)) :
    ∃ out, entsOnClosure s (allUpward lo) (ownersArg n (shared lo) (fun r => (W.rank r).nents lo) (W.owner lo)) dim (world n W.rank) lo pairs
        = some (world n out) ∧
      ∀ r, r < n → (out r).Pairwise (· < ·) ∧ ∀ e, e ∈ out r ↔ e < (W.rank r).nents lo ∧ W.OnModel n dim lo pairs (W.owner lo r e) := by
  obtain ⟨marks, m1, m2⟩ := C62_closures hW s hlo pairs
  obtain ⟨out, o1, o2⟩ := onRanks_spec (n := n) W.rank (fun r _ => ((world n marks)[r]?).bind (collectMarked (s 9 r 0)))
    (fun r out => IsCollected (marks r) out) (by
    intro r hr
    rw [world_get _ hr, Option.bind_some]
    exact C03_collect_marked (s 9 r 0) (marks r) (m2 r hr).2.1)
  refine ⟨out, ?_, ?_⟩
  · unfold entsOnClosure
    rw [m1, Option.bind_some, o1]
  · intro r hr
    refine ⟨(o2 r hr).1, fun e => ?_⟩
    rw [(o2 r hr).2 e]
    constructor
    · intro h
      have he : e < (W.rank r).nents lo := by
        have := (List.getElem?_eq_some_iff.1 h).1
        rw [(m2 r hr).1] at this; exact this
      exact ⟨he, ((m2 r hr).2.2 e he).1 h⟩
    · rintro ⟨he, h⟩
      exact ((m2 r hr).2.2 e he).2 h

end

/-! ## Two ranks

A line of two edges, one on each rank; the vertex between them is owned by rank 0. The edges are inside model edges 5 and 7. -/

/-- One edge and its two vertices. -/
def lineRank (id : Int) : MarkRank where
  nents d := if d = 0 then 2 else 1
  up _ _ := ⟨[0, 1, 2], [0, 0]⟩
  down _ _ := [0, 1]
  degree _ _ := 2
  classDim d := if d = 0 then [0, 0] else [1]
  classId d := if d = 0 then [0, 0] else [id]

/-- Rank 0 has the first edge, rank 1 the second one. -/
def lineWorld : MarkWorld where
  rank r := lineRank (if r = 0 then 5 else 7)
  owner d r e := if d = 0 ∧ r = 1 ∧ e = 0 then (0, 1) else (r, e)

theorem line_beside {l h : Nat} : Beside ⟨[0, 1, 2], [0, 0]⟩ l h ↔ l < 2 ∧ h = 0 := by
  constructor
  · rintro ⟨lo, hi, k, h1, h2, h3, h4, h5⟩
    have := (List.getElem?_eq_some_iff.1 h2).1
    simp only [List.length_cons, List.length_nil] at this
    refine ⟨by omega, ?_⟩
    have hm := List.mem_of_getElem? h5
    simpa using hm
  · rintro ⟨hl, rfl⟩
    have : l = 0 ∨ l = 1 := by omega
    rcases this with rfl | rfl
    · exact ⟨0, 1, 0, rfl, rfl, by omega, by omega, rfl⟩
    · exact ⟨1, 2, 1, rfl, rfl, by omega, by omega, rfl⟩

theorem lineWorld_ok : lineWorld.Ok 2 1 (fun d => d = 0) (fun _ => false) where
  size := by decide
  small := by decide
  owners := by
    intro d hd
    refine ⟨?_, ?_⟩
    · intro r i hr hi
      have hd : d = 0 ∨ d = 1 := by omega
      have hr : r = 0 ∨ r = 1 := by omega
      rcases hd with rfl | rfl
      · have hi : i < 2 := hi
        have hi' : i = 0 ∨ i = 1 := by omega
        rcases hr with rfl | rfl <;> rcases hi' with rfl | rfl <;> decide
      · have hi : i < 1 := hi
        obtain rfl : i = 0 := by omega
        rcases hr with rfl | rfl <;> decide
    · intro hs r i _ _
      have : d ≠ 0 := by simpa using hs
      simp [lineWorld, this]
  up := by
    intro r lo hi hr hlo hhi
    obtain rfl : lo = 0 := by omega
    obtain rfl : hi = 1 := by omega
    refine ⟨⟨rfl, ?_⟩, rfl, rfl, ?_⟩
    · intro i a b h1 h2
      have : i = 0 ∨ i = 1 := by
        have := (List.getElem?_eq_some_iff.1 h2).1
        have e : (((lineWorld.rank r).up 0 1).a2ab).length = 3 := rfl
        omega
      rcases this with rfl | rfl
      · obtain rfl := Option.some.inj h1; omega
      · obtain rfl := Option.some.inj h1; obtain rfl := Option.some.inj h2; omega
    · intro h hh
      have hh : h ∈ [0, 0] := hh
      have : h = 0 := by simpa using hh
      subst this
      show 0 < 1
      omega
  down := by
    intro r hi lo h hr hlo hhi hh
    obtain rfl : lo = 0 := by omega
    obtain rfl : hi = 1 := by omega
    have hh : h < 1 := hh
    obtain rfl : h = 0 := by omega
    refine ⟨?_, ?_⟩
    · intro j hj
      have hj : j < 2 := hj
      have : j = 0 ∨ j = 1 := by omega
      rcases this with rfl | rfl
      · exact ⟨0, rfl, show 0 < 2 by omega⟩
      · exact ⟨1, rfl, show 1 < 2 by omega⟩
    · intro x
      constructor
      · rintro ⟨r', l, h', b1, b2, b3, b4, b5⟩
        obtain ⟨c1, rfl⟩ := line_beside.1 b3
        have : (r', 0) = (r, 0) := b5
        obtain rfl : r' = r := (Prod.mk.inj this).1
        have : l = 0 ∨ l = 1 := by omega
        rcases this with rfl | rfl
        · exact ⟨0, 0, show 0 < 2 by omega, rfl, b4⟩
        · exact ⟨1, 1, show 1 < 2 by omega, rfl, b4⟩
      · rintro ⟨j, l, h1, h2, h3⟩
        have h2 : ([0, 1] : List Nat)[0 * 2 + j]? = some l := h2
        have hl : l < 2 := by
          have := List.mem_of_getElem? h2
          simp at this
          omega
        exact ⟨r, l, 0, hr, hl, line_beside.2 ⟨hl, rfl⟩, h3, rfl⟩
  classes := by
    intro r d e hr hd he
    have hd : d = 0 ∨ d = 1 := by omega
    have hr : r = 0 ∨ r = 1 := by omega
    rcases hd with rfl | rfl
    · have he : e < 2 := he
      have he' : e = 0 ∨ e = 1 := by omega
      rcases hr with rfl | rfl <;> rcases he' with rfl | rfl <;> exact ⟨0, 0, ⟨rfl, rfl⟩, rfl, rfl⟩
    · have he : e < 1 := he
      obtain rfl : e = 0 := by omega
      rcases hr with rfl | rfl
      · exact ⟨1, 5, ⟨rfl, rfl⟩, rfl, rfl⟩
      · exact ⟨1, 7, ⟨rfl, rfl⟩, rfl, rfl⟩
  lengths := by
    intro r d hr hd
    have hd : d = 0 ∨ d = 1 := by omega
    rcases hd with rfl | rfl <;> exact ⟨rfl, rfl⟩
  upward := by intro lo hi h; cases h

/-- The vertex between the edges is on model edge 7 for both ranks, although rank 0 has no entity inside of it. -/
example : ∃ out, entsOnClosure (fun _ _ _ => Sched.serial) false
      (ownersArg 2 true (fun r => (lineWorld.rank r).nents 0) (lineWorld.owner 0)) 1 (world 2 lineWorld.rank) 0 [(1, 7), (2, 3)] = some (world 2 out) ∧
    out 0 = [1] ∧ out 1 = [0, 1] := by
  obtain ⟨out, o1, o2⟩ := C62_entities lineWorld_ok (fun _ _ _ => Sched.serial) (lo := 0) (by omega) [(1, 7), (2, 3)]
  refine ⟨out, o1, ?_⟩
  have h : entsOnClosure (fun _ _ _ => Sched.serial) false (ownersArg 2 true (fun r => (lineWorld.rank r).nents 0) (lineWorld.owner 0)) 1
      (world 2 lineWorld.rank) 0 [(1, 7), (2, 3)] = some [[1], [0, 1]] := by decide +kernel
  have e := Option.some.inj (o1.symm.trans h)
  have e0 : (world 2 out)[0]? = some (out 0) := world_get _ (by omega)
  have e1 : (world 2 out)[1]? = some (out 1) := world_get _ (by omega)
  rw [e] at e0 e1
  exact ⟨(Option.some.inj e0).symm, (Option.some.inj e1).symm⟩

end OmegaH
