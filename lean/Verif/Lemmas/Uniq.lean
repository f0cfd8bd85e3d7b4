import Verif.Model.Migrate
import Verif.Lemmas.CopyDist
import Verif.Props.C03
/-!
# Keeping one use per rank
-/
namespace OmegaH
open Spec

/-- Marks of the first occurrences among the first `i` values. -/
def firstMarks (rs : List Nat) (i : Nat) : List Int :=
  (List.range rs.length).map (fun j => if ∃ k, k < i ∧ k < j ∧ rs[k]? = rs[j]? then 0 else 1)

theorem firstMarks_get (rs : List Nat) (i : Nat) {j : Nat} (hj : j < rs.length) :
    (firstMarks rs i)[j]? = some (if ∃ k, k < i ∧ k < j ∧ rs[k]? = rs[j]? then 0 else 1) := by
  unfold firstMarks
  rw [List.getElem?_map, List.getElem?_range hj]; rfl

theorem uniqLoop_spec (rs : List Nat) :
    (uniqLoop rs).1 = firstMarks rs rs.length ∧ ((uniqLoop rs).2 : Int) = (uniqLoop rs).1.sum := by
  have key : ∀ i, i ≤ rs.length → ∃ deg : Nat,
      (List.range i).foldl (fun (st : List Int × Nat) i =>
        if st.1[i]? = some 0 then st
        else (st.1.mapIdx (fun j k => if i < j ∧ rs[j]? = rs[i]? then 0 else k), st.2 + 1))
        (List.replicate rs.length 1, 0) = (firstMarks rs i, deg) ∧
      (deg : Int) = ((firstMarks rs rs.length).take i).sum := by
    intro i
    induction i with
    | zero =>
      intro _
      refine ⟨0, ?_, rfl⟩
      show (List.replicate rs.length (1 : Int), 0) = _
      congr 1
      apply List.ext_getElem?
      intro j
      rcases Nat.lt_or_ge j rs.length with hj | hj
      · rw [firstMarks_get _ _ hj, List.getElem?_replicate, if_pos hj, if_neg (by rintro ⟨k, hk, _⟩; omega)]
      · rw [List.getElem?_eq_none (by simpa using hj), List.getElem?_eq_none (by simpa [firstMarks] using hj)]
    | succ i ih =>
      intro hi
      obtain ⟨deg, d1, d2⟩ := ih (by omega)
      have hfull := firstMarks_get rs rs.length (show i < rs.length by omega)
      have hget := firstMarks_get rs i (show i < rs.length by omega)
      have hsame : (∃ k, k < rs.length ∧ k < i ∧ rs[k]? = rs[i]?) ↔ ∃ k, k < i ∧ k < i ∧ rs[k]? = rs[i]? := by
        constructor
        · rintro ⟨k, _, h2, h3⟩; exact ⟨k, h2, h2, h3⟩
        · rintro ⟨k, h1, _, h3⟩; exact ⟨k, by omega, h1, h3⟩
      rw [List.range_succ, List.foldl_append, d1, List.foldl_cons, List.foldl_nil]
      dsimp only
      rw [List.take_add_one, hfull, List.sum_append]
      by_cases hdup : ∃ k, k < i ∧ k < i ∧ rs[k]? = rs[i]?
      · rw [if_pos (by rw [hget, if_pos hdup]), if_pos (hsame.2 hdup)]
        refine ⟨deg, ?_, by rw [← d2]; simp⟩
        congr 1
        apply List.ext_getElem?
        intro j
        rcases Nat.lt_or_ge j rs.length with hj | hj
        · rw [firstMarks_get _ _ hj, firstMarks_get _ _ hj]
          congr 1
          apply if_congr _ rfl rfl
          constructor
          · rintro ⟨k, h1, h2, h3⟩; exact ⟨k, by omega, h2, h3⟩
          · rintro ⟨k, h1, h2, h3⟩
            rcases Nat.lt_or_ge k i with hk | hk
            · exact ⟨k, hk, h2, h3⟩
            · obtain rfl : k = i := by omega
              obtain ⟨k', g1, _, g3⟩ := hdup
              exact ⟨k', g1, by omega, g3.trans h3⟩
        · rw [List.getElem?_eq_none (by simpa [firstMarks] using hj), List.getElem?_eq_none (by simpa [firstMarks] using hj)]
      · rw [if_neg (by rw [hget, if_neg hdup]; simp), if_neg (fun h => hdup (hsame.1 h))]
        refine ⟨deg + 1, ?_, by push_cast; rw [d2]; simp⟩
        congr 1
        apply List.ext_getElem?
        intro j
        rw [List.getElem?_mapIdx]
        rcases Nat.lt_or_ge j rs.length with hj | hj
        · rw [firstMarks_get _ _ hj, firstMarks_get _ _ hj, Option.map_some]
          congr 1
          by_cases hij : i < j ∧ rs[j]? = rs[i]?
          · rw [if_pos hij, if_pos ⟨i, by omega, hij.1, hij.2.symm⟩]
          · rw [if_neg hij]
            apply if_congr _ rfl rfl
            constructor
            · rintro ⟨k, h1, h2, h3⟩; exact ⟨k, by omega, h2, h3⟩
            · rintro ⟨k, h1, h2, h3⟩
              rcases Nat.lt_or_ge k i with hk | hk
              · exact ⟨k, hk, h2, h3⟩
              · obtain rfl : k = i := by omega
                exact absurd ⟨h2, h3.symm⟩ hij
        · have e1 : (firstMarks rs i)[j]? = none := List.getElem?_eq_none (by simpa [firstMarks] using hj)
          have e2 : (firstMarks rs (i + 1))[j]? = none := List.getElem?_eq_none (by simpa [firstMarks] using hj)
          rw [e1, e2]; rfl
  obtain ⟨deg, h1, h2⟩ := key rs.length (Nat.le_refl _)
  have hlen : (firstMarks rs rs.length).length = rs.length := by simp [firstMarks]
  rw [List.take_of_length_le (by omega)] at h2
  have : uniqLoop rs = (firstMarks rs rs.length, deg) := h1
  rw [this]
  exact ⟨rfl, h2⟩

/-- The values of a fan. -/
def fanPart (fan ranks : List Nat) (a : Nat) : List Nat :=
  (ranks.drop (fan.getD a 0)).take (fan.getD (a + 1) 0 - fan.getD a 0)

theorem useRanks_eq {fan ranks : List Nat} (hf : IsFan fan) (hlast : fan.getLast? = some ranks.length) {a : Nat} (ha : a < fan.length - 1) :
    useRanks fan ranks a = some (fanPart fan ranks a) := by
  have e1 := List.getElem?_eq_getElem (show a < fan.length by omega)
  have e2 := List.getElem?_eq_getElem (show a + 1 < fan.length by omega)
  have hle := hf.2 a _ _ e1 e2
  have hle2 := fan_le hf (show a + 1 ≤ fan.length - 1 by omega) e2 (by rw [← List.getLast?_eq_getElem?]; exact hlast)
  unfold useRanks fanMembers fanPart
  rw [e1, e2]
  dsimp only
  rw [Option.bind_some, List.getD_eq_getElem?_getD, List.getD_eq_getElem?_getD, e1, e2]
  simp only [Option.getD_some]
  obtain ⟨out, o1, o2, _, o4⟩ := mapM_list_spec (List.range' fan[a] (fan[a + 1] - fan[a])) (fun b => ranks[b]?) (by
    intro b hb
    rw [List.mem_range'_1] at hb
    rw [List.getElem?_eq_getElem (by omega)]; rfl)
  rw [o1]
  congr 1
  apply List.ext_getElem?
  intro t
  rw [List.length_range'] at o2
  rcases Nat.lt_or_ge t (fan[a + 1] - fan[a]) with ht | ht
  · rw [o4 t _ (List.getElem?_range' ht), List.getElem?_take_of_lt ht, List.getElem?_drop, Nat.one_mul]
  · rw [List.getElem?_eq_none (by omega), List.getElem?_eq_none]
    rw [List.length_take]; omega

theorem filter_range_lt {P : Nat → Bool} {N x : Nat} (hx : x ≤ N) {t k : Nat} (h : ((List.range N).filter P)[t]? = some k) :
    k < x ↔ t < ((List.range x).filter P).length := by
  have hN : List.range N = List.range x ++ List.range' x (N - x) := by
    rw [List.range_eq_range', List.range_eq_range']
    have := List.range'_append (s := 0) (m := x) (n := N - x) (step := 1)
    rw [show 0 + 1 * x = x by omega, show x + (N - x) = N by omega] at this
    exact this.symm
  rw [hN, List.filter_append] at h
  rcases Nat.lt_or_ge t ((List.range x).filter P).length with ht | ht
  · rw [List.getElem?_append_left ht] at h
    have := (List.mem_filter.1 (List.mem_of_getElem? h)).1
    rw [List.mem_range] at this
    exact ⟨fun _ => ht, fun _ => this⟩
  · rw [List.getElem?_append_right ht] at h
    have := (List.mem_filter.1 (List.mem_of_getElem? h)).1
    rw [List.mem_range'_1] at this
    exact ⟨fun h => by omega, fun h => by omega⟩

theorem take_blocks {α : Type} (B : Nat → List α) (n : Nat) {i : Nat} (hi : i ≤ n) :
    ((List.range n).flatMap B).take (blockOff B i) = (List.range i).flatMap B := by
  have hN : List.range n = List.range i ++ List.range' i (n - i) := by
    rw [List.range_eq_range', List.range_eq_range']
    have := List.range'_append (s := 0) (m := i) (n := n - i) (step := 1)
    rw [show 0 + 1 * i = i by omega, show i + (n - i) = n by omega] at this
    exact this.symm
  rw [hN, List.flatMap_append, List.take_append_of_le_length (by rw [blocks_length])]
  rw [List.take_of_length_le (by rw [blocks_length])]

theorem collected_eq {marks : List Int} {out : List Nat} (h : IsCollected marks out) : out = markedList marks := by
  have h2 := markedList_collected marks
  apply List.Perm.eq_of_pairwise (le := (· < ·)) _ h.1 h2.1
  · rw [List.perm_ext_iff_of_nodup (h.1.imp (fun h => Nat.ne_of_lt h)) (h2.1.imp (fun h => Nat.ne_of_lt h))]
    intro a
    rw [h.2, h2.2]
  · intro a b _ _ h1 h2; omega

/-- What is kept: for every fan and every rank in it, the first member with that rank. -/
theorem uniqLocal_spec (s : Nat → Sched) {fan ranks : List Nat} (hf : IsFan fan) (hlast : fan.getLast? = some ranks.length) :
    ∃ sel uniqRanks fan' : List Nat, uniqLocal s fan ranks = some (uniqRanks, fan') ∧ sel.Pairwise (· < ·) ∧
      (∀ k, k ∈ sel ↔ ∃ a rk, InFan fan a k ∧ ranks[k]? = some rk ∧ ∀ k', k' < k → InFan fan a k' → ranks[k']? ≠ some rk) ∧
      uniqRanks.length = sel.length ∧ (∀ t k : Nat, sel[t]? = some k → uniqRanks[t]? = ranks[k]?) ∧
      IsFan fan' ∧ fan'.length = fan.length ∧ fan'.getLast? = some sel.length ∧
      ∀ t k a : Nat, sel[t]? = some k → (InFan fan' a t ↔ InFan fan a k) := by
  have hne : 0 < fan.length := by
    have := fan_ne_nil hf
    cases fan with
    | nil => exact absurd rfl this
    | cons => simp
  have hlast' : fan[fan.length - 1]? = some ranks.length := by rw [← List.getLast?_eq_getElem?]; exact hlast
  let B : Nat → List Int := fun a => (uniqLoop (fanPart fan ranks a)).1
  have hB : ∀ a, B a = firstMarks (fanPart fan ranks a) (fanPart fan ranks a).length := fun a => (uniqLoop_spec _).1
  have hBl : ∀ a, (B a).length = (fanPart fan ranks a).length := by intro a; rw [hB]; simp [firstMarks]
  have hgetD : ∀ a x : Nat, fan[a]? = some x → fan.getD a 0 = x := by
    intro a x h
    rw [List.getD_eq_getElem?_getD, h]; rfl
  have hpart : ∀ a lo hi : Nat, fan[a]? = some lo → fan[a + 1]? = some hi → (fanPart fan ranks a).length = hi - lo := by
    intro a lo hi h1 h2
    unfold fanPart
    rw [hgetD _ _ h1, hgetD _ _ h2, List.length_take, List.length_drop]
    have h3 := (List.getElem?_eq_some_iff.1 h2).1
    have := fan_le hf (show a + 1 ≤ fan.length - 1 by omega) h2 hlast'
    omega
  have hpartget : ∀ a lo hi j : Nat, fan[a]? = some lo → fan[a + 1]? = some hi → j < hi - lo → (fanPart fan ranks a)[j]? = ranks[lo + j]? := by
    intro a lo hi j h1 h2 hj
    unfold fanPart
    rw [hgetD _ _ h1, hgetD _ _ h2, List.getElem?_take_of_lt hj, List.getElem?_drop]
  have hoff : ∀ a, a < fan.length → fan[a]? = some (blockOff B a) := by
    intro a
    induction a with
    | zero => intro _; rw [hf.1]; rfl
    | succ a ih =>
      intro ha
      have h1 := ih (by omega)
      have h2 := List.getElem?_eq_getElem ha
      rw [blockOff_succ, hBl, hpart a _ _ h1 h2, h2]
      have := hf.2 a _ _ h1 h2
      congr 1
      omega
  have hbN : ranks.length = blockOff B (fan.length - 1) := by
    have := hoff (fan.length - 1) (by omega)
    rw [hlast'] at this
    exact Option.some.inj this
  let keep := (List.range (fan.length - 1)).flatMap B
  have hkeepl : keep.length = ranks.length := by rw [blocks_length, hbN]
  have hmarks : IsMarks keep := by
    intro m hm
    obtain ⟨a, _, hm⟩ := List.mem_flatMap.1 hm
    rw [hB] at hm
    obtain ⟨j, _, rfl⟩ := List.mem_map.1 hm
    split
    · exact Or.inl rfl
    · exact Or.inr rfl
  have hkeep : (parScatter (s 0) (fan.length - 1) (fun a => (fan[a]?).bind (fun b => (useRanks fan ranks a).map (fun rs =>
      blockWrites b (uniqLoop rs).1))) (Mem.filled ranks.length 1)).bind Mem.toArray? = some keep := by
    rw [Mem.filled_eq]
    apply parConcat_onto (s 0) (fan.length - 1) B
    · rw [List.length_replicate]; exact hbN
    · intro a ha
      rw [hoff a (by omega), Option.bind_some, useRanks_eq hf hlast ha]; rfl
  obtain ⟨degrees, d1, d2, d3⟩ := parEach (s 1) (fan.length - 1) (fun a => (useRanks fan ranks a).map (fun rs => (uniqLoop rs).2)) (by
    intro a ha
    rw [useRanks_eq hf hlast ha]; rfl)
  obtain ⟨sel, c1, c2⟩ := C03_collect_marked (s 2) keep hmarks
  have hselN : InRange sel ranks.length := by
    intro k hk
    have := (c2.2 k).1 hk
    have := (List.getElem?_eq_some_iff.1 this).1
    omega
  obtain ⟨uniqRanks, u1, u2, u3⟩ := C05_unmap (s 3) sel ranks 1 ranks.length (by omega) hselN
  have hdeg : ∀ a, a < fan.length - 1 → degrees[a]? = some (uniqLoop (fanPart fan ranks a)).2 := by
    intro a ha
    rw [d3 a ha, useRanks_eq hf hlast ha]; rfl
  let P : Nat → Bool := fun i => decide (keep[i]? = some 1)
  have hsum : ∀ a, a ≤ fan.length - 1 → (degrees.take a).sum = ((List.range (blockOff B a)).filter P).length := by
    intro a ha
    have h1 : ((((List.range (blockOff B a)).filter P).length : Nat) : Int) = (keep.take (blockOff B a)).sum :=
      (take_sum_eq_count keep hmarks (blockOff B a) (by rw [hkeepl, hbN]; exact blockOff_le B ha)).symm
    have h2 : ∀ a, a ≤ fan.length - 1 → (((degrees.take a).sum : Nat) : Int) = ((List.range a).flatMap B).sum := by
      intro a
      induction a with
      | zero => intro _; rfl
      | succ a ih =>
        intro ha
        rw [List.take_add_one, hdeg a (by omega), List.sum_append, List.range_succ, List.flatMap_append, List.sum_append]
        push_cast
        rw [ih (by omega)]
        show _ + (([(uniqLoop (fanPart fan ranks a)).2].sum : Nat) : Int) = _ + (List.flatMap B [a]).sum
        rw [List.sum_singleton, (uniqLoop_spec _).2]
        simp [B]
    have h3 := h2 a ha
    rw [← take_blocks B (fan.length - 1) ha] at h3
    have : (((degrees.take a).sum : Nat) : Int) = ((((List.range (blockOff B a)).filter P).length : Nat) : Int) := by
      rw [h3, h1]
    exact Int.ofNat.inj this
  have hsel : sel = (List.range ranks.length).filter P := by
    rw [collected_eq c2]
    unfold markedList
    rw [hkeepl]
  have hfan' : ∀ a, a ≤ fan.length - 1 → (offsetScan degrees)[a]? = some ((List.range (blockOff B a)).filter P).length := by
    intro a ha
    rw [offsetScan_nat_getElem? _ _ (by omega), hsum a ha]
  refine ⟨sel, uniqRanks, offsetScan degrees, ?_, c2.1, ?_, by rw [u2, Nat.mul_one], ?_, offsetScan_isFan _, ?_, ?_, ?_⟩
  · unfold uniqLocal
    rw [hkeep, Option.bind_some, d1, Option.bind_some, c1, Option.bind_some, u1]; rfl
  · intro k
    rw [c2.2 k]
    constructor
    · intro hk
      have hkl := (List.getElem?_eq_some_iff.1 hk).1
      obtain ⟨a, j, ha, hj, hkj⟩ := blocks_cover B (n := fan.length - 1) (p := k) (by omega)
      have hk : keep[k]? = some 1 := hk
      rw [hkj, blocks_get B ha hj, hB a] at hk
      rw [hBl] at hj
      rw [firstMarks_get _ _ hj] at hk
      have h1 := hoff a (by omega)
      have h2 := hoff (a + 1) (by omega)
      have hpl := hpart a _ _ h1 h2
      have hrk := List.getElem?_eq_getElem (show k < ranks.length by omega)
      refine ⟨a, _, ⟨_, _, h1, h2, by omega, by omega⟩, hrk, ?_⟩
      rintro k' hk' ⟨lo, hi, g1, g2, g3, g4⟩ he
      obtain rfl := Option.some.inj (g1.symm.trans h1)
      obtain rfl := Option.some.inj (g2.symm.trans h2)
      rw [if_pos] at hk
      · exact absurd (Option.some.inj hk) (by decide)
      · refine ⟨k' - blockOff B a, by omega, by omega, ?_⟩
        rw [hpartget a _ _ _ h1 h2 (by omega), hpartget a _ _ _ h1 h2 (by omega), show blockOff B a + (k' - blockOff B a) = k' by omega,
          ← hkj, he, hrk]
    · rintro ⟨a, rk, ⟨lo, hi, h1, h2, h3, h4⟩, hrk, hfirst⟩
      have hal := (List.getElem?_eq_some_iff.1 h2).1
      obtain rfl := Option.some.inj (h1.symm.trans (hoff a (by omega)))
      have hpl := hpart a _ _ h1 h2
      have hj : k - blockOff B a < (fanPart fan ranks a).length := by omega
      show keep[k]? = some 1
      have := blocks_get B (n := fan.length - 1) (i := a) (j := k - blockOff B a) (by omega) (by rw [hBl]; exact hj)
      rw [show blockOff B a + (k - blockOff B a) = k by omega] at this
      show ((List.range (fan.length - 1)).flatMap B)[k]? = some 1
      rw [this, hB a, firstMarks_get _ _ hj, if_neg]
      rintro ⟨j', g1, g2, g3⟩
      rw [hpartget a _ _ _ h1 h2 (by omega), hpartget a _ _ _ h1 h2 (by omega), show blockOff B a + (k - blockOff B a) = k by omega, hrk] at g3
      exact hfirst (blockOff B a + j') (by omega) ⟨_, _, h1, h2, by omega, by omega⟩ g3
  · intro t k hk
    have := u3 t k 0 hk (by omega)
    rw [entry_one, entry_one] at this
    exact this
  · rw [offsetScan_length, d2]; omega
  · rw [List.getLast?_eq_getElem?, offsetScan_length, d2, show fan.length - 1 + 1 - 1 = fan.length - 1 by omega, hfan' _ (Nat.le_refl _),
      ← hbN, hsel]
  · intro t k a hk
    have hkl : k < ranks.length := hselN k (List.mem_of_getElem? hk)
    rw [hsel] at hk
    constructor
    · rintro ⟨lo, hi, h1, h2, h3, h4⟩
      have hal := (List.getElem?_eq_some_iff.1 h2).1
      rw [offsetScan_length, d2] at hal
      rw [hfan' a (by omega)] at h1
      rw [hfan' (a + 1) (by omega)] at h2
      obtain rfl := Option.some.inj h1
      obtain rfl := Option.some.inj h2
      have g1 := filter_range_lt (x := blockOff B a) (by rw [hbN]; exact blockOff_le B (by omega)) hk
      have g2 := filter_range_lt (x := blockOff B (a + 1)) (by rw [hbN]; exact blockOff_le B (by omega)) hk
      exact ⟨_, _, hoff a (by omega), hoff (a + 1) (by omega), by omega, by omega⟩
    · rintro ⟨lo, hi, h1, h2, h3, h4⟩
      have hal := (List.getElem?_eq_some_iff.1 h2).1
      obtain rfl := Option.some.inj (h1.symm.trans (hoff a (by omega)))
      obtain rfl := Option.some.inj (h2.symm.trans (hoff (a + 1) (by omega)))
      have g1 := filter_range_lt (x := blockOff B a) (by rw [hbN]; exact blockOff_le B (by omega)) hk
      have g2 := filter_range_lt (x := blockOff B (a + 1)) (by rw [hbN]; exact blockOff_le B (by omega)) hk
      exact ⟨_, _, hfan' a (by omega), hfan' (a + 1) (by omega), by omega, by omega⟩

end OmegaH
