import Verif.Lemmas.Dist
import Verif.Props.C02
import Verif.Props.C37
import Mathlib.Algebra.BigOperators.Group.List.Lemmas
/-!
# Communication patterns from destination ranks
-/
namespace OmegaH
open Spec

/-- The result of sorting destination ranks, over natural numbers. -/
structure RankSort (a pos fan uniq : List Nat) : Prop where
  sorted : uniq.Pairwise (· < ·)
  mem : ∀ v, v ∈ uniq ↔ v ∈ a
  fanLen : fan.length = uniq.length + 1
  fan0 : fan[0]? = some 0
  fanStep : ∀ k v lo : Nat, uniq[k]? = some v → fan[k]? = some lo → fan[k + 1]? = some (lo + a.count v)
  posLen : pos.length = a.length
  posAt : ∀ i k v lo : Nat, a[i]? = some v → uniq[k]? = some v → fan[k]? = some lo → pos[i]? = some (lo + (a.take i).count v)

theorem toIndices?_of_nonneg (l : List Int) (h : ∀ x ∈ l, 0 ≤ x) :
    ∃ m : List Nat, toIndices? l = some m ∧ l = m.map Int.ofNat := by
  refine ⟨l.map Int.toNat, ?_, ?_⟩
  · have : l = (l.map Int.toNat).map Int.ofNat := by
      rw [List.map_map]
      conv_lhs => rw [← List.map_id l]
      apply List.map_congr_left
      intro x hx
      have := h x hx
      show x = ((x.toNat : Nat) : Int)
      omega
    conv_lhs => rw [this]
    exact toIndices?_map _
  · rw [List.map_map]
    conv_lhs => rw [← List.map_id l]
    apply List.map_congr_left
    intro x hx
    have := h x hx
    show x = ((x.toNat : Nat) : Int)
    omega

theorem count_map_ofNat (l : List Nat) (v : Nat) : (l.map Int.ofNat).count (v : Int) = l.count v := by
  have : ((v : Nat) : Int) = Int.ofNat v := rfl
  rw [this]
  exact List.count_map_of_injective l Int.ofNat (fun a b h => Int.ofNat.inj h) v

theorem sortRanks_spec (a : List Nat) (h : ∀ v ∈ a, v ≤ 2147483647) :
    ∃ pos fan uniq, sortRanks a = some (pos, fan, uniq) ∧ RankSort a pos fan uniq := by
  obtain ⟨posI, fanI, uniqI, e, h1, h2, h3, h4, h5, h6, h7⟩ := C02_sort_small_range 2147483647 (a.map Int.ofNat) (by
    intro x hx
    obtain ⟨v, hv, rfl⟩ := List.mem_map.1 hx
    have := h v hv
    show ((v : Nat) : Int) ≤ _
    omega) a.length (by simp)
  obtain ⟨uniq, u1, rfl⟩ := toIndices?_of_nonneg uniqI (by
    intro x hx
    obtain ⟨v, _, rfl⟩ := List.mem_map.1 ((h2 x).1 hx)
    exact Int.natCast_nonneg v)
  have hfan : ∀ k (hk : k < fanI.length), 0 ≤ fanI[k] := by
    intro k
    induction k with
    | zero =>
      intro hk
      have : some fanI[0] = some 0 := (List.getElem?_eq_getElem hk).symm.trans h4
      have := Option.some.inj this
      omega
    | succ k ih =>
      intro hk
      have hk2 : k < uniq.length := by rw [List.length_map] at h3; omega
      have h8 := h5 k (Int.ofNat uniq[k]) fanI[k] (by rw [List.getElem?_map, List.getElem?_eq_getElem hk2]; rfl)
        (List.getElem?_eq_getElem (by omega))
      rw [List.getElem?_eq_getElem hk] at h8
      have h9 := Option.some.inj h8
      have := ih (by omega)
      omega
  obtain ⟨fan, f1, rfl⟩ := toIndices?_of_nonneg fanI (by
    intro x hx
    obtain ⟨k, hk, rfl⟩ := List.getElem_of_mem hx
    exact hfan k hk)
  have hmem : ∀ v : Nat, v ∈ uniq ↔ v ∈ a := by
    intro v
    have := h2 (Int.ofNat v)
    constructor
    · intro hv
      obtain ⟨w, hw, e⟩ := List.mem_map.1 (this.1 (List.mem_map_of_mem hv))
      exact Int.ofNat.inj e ▸ hw
    · intro hv
      obtain ⟨w, hw, e⟩ := List.mem_map.1 (this.2 (List.mem_map_of_mem hv))
      exact Int.ofNat.inj e ▸ hw
  have hgetN : ∀ (l : List Nat) (i v : Nat), l[i]? = some v → (l.map Int.ofNat)[i]? = some (v : Int) := by
    intro l i v hv
    rw [List.getElem?_map, hv]; rfl
  have hgetI : ∀ (l : List Nat) (i v : Nat), (l.map Int.ofNat)[i]? = some (v : Int) → l[i]? = some v := by
    intro l i v hv
    rw [List.getElem?_map, Option.map_eq_some_iff] at hv
    obtain ⟨w, hw, e⟩ := hv
    rw [hw]
    exact congrArg some (Int.ofNat.inj e)
  have hpos : ∀ i k v lo : Nat, a[i]? = some v → uniq[k]? = some v → fan[k]? = some lo →
      posI[i]? = some ((lo + (a.take i).count v : Nat) : Int) := by
    intro i k v lo e1 e2 e3
    rw [h7 i k v lo (hgetN _ _ _ e1) (hgetN _ _ _ e2) (hgetN _ _ _ e3)]
    unfold countBefore
    rw [← List.map_take, count_map_ofNat]
    push_cast
    rfl
  obtain ⟨pos, p1, rfl⟩ := toIndices?_of_nonneg posI (by
    intro x hx
    obtain ⟨i, hi, rfl⟩ := List.getElem_of_mem hx
    have hia : i < a.length := by rw [h6, List.length_map] at hi; exact hi
    obtain ⟨k, hk⟩ := List.getElem?_of_mem ((hmem a[i]).2 (List.getElem_mem hia))
    have hkl := (List.getElem?_eq_some_iff.1 hk).1
    have hkf : k < fan.length := by simp only [List.length_map] at h3; omega
    have := hpos i k a[i] fan[k] (List.getElem?_eq_getElem hia) hk (List.getElem?_eq_getElem hkf)
    rw [List.getElem?_eq_getElem hi] at this
    rw [Option.some.inj this]
    exact Int.natCast_nonneg _)
  refine ⟨pos, fan, uniq, ?_, ?_, hmem, ?_, ?_, ?_, ?_, ?_⟩
  · unfold sortRanks
    rw [e, Option.bind_some]
    show (toIndices? _).bind _ = _
    rw [p1, Option.bind_some, f1, Option.bind_some, u1]
    rfl
  · rw [List.pairwise_map] at h1
    exact h1.imp (fun h => by simpa using h)
  · simpa using h3
  · exact hgetI _ _ _ h4
  · intro k v lo e1 e2
    have := h5 k v lo (hgetN _ _ _ e1) (hgetN _ _ _ e2)
    rw [count_map_ofNat] at this
    exact hgetI _ _ _ (by rw [this]; push_cast; rfl)
  · simpa using h6
  · intro i k v lo e1 e2 e3
    exact hgetI _ _ _ (hpos i k v lo e1 e2 e3)

theorem RankSort.nodup {a pos fan uniq : List Nat} (h : RankSort a pos fan uniq) : uniq.Nodup :=
  h.sorted.imp (fun h => Nat.ne_of_lt h)

theorem RankSort.fanAt {a pos fan uniq : List Nat} (h : RankSort a pos fan uniq) : ∀ k, k ≤ uniq.length →
    fan[k]? = some ((uniq.take k).map (fun v => a.count v)).sum := by
  intro k
  induction k with
  | zero => intro _; rw [h.fan0]; rfl
  | succ k ih =>
    intro hk
    rw [h.fanStep k uniq[k] _ (List.getElem?_eq_getElem (by omega)) (ih (by omega)), List.take_add_one,
      List.getElem?_eq_getElem (by omega), List.map_append, List.sum_append]
    rfl

theorem RankSort.isFan {a pos fan uniq : List Nat} (h : RankSort a pos fan uniq) : IsFan fan := by
  refine ⟨h.fan0, ?_⟩
  intro i lo hi h1 h2
  have hl := (List.getElem?_eq_some_iff.1 h2).1
  have := h.fanLen
  rw [h.fanStep i uniq[i] lo (List.getElem?_eq_getElem (by omega)) h1] at h2
  have := Option.some.inj h2
  omega

theorem RankSort.last {a pos fan uniq : List Nat} (h : RankSort a pos fan uniq) : fan.getLast? = some a.length := by
  rw [List.getLast?_eq_getElem?, h.fanLen, Nat.add_sub_cancel, h.fanAt _ (Nat.le_refl _), List.take_length,
    ← List.sum_map_count_dedup_eq_length a]
  congr 1
  apply List.Perm.sum_eq
  apply List.Perm.map
  rw [List.perm_ext_iff_of_nodup h.nodup (List.nodup_dedup a)]
  intro v
  rw [h.mem, List.mem_dedup]

theorem count_take_lt {a : List Nat} {i v : Nat} (h : a[i]? = some v) : (a.take i).count v < a.count v := by
  have hi := (List.getElem?_eq_some_iff.1 h).1
  have h1 : (a.take (i + 1)).count v = (a.take i).count v + 1 := by
    rw [List.take_add_one, h, List.count_append]; simp
  have h2 := (List.take_sublist (i + 1) a).count_le v
  omega

theorem count_take_mono {a : List Nat} {i j v : Nat} (h : a[i]? = some v) (hij : i < j) :
    (a.take i).count v < (a.take j).count v := by
  have h1 : (a.take (i + 1)).count v = (a.take i).count v + 1 := by
    rw [List.take_add_one, h, List.count_append]; simp
  have h2 : (a.take (i + 1)).count v ≤ (a.take j).count v := by
    have : a.take (i + 1) = (a.take j).take (i + 1) := by rw [List.take_take]; congr 1; omega
    rw [this]
    exact (List.take_sublist _ _).count_le v
  omega

theorem RankSort.find {a pos fan uniq : List Nat} (h : RankSort a pos fan uniq) {i v : Nat} (hi : a[i]? = some v) :
    ∃ k lo, uniq[k]? = some v ∧ fan[k]? = some lo ∧ fan[k + 1]? = some (lo + a.count v) ∧
      pos[i]? = some (lo + (a.take i).count v) := by
  obtain ⟨k, hk⟩ := List.getElem?_of_mem ((h.mem v).2 (List.mem_of_getElem? hi))
  have hkl := (List.getElem?_eq_some_iff.1 hk).1
  have := h.fanLen
  have hf := List.getElem?_eq_getElem (show k < fan.length by omega)
  exact ⟨k, _, hk, hf, h.fanStep k v _ hk hf, h.posAt i k v _ hi hk hf⟩

theorem RankSort.permutation {a pos fan uniq : List Nat} (h : RankSort a pos fan uniq) : IsPermutation pos a.length := by
  have hget : ∀ i c : Nat, pos[i]? = some c → ∃ v : Nat, a[i]? = some v := by
    intro i c hc
    have := (List.getElem?_eq_some_iff.1 hc).1
    rw [h.posLen] at this
    exact ⟨_, List.getElem?_eq_getElem this⟩
  refine ⟨h.posLen, ?_, ?_⟩
  · intro c hc
    obtain ⟨i, hi⟩ := List.getElem?_of_mem hc
    obtain ⟨v, hv⟩ := hget i c hi
    obtain ⟨k, lo, h1, h2, h3, h4⟩ := h.find hv
    have := count_take_lt hv
    obtain rfl := Option.some.inj (hi.symm.trans h4)
    obtain ⟨m, e1, e2⟩ := fan_last h.isFan
    obtain rfl := Option.some.inj (e1.symm.trans h.last)
    have hkl := (List.getElem?_eq_some_iff.1 h3).1
    have := fan_le h.isFan (show k + 1 ≤ fan.length - 1 by omega) h3 e2
    omega
  · intro i j c hi hj
    obtain ⟨v, hv⟩ := hget i c hi
    obtain ⟨v2, hv2⟩ := hget j c hj
    obtain ⟨k, lo, h1, h2, h3, h4⟩ := h.find hv
    obtain ⟨k2, lo2, g1, g2, g3, g4⟩ := h.find hv2
    have hlt := count_take_lt hv
    have hlt2 := count_take_lt hv2
    have e1 := Option.some.inj (hi.symm.trans h4)
    have e2 := Option.some.inj (hj.symm.trans g4)
    have hk : k = k2 := inFan_unique h.isFan (b := c) ⟨lo, _, h2, h3, by omega, by omega⟩ ⟨lo2, _, g2, g3, by omega, by omega⟩
    subst hk
    obtain rfl := Option.some.inj (h1.symm.trans g1)
    obtain rfl := Option.some.inj (h2.symm.trans g2)
    rcases Nat.lt_trichotomy i j with hlt | heq | hgt
    · have := count_take_mono hv hlt
      omega
    · exact heq
    · have := count_take_mono hv2 hgt
      omega

/-! ## Senders and arrivals -/

/-- The ranks that send to `p`. -/
def sendersTo (n : Nat) (dest : Nat → List Nat) (p : Nat) : List Nat :=
  (List.range n).filter (fun r => decide (p ∈ dest r))

theorem mem_sendersTo {n : Nat} {dest : Nat → List Nat} {p r : Nat} : r ∈ sendersTo n dest p ↔ r < n ∧ p ∈ dest r := by
  simp [sendersTo]

theorem sendersTo_nodup (n : Nat) (dest : Nat → List Nat) (p : Nat) : (sendersTo n dest p).Nodup :=
  List.nodup_range.filter _

theorem graphSources_world {n : Nat} {U : Nat → List Nat} (hU : ∀ r, r < n → (U r).Nodup) (p : Nat) :
    graphSources (world n U) p = sendersTo n U p := by
  unfold graphSources
  have h1 : (world n U).zipIdx = (List.range n).map (fun r => (U r, r)) := by
    apply List.ext_getElem?
    intro i
    rw [List.getElem?_zipIdx]
    rcases Nat.lt_or_ge i n with hi | hi
    · rw [world_get _ hi]; simp [hi]
    · rw [List.getElem?_eq_none (by rw [world_length]; omega), List.getElem?_eq_none (by simpa using hi)]; rfl
  rw [h1, List.flatMap_map]
  unfold sendersTo
  show (List.range n).flatMap (fun r => List.replicate ((U r).count p) r) = _
  have : ∀ l : List Nat, (∀ r ∈ l, (U r).Nodup) →
      l.flatMap (fun r => List.replicate ((U r).count p) r) = l.filter (fun r => decide (p ∈ U r)) := by
    intro l
    induction l with
    | nil => intro _; rfl
    | cons r l ih =>
      intro hl
      rw [List.flatMap_cons, ih (fun q hq => hl q (List.mem_cons_of_mem _ hq)), count_of_nodup (hl r List.mem_cons_self),
        List.filter_cons]
      by_cases hp : p ∈ U r
      · simp [hp]
      · simp [hp]
  exact this _ (fun r hr => hU r (List.mem_range.1 hr))

theorem sendersTo_congr {n : Nat} {U V : Nat → List Nat} {p : Nat} (h : ∀ r, r < n → (p ∈ U r ↔ p ∈ V r)) :
    sendersTo n U p = sendersTo n V p := by
  unfold sendersTo
  apply List.filter_congr
  intro r hr
  simp [h r (List.mem_range.1 hr)]

/-- The items of one rank that go to `p`. -/
def itemsTo (a : List Nat) (p : Nat) : List Nat := (List.range a.length).filter (fun i => a[i]? == some p)

theorem itemsTo_append (a : List Nat) (x p : Nat) :
    itemsTo (a ++ [x]) p = itemsTo a p ++ (if x = p then [a.length] else []) := by
  unfold itemsTo
  rw [List.length_append, List.length_singleton, List.range_succ, List.filter_append]
  congr 1
  · apply List.filter_congr
    intro i hi
    rw [List.getElem?_append_left (List.mem_range.1 hi)]
  · rw [List.filter_singleton]
    simp

theorem itemsTo_length (a : List Nat) (p : Nat) : (itemsTo a p).length = a.count p := by
  induction a using List.reverseRecOn with
  | nil => rfl
  | append_singleton a x ih =>
    rw [itemsTo_append, List.length_append, ih, List.count_append]
    by_cases h : x = p
    · simp [h]
    · simp [h]

theorem itemsTo_get {a : List Nat} {p i : Nat} (h : a[i]? = some p) : (itemsTo a p)[(a.take i).count p]? = some i := by
  induction a using List.reverseRecOn with
  | nil => simp at h
  | append_singleton a x ih =>
    have hi := (List.getElem?_eq_some_iff.1 h).1
    rw [List.length_append, List.length_singleton] at hi
    rw [itemsTo_append]
    rcases Nat.lt_or_ge i a.length with hlt | hge
    · rw [List.getElem?_append_left hlt] at h
      rw [List.take_append_of_le_length (by omega), List.getElem?_append_left (by
        rw [itemsTo_length]; exact count_take_lt h)]
      exact ih h
    · obtain rfl : i = a.length := by omega
      have hx : x = p := by simpa using h
      rw [List.take_append_of_le_length (Nat.le_refl _), List.take_length, if_pos hx, ← itemsTo_length]
      simp

theorem itemsTo_mem {a : List Nat} {p t i : Nat} (h : (itemsTo a p)[t]? = some i) :
    a[i]? = some p ∧ t = (a.take i).count p := by
  have h1 : a[i]? = some p := by
    have := List.mem_of_getElem? h
    simpa [itemsTo] using (List.mem_filter.1 this).2
  refine ⟨h1, ?_⟩
  have h2 := itemsTo_get h1
  have hn : (itemsTo a p).Nodup := List.nodup_range.filter _
  exact (List.getElem?_inj (List.getElem?_eq_some_iff.1 h).1 hn).1 (h.trans h2.symm)

theorem arrivals_eq (n : Nat) (dest : Nat → List Nat) (p : Nat) :
    arrivals n dest p = (sendersTo n dest p).flatMap (fun r => (itemsTo (dest r) p).map (fun i => (r, i))) := by
  unfold arrivals sendersTo
  show (List.range n).flatMap (fun r => (itemsTo (dest r) p).map (fun i => (r, i))) = _
  generalize List.range n = l
  induction l with
  | nil => rfl
  | cons r l ih =>
    rw [List.flatMap_cons, ih, List.filter_cons]
    by_cases hp : p ∈ dest r
    · simp [hp]
    · have : itemsTo (dest r) p = [] := by
        apply List.eq_nil_of_length_eq_zero
        rw [itemsTo_length]
        exact List.count_eq_zero_of_not_mem hp
      simp [hp, this]

theorem flatMap_get {α β : Type} (S : List β) (B : β → List α) : ∀ {j : Nat} {q : β} {t : Nat}, S[j]? = some q → t < (B q).length →
    (S.flatMap B)[((S.take j).map (fun q => (B q).length)).sum + t]? = (B q)[t]? := by
  induction S with
  | nil => intro j q t h; simp at h
  | cons x S ih =>
    intro j q t h ht
    rw [List.flatMap_cons]
    cases j with
    | zero =>
      obtain rfl : x = q := by simpa using h
      rw [List.getElem?_append_left (by simpa using ht)]
      simp
    | succ j =>
      have h' : S[j]? = some q := by simpa using h
      rw [List.take_succ_cons, List.map_cons, List.sum_cons, Nat.add_assoc, List.getElem?_append_right (by omega),
        Nat.add_sub_cancel_left]
      exact ih h' ht

theorem arrivals_length (n : Nat) (dest : Nat → List Nat) (p : Nat) :
    (arrivals n dest p).length = ((sendersTo n dest p).map (fun r => (dest r).count p)).sum := by
  rw [arrivals_eq, List.length_flatMap]
  congr 1
  apply List.map_congr_left
  intro r _
  rw [List.length_map, itemsTo_length]

/-- Where an item arrives. -/
theorem arrivals_get {n : Nat} {dest : Nat → List Nat} {p j r i : Nat} (hj : (sendersTo n dest p)[j]? = some r)
    (hi : (dest r)[i]? = some p) :
    (arrivals n dest p)[(((sendersTo n dest p).take j).map (fun r => (dest r).count p)).sum + ((dest r).take i).count p]? = some (r, i) := by
  rw [arrivals_eq]
  have h1 := flatMap_get (sendersTo n dest p) (fun r => (itemsTo (dest r) p).map (fun i => (r, i))) (t := ((dest r).take i).count p) hj (by
    rw [List.length_map, itemsTo_length]; exact count_take_lt hi)
  have h2 : (fun q => ((itemsTo (dest q) p).map (fun i => (q, i))).length) = fun q => (dest q).count p := by
    funext q
    rw [List.length_map, itemsTo_length]
  rw [h2] at h1
  rw [h1, List.getElem?_map, itemsTo_get hi]
  rfl

theorem arrivals_mem {n : Nat} {dest : Nat → List Nat} {p : Nat} {x : Nat × Nat} (h : x ∈ arrivals n dest p) :
    x.1 < n ∧ (dest x.1)[x.2]? = some p := by
  unfold arrivals at h
  obtain ⟨r, h1, h2⟩ := List.mem_flatMap.1 h
  obtain ⟨i, h3, rfl⟩ := List.mem_map.1 h2
  exact ⟨List.mem_range.1 h1, by simpa using (List.mem_filter.1 h3).2⟩

theorem arrivals_nodup (n : Nat) (dest : Nat → List Nat) (p : Nat) : (arrivals n dest p).Nodup := by
  unfold arrivals
  rw [List.nodup_flatMap]
  refine ⟨?_, ?_⟩
  · intro r _
    exact (List.nodup_range.filter _).map (fun a b h => (Prod.mk.inj h).2)
  · have : ∀ l : List Nat, l.Nodup → l.Pairwise (Function.onFun List.Disjoint fun r =>
        ((List.range (dest r).length).filter (fun i => (dest r)[i]? == some p)).map (fun i => (r, i))) := by
      intro l hl
      refine hl.imp ?_
      intro a b hab x h1 h2
      obtain ⟨_, _, rfl⟩ := List.mem_map.1 h1
      obtain ⟨_, _, e⟩ := List.mem_map.1 h2
      exact hab (Prod.mk.inj e).1.symm
    exact this _ List.nodup_range

/-! ## `set_dest_ranks` -/

theorem world_zipIdx {α : Type} (n : Nat) (f : Nat → α) : (world n f).zipIdx = world n (fun r => (f r, r)) := by
  apply List.ext_getElem?
  intro i
  rw [List.getElem?_zipIdx]
  rcases Nat.lt_or_ge i n with hi | hi
  · rw [world_get _ hi, world_get _ hi]; simp
  · rw [List.getElem?_eq_none (by rw [world_length]; omega), List.getElem?_eq_none (by rw [world_length]; omega)]; rfl

theorem world_zip {α β : Type} (n : Nat) (f : Nat → α) (g : Nat → β) :
    (world n f).zip (world n g) = world n (fun r => (f r, g r)) := by
  unfold world
  rw [List.zip_map']

theorem isFan_range (m : Nat) : IsFan (List.range (m + 1)) := by
  refine ⟨by simp, ?_⟩
  intro i lo hi h1 h2
  have e1 := (List.getElem?_eq_some_iff.1 h1).2
  have e2 := (List.getElem?_eq_some_iff.1 h2).2
  rw [List.getElem_range] at e1 e2
  omega

theorem getLast_range (m : Nat) : (List.range (m + 1)).getLast? = some m := by
  rw [List.range_succ]; simp

theorem getElem?_range_val {m i x : Nat} (h : (List.range m)[i]? = some x) : x = i := by
  have e1 := (List.getElem?_eq_some_iff.1 h).2
  rw [List.getElem_range] at e1
  exact e1.symm

/-- A pattern with one item per message. -/
def unitDist (U S : Nat → List Nat) (r : Nat) : Dist :=
  ⟨⟨none, none, List.range ((U r).length + 1), U r⟩, ⟨none, none, List.range ((S r).length + 1), S r⟩⟩

theorem unitDist_wired {n : Nat} {U S : Nat → List Nat} (hU : ∀ r, r < n → (U r).Nodup) (hUn : ∀ r, r < n → ∀ p ∈ U r, p < n)
    (hS : ∀ r, r < n → (S r).Nodup) (hSn : ∀ r, r < n → ∀ p ∈ S r, p < n)
    (hm : ∀ r p, r < n → p < n → (p ∈ U r ↔ r ∈ S p)) :
    Wired n (unitDist U S) (fun r => (U r).length) (fun r => (S r).length) := by
  refine ⟨?_, ?_, hm, ?_⟩
  · intro r hr
    exact ⟨isFan_range _, by simp [unitDist], getLast_range _, hU r hr, hUn r hr⟩
  · intro r hr
    exact ⟨isFan_range _, by simp [unitDist], getLast_range _, hS r hr, hSn r hr⟩
  · intro r p i j lo hi lo' hi' _ _ _ _ h1 h2 h3 h4
    have := getElem?_range_val h1
    have := getElem?_range_val h2
    have := getElem?_range_val h3
    have := getElem?_range_val h4
    omega

theorem unitDist_linked {U S : Nat → List Nat} {r p i j : Nat} (hi : (U r)[i]? = some p) (hj : (S p)[j]? = some r) :
    Linked (unitDist U S) r i p j := by
  have h1 := (List.getElem?_eq_some_iff.1 hi).1
  have h2 := (List.getElem?_eq_some_iff.1 hj).1
  refine ⟨i, j, i, i + 1, j, j + 1, 0, hi, hj, ?_, ?_, ?_, ?_, by omega, by omega, by omega⟩
  all_goals (show (List.range _)[_]? = _; rw [List.getElem?_range (by omega)])

/-- What `set_dest_ranks` builds. -/
structure RanksOnly (n : Nat) (dest : Nat → List Nat) (D : Nat → Dist) : Prop where
  ok : DistOk n D (fun r => (dest r).length) (fun p => (arrivals n dest p).length) (fun r => (dest r).length)
    (fun p => (arrivals n dest p).length)
  froots : ∀ r, r < n → (D r).fwd.roots2items = none
  rroots : ∀ r, r < n → (D r).rev.roots2items = none
  rperm : ∀ r, r < n → (D r).rev.items2content = none
  sort : ∀ r, r < n → ∃ pos, (D r).fwd.items2content = some pos ∧
    RankSort (dest r) pos (D r).fwd.msgs2content (D r).fwd.peers
  route : ∀ r i p k : Nat, r < n → (Route D r i p k ↔ (arrivals n dest p)[k]? = some (r, i))

theorem setDestRanks_spec (s : Nat → Nat → Sched) {n : Nat} {dest : Nat → List Nat} (hn : n ≤ 2147483648)
    (hd : ∀ r, r < n → ∀ p ∈ dest r, p < n) :
    ∃ D, setDestRanks s (world n dest) = some (world n D) ∧ RanksOnly n dest D := by
  obtain ⟨W, w1, w2⟩ := choose_world (n := n) (fun r => sortRanks (dest r))
    (fun r x => RankSort (dest r) x.1 x.2.1 x.2.2) (by
    intro r hr
    obtain ⟨pos, fan, uniq, e, h⟩ := sortRanks_spec (dest r) (fun v hv => by have := hd r hr v hv; omega)
    exact ⟨_, e, h⟩)
  have w1' : (world n dest).mapM sortRanks = some (world n W) := by
    unfold world
    rw [List.mapM_map]
    exact w1
  let U : Nat → List Nat := fun r => (W r).2.2
  let S : Nat → List Nat := sendersTo n dest
  have hUmem : ∀ r, r < n → ∀ v, v ∈ U r ↔ v ∈ dest r := fun r hr v => (w2 r hr).mem v
  have hS : ∀ p, graphSources (world n U) p = S p := by
    intro p
    rw [graphSources_world (fun r hr => (w2 r hr).nodup)]
    exact sendersTo_congr (fun r hr => hUmem r hr p)
  obtain ⟨F, f1, f2⟩ := choose_world (n := n)
    (fun r => ((world n W)[r]?).bind (fun part => getDegrees (s r 0) part.2.1))
    (fun r out => out.length = (U r).length ∧
      ∀ i p : Nat, (U r)[i]? = some p → out[i]? = some (((dest r).count p : Nat) : Int)) (by
    intro r hr
    have hw := w2 r hr
    obtain ⟨out, o1, o2, o3⟩ := C06_get_degrees (s r 0) (W r).2.1 (by
      intro h0
      have := hw.fanLen
      rw [h0] at this
      simp at this)
    refine ⟨out, by rw [world_get _ hr, Option.bind_some]; exact o1, by rw [o2, hw.fanLen]; rfl, ?_⟩
    intro i p hp
    have hil := (List.getElem?_eq_some_iff.1 hp).1
    have hfi := List.getElem?_eq_getElem (show i < (W r).2.1.length by rw [hw.fanLen]; exact Nat.lt_succ_of_lt hil)
    rw [o3 i _ _ hfi (hw.fanStep i p _ hp hfi)]
    congr 1
    push_cast
    omega)
  have hwired : Wired n (unitDist U S) (fun r => (U r).length) (fun r => (S r).length) := by
    apply unitDist_wired
    · exact fun r hr => (w2 r hr).nodup
    · exact fun r hr p hp => hd r hr p ((hUmem r hr p).1 hp)
    · exact fun r _ => sendersTo_nodup n dest r
    · exact fun r _ p hp => (mem_sendersTo.1 hp).1
    · intro r p hr _
      rw [hUmem r hr]
      exact ⟨fun h => mem_sendersTo.2 ⟨hr, h⟩, fun h => (mem_sendersTo.1 h).2⟩
  obtain ⟨R, r1, r2, r3⟩ := alltoallv_spec (fun r => s r 1) hwired (w := 1) (by omega) F (fun r hr => by rw [(f2 r hr).1, Nat.mul_one])
  have hR : ∀ p, p < n → R p = (S p).map (fun r => (((dest r).count p : Nat) : Int)) := by
    intro p hp
    apply List.ext_getElem?
    intro j
    have hl := r2 p hp
    rcases Nat.lt_or_ge j (S p).length with hj | hj
    · have hjr := List.getElem?_eq_getElem hj
      have hq := mem_sendersTo.1 (List.getElem_mem hj)
      obtain ⟨i, hi⟩ := List.getElem?_of_mem ((hUmem _ hq.1 p).2 hq.2)
      have := r3 _ i p j hq.1 (unitDist_linked hi hjr) 0 (by omega)
      unfold entry at this
      rw [Nat.mul_one, Nat.mul_one, Nat.add_zero, Nat.add_zero] at this
      rw [this, (f2 _ hq.1).2 i p hi, List.getElem?_map, hjr]
      rfl
    · rw [List.getElem?_eq_none (by omega), List.getElem?_eq_none (by rw [List.length_map]; omega)]
  let G : Nat → List Nat := fun p => offsetScan ((S p).map (fun r => (dest r).count p))
  have hG : ∀ p, p < n → toIndices? (offsetScan (R p)) = some (G p) := by
    intro p hp
    rw [hR p hp]
    have : offsetScan ((S p).map (fun r => (((dest r).count p : Nat) : Int))) = (G p).map Int.ofNat := by
      apply List.ext_getElem?
      intro j
      rcases Nat.lt_or_ge (S p).length j with hj | hj
      · rw [List.getElem?_eq_none (by rw [offsetScan_length, List.length_map]; omega),
          List.getElem?_eq_none (by rw [List.length_map, offsetScan_length, List.length_map]; omega)]
      · rw [offsetScan_int_getElem? _ _ (by rw [List.length_map]; omega), List.getElem?_map,
          offsetScan_nat_getElem? _ _ (by rw [List.length_map]; omega)]
        rw [← List.map_take, ← List.map_take]
        show some _ = some (((_ : Nat)) : Int)
        congr 1
        generalize (S p).take j = l
        induction l with
        | nil => rfl
        | cons x l ih => rw [List.map_cons, List.sum_cons, ih, List.map_cons, List.sum_cons]; push_cast; rfl
    rw [this, toIndices?_map]
  let D : Nat → Dist := fun r =>
    ⟨⟨none, some (W r).1, (W r).2.1, (W r).2.2⟩, ⟨none, none, G r, S r⟩⟩
  have hGat : ∀ p j, j ≤ (S p).length → (G p)[j]? = some (((S p).take j).map (fun r => (dest r).count p)).sum := by
    intro p j hj
    show (offsetScan _)[j]? = _
    rw [offsetScan_nat_getElem? _ _ (by rw [List.length_map]; omega), List.map_take]
  have hGlast : ∀ p, (G p).getLast? = some (arrivals n dest p).length := by
    intro p
    show (offsetScan _).getLast? = _
    rw [offsetScan_nat_getLast?, arrivals_length]
  have hGstep : ∀ p j r, (S p)[j]? = some r → (G p)[j + 1]? = some ((((S p).take j).map (fun r => (dest r).count p)).sum + (dest r).count p) := by
    intro p j r hj
    have := (List.getElem?_eq_some_iff.1 hj).1
    rw [hGat p (j + 1) (by omega), List.take_add_one, hj, List.map_append, List.sum_append]
    rfl
  have hDwired : Wired n D (fun r => (dest r).length) (fun p => (arrivals n dest p).length) := by
    refine ⟨?_, ?_, hwired.mate, ?_⟩
    · intro r hr
      have hw := w2 r hr
      exact ⟨hw.isFan, hw.fanLen, hw.last, hw.nodup, (hwired.fwd r hr).rank⟩
    · intro r hr
      refine ⟨offsetScan_isFan _, ?_, hGlast r, sendersTo_nodup n dest r, (hwired.rev r hr).rank⟩
      show (offsetScan _).length = _
      rw [offsetScan_length, List.length_map]
    · intro r p i j lo hi lo' hi' hr hp h1 h2 h3 h4 h5 h6
      have hw := w2 r hr
      have e1 := hw.fanStep i p lo h1 h3
      have e2 := Option.some.inj (e1.symm.trans h4)
      have hj := (List.getElem?_eq_some_iff.1 h2).1
      have e3 := Option.some.inj ((hGat p j (Nat.le_of_lt hj)).symm.trans h5)
      have e4 := Option.some.inj ((hGstep p j r h2).symm.trans h6)
      have e5 : 0 < (dest r).count p := List.count_pos_iff.2 ((hw.mem p).1 (List.mem_of_getElem? h1))
      omega
  have hok : DistOk n D (fun r => (dest r).length) (fun p => (arrivals n dest p).length) (fun r => (dest r).length)
      (fun p => (arrivals n dest p).length) := by
    refine ⟨hDwired, ?_, ?_⟩
    · intro r hr
      refine ⟨?_, ?_, fun _ => rfl⟩
      · intro q hq
        have : (W r).1 = q := Option.some.inj hq
        rw [← this]
        exact (w2 r hr).permutation
      · intro f hf
        cases hf
    · intro r hr
      refine ⟨?_, ?_, fun _ => rfl⟩
      · intro q hq
        cases hq
      · intro f hf
        cases hf
  have hfwd : ∀ r i p k : Nat, (arrivals n dest p)[k]? = some (r, i) → Route D r i p k := by
    intro r i p k hk
    obtain ⟨hr, hi⟩ := arrivals_mem (List.mem_of_getElem? hk)
    have hr : r < n := hr
    have hi : (dest r)[i]? = some p := hi
    have hmem : r ∈ S p := mem_sendersTo.2 ⟨hr, List.mem_of_getElem? hi⟩
    obtain ⟨j, hj⟩ := List.getElem?_of_mem hmem
    have hk2 := arrivals_get hj hi
    have hkl := (List.getElem?_eq_some_iff.1 hk).1
    have hkk := (List.getElem?_inj hkl (arrivals_nodup n dest p)).1 (hk.trans hk2.symm)
    obtain ⟨m, lo, m1, m2, m3, m4⟩ := (w2 r hr).find hi
    have hlt := count_take_lt hi
    have hjl := (List.getElem?_eq_some_iff.1 hj).1
    exact ⟨_, k, m4, ⟨m, j, lo, _, _, _, ((dest r).take i).count p, m1, hj, m2, m3, hGat p j (Nat.le_of_lt hjl), hGstep p j r hj,
      by omega, rfl, hkk⟩, rfl⟩
  refine ⟨D, ?_, hok, fun _ _ => rfl, fun _ _ => rfl, fun _ _ => rfl, fun r hr => ⟨(W r).1, rfl, w2 r hr⟩, ?_⟩
  · unfold setDestRanks
    rw [w1', Option.bind_some, world_length, f1, Option.bind_some, world_map, world_zipIdx]
    dsimp only
    rw [world_map]
    have hall : alltoall (fun r => s r 1)
        (world n (fun r => (⟨(W r).2.2, (W r).2.1, graphSources (world n (fun r => (W r).2.2)) r, []⟩ : Plan))) (world n F) =
        some (world n R) := by
      unfold alltoall
      rw [world_map, world_zip, world_map]
      have e1 : world n (fun r => (F r).take ((W r).2.2).length) = world n F := by
        apply world_congr
        intro r hr
        exact List.take_of_length_le (Nat.le_of_eq (f2 r hr).1)
      have e2 : (world n (fun r => (⟨(W r).2.2, List.range ((W r).2.2.length + 1), graphSources (world n (fun r => (W r).2.2)) r,
          List.range ((graphSources (world n (fun r => (W r).2.2)) r).length + 1)⟩ : Plan))) =
          world n (fun r => (unitDist U S r).plan) := by
        apply world_congr
        intro r _
        have := hS r
        show (⟨U r, _, graphSources (world n U) r, List.range ((graphSources (world n U) r).length + 1)⟩ : Plan) = _
        rw [this]
        rfl
      show alltoallv _ (world n (fun r => (⟨(W r).2.2, List.range ((W r).2.2.length + 1), graphSources (world n (fun r => (W r).2.2)) r,
          List.range ((graphSources (world n (fun r => (W r).2.2)) r).length + 1)⟩ : Plan))) 1
          (world n (fun r => (F r).take ((W r).2.2).length)) = _
      rw [e1, e2]
      exact r1
    show (alltoall (fun r => s r 1)
        (world n (fun r => (⟨(W r).2.2, (W r).2.1, graphSources (world n (fun r => (W r).2.2)) r, []⟩ : Plan))) (world n F)).bind _ = _
    rw [hall, Option.bind_some]
    unfold world
    apply mapM_range_some
    intro r hr
    show ((world n W)[r]?).bind _ = _
    rw [world_get _ hr, Option.bind_some]
    show ((world n R)[r]?).bind _ = _
    rw [world_get _ hr, Option.bind_some, hG r hr]
    show some (Dist.mk ⟨none, some (W r).1, (W r).2.1, (W r).2.2⟩ ⟨none, none, G r, graphSources (world n U) r⟩) = _
    rw [hS r]
  · intro r i p k hr
    refine ⟨?_, hfwd r i p k⟩
    intro hroute
    obtain ⟨hi, hp, hk⟩ := route_lt hok hr hroute
    have hv := List.getElem?_eq_getElem hi
    have hmem : r ∈ S (dest r)[i] := mem_sendersTo.2 ⟨hr, List.getElem_mem hi⟩
    obtain ⟨j, hj⟩ := List.getElem?_of_mem hmem
    have hk2 := arrivals_get hj hv
    obtain ⟨e1, e2⟩ := route_unique hok hr (hfwd r i _ _ hk2) hroute
    rw [e2] at hk2
    rw [← e1]
    exact hk2

end OmegaH
