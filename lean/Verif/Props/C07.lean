import Verif.Model.Linpart
import Verif.Spec.Linpart
import Verif.Lemmas.Map
import Verif.Props.C06

/-! # C07 — linear partitioning of global numbers is a bijection onto (rank, index) pairs -/

namespace OmegaH
open Spec

/-- The size of a rank's share in natural numbers (proof helper). -/
def linSize (total p r : Nat) : Nat := if r < total % p then total / p + 1 else total / p

theorem cdiv_nat (a b : Nat) (hb : 0 < b) : cdiv (a : Int) b = some ((a / b : Nat) : Int) := by
  unfold cdiv
  rw [if_neg (by omega), Int.tdiv_eq_ediv_of_nonneg (by omega)]
  rfl

theorem cmod_nat (a b : Nat) (hb : 0 < b) : cmod (a : Int) b = some ((a % b : Nat) : Int) := by
  unfold cmod
  rw [if_neg (by omega), Int.tmod_eq_emod_of_nonneg (by omega)]
  rfl

theorem wrap32_id {x : Nat} (h : x < 2 ^ 31) : wrapSigned 32 (x : Int) = x :=
  wrapSigned_id (by decide) (by omega) (by simpa using (by exact_mod_cast h : (x : Int) < 2 ^ 31))

theorem linSize_prefix (total p : Nat) (r : Nat) :
    ((List.range r).map (linSize total p)).sum = r * (total / p) + min r (total % p) := by
  induction r with
  | zero => simp
  | succ r ih =>
    rw [List.range_succ, List.map_append, List.sum_append, ih]
    simp only [List.map_cons, List.map_nil, List.sum_cons, List.sum_nil, linSize]
    rw [Nat.add_mul, Nat.one_mul]
    split <;> omega

theorem partitionSize_step (q m r : Nat) (hm31 : m < 2 ^ 31) (hsz : q + 1 < 2 ^ 31) (hq : q < 2 ^ 31) :
    (if (r : Int) < wrapSigned 32 m then pure (wrapSigned 32 ((q : Int) + 1))
      else pure (wrapSigned 32 (q : Int)) : Option Int) =
      some ((if r < m then q + 1 else q : Nat) : Int) := by
  have e : (q : Int) + 1 = ((q + 1 : Nat) : Int) := by push_cast; rfl
  rw [wrap32_id hm31, e, wrap32_id hsz, wrap32_id hq]
  by_cases h : r < m
  · rw [if_pos (Int.ofNat_lt.2 h), if_pos h]; rfl
  · rw [if_neg (fun h' => h (Int.ofNat_lt.1 h')), if_neg h]; rfl

theorem linearPartitionSize_unfold (total p r : Nat) (hp : 0 < p) :
    linearPartitionSize total p r =
      (if (r : Int) < wrapSigned 32 ((total % p : Nat) : Int)
        then pure (wrapSigned 32 (((total / p : Nat) : Int) + 1))
        else pure (wrapSigned 32 ((total / p : Nat) : Int))) := by
  unfold linearPartitionSize
  rw [cdiv_nat total p hp, Option.bind_eq_bind, Option.bind_some, cmod_nat total p hp,
    Option.bind_some]

theorem linearPartitionSize_eq (total p r : Nat) (hp : 0 < p) (hp' : p < 2 ^ 31)
    (hsz : total / p + 1 < 2 ^ 31) :
    linearPartitionSize total p r = some (linSize total p r : Int) := by
  have hm := Nat.mod_lt total hp
  rw [linearPartitionSize_unfold total p r hp]
  exact partitionSize_step (total / p) (total % p) r (Nat.lt_trans hm hp') hsz
    (Nat.lt_trans (Nat.lt_succ_self _) hsz)

/-- The owner computed for one global. -/
theorem linearOwner_spec (total p g : Nat) (hp : 0 < p) (hp' : p < 2 ^ 31)
    (hsz : total / p + 1 < 2 ^ 31) (hg : g < total) :
    ∃ r i : Nat, linearOwner ((total / p : Nat) : Int) ((total % p : Nat) : Int)
        ((((total / p : Nat) : Int) + 1) * ((total % p : Nat) : Int)) g = some ((r : Int), (i : Int)) ∧
      r < p ∧ i < linSize total p r ∧ g = globalOf (linSize total p) r i := by
  have hm := Nat.mod_lt total hp
  have hdm := Nat.div_add_mod total p
  generalize hq : total / p = q at *
  generalize hmm : total % p = m at *
  unfold linearOwner
  have hsplit : (((q : Nat) : Int) + 1) * (m : Int) = (((q + 1) * m : Nat) : Int) := by push_cast; rfl
  rw [hsplit]
  by_cases h : g < (q + 1) * m
  · rw [if_pos (by exact_mod_cast h)]
    have hr : g / (q + 1) < m := by
      rw [Nat.div_lt_iff_lt_mul (by omega), Nat.mul_comm]; exact h
    have hi := Nat.mod_lt g (show 0 < q + 1 by omega)
    have e : ((q : Int) + 1) = ((q + 1 : Nat) : Int) := by push_cast; rfl
    have hdm' := Nat.div_add_mod g (q + 1)
    have c1 := cdiv_nat g (q + 1) (by omega)
    have c2 := cmod_nat g (q + 1) (by omega)
    generalize g / (q + 1) = R at *
    generalize g % (q + 1) = I at *
    refine ⟨R, I, ?_, by omega, ?_, ?_⟩
    · rw [e, c1, c2]
      simp only [Option.bind_eq_bind, Option.bind_some]
      rw [wrap32_id (by omega), wrap32_id (by omega)]
      rfl
    · simp only [linSize, hq, hmm]; rw [if_pos hr]; exact hi
    · unfold globalOf
      rw [linSize_prefix, hq, hmm, Nat.min_eq_left (by omega)]
      rw [Nat.mul_comm (q + 1), Nat.mul_add] at hdm'
      omega
  · rw [if_neg (by exact_mod_cast h)]
    obtain ⟨g', hg'⟩ : ∃ g', g = (q + 1) * m + g' := ⟨g - (q + 1) * m, by omega⟩
    have hsub : (g : Int) - (((q + 1) * m : Nat) : Int) = (g' : Int) := by omega
    rw [hsub]
    obtain ⟨k, hk⟩ : ∃ k, p = m + k := ⟨p - m, by omega⟩
    have hlt : g' < q * k := by
      rw [hk] at hdm
      have e1 : (m + k) * q = q * m + q * k := by rw [Nat.add_mul, Nat.mul_comm m, Nat.mul_comm k]
      have e2 : (q + 1) * m = q * m + m := by rw [Nat.add_mul, Nat.one_mul]
      omega
    have hq0 : 0 < q := by
      rcases Nat.eq_zero_or_pos q with h0 | h0
      · rw [h0] at hlt; omega
      · exact h0
    have hr : g' / q < k := by rw [Nat.div_lt_iff_lt_mul hq0, Nat.mul_comm]; exact hlt
    have hi := Nat.mod_lt g' hq0
    have hdm' := Nat.div_add_mod g' q
    have c1 := cdiv_nat g' q hq0
    have c2 := cmod_nat g' q hq0
    generalize g' / q = R at *
    generalize g' % q = I at *
    refine ⟨R + m, I, ?_, by omega, ?_, ?_⟩
    · simp only [c1, c2]
      simp only [Option.bind_eq_bind, Option.bind_some]
      rw [wrap32_id (show I < 2 ^ 31 by omega)]
      have : (R : Int) + (m : Int) = ((R + m : Nat) : Int) := by push_cast; rfl
      rw [this, wrap32_id (by omega)]
      rfl
    · simp only [linSize, hq, hmm]; rw [if_neg (by omega)]; exact hi
    · unfold globalOf
      rw [linSize_prefix, hq, hmm, Nat.min_eq_right (by omega)]
      rw [Nat.mul_comm q] at hdm'
      rw [Nat.add_mul, Nat.mul_comm m q]
      rw [Nat.add_mul, Nat.one_mul] at hg'
      omega

/-- The shares: sizes sum to the total and differ by at most one. -/
theorem C07_partition_sizes (total p : Nat) (hp : 0 < p) (hp' : p < 2 ^ 31)
    (hsz : total / p + 1 < 2 ^ 31) :
    ∃ size : Nat → Nat, Balanced size total p ∧
      ∀ r : Nat, r < p → linearPartitionSize total p r = some (size r : Int) := by
  refine ⟨linSize total p, ⟨?_, ?_⟩, fun r _ => linearPartitionSize_eq total p r hp hp' hsz⟩
  · rw [linSize_prefix]
    have := Nat.div_add_mod total p
    have := Nat.mod_lt total hp
    omega
  · intro r r' _ _
    unfold linSize
    split <;> split <;> omega

/-- Owners: the `k`-th global is item `i` of rank `r`, where the numbers are dealt to the ranks
in order, rank `r` holding `linear_partition_size` of them. -/
theorem C07_linear_owners (s : Sched) (globals : List Nat) (total p : Nat) (hp : 0 < p)
    (hp' : p < 2 ^ 31) (hsz : total / p + 1 < 2 ^ 31) (hg : ∀ g ∈ globals, g < total) :
    ∃ (size : Nat → Nat) (out : List (Int × Int)),
      globalsToLinearOwners s (globals.map Int.ofNat) total p = some out ∧
      out.length = globals.length ∧
      (∀ r : Nat, r < p → linearPartitionSize total p r = some (size r : Int)) ∧
      ∀ k g : Nat, globals[k]? = some g → ∃ r i : Nat, out[k]? = some ((r : Int), (i : Int)) ∧
        r < p ∧ i < size r ∧ g = globalOf size r i := by
  have key : ∀ g : Nat, g < total → ∃ r i : Nat,
      linearOwner ((total / p : Nat) : Int) ((total % p : Nat) : Int)
        ((((total / p : Nat) : Int) + 1) * ((total % p : Nat) : Int)) g = some ((r : Int), (i : Int)) ∧
      r < p ∧ i < linSize total p r ∧ g = globalOf (linSize total p) r i :=
    fun g h => linearOwner_spec total p g hp hp' hsz h
  obtain ⟨out, o1, o2, o3⟩ := parScatter_buildR s (globals.map Int.ofNat).length
    (globals.map Int.ofNat).length
    (fun i => ((globals.map Int.ofNat)[i]?).bind (fun g =>
      (linearOwner ((total / p : Nat) : Int) ((total % p : Nat) : Int)
        ((((total / p : Nat) : Int) + 1) * ((total % p : Nat) : Int)) g).map (fun o => [(i, o)])))
    (fun i q v => q = i ∧ ∃ g : Nat, globals[i]? = some g ∧
      linearOwner ((total / p : Nat) : Int) ((total % p : Nat) : Int)
        ((((total / p : Nat) : Int) + 1) * ((total % p : Nat) : Int)) g = some v)
    (fun q => (globals[q]?).bind (fun g => linearOwner ((total / p : Nat) : Int) ((total % p : Nat) : Int)
        ((((total / p : Nat) : Int) + 1) * ((total % p : Nat) : Int)) (g : Nat)))
    (by
      intro i hi
      simp only [List.length_map] at hi
      have e := List.getElem?_eq_getElem hi
      obtain ⟨r, j, h1, _⟩ := key globals[i] (hg _ (List.getElem_mem hi))
      refine ⟨[(i, ((r : Int), (j : Int)))], ?_, ?_⟩
      · rw [List.getElem?_map, e]
        simp only [Option.map_some, Option.bind_some]
        rw [show Int.ofNat globals[i] = ((globals[i] : Nat) : Int) from rfl, h1]
        rfl
      · intro q v
        simp only [List.mem_singleton, Prod.mk.injEq]
        constructor
        · rintro ⟨rfl, rfl⟩; exact ⟨rfl, _, e, h1⟩
        · rintro ⟨rfl, g, hg1, hg2⟩
          rw [e] at hg1
          have := Option.some.inj hg1
          subst this
          rw [h1] at hg2
          exact ⟨rfl, (Option.some.inj hg2).symm⟩)
    (by
      rintro i hi q v ⟨rfl, g, h1, h2⟩
      exact ⟨hi, by rw [h1, Option.bind_some, h2]⟩)
    (by
      intro q hq
      have hq' := hq
      simp only [List.length_map] at hq'
      have e := List.getElem?_eq_getElem hq'
      obtain ⟨r, j, h1, _⟩ := key globals[q] (hg _ (List.getElem_mem hq'))
      exact ⟨q, hq, _, rfl, _, e, h1⟩)
  refine ⟨linSize total p, out, ?_, by simpa using o2,
    fun r _ => linearPartitionSize_eq total p r hp hp' hsz, ?_⟩
  · unfold globalsToLinearOwners
    simp only [cdiv_nat total p hp, cmod_nat total p hp, Option.bind_eq_bind, Option.bind_some]
    exact o1
  · intro k g hk
    have hkl := (List.getElem?_eq_some_iff.1 hk).1
    obtain ⟨r, j, h1, h2, h3, h4⟩ := key g (hg _ (List.mem_of_getElem? hk))
    refine ⟨r, j, ?_, h2, h3, h4⟩
    rw [o3 k (by simpa using hkl), hk, Option.bind_some, h1]

theorem globalOf_lt_of_rank_lt {size : Nat → Nat} {r r' i i' : Nat} (h : r < r') (hi : i < size r) :
    globalOf size r i < globalOf size r' i' := by
  unfold globalOf
  have : ((List.range (r + 1)).map size).sum ≤ ((List.range r').map size).sum := by
    obtain ⟨k, rfl⟩ : ∃ k, r' = (r + 1) + k := ⟨r' - (r + 1), by omega⟩
    clear h hi
    induction k with
    | zero => exact Nat.le_refl _
    | succ k ih =>
      refine Nat.le_trans ih ?_
      rw [← Nat.add_assoc, List.range_succ (n := r + 1 + k), List.map_append, List.sum_append]
      exact Nat.le_add_right _ _
  rw [List.range_succ, List.map_append, List.sum_append] at this
  simp only [List.map_cons, List.map_nil, List.sum_cons, List.sum_nil] at this
  omega

/-- Dealing numbers out in consecutive shares is a bijection: every pair (rank, index below the
rank's share) is the owner of exactly one global below the total, and ranks never decrease with the
global. Together with `C07_linear_owners` and `C07_partition_sizes`: `globals_to_linear_owners`
is a monotone bijection. -/
theorem C07_deal_bijection (size : Nat → Nat) (total p : Nat) (hb : Balanced size total p) :
    (∀ r i, r < p → i < size r → globalOf size r i < total) ∧
    (∀ r i r' i', i < size r → i' < size r' → globalOf size r i = globalOf size r' i' →
      r = r' ∧ i = i') ∧
    (∀ r i r' i', i < size r → i' < size r' → globalOf size r i ≤ globalOf size r' i' → r ≤ r') := by
  refine ⟨?_, ?_, ?_⟩
  · intro r i hr hi
    have := globalOf_lt_of_rank_lt (size := size) (i' := 0) hr hi
    have e : globalOf size p 0 = total := by unfold globalOf; rw [hb.1]; rfl
    omega
  · intro r i r' i' hi hi' h
    rcases Nat.lt_trichotomy r r' with h1 | h1 | h1
    · have := globalOf_lt_of_rank_lt (size := size) (i' := i') h1 hi; omega
    · subst h1; refine ⟨rfl, ?_⟩; unfold globalOf at h; omega
    · have := globalOf_lt_of_rank_lt (size := size) (i' := i) h1 hi'; omega
  · intro r i r' i' hi hi' h
    rcases Nat.lt_or_ge r' r with h1 | h1
    · have := globalOf_lt_of_rank_lt (size := size) (i' := i) h1 hi'; omega
    · exact h1

/-- Conversely every (rank, index) pair is returned for its global: the map is onto. -/
theorem C07_linear_owner_onto (s : Sched) (total p r i sz : Nat) (hp : 0 < p) (hp' : p < 2 ^ 31)
    (hsz : total / p + 1 < 2 ^ 31) (hr : r < p)
    (hs : linearPartitionSize total p r = some (sz : Int)) (hi : i < sz) :
    ∃ g : Nat, g < total ∧
      globalsToLinearOwners s [(g : Int)] total p = some [((r : Int), (i : Int))] := by
  rw [linearPartitionSize_eq total p r hp hp' hsz] at hs
  have hs' : linSize total p r = sz := by have := Option.some.inj hs; omega
  subst hs'
  have hbal : Balanced (linSize total p) total p := by
    refine ⟨?_, ?_⟩
    · rw [linSize_prefix]
      have := Nat.div_add_mod total p
      have := Nat.mod_lt total hp
      omega
    · intro r r' _ _
      unfold linSize
      split <;> split <;> omega
  obtain ⟨b1, b2, _⟩ := C07_deal_bijection _ total p hbal
  have hg := b1 r i hr hi
  refine ⟨globalOf (linSize total p) r i, hg, ?_⟩
  obtain ⟨size, out, o1, o2, o3, o4⟩ := C07_linear_owners s [globalOf (linSize total p) r i] total p hp
    hp' hsz (by simpa using hg)
  obtain ⟨r', i', x1, x2, x3, x4⟩ := o4 0 _ rfl
  have e : size r' = linSize total p r' := by
    have := o3 r' x2
    rw [linearPartitionSize_eq total p r' hp hp' hsz] at this
    have := Option.some.inj this; omega
  have eall : ∀ q, q < p → size q = linSize total p q := by
    intro q hq
    have := o3 q hq
    rw [linearPartitionSize_eq total p q hp hp' hsz] at this
    have := Option.some.inj this; omega
  have e2 : globalOf size r' i' = globalOf (linSize total p) r' i' := by
    unfold globalOf
    congr 2
    apply List.map_congr_left
    intro q hq
    exact eall q (by have := List.mem_range.1 hq; omega)
  rw [e2] at x4
  obtain ⟨h1, h2⟩ := b2 r i r' i' hi (by omega) x4
  subst h1; subst h2
  simp only [List.map_cons, List.map_nil] at o1
  rw [show ((globalOf (linSize total p) r i : Nat) : Int) = Int.ofNat (globalOf (linSize total p) r i)
    from rfl, o1]
  congr 1
  apply List.ext_getElem?
  intro k
  cases k with
  | zero => rw [x1]; rfl
  | succ k => rw [List.getElem?_eq_none (by simp at o2; omega)]; rfl

/-- The communicator must not be empty. -/
theorem C07_no_ranks (s : Sched) (globals : List Int) (total : Int) :
    globalsToLinearOwners s globals total 0 = none := rfl

/-- A global at or beyond the total is a division by zero when there are fewer items than ranks. -/
theorem C07_out_of_range_refuted :
    globalsToLinearOwners Sched.serial [3] 3 4 = none := by decide +kernel

theorem foldl_max_ge (l : List Int) (v : Int) : v ≤ l.foldl max v ∧ ∀ x ∈ l, x ≤ l.foldl max v :=
  (foldl_max_spec l v).2

/-- `find_total_globals` is one more than the greatest global on any rank, or 0. -/
theorem C07_find_total_globals (globals : List (List Int))
    (hg : ∀ l ∈ globals, ∀ g ∈ l, 0 ≤ g) :
    (∀ l ∈ globals, ∀ g ∈ l, g < findTotalGlobals globals) ∧
    ((findTotalGlobals globals = 0 ∧ ∀ l ∈ globals, l = []) ∨
      ∃ l ∈ globals, findTotalGlobals globals - 1 ∈ l) := by
  unfold findTotalGlobals commMax
  simp only
  generalize hv : (-2 ^ 63 : Int) = lo
  have hlo : lo < 0 := by omega
  have h1 := foldl_max_spec (globals.map (fun l => l.foldl max lo)) lo
  generalize hM : (globals.map (fun l => l.foldl max lo)).foldl max lo = M at h1
  obtain ⟨h1, h2, h3⟩ := h1
  have hall : ∀ l ∈ globals, ∀ g ∈ l, g ≤ M := by
    intro l hl g hgl
    have a := (foldl_max_spec l lo).2.2 g hgl
    have b := h3 (l.foldl max lo) (List.mem_map.2 ⟨l, hl, rfl⟩)
    omega
  refine ⟨?_, ?_⟩
  · intro l hl g hgl
    have := hall l hl g hgl
    have := hg l hl g hgl
    rw [if_neg (by omega)]; omega
  · by_cases hneg : M < 0
    · left
      rw [if_pos hneg]
      refine ⟨rfl, ?_⟩
      intro l hl
      cases l with
      | nil => rfl
      | cons g l =>
        have := hall _ hl g (by simp)
        have := hg _ hl g (by simp)
        omega
    · right
      rw [if_neg hneg]
      rcases h1 with h1 | h1
      · omega
      · obtain ⟨l, hl, he⟩ := List.mem_map.1 h1
        rcases (foldl_max_spec l lo).1 with h | h
        · omega
        · rw [he] at h
          exact ⟨l, hl, by rw [Int.add_sub_cancel]; exact h⟩

/-! Non-vacuity: ten items on four ranks (shares 3, 3, 2, 2). -/
example : globalsToLinearOwners Sched.reversed [0, 3, 5, 6, 9] 10 4 =
    some [(0, 0), (1, 0), (1, 2), (2, 0), (3, 1)] := by decide +kernel
example : [0, 1, 2, 3].map (linearPartitionSize 10 4) = [some 3, some 3, some 2, some 2] := by
  decide +kernel
example : findTotalGlobals [[4, 0], [], [7]] = 8 := by decide +kernel

end OmegaH
