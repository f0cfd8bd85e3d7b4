import Verif.Model.Bipart
import Verif.Spec.Bipart
import Verif.Props.C03
import Verif.Props.C07
import Verif.Props.C43
import Verif.Lemmas.CopyDist

/-! # Lemmas on bisection over ranks -/

namespace OmegaH
open Spec

/-- In a pattern whose items have different destinations that fill the roots, the items arrive in the order of the roots. -/
theorem direct_order {n : Nat} {dests : Nat → Remotes} {nroots : Nat → Nat} {D : Nat → Dist} {order : Nat → List (Nat × Nat)}
    {fan : Nat → List Nat} (h : CopyDist n dests nroots D order fan)
    (honto : ∀ p x, p < n → x < nroots p → ∃ r i, r < n ∧ destOf dests r i = some (p, x))
    (hinj : ∀ r i r' i' p x, r < n → r' < n → destOf dests r i = some (p, x) → destOf dests r' i' = some (p, x) → r = r' ∧ i = i') :
    ∀ p, p < n → (order p).length = nroots p ∧ ∀ k r i : Nat, (order p)[k]? = some (r, i) → destOf dests r i = some (p, k) := by
  intro p hp
  have hdest : ∀ y ∈ order p, ∃ x, y.1 < n ∧ destOf dests y.1 y.2 = some (p, x) ∧ x < nroots p := by
    intro y hy
    obtain ⟨hr, hi⟩ := (h.mem p hp y.1 y.2).1 hy
    have hil := (List.getElem?_eq_some_iff.1 hi).1
    have hx := List.getElem?_eq_getElem (show y.2 < (dests y.1).idxs.length by rw [h.dest.len y.1 hr]; exact hil)
    exact ⟨_, hr, destOf_eq.2 ⟨hi, hx⟩, h.dest.idx y.1 hr _ _ _ hi hx⟩
  let X : List Nat := (order p).map (fun y => ((destOf dests y.1 y.2).map Prod.snd).getD 0)
  have hX : ∀ k r i x : Nat, (order p)[k]? = some (r, i) → destOf dests r i = some (p, x) → X[k]? = some x := by
    intro k r i x hk hd
    show ((order p).map _)[k]? = _
    rw [List.getElem?_map, hk, Option.map_some]
    dsimp only
    rw [hd]; rfl
  have hmem : ∀ x, x ∈ X ↔ x ∈ List.range (nroots p) := by
    intro x
    rw [List.mem_range]
    constructor
    · intro hx
      obtain ⟨y, hy, rfl⟩ := List.mem_map.1 hx
      obtain ⟨x, _, h2, h3⟩ := hdest y hy
      rw [h2]; exact h3
    · intro hx
      obtain ⟨r, i, hr, hd⟩ := honto p x hp hx
      obtain ⟨k, hk⟩ := List.getElem?_of_mem ((h.mem p hp r i).2 ⟨hr, (destOf_eq.1 hd).1⟩)
      exact List.mem_of_getElem? (hX k r i x hk hd)
  have hsorted : X.Pairwise (· < ·) := by
    rw [List.pairwise_iff_getElem]
    intro k k' hk hk' hlt
    have hkl : k < (order p).length := by simpa [X] using hk
    have hkl' : k' < (order p).length := by simpa [X] using hk'
    obtain ⟨y, hy⟩ : ∃ y, (order p)[k]? = some y := ⟨_, List.getElem?_eq_getElem hkl⟩
    obtain ⟨y', hy'⟩ : ∃ y, (order p)[k']? = some y := ⟨_, List.getElem?_eq_getElem hkl'⟩
    obtain ⟨x, hr, hd, _⟩ := hdest y (List.mem_of_getElem? hy)
    obtain ⟨x', hr', hd', _⟩ := hdest y' (List.mem_of_getElem? hy')
    have e1 := hX k y.1 y.2 x hy hd
    have e2 := hX k' y'.1 y'.2 x' hy' hd'
    rw [List.getElem?_eq_getElem hk] at e1
    rw [List.getElem?_eq_getElem hk'] at e2
    rw [Option.some.inj e1, Option.some.inj e2]
    have g1 := (h.group p hp k y.1 y.2 x hy).2 (destOf_eq.1 hd).2
    have g2 := (h.group p hp k' y'.1 y'.2 x' hy').2 (destOf_eq.1 hd').2
    rcases Nat.lt_trichotomy x x' with hc | hc | hc
    · exact hc
    · exfalso
      subst hc
      obtain ⟨q1, q2⟩ := hinj _ _ _ _ _ _ hr hr' hd hd'
      have : (order p)[k']? = some (y.1, y.2) := by rw [hy']; exact congrArg some (Prod.ext q1.symm q2.symm)
      have r1 := (h.route y.1 y.2 p k hr hp).2 hy
      have r2 := (h.route y.1 y.2 p k' hr hp).2 this
      have := (route_unique h.ok hr r1 r2).2
      omega
    · exfalso
      obtain ⟨lo, hi, a1, a2, a3, a4⟩ := g1
      obtain ⟨lo', hi', b1, b2, b3, b4⟩ := g2
      have := fan_le (h.fanOk p hp).1 (show x' + 1 ≤ x by omega) b2 a1
      omega
  have hXr : X = List.range (nroots p) := by
    have hp1 : X.Perm (List.range (nroots p)) := (List.perm_ext_iff_of_nodup (hsorted.imp (fun h => Nat.ne_of_lt h)) List.nodup_range).2 hmem
    exact hp1.eq_of_pairwise (fun a b _ _ h1 h2 => absurd h1 (by omega)) hsorted List.pairwise_lt_range
  refine ⟨?_, ?_⟩
  · have := congrArg List.length hXr
    simpa [X] using this
  · intro k r i hk
    obtain ⟨x, hr, hd, _⟩ := hdest _ (List.mem_of_getElem? hk)
    have e := hX k r i x hk hd
    rw [hXr] at e
    have hkl := (List.getElem?_eq_some_iff.1 e).1
    rw [List.getElem?_range (by simpa using hkl)] at e
    rw [Option.some.inj e]
    exact hd

/-- What a round of `bi_partition` does. `L` are the entries marked after the inversion. -/
structure RoundDone (n h rankStart : Nat) (size : Nat → Nat) (st st' : Nat → BipartState) (L : Nat → List Nat) : Prop where
  marks : ∀ r, r < n → (st' r).marks.length = (st r).marks.length ∧ IsMarks (st' r).marks ∧
    ∀ i, i < (st r).marks.length → (Marked (st' r).marks i ↔ ¬ Marked (st r).marks i)
  marked : ∀ r, r < n → L r = markedList (st' r).marks
  len : ∀ r, r < n → (st' r).ranks.length = (st r).ranks.length ∧ (st' r).idxs.length = (st r).idxs.length
  hit : ∀ r j i : Nat, r < n → (L r)[j]? = some i → ∃ q x : Nat, q < h ∧ x < size q ∧ blockOff L r + j = globalOf size q x ∧
    (st' r).ranks[i]? = some (some ((rankStart + q : Nat) : Int)) ∧ (st' r).idxs[i]? = some (some (x : Int))
  miss : ∀ r i : Nat, r < n → i ∉ L r → (st' r).ranks[i]? = (st r).ranks[i]? ∧ (st' r).idxs[i]? = (st r).idxs[i]?
  sizes : ∀ r, r < n → (st' r).linsize = if rankStart ≤ r ∧ r < rankStart + h then ((size (r - rankStart) : Nat) : Int) else (st r).linsize
  total : ((List.range h).map size).sum = blockOff L n
  even : ∀ q q', q < h → q' < h → size q ≤ size q' + 1

instance : Inhabited BipartState := ⟨⟨[], [], [], 0⟩⟩

theorem linSize_balanced (total p : Nat) (hp : 0 < p) : Balanced (linSize total p) total p := by
  refine ⟨?_, ?_⟩
  · rw [linSize_prefix]
    have := Nat.div_add_mod total p
    have := Nat.mod_lt total hp
    omega
  · intro r r' _ _
    unfold linSize
    split <;> split <;> omega

theorem linSize_unique {total p : Nat} {size : Nat → Nat} (hp : 0 < p) (hp' : p < 2 ^ 31) (hsz : total / p + 1 < 2 ^ 31)
    (h : ∀ r : Nat, r < p → linearPartitionSize total p r = some (size r : Int)) : ∀ r, r < p → size r = linSize total p r := by
  intro r hr
  have := (h r hr).symm.trans (linearPartitionSize_eq total p r hp hp' hsz)
  simpa using this

theorem globalOf_congr {f g : Nat → Nat} {p q x : Nat} (h : ∀ r, r < p → f r = g r) (hq : q ≤ p) : globalOf f q x = globalOf g q x := by
  unfold globalOf
  congr 2
  apply List.map_congr_left
  intro r hr
  exact h r (by have := List.mem_range.1 hr; omega)

theorem round_spec (s : Nat → Nat → Sched) {n h rankStart : Nat} (hh : 0 < h) (hh' : h < 2 ^ 31) {st : Nat → BipartState}
    (hm : ∀ r, r < n → IsMarks (st r).marks) (hlen : ∀ r, r < n → (st r).ranks.length = (st r).marks.length ∧ (st r).idxs.length = (st r).marks.length)
    (hsz : blockOff (fun r => (st r).marks) n < 2 ^ 31 - 1) :
    ∃ (st' : Nat → BipartState) (size : Nat → Nat) (L : Nat → List Nat),
      bipartRound s h rankStart (world n st) = some (world n st') ∧ RoundDone n h rankStart size st st' L := by
  -- the marks
  obtain ⟨M, m1, m2⟩ := choose_world (n := n) (fun r => ((world n st)[r]?).bind (fun st => bipartMarks (s r) st.marks))
    (fun r (m : List Int × List Nat) => m.1.length = (st r).marks.length ∧ IsMarks m.1 ∧ (∀ i, i < (st r).marks.length → (Marked m.1 i ↔ ¬ Marked (st r).marks i)) ∧
      m.2 = markedList m.1) (by
    intro r hr
    obtain ⟨inv, i1, i2, i3, i4⟩ := C03_invert_marks (s r 0) (st r).marks (hm r hr)
    obtain ⟨marked, k1, k2⟩ := C03_collect_marked (s r 1) inv i3
    refine ⟨(inv, marked), ?_, i2, i3, i4, isCollected_unique k2 (markedList_collected inv)⟩
    rw [world_get _ hr, Option.bind_some]
    unfold bipartMarks
    rw [i1, Option.bind_some, k1]; rfl)
  let L : Nat → List Nat := fun r => (M r).2
  let T := blockOff L n
  have hT : T / h + 1 < 2 ^ 31 := by
    have h1 : ∀ k, k ≤ n → blockOff L k ≤ blockOff (fun r => (st r).marks) k := by
      intro k
      induction k with
      | zero => intro _; simp [blockOff]
      | succ k ih =>
        intro hk
        rw [blockOff_succ, blockOff_succ]
        have := ih (by omega)
        obtain ⟨a, _, _, b⟩ := m2 k (by omega)
        have : (L k).length ≤ (st k).marks.length := by
          show (M k).2.length ≤ _
          rw [b, ← a]
          unfold markedList
          exact (List.length_filter_le _ _).trans (by simp)
        omega
    have := h1 n (Nat.le_refl _)
    have := Nat.div_le_self T h
    have : T < 2 ^ 31 - 1 := Nat.lt_of_le_of_lt (h1 n (Nat.le_refl _)) hsz
    omega
  have hcounts : ((world n M).map (fun m : List Int × List Nat => m.2.length)).sum = T ∧
      ∀ r, r ≤ n → ((((world n M).map (fun m : List Int × List Nat => m.2.length))).take r).sum = blockOff L r := by
    have : ∀ r, r ≤ n → ((((world n M).map (fun m : List Int × List Nat => m.2.length))).take r).sum = blockOff L r := by
      intro r hr
      unfold world
      rw [List.map_map, ← List.map_take, List.take_range, Nat.min_eq_left hr]
      rfl
    refine ⟨?_, this⟩
    show _ = blockOff L n
    rw [← this n (Nat.le_refl _), List.take_of_length_le (by simp [world])]
  have hbal := linSize_balanced T h hh
  obtain ⟨st', t1, t2⟩ := choose_world (n := n)
    (fun r => ((world n st)[r]?).bind (fun st => ((world n M)[r]?).bind (fun m =>
      bipartLocal (s r) h rankStart r ((world n M).map (fun m : List Int × List Nat => m.2.length)).sum
        ((((world n M).map (fun m : List Int × List Nat => m.2.length))).take r).sum m.1 m.2 st)))
    (fun r (st' : BipartState) => st'.marks = (M r).1 ∧ (st'.ranks.length = (st r).ranks.length ∧ st'.idxs.length = (st r).idxs.length) ∧
      (∀ j i : Nat, (L r)[j]? = some i → ∃ q x : Nat, q < h ∧ x < linSize T h q ∧ blockOff L r + j = globalOf (linSize T h) q x ∧
        st'.ranks[i]? = some (some ((rankStart + q : Nat) : Int)) ∧ st'.idxs[i]? = some (some (x : Int))) ∧
      (∀ i : Nat, i ∉ L r → st'.ranks[i]? = (st r).ranks[i]? ∧ st'.idxs[i]? = (st r).idxs[i]?) ∧
      st'.linsize = if rankStart ≤ r ∧ r < rankStart + h then ((linSize T h (r - rankStart) : Nat) : Int) else (st r).linsize) (by
    intro r hr
    obtain ⟨g1, g2, g3, g4⟩ := m2 r hr
    have hLb : ∀ i ∈ L r, i < (st r).marks.length := by
      intro i hi
      have hi : i ∈ (M r).2 := hi
      rw [g4] at hi
      have := ((markedList_collected (M r).1).2 i).1 hi
      rw [← g1]
      exact (List.getElem?_eq_some_iff.1 this).1
    have hLinj : Injective (L r) := by
      intro i j b hi hj
      have hn : (L r).Nodup := by
        show ((M r).2).Nodup
        rw [g4]
        exact (markedList_collected (M r).1).1.imp (fun h => Nat.ne_of_lt h)
      exact (List.getElem?_inj (List.getElem?_eq_some_iff.1 hi).1 hn).1 (hi.trans hj.symm)
    let gs : List Nat := (List.range (L r).length).map (fun i => blockOff L r + i)
    have hgs : ∀ g ∈ gs, g < T := by
      intro g hg
      obtain ⟨i, hi, rfl⟩ := List.mem_map.1 hg
      have := List.mem_range.1 hi
      have h2 := blockOff_le L (show r + 1 ≤ n by omega)
      rw [blockOff_succ] at h2
      show _ < blockOff L n
      omega
    obtain ⟨size, owners, o1, o2, o3, o4⟩ := C07_linear_owners (s r 2) gs T h hh hh' hT hgs
    have hsize := linSize_unique hh hh' hT o3
    have hol : owners.length = (L r).length := by rw [o2]; simp [gs]
    have hadd : addToEach (s r 3) (owners.map Prod.fst) rankStart = some ((owners.map Prod.fst).map (fun x => x + (rankStart : Int))) :=
      mapEach_eq _ _ (fun x => x + (rankStart : Int)) _ (fun _ _ => rfl)
    have hin : InRange (L r) (st r).marks.length := hLb
    obtain ⟨ranks, r1, r2, r3, r4, _⟩ := C05_map_into (s r 4) ((owners.map Prod.fst).map (fun x => x + (rankStart : Int))) (L r) (st r).ranks 1
      (st r).marks.length (by simp [hol]) (by rw [(hlen r hr).1, Nat.mul_one]) hin hLinj
    obtain ⟨idxs, x1, x2, x3, x4, _⟩ := C05_map_into (s r 5) (owners.map Prod.snd) (L r) (st r).idxs 1
      (st r).marks.length (by simp [hol]) (by rw [(hlen r hr).2, Nat.mul_one]) hin hLinj
    have hls : (if rankStart ≤ r ∧ r < rankStart + h then linearPartitionSize T h ((r : Int) - rankStart) else some (st r).linsize) =
        some (if rankStart ≤ r ∧ r < rankStart + h then ((linSize T h (r - rankStart) : Nat) : Int) else (st r).linsize) := by
      split
      · rename_i hc
        rw [show (r : Int) - rankStart = ((r - rankStart : Nat) : Int) by omega]
        exact linearPartitionSize_eq T h _ hh hh' hT
      · rfl
    refine ⟨⟨(M r).1, ranks, idxs, if rankStart ≤ r ∧ r < rankStart + h then ((linSize T h (r - rankStart) : Nat) : Int) else (st r).linsize⟩,
      ?_, rfl, ⟨r2, x2⟩, ?_, ?_, rfl⟩
    · rw [world_get _ hr, Option.bind_some, world_get _ hr, Option.bind_some, hcounts.1, hcounts.2 r (by omega)]
      unfold bipartLocal
      have hg : (List.range (M r).2.length).map (fun i => ((blockOff L r + i : Nat) : Int)) = gs.map Int.ofNat := by
        show _ = ((List.range (L r).length).map _).map _
        rw [List.map_map]; rfl
      rw [hg, o1, Option.bind_some, hadd, Option.bind_some]
      show (mapInto (s r 4) _ (L r) _ 1).bind _ = _
      rw [r1, Option.bind_some]
      show (mapInto (s r 5) _ (L r) _ 1).bind _ = _
      rw [x1, Option.bind_some, hls]; rfl
    · intro j i hj
      have hjl := (List.getElem?_eq_some_iff.1 hj).1
      have hgj : gs[j]? = some (blockOff L r + j) := by
        show ((List.range (L r).length).map _)[j]? = _
        rw [List.getElem?_map, List.getElem?_range hjl]; rfl
      obtain ⟨q, x, q1, q2, q3, q4⟩ := o4 j _ hgj
      refine ⟨q, x, q2, by rw [← hsize q q2]; exact q3, by rw [q4]; exact globalOf_congr hsize (by omega), ?_, ?_⟩
      · have := r3 j i 0 hj (by omega)
        rw [entry_one, entry_one] at this
        rw [this, List.getElem?_map, List.getElem?_map, q1]
        show some (some ((q : Int) + rankStart)) = _
        congr 2
        omega
      · have := x3 j i 0 hj (by omega)
        rw [entry_one, entry_one] at this
        rw [this, List.getElem?_map, q1]; rfl
    · intro i hi
      have hni : ¬ InImage (L r) i := by
        rintro ⟨j, hj⟩
        exact hi (List.mem_of_getElem? hj)
      have a1 := r4 i 0 hni (by omega)
      have a2 := x4 i 0 hni (by omega)
      rw [entry_one, entry_one] at a1 a2
      exact ⟨a1, a2⟩)
  refine ⟨st', linSize T h, L, ?_, ?_⟩
  · unfold bipartRound
    rw [world_length, m1, Option.bind_some]
    exact t1
  · refine ⟨?_, ?_, fun r hr => (t2 r hr).2.1, fun r j i hr => (t2 r hr).2.2.1 j i, fun r i hr => (t2 r hr).2.2.2.1 i,
      fun r hr => (t2 r hr).2.2.2.2, hbal.1, hbal.2⟩
    · intro r hr
      rw [(t2 r hr).1]
      exact ⟨(m2 r hr).1, (m2 r hr).2.1, (m2 r hr).2.2.1⟩
    · intro r hr
      rw [(t2 r hr).1]
      exact (m2 r hr).2.2.2

theorem globalOf_inj {size : Nat → Nat} {r r' i i' : Nat} (hi : i < size r) (hi' : i' < size r') (h : globalOf size r i = globalOf size r' i') :
    r = r' ∧ i = i' := by
  rcases Nat.lt_trichotomy r r' with hc | hc | hc
  · have := globalOf_lt_of_rank_lt (i' := i') hc hi
    omega
  · subst hc
    unfold globalOf at h
    exact ⟨rfl, by omega⟩
  · have := globalOf_lt_of_rank_lt (i' := i) hc hi'
    omega

theorem blockOff_eq {α : Type} (B : Nat → List α) (r i : Nat) : blockOff B r + i = globalOf (fun r => (B r).length) r i := rfl

theorem globalOf_bound {size : Nat → Nat} {h q x : Nat} (hq : q < h) (hx : x < size q) : globalOf size q x < ((List.range h).map size).sum := by
  have h1 : globalOf size q x < globalOf size h 0 := globalOf_lt_of_rank_lt hq hx
  exact h1

/-- The items in `L` are dealt in order to the ranks from `start` on. -/
structure Dealt (n h start : Nat) (size : Nat → Nat) (L : Nat → List Nat) (dests : Nat → Remotes) : Prop where
  hit : ∀ r j i : Nat, r < n → (L r)[j]? = some i → ∃ q x : Nat, q < h ∧ x < size q ∧ blockOff L r + j = globalOf size q x ∧
    destOf dests r i = some (start + q, x)
  total : ((List.range h).map size).sum = blockOff L n

theorem Dealt.onto {n h start : Nat} {size : Nat → Nat} {L : Nat → List Nat} {dests : Nat → Remotes} (H : Dealt n h start size L dests)
    {q x : Nat} (hq : q < h) (hx : x < size q) : ∃ r j i, r < n ∧ (L r)[j]? = some i ∧ destOf dests r i = some (start + q, x) ∧
      blockOff L r + j = globalOf size q x := by
  have hb := globalOf_bound hq hx
  rw [H.total] at hb
  obtain ⟨r, j, hr, hj, he⟩ := blocks_cover L hb
  obtain ⟨i, hi⟩ : ∃ i, (L r)[j]? = some i := ⟨_, List.getElem?_eq_getElem hj⟩
  obtain ⟨q', x', h1, h2, h3, h4⟩ := H.hit r j i hr hi
  obtain ⟨rfl, rfl⟩ := globalOf_inj hx h2 (he.trans h3)
  exact ⟨r, j, i, hr, hi, h4, he.symm⟩

theorem Dealt.inj {n h start : Nat} {size : Nat → Nat} {L : Nat → List Nat} {dests : Nat → Remotes} (H : Dealt n h start size L dests)
    {r r' i i' : Nat} {y : Nat × Nat} (hr : r < n) (hr' : r' < n) (hi : i ∈ L r) (hi' : i' ∈ L r') (hd : destOf dests r i = some y)
    (hd' : destOf dests r' i' = some y) : r = r' ∧ i = i' := by
  obtain ⟨j, hj⟩ := List.getElem?_of_mem hi
  obtain ⟨j', hj'⟩ := List.getElem?_of_mem hi'
  obtain ⟨q, x, _, h2, h3, h4⟩ := H.hit r j i hr hj
  obtain ⟨q', x', _, h2', h3', h4'⟩ := H.hit r' j' i' hr' hj'
  have e := (Option.some.inj (h4.symm.trans hd)).trans (Option.some.inj (h4'.symm.trans hd')).symm
  have e1 : start + q = start + q' := congrArg Prod.fst e
  obtain rfl : q = q' := by omega
  obtain rfl : x = x' := congrArg Prod.snd e
  have := h3.trans h3'.symm
  rw [blockOff_eq, blockOff_eq] at this
  obtain ⟨rfl, rfl⟩ := globalOf_inj (List.getElem?_eq_some_iff.1 hj).1 (List.getElem?_eq_some_iff.1 hj').1 this
  exact ⟨rfl, Option.some.inj (hj.symm.trans hj')⟩

/-- What the ranks get, put together, is what was dealt. -/
theorem Dealt.flat {n h start : Nat} {size : Nat → Nat} {L : Nat → List Nat} {dests : Nat → Remotes} (H : Dealt n h start size L dests)
    {α : Type} {data out : Nat → List α} (hlen : ∀ q, q < h → (out (start + q)).length = size q)
    (hout : ∀ q x r i : Nat, q < h → r < n → destOf dests r i = some (start + q, x) → (out (start + q))[x]? = (data r)[i]?)
    (hL : ∀ r, r < n → ∀ i ∈ L r, i < (data r).length) :
    (List.range h).flatMap (fun q => out (start + q)) = (List.range n).flatMap (fun r => (L r).filterMap (fun i => (data r)[i]?)) := by
  let U : Nat → List α := fun r => (L r).filterMap (fun i => (data r)[i]?)
  have hU : ∀ r, r < n → (U r).length = (L r).length ∧ ∀ j i : Nat, (L r)[j]? = some i → (U r)[j]? = (data r)[i]? := by
    intro r hr
    have key : ∀ l : List Nat, (∀ i ∈ l, i < (data r).length) → (l.filterMap (fun i => (data r)[i]?)).length = l.length ∧
        ∀ j i : Nat, l[j]? = some i → (l.filterMap (fun i => (data r)[i]?))[j]? = (data r)[i]? := by
      intro l
      induction l with
      | nil => intro _; exact ⟨rfl, fun j i h => by simp at h⟩
      | cons a l ih =>
        intro hl
        obtain ⟨h1, h2⟩ := ih (fun i hi => hl i (List.mem_cons_of_mem _ hi))
        have ha := List.getElem?_eq_getElem (hl a List.mem_cons_self)
        rw [List.filterMap_cons_some ha]
        refine ⟨by simp [h1], ?_⟩
        intro j i hj
        cases j with
        | zero =>
          obtain rfl := Option.some.inj hj
          rw [ha]; rfl
        | succ j => exact h2 j i hj
    exact key (L r) (hL r hr)
  have hoff : ∀ k, k ≤ n → blockOff U k = blockOff L k := by
    intro k
    induction k with
    | zero => intro _; rfl
    | succ k ih =>
      intro hk
      rw [blockOff_succ, blockOff_succ, ih (by omega), (hU k (by omega)).1]
  have hoffo : ∀ k, k ≤ h → blockOff (fun q => out (start + q)) k = ((List.range k).map size).sum := by
    intro k hk
    unfold blockOff
    congr 1
    apply List.map_congr_left
    intro q hq
    exact hlen q (by have := List.mem_range.1 hq; omega)
  apply List.ext_getElem?
  intro g
  show _ = ((List.range n).flatMap U)[g]?
  rcases Nat.lt_or_ge g (blockOff L n) with hg | hg
  · obtain ⟨q, x, hq, hx, rfl⟩ := blocks_cover (fun q => out (start + q)) (show g < blockOff (fun q => out (start + q)) h by
      rw [hoffo h (Nat.le_refl _), H.total]; exact hg)
    rw [blocks_get _ hq hx]
    have hxs : x < size q := by rw [← hlen q hq]; exact hx
    obtain ⟨r, j, i, hr, hj, hd, he⟩ := H.onto hq hxs
    have hg2 : blockOff (fun q => out (start + q)) q + x = blockOff U r + j := by
      rw [hoffo q (by omega), hoff r (by omega), he]; rfl
    rw [hg2, blocks_get U hr (by rw [(hU r hr).1]; exact (List.getElem?_eq_some_iff.1 hj).1), (hU r hr).2 j i hj]
    exact hout q x r i hq hr hd
  · rw [List.getElem?_eq_none (by rw [blocks_length, hoffo h (Nat.le_refl _), H.total]; exact hg),
      List.getElem?_eq_none (by rw [blocks_length, hoff n (Nat.le_refl _)]; exact hg)]

theorem eq_filterMap_range {α : Type} (l : List α) : l = (List.range l.length).filterMap (fun i => l[i]?) := by
  induction l using List.reverseRecOn with
  | nil => rfl
  | append_singleton l a ih =>
    rw [List.length_append, List.length_singleton, List.range_succ, List.filterMap_append]
    have h1 : (List.range l.length).filterMap (fun i => (l ++ [a])[i]?) = (List.range l.length).filterMap (fun i => l[i]?) := by
      apply List.filterMap_congr
      intro i hi
      rw [List.getElem?_append_left (List.mem_range.1 hi)]
    rw [h1, ← ih]
    simp

/-- The rows with a mark are those that the marks select. -/
theorem withMark_eq {α : Type} (m : Int) (marks : List Int) (rows : List α) (hl : marks.length = rows.length) (sel : List Nat)
    (hs : sel.Pairwise (· < ·)) (hmem : ∀ i, i ∈ sel ↔ marks[i]? = some m) :
    withMark m marks rows = sel.filterMap (fun i => rows[i]?) := by
  have hsel : sel = (List.range rows.length).filter (fun i => decide (marks[i]? = some m)) := by
    have hp : sel.Perm ((List.range rows.length).filter (fun i => decide (marks[i]? = some m))) := by
      apply (List.perm_ext_iff_of_nodup (hs.imp (fun h => Nat.ne_of_lt h)) (List.nodup_range.filter _)).2
      intro i
      rw [hmem, List.mem_filter, List.mem_range, decide_eq_true_eq]
      constructor
      · intro h
        exact ⟨by rw [← hl]; exact (List.getElem?_eq_some_iff.1 h).1, h⟩
      · exact fun h => h.2
    exact hp.eq_of_pairwise (fun a b _ _ h1 h2 => absurd h1 (by omega)) hs (List.pairwise_lt_range.filter _)
  unfold withMark
  rw [hsel, List.filterMap_filter]
  have hz := eq_filterMap_range (rows.zip marks)
  rw [hz, List.filter_filterMap, List.map_filterMap]
  have hlen : (rows.zip marks).length = rows.length := by simp [hl]
  rw [hlen]
  apply List.filterMap_congr
  intro i hi
  have hi := List.mem_range.1 hi
  obtain ⟨x, hx⟩ : ∃ x, rows[i]? = some x := ⟨_, List.getElem?_eq_getElem hi⟩
  obtain ⟨y, hy⟩ : ∃ y, marks[i]? = some y := ⟨_, List.getElem?_eq_getElem (by omega)⟩
  have hxy : (rows.zip marks)[i]? = some (x, y) := List.getElem?_zip_eq_some.2 ⟨hx, hy⟩
  rw [hxy, hx, hy]
  by_cases hc : y = m
  · simp [hc]
  · simp [hc]

end OmegaH
