import Verif.Model.Dist
import Verif.Spec.Dist
import Verif.Lemmas.Blocks
import Verif.Lemmas.Fan
import Verif.Lemmas.Perm
import Verif.Props.C05
import Verif.Props.C06
/-!
# Communication patterns: links between the ranks
-/
namespace OmegaH
open Spec

theorem world_get {α : Type} {n : Nat} (f : Nat → α) {r : Nat} (h : r < n) : (world n f)[r]? = some (f r) := by
  simp [world, h]

theorem world_length {α : Type} (n : Nat) (f : Nat → α) : (world n f).length = n := by simp [world]

theorem world_congr {α : Type} {n : Nat} {f g : Nat → α} (h : ∀ r, r < n → f r = g r) : world n f = world n g := by
  unfold world
  apply List.map_congr_left
  intro r hr
  exact h r (List.mem_range.1 hr)

theorem world_map {α β : Type} (n : Nat) (f : Nat → α) (g : α → β) : (world n f).map g = world n (fun r => g (f r)) := by
  simp [world]

/-- Every list is what `length` ranks hold. -/
theorem eq_world {α : Type} [Inhabited α] (l : List α) : l = world l.length (fun r => l[r]!) := by
  apply List.ext_getElem (by simp [world])
  intro i h1 h2
  simp [world, h1]

/-- Position `c` of the outgoing data of rank `r` travels to position `c'` of the incoming data of rank `p`. -/
def Linked (D : Nat → Dist) (r c p c' : Nat) : Prop :=
  ∃ i j lo hi lo' hi' t : Nat, (D r).fwd.peers[i]? = some p ∧ (D p).rev.peers[j]? = some r ∧
    (D r).fwd.msgs2content[i]? = some lo ∧ (D r).fwd.msgs2content[i + 1]? = some hi ∧
    (D p).rev.msgs2content[j]? = some lo' ∧ (D p).rev.msgs2content[j + 1]? = some hi' ∧
    lo + t < hi ∧ c = lo + t ∧ c' = lo' + t

/-- The messages of one direction of a pattern on one rank. -/
structure MsgsOk (n : Nat) (d : DistDir) (m : Nat) : Prop where
  fan : IsFan d.msgs2content
  len : d.msgs2content.length = d.peers.length + 1
  last : d.msgs2content.getLast? = some m
  nodup : d.peers.Nodup
  rank : ∀ p ∈ d.peers, p < n

/-- The two directions fit. `nf r` and `nr r` are the numbers of items of rank `r`. -/
structure Wired (n : Nat) (D : Nat → Dist) (nf nr : Nat → Nat) : Prop where
  fwd : ∀ r, r < n → MsgsOk n (D r).fwd (nf r)
  rev : ∀ r, r < n → MsgsOk n (D r).rev (nr r)
  mate : ∀ r p, r < n → p < n → (p ∈ (D r).fwd.peers ↔ r ∈ (D p).rev.peers)
  size : ∀ (r p i j lo hi lo' hi' : Nat), r < n → p < n → (D r).fwd.peers[i]? = some p → (D p).rev.peers[j]? = some r →
    (D r).fwd.msgs2content[i]? = some lo → (D r).fwd.msgs2content[i + 1]? = some hi →
    (D p).rev.msgs2content[j]? = some lo' → (D p).rev.msgs2content[j + 1]? = some hi' → lo < hi ∧ hi - lo = hi' - lo'

theorem Wired.invert {n : Nat} {D : Nat → Dist} {nf nr : Nat → Nat} (h : Wired n D nf nr) :
    Wired n (fun r => (D r).invert) nr nf := by
  refine ⟨h.rev, h.fwd, fun r p hr hp => (h.mate p r hp hr).symm, ?_⟩
  intro r p i j lo hi lo' hi' hr hp h1 h2 h3 h4 h5 h6
  have := h.size p r j i lo' hi' lo hi hp hr h2 h1 h5 h6 h3 h4
  have hle := (h.rev r hr).fan.2 i lo hi h3 h4
  exact ⟨by omega, by omega⟩

theorem linked_invert {n : Nat} {D : Nat → Dist} {nf nr : Nat → Nat} (h : Wired n D nf nr) {r c p c' : Nat}
    (hr : r < n) (hp : p < n) (hl : Linked D r c p c') : Linked (fun r => (D r).invert) p c' r c := by
  obtain ⟨i, j, lo, hi, lo', hi', t, h1, h2, h3, h4, h5, h6, h7, h8, h9⟩ := hl
  have hs := h.size r p i j lo hi lo' hi' hr hp h1 h2 h3 h4 h5 h6
  have hle := (h.rev p hp).fan.2 j lo' hi' h5 h6
  exact ⟨j, i, lo', hi', lo, hi, t, h2, h1, h5, h6, h3, h4, by omega, h9, h8⟩

theorem nodup_index {l : List Nat} (h : l.Nodup) {i j x : Nat} (h1 : l[i]? = some x) (h2 : l[j]? = some x) : i = j :=
  (List.getElem?_inj (List.getElem?_eq_some_iff.1 h1).1 h).1 (h1.trans h2.symm)

/-- Every outgoing position is linked. -/
theorem linked_total {n : Nat} {D : Nat → Dist} {nf nr : Nat → Nat} (h : Wired n D nf nr) {r c : Nat} (hr : r < n)
    (hc : c < nf r) : ∃ p c', p < n ∧ c' < nr p ∧ Linked D r c p c' := by
  have hf := h.fwd r hr
  obtain ⟨m, e1, e2⟩ := fan_last hf.fan
  have hm : m = nf r := Option.some.inj (e1.symm.trans hf.last)
  subst hm
  obtain ⟨i, lo, hi, h1, h2, h3, h4⟩ := inFan_cover hf.fan e2 hc
  have hil : i < (D r).fwd.peers.length := by
    have := (List.getElem?_eq_some_iff.1 h2).1
    rw [hf.len] at this; omega
  obtain ⟨p, hp⟩ : ∃ p, (D r).fwd.peers[i]? = some p := ⟨_, List.getElem?_eq_getElem hil⟩
  have hpn := hf.rank p (List.mem_of_getElem? hp)
  obtain ⟨j, hj⟩ := List.mem_iff_getElem?.1 ((h.mate r p hr hpn).1 (List.mem_of_getElem? hp))
  have hg := h.rev p hpn
  have hjl := (List.getElem?_eq_some_iff.1 hj).1
  obtain ⟨lo', hlo'⟩ : ∃ x, (D p).rev.msgs2content[j]? = some x := ⟨_, List.getElem?_eq_getElem (by rw [hg.len]; omega)⟩
  obtain ⟨hi', hhi'⟩ : ∃ x, (D p).rev.msgs2content[j + 1]? = some x := ⟨_, List.getElem?_eq_getElem (by rw [hg.len]; omega)⟩
  have hs := h.size r p i j lo hi lo' hi' hr hpn hp hj h1 h2 hlo' hhi'
  obtain ⟨m', q1, q2⟩ := fan_last hg.fan
  have : m' = nr p := Option.some.inj (q1.symm.trans hg.last)
  subst this
  have := fan_le hg.fan (show j + 1 ≤ (D p).rev.msgs2content.length - 1 by rw [hg.len]; omega) hhi' q2
  exact ⟨p, lo' + (c - lo), hpn, by omega, i, j, lo, hi, lo', hi', c - lo, hp, hj, h1, h2, hlo', hhi', by omega, by omega, rfl⟩

/-- An outgoing position is linked to one place only. -/
theorem linked_unique {n : Nat} {D : Nat → Dist} {nf nr : Nat → Nat} (h : Wired n D nf nr) {r c p c' p2 c2 : Nat} (hr : r < n)
    (hp : p < n) (h1 : Linked D r c p c') (h2 : Linked D r c p2 c2) : p = p2 ∧ c' = c2 := by
  obtain ⟨i, j, lo, hi, lo', hi', t, a1, a2, a3, a4, a5, a6, a7, a8, a9⟩ := h1
  obtain ⟨i2, j2, lo2, hi2, lo2', hi2', t2, b1, b2, b3, b4, b5, b6, b7, b8, b9⟩ := h2
  have hi : i = i2 := inFan_unique (h.fwd r hr).fan (b := c) ⟨lo, hi, a3, a4, by omega, by omega⟩ ⟨lo2, hi2, b3, b4, by omega, by omega⟩
  subst hi
  obtain rfl := Option.some.inj (a1.symm.trans b1)
  obtain rfl := Option.some.inj (a3.symm.trans b3)
  obtain rfl := nodup_index (h.rev p hp).nodup a2 b2
  obtain rfl := Option.some.inj (a5.symm.trans b5)
  exact ⟨rfl, by omega⟩

theorem linked_lt {n : Nat} {D : Nat → Dist} {nf nr : Nat → Nat} (h : Wired n D nf nr) {r c p c' : Nat}
    (hr : r < n) (hl : Linked D r c p c') : p < n ∧ c < nf r ∧ c' < nr p := by
  obtain ⟨i, j, lo, hi, lo', hi', t, a1, a2, a3, a4, a5, a6, a7, a8, a9⟩ := hl
  have hp := (h.fwd r hr).rank p (List.mem_of_getElem? a1)
  have hs := h.size r p i j lo hi lo' hi' hr hp a1 a2 a3 a4 a5 a6
  refine ⟨hp, ?_, ?_⟩
  · obtain ⟨m, q1, q2⟩ := fan_last (h.fwd r hr).fan
    obtain rfl := Option.some.inj (q1.symm.trans (h.fwd r hr).last)
    exact (inFan_lt (h.fwd r hr).fan (a := i) ⟨lo, hi, a3, a4, by omega, by omega⟩ q2).1
  · obtain ⟨m, q1, q2⟩ := fan_last (h.rev p hp).fan
    have := Option.some.inj (q1.symm.trans (h.rev p hp).last)
    subst this
    exact (inFan_lt (h.rev p hp).fan (a := j) ⟨lo', hi', a5, a6, by omega, by omega⟩ q2).1

theorem count_of_nodup {l : List Nat} (h : l.Nodup) (x : Nat) : l.count x = if x ∈ l then 1 else 0 := by
  split
  next hx => exact List.count_eq_one_of_mem h hx
  next hx => exact List.count_eq_zero_of_not_mem hx

theorem matched_of_wired {n : Nat} {D : Nat → Dist} {nf nr : Nat → Nat} (h : Wired n D nf nr) :
    matched (world n (fun r => (D r).plan)) = true := by
  have hmem : ∀ x : Plan × Nat, x ∈ (world n (fun r => (D r).plan)).zipIdx → x.2 < n ∧ x.1 = (D x.2).plan := by
    rintro ⟨P, q⟩ hx
    rw [List.mem_zipIdx_iff_getElem?] at hx
    have hq := (List.getElem?_eq_some_iff.1 hx).1
    rw [world_length] at hq
    rw [world_get _ hq] at hx
    exact ⟨hq, (Option.some.inj hx).symm⟩
  unfold matched
  rw [Bool.and_eq_true]
  constructor
  · rw [List.all_eq_true]
    intro P hP
    obtain ⟨r, hr, rfl⟩ := List.mem_map.1 hP
    have hr := List.mem_range.1 hr
    simp only [Bool.and_eq_true, List.all_eq_true, decide_eq_true_eq, world_length]
    exact ⟨(h.fwd r hr).rank, (h.rev r hr).rank⟩
  · rw [List.all_eq_true]
    intro x hx
    rw [List.all_eq_true]
    intro y hy
    obtain ⟨x1, x2⟩ := hmem x hx
    obtain ⟨y1, y2⟩ := hmem y hy
    obtain ⟨P, q⟩ := x
    obtain ⟨P', p⟩ := y
    simp only at x1 x2 y1 y2
    subst x2 y2
    simp only [beq_iff_eq]
    show (D q).fwd.peers.count p = (D p).rev.peers.count q
    rw [count_of_nodup (h.fwd q x1).nodup, count_of_nodup (h.rev p y1).nodup]
    simp only [h.mate q p x1 y1]

/-- The message at place `i` of a rank. -/
def msgAt {α : Type} (d : DistDir) (w : Nat) (buf : List α) (i : Nat) : List α :=
  (buf.drop (d.msgs2content.getD i 0 * w)).take ((d.msgs2content.getD (i + 1) 0 - d.msgs2content.getD i 0) * w)

theorem outbox_spec {α : Type} {n : Nat} {d : Dist} {m w : Nat} (h : MsgsOk n d.fwd m) (hw : 0 < w)
    (hpos : ∀ i lo hi, d.fwd.msgs2content[i]? = some lo → d.fwd.msgs2content[i + 1]? = some hi → lo < hi)
    {buf : List α} (hb : buf.length = m * w) :
    outbox d.plan w buf = some ((List.range d.fwd.peers.length).map (fun i => (d.fwd.peers.getD i 0, msgAt d.fwd w buf i))) := by
  obtain ⟨m', q1, q2⟩ := fan_last h.fan
  obtain rfl := Option.some.inj (q1.symm.trans h.last)
  unfold outbox
  show Option.bind d.fwd.msgs2content.getLast? _ = _
  rw [q1, Option.bind_some, if_pos hb]
  show (List.range d.fwd.peers.length).mapM _ = _
  apply mapM_range_some
  intro i hi
  have e0 : d.plan.dsts[i]? = some (d.fwd.peers.getD i 0) := by
    show d.fwd.peers[i]? = _
    simp [List.getD, List.getElem?_eq_getElem hi]
  have l1 : i + 1 < d.fwd.msgs2content.length := by rw [h.len]; omega
  have e1 : d.plan.sdispls[i]? = some (d.fwd.msgs2content.getD i 0) := by
    show d.fwd.msgs2content[i]? = _
    simp [List.getD, List.getElem?_eq_getElem (show i < d.fwd.msgs2content.length by omega)]
  have e2 : d.plan.sdispls[i + 1]? = some (d.fwd.msgs2content.getD (i + 1) 0) := by
    show d.fwd.msgs2content[i + 1]? = _
    simp [List.getD, List.getElem?_eq_getElem l1]
  have hlt := hpos i _ _ e1 e2
  have hle := fan_le h.fan (show i + 1 ≤ d.fwd.msgs2content.length - 1 by omega) e2 q2
  rw [e0, Option.bind_some, e1, Option.bind_some, e2, Option.bind_some, if_pos]
  · rfl
  · exact ⟨hlt, hw, by rw [hb]; exact Nat.mul_le_mul_right w hle⟩

theorem filter_range_eq {n i : Nat} (h : i < n) : (List.range n).filter (fun k => k == i) = [i] := by
  induction n with
  | zero => omega
  | succ n ih =>
    rw [List.range_succ, List.filter_append]
    rcases Nat.lt_or_ge i n with hlt | hge
    · rw [ih hlt]
      have : ((n == i) = true) = False := by simp; omega
      simp [this]
    · have : i = n := by omega
      subst this
      have : (List.range i).filter (fun k => k == i) = [] := by
        rw [List.filter_eq_nil_iff]
        intro a ha
        have := List.mem_range.1 ha
        simp; omega
      rw [this]; simp

theorem filter_at {α : Type} (l : List Nat) (f : Nat → α) (hn : l.Nodup) {i p : Nat} (hi : l[i]? = some p) :
    ((List.range l.length).map (fun k => (l.getD k 0, f k))).filter (fun m => m.1 == p) = [(p, f i)] := by
  have hil := (List.getElem?_eq_some_iff.1 hi).1
  rw [List.filter_map]
  have : (List.range l.length).filter ((fun m : Nat × α => m.1 == p) ∘ fun k => (l.getD k 0, f k)) = [i] := by
    have h2 : (List.range l.length).filter ((fun m : Nat × α => m.1 == p) ∘ fun k => (l.getD k 0, f k)) =
        (List.range l.length).filter (fun k => k == i) := by
      apply List.filter_congr
      intro k hk
      have hk := List.mem_range.1 hk
      simp only [Function.comp]
      have hkg : l[k]? = some (l.getD k 0) := by simp [List.getD, List.getElem?_eq_getElem hk]
      rw [Bool.eq_iff_iff, beq_iff_eq, beq_iff_eq]
      constructor
      · intro e; rw [e] at hkg; exact nodup_index hn hkg hi
      · rintro rfl; exact Option.some.inj (hkg.symm.trans hi)
    rw [h2]
    exact filter_range_eq hil
  rw [this]
  simp only [List.map_cons, List.map_nil]
  rw [show l.getD i 0 = p from by simp [List.getD, hi]]

theorem wired_pos {n : Nat} {D : Nat → Dist} {nf nr : Nat → Nat} (h : Wired n D nf nr) {r : Nat} (hr : r < n) :
    ∀ i lo hi, (D r).fwd.msgs2content[i]? = some lo → (D r).fwd.msgs2content[i + 1]? = some hi → lo < hi := by
  intro i lo hi h1 h2
  have hf := h.fwd r hr
  have hil : i < (D r).fwd.peers.length := by
    have := (List.getElem?_eq_some_iff.1 h2).1
    rw [hf.len] at this; omega
  obtain ⟨p, hp⟩ : ∃ p, (D r).fwd.peers[i]? = some p := ⟨_, List.getElem?_eq_getElem hil⟩
  have hpn := hf.rank p (List.mem_of_getElem? hp)
  obtain ⟨j, hj⟩ := List.mem_iff_getElem?.1 ((h.mate r p hr hpn).1 (List.mem_of_getElem? hp))
  have hjl := (List.getElem?_eq_some_iff.1 hj).1
  have hg := h.rev p hpn
  exact (h.size r p i j lo hi _ _ hr hpn hp hj h1 h2 (List.getElem?_eq_getElem (by rw [hg.len]; omega))
    (List.getElem?_eq_getElem (by rw [hg.len]; omega))).1

/-- The communication step: every outgoing row arrives where its position is linked to. -/
theorem alltoallv_spec {α : Type} (s : Nat → Sched) {n : Nat} {D : Nat → Dist} {nf nr : Nat → Nat} (h : Wired n D nf nr)
    {w : Nat} (hw : 0 < w) (B : Nat → List α) (hB : ∀ r, r < n → (B r).length = nf r * w) :
    ∃ out : Nat → List α, alltoallv s (world n (fun r => (D r).plan)) w (world n B) = some (world n out) ∧
      (∀ p, p < n → (out p).length = nr p * w) ∧
      ∀ r c p c', r < n → Linked D r c p c' → ∀ j, j < w → entry (out p) w c' j = entry (B r) w c j := by
  -- the blocks received by a rank
  let K : Nat → Nat → List α := fun p j =>
    msgAt (D ((D p).rev.peers.getD j 0)).fwd w (B ((D p).rev.peers.getD j 0)) ((D ((D p).rev.peers.getD j 0)).fwd.peers.idxOf p)
  have hK : ∀ p j, p < n → j < (D p).rev.peers.length → ∃ q i lo hi lo' hi', q < n ∧ (D p).rev.peers[j]? = some q ∧
      (D q).fwd.peers[i]? = some p ∧ (D q).fwd.msgs2content[i]? = some lo ∧ (D q).fwd.msgs2content[i + 1]? = some hi ∧
      (D p).rev.msgs2content[j]? = some lo' ∧ (D p).rev.msgs2content[j + 1]? = some hi' ∧ lo < hi ∧ hi - lo = hi' - lo' ∧
      hi ≤ nf q ∧ K p j = ((B q).drop (lo * w)).take ((hi - lo) * w) ∧ K p j = msgAt (D q).fwd w (B q) i := by
    intro p j hp hj
    obtain ⟨q, hq⟩ : ∃ q, (D p).rev.peers[j]? = some q := ⟨_, List.getElem?_eq_getElem hj⟩
    have hqn := (h.rev p hp).rank q (List.mem_of_getElem? hq)
    have hmem := (h.mate q p hqn hp).2 (List.mem_of_getElem? hq)
    have hil := List.idxOf_lt_length_of_mem hmem
    have hi : (D q).fwd.peers[(D q).fwd.peers.idxOf p]? = some p := by
      rw [List.getElem?_eq_getElem hil, List.getElem_idxOf hil]
    have hf := h.fwd q hqn
    have hg := h.rev p hp
    have e1 : (D q).fwd.msgs2content[(D q).fwd.peers.idxOf p]? = some _ := List.getElem?_eq_getElem (by rw [hf.len]; omega)
    have e2 : (D q).fwd.msgs2content[(D q).fwd.peers.idxOf p + 1]? = some _ := List.getElem?_eq_getElem (by rw [hf.len]; omega)
    have e3 : (D p).rev.msgs2content[j]? = some _ := List.getElem?_eq_getElem (by rw [hg.len]; omega)
    have e4 : (D p).rev.msgs2content[j + 1]? = some _ := List.getElem?_eq_getElem (by rw [hg.len]; omega)
    have hs := h.size q p _ j _ _ _ _ hqn hp hi hq e1 e2 e3 e4
    have hqg : (D p).rev.peers.getD j 0 = q := by simp [List.getD, hq]
    have hKe : K p j = msgAt (D q).fwd w (B q) ((D q).fwd.peers.idxOf p) := by
      show msgAt (D ((D p).rev.peers.getD j 0)).fwd w (B ((D p).rev.peers.getD j 0)) _ = _
      rw [hqg]
    obtain ⟨m, q1, q2⟩ := fan_last hf.fan
    have hm := Option.some.inj (q1.symm.trans hf.last)
    subst hm
    have hle := fan_le hf.fan (show (D q).fwd.peers.idxOf p + 1 ≤ (D q).fwd.msgs2content.length - 1 by rw [hf.len]; omega) e2 q2
    refine ⟨q, _, _, _, _, _, hqn, hq, hi, e1, e2, e3, e4, hs.1, hs.2, hle, ?_, hKe⟩
    rw [hKe]
    unfold msgAt
    simp only [List.getD, e1, e2, Option.getD_some]
  have hKlen : ∀ p j lo' hi', p < n → (D p).rev.msgs2content[j]? = some lo' → (D p).rev.msgs2content[j + 1]? = some hi' →
      (K p j).length = (hi' - lo') * w := by
    intro p j lo' hi' hp h1 h2
    have hj : j < (D p).rev.peers.length := by
      have := (List.getElem?_eq_some_iff.1 h2).1
      rw [(h.rev p hp).len] at this; omega
    obtain ⟨q, i, lo, hi, lo2, hi2, k1, k2, k3, k4, k5, k6, k7, k8, k9, k10, k11, _⟩ := hK p j hp hj
    obtain rfl := Option.some.inj (h1.symm.trans k6)
    obtain rfl := Option.some.inj (h2.symm.trans k7)
    rw [k11, List.length_take, List.length_drop, hB q k1, ← Nat.sub_mul, k9]
    have := Nat.mul_le_mul_right w (show hi - lo ≤ nf q - lo by omega)
    rw [k9] at this
    omega
  have hoff : ∀ p, p < n → ∀ j lo', (D p).rev.msgs2content[j]? = some lo' → blockOff (K p) j = lo' * w := by
    intro p hp j
    induction j with
    | zero =>
      intro lo' hlo
      rw [(h.rev p hp).fan.1] at hlo
      obtain rfl := Option.some.inj hlo
      simp [blockOff]
    | succ j ih =>
      intro lo' hlo
      have hjl := (List.getElem?_eq_some_iff.1 hlo).1
      have hj : (D p).rev.msgs2content[j]? = some _ := List.getElem?_eq_getElem (show j < _ by omega)
      rw [blockOff_succ, ih _ hj, hKlen p j _ _ hp hj hlo, ← Nat.add_mul]
      have := (h.rev p hp).fan.2 j _ _ hj hlo
      congr 1; omega
  refine ⟨fun p => (List.range (D p).rev.peers.length).flatMap (K p), ?_, ?_, ?_⟩
  · unfold alltoallv
    rw [if_pos (matched_of_wired h), world_length]
    rw [mapM_range_some n _ (fun r => (List.range (D r).fwd.peers.length).map (fun i => ((D r).fwd.peers.getD i 0, msgAt (D r).fwd w (B r) i))) (by
      intro r hr
      rw [world_get _ hr, Option.bind_some, world_get _ hr, Option.bind_some]
      exact outbox_spec (h.fwd r hr) hw (wired_pos h hr) (hB r hr))]
    rw [Option.bind_some]
    apply mapM_range_some
    intro p hp
    rw [world_get _ hp, Option.bind_some]
    unfold inbox
    show Option.bind (D p).rev.msgs2content.getLast? _ = _
    obtain ⟨m, q1, q2⟩ := fan_last (h.rev p hp).fan
    have hlast : blockOff (K p) (D p).rev.peers.length = m * w := by
      apply hoff p hp
      rw [← q2, (h.rev p hp).len]; rfl
    rw [q1, Option.bind_some, ← hlast]
    apply parConcat
    intro j hj
    have hj : j < (D p).rev.peers.length := hj
    obtain ⟨q, i, lo, hi, lo', hi', k1, k2, k3, k4, k5, k6, k7, k8, k9, k10, k11, k12⟩ := hK p j hp hj
    show Option.bind (D p).rev.peers[j]? _ = _
    rw [k2, Option.bind_some]
    show Option.bind (D p).rev.msgs2content[j]? _ = _
    rw [k6, Option.bind_some]
    show Option.bind (D p).rev.msgs2content[j + 1]? _ = _
    have hle := fan_le (h.rev p hp).fan (show j + 1 ≤ (D p).rev.msgs2content.length - 1 by rw [(h.rev p hp).len]; omega) k7 q2
    rw [k7, Option.bind_some, if_pos ⟨by omega, hw, by rw [hlast]; exact Nat.mul_le_mul_right w hle⟩]
    rw [show ((List.range n).map (fun r => (List.range (D r).fwd.peers.length).map (fun i => ((D r).fwd.peers.getD i 0, msgAt (D r).fwd w (B r) i))))[q]? =
      some ((List.range (D q).fwd.peers.length).map (fun i => ((D q).fwd.peers.getD i 0, msgAt (D q).fwd w (B q) i))) from world_get _ k1]
    rw [Option.bind_some]
    have hc0 : ((D p).rev.peers.take j).count q = 0 := by
      apply List.count_eq_zero_of_not_mem
      intro hm
      obtain ⟨k, hk⟩ := List.mem_iff_getElem?.1 hm
      rw [List.getElem?_take] at hk
      split at hk
      next hkj =>
        have := nodup_index (h.rev p hp).nodup hk k2
        omega
      next => simp at hk
    show Option.bind ((List.filter _ _)[((D p).rev.peers.take j).count q]?) _ = _
    rw [hc0, filter_at (D q).fwd.peers (fun i => msgAt (D q).fwd w (B q) i) (h.fwd q k1).nodup k3]
    show (if _ then _ else _) = _
    have hlen := hKlen p j _ _ hp k6 k7
    rw [if_pos]
    · rw [hoff p hp j lo' k6, k12]
    · show (msgAt (D q).fwd w (B q) i).length ≤ _
      rw [← k12, hlen]
      exact Nat.le_refl _
  · intro p hp
    rw [blocks_length]
    obtain ⟨m, q1, q2⟩ := fan_last (h.rev p hp).fan
    have := Option.some.inj (q1.symm.trans (h.rev p hp).last)
    subst this
    apply hoff p hp
    rw [← q2, (h.rev p hp).len]; rfl
  · intro r c p c' hr hl x hx
    have hp := (linked_lt h hr hl).1
    obtain ⟨i, j, lo, hi, lo', hi', t, a1, a2, a3, a4, a5, a6, a7, a8, a9⟩ := hl
    have hj := (List.getElem?_eq_some_iff.1 a2).1
    obtain ⟨q, i2, lo2, hi2, lo2', hi2', k1, k2, k3, k4, k5, k6, k7, k8, k9, k10, k11, k12⟩ := hK p j hp hj
    obtain rfl := Option.some.inj (a2.symm.trans k2)
    obtain rfl := nodup_index (h.fwd r hr).nodup a1 k3
    obtain rfl := Option.some.inj (a3.symm.trans k4)
    obtain rfl := Option.some.inj (a4.symm.trans k5)
    obtain rfl := Option.some.inj (a5.symm.trans k6)
    obtain rfl := Option.some.inj (a6.symm.trans k7)
    subst a8 a9
    unfold entry
    have hlt : t * w + x < (hi - lo) * w := by
      have := Nat.mul_le_mul_right w (show t + 1 ≤ hi - lo by omega)
      rw [Nat.add_mul] at this; omega
    have := blocks_get (K p) (n := (D p).rev.peers.length) (i := j) (j := t * w + x) hj (by
      rw [hKlen p j _ _ hp a5 a6, ← k9]; exact hlt)
    rw [hoff p hp j lo' a5] at this
    rw [show (lo' + t) * w + x = lo' * w + (t * w + x) by rw [Nat.add_mul]; omega, this, k11]
    rw [List.getElem?_take, if_pos hlt, List.getElem?_drop]
    congr 1
    rw [Nat.add_mul]; omega

/-! ## Items -/

/-- Item `i` of one direction is at position `c` of the data sorted by rank. -/
def ItemAt (d : DistDir) (i c : Nat) : Prop :=
  match d.items2content with
  | some perm => perm[i]? = some c
  | none => c = i

/-- Item `i` belongs to root `a`. -/
def RootOf (d : DistDir) (a i : Nat) : Prop :=
  match d.roots2items with
  | some fan => InFan fan a i
  | none => i = a

/-- Item `i` of rank `r` is item `k` on rank `p`. -/
def Route (D : Nat → Dist) (r i p k : Nat) : Prop :=
  ∃ c c', ItemAt (D r).fwd i c ∧ Linked D r c p c' ∧ ItemAt (D p).rev k c'

/-- The local arrays of one direction with `m` items and `nroots` roots. -/
structure DirOk (d : DistDir) (m nroots : Nat) : Prop where
  perm : ∀ q, d.items2content = some q → IsPermutation q m
  fan : ∀ f, d.roots2items = some f → IsFan f ∧ f.length = nroots + 1 ∧ f.getLast? = some m
  nofan : d.roots2items = none → nroots = m

/-- A pattern that fits, with its local arrays. -/
structure DistOk (n : Nat) (D : Nat → Dist) (nf nr rf rr : Nat → Nat) : Prop where
  wired : Wired n D nf nr
  fwd : ∀ r, r < n → DirOk (D r).fwd (nf r) (rf r)
  rev : ∀ r, r < n → DirOk (D r).rev (nr r) (rr r)

theorem DistOk.invert {n : Nat} {D : Nat → Dist} {nf nr rf rr : Nat → Nat} (h : DistOk n D nf nr rf rr) :
    DistOk n (fun r => (D r).invert) nr nf rr rf :=
  ⟨h.wired.invert, h.rev, h.fwd⟩

theorem route_invert {n : Nat} {D : Nat → Dist} {nf nr rf rr : Nat → Nat} (h : DistOk n D nf nr rf rr) {r i p k : Nat}
    (hr : r < n) (hl : Route D r i p k) : Route (fun r => (D r).invert) p k r i := by
  obtain ⟨c, c', h1, h2, h3⟩ := hl
  exact ⟨c', c, h3, linked_invert h.wired hr (linked_lt h.wired hr h2).1 h2, h1⟩

theorem itemAt_total {d : DistDir} {m nroots : Nat} (h : DirOk d m nroots) {i : Nat} (hi : i < m) :
    ∃ c, c < m ∧ ItemAt d i c := by
  unfold ItemAt
  cases hq : d.items2content with
  | none => exact ⟨i, hi, rfl⟩
  | some q =>
    obtain ⟨h1, h2, h3⟩ := h.perm q hq
    exact ⟨_, h2 _ (List.getElem_mem (show i < q.length by omega)), List.getElem?_eq_getElem (by omega)⟩

theorem itemAt_onto {d : DistDir} {m nroots : Nat} (h : DirOk d m nroots) {c : Nat} (hc : c < m) :
    ∃ i, i < m ∧ ItemAt d i c := by
  unfold ItemAt
  cases hq : d.items2content with
  | none => exact ⟨c, hc, rfl⟩
  | some q =>
    have hp := h.perm q hq
    obtain ⟨i, hi⟩ := isPermutation_surj hp c hc
    exact ⟨i, by have := (List.getElem?_eq_some_iff.1 hi).1; rw [hp.1] at this; exact this, hi⟩

theorem itemAt_inj {d : DistDir} {m nroots : Nat} (h : DirOk d m nroots) {i i2 c : Nat} (h1 : ItemAt d i c) (h2 : ItemAt d i2 c) :
    i = i2 := by
  unfold ItemAt at h1 h2
  cases hq : d.items2content with
  | none => rw [hq] at h1 h2; exact h1.symm.trans h2
  | some q => rw [hq] at h1 h2; exact (h.perm q hq).2.2 i i2 c h1 h2

theorem itemAt_fun {d : DistDir} {i c c2 : Nat} (h1 : ItemAt d i c) (h2 : ItemAt d i c2) : c = c2 := by
  unfold ItemAt at h1 h2
  cases hq : d.items2content with
  | none => rw [hq] at h1 h2; exact h1.trans h2.symm
  | some q => rw [hq] at h1 h2; exact Option.some.inj (h1.symm.trans h2)

theorem itemAt_lt {d : DistDir} {m nroots : Nat} (h : DirOk d m nroots) {i c : Nat} (h1 : ItemAt d i c) (hc : c < m) : i < m := by
  unfold ItemAt at h1
  cases hq : d.items2content with
  | none => rw [hq] at h1; have : c = i := h1; omega
  | some q => rw [hq] at h1; have := (List.getElem?_eq_some_iff.1 h1).1; rw [(h.perm q hq).1] at this; exact this

theorem route_total {n : Nat} {D : Nat → Dist} {nf nr rf rr : Nat → Nat} (h : DistOk n D nf nr rf rr) {r i : Nat}
    (hr : r < n) (hi : i < nf r) : ∃ p k, p < n ∧ k < nr p ∧ Route D r i p k := by
  obtain ⟨c, hc, h1⟩ := itemAt_total (h.fwd r hr) hi
  obtain ⟨p, c', hp, hc', h2⟩ := linked_total h.wired hr hc
  obtain ⟨k, hk, h3⟩ := itemAt_onto (h.rev p hp) hc'
  exact ⟨p, k, hp, hk, c, c', h1, h2, h3⟩

theorem route_lt {n : Nat} {D : Nat → Dist} {nf nr rf rr : Nat → Nat} (h : DistOk n D nf nr rf rr) {r i p k : Nat}
    (hr : r < n) (hl : Route D r i p k) : i < nf r ∧ p < n ∧ k < nr p := by
  obtain ⟨c, c', h1, h2, h3⟩ := hl
  obtain ⟨hp, hc, hc'⟩ := linked_lt h.wired hr h2
  exact ⟨itemAt_lt (h.fwd r hr) h1 hc, hp, itemAt_lt (h.rev p hp) h3 hc'⟩

theorem route_unique {n : Nat} {D : Nat → Dist} {nf nr rf rr : Nat → Nat} (h : DistOk n D nf nr rf rr) {r i p k p2 k2 : Nat}
    (hr : r < n) (h1 : Route D r i p k) (h2 : Route D r i p2 k2) : p = p2 ∧ k = k2 := by
  obtain ⟨c, c', a1, a2, a3⟩ := h1
  obtain ⟨d, d', b1, b2, b3⟩ := h2
  obtain rfl := itemAt_fun a1 b1
  have hp := (linked_lt h.wired hr a2).1
  obtain ⟨rfl, rfl⟩ := linked_unique h.wired hr hp a2 b2
  exact ⟨rfl, itemAt_inj (h.rev p hp) a3 b3⟩

theorem route_onto {n : Nat} {D : Nat → Dist} {nf nr rf rr : Nat → Nat} (h : DistOk n D nf nr rf rr) {p k : Nat}
    (hp : p < n) (hk : k < nr p) : ∃ r i, r < n ∧ i < nf r ∧ Route D r i p k := by
  obtain ⟨r, i, hr, hi, hl⟩ := route_total h.invert hp hk
  exact ⟨r, i, hr, hi, route_invert h.invert hp hl⟩

theorem route_inj {n : Nat} {D : Nat → Dist} {nf nr rf rr : Nat → Nat} (h : DistOk n D nf nr rf rr) {r i r2 i2 p k : Nat}
    (hr : r < n) (hr2 : r2 < n) (h1 : Route D r i p k) (h2 : Route D r2 i2 p k) : r = r2 ∧ i = i2 :=
  route_unique h.invert (route_lt h hr h1).2.1 (route_invert h hr h1) (route_invert h hr2 h2)

theorem pack_spec {α : Type} (s1 s2 : Sched) {d : Dist} {m nroots : Nat} (h : DirOk d.fwd m nroots) {w : Nat}
    {data : List α} (hd : data.length = nroots * w) :
    ∃ out, d.pack s1 s2 w data = some out ∧ out.length = m * w ∧
      ∀ a i c, RootOf d.fwd a i → ItemAt d.fwd i c → ∀ j, j < w → entry out w c j = entry data w a j := by
  have h1 : ∃ x, d.fwd.expandRoots s1 w data = some x ∧
      x.length = m * w ∧ ∀ a i, RootOf d.fwd a i → ∀ j, j < w → entry x w i j = entry data w a j := by
    unfold DistDir.expandRoots
    cases hf : d.fwd.roots2items with
    | none =>
      refine ⟨data, rfl, by rw [hd, h.nofan hf], ?_⟩
      intro a i hr j _
      unfold RootOf at hr
      rw [hf] at hr
      have : i = a := hr
      rw [this]
    | some f =>
      obtain ⟨f1, f2, f3⟩ := h.fan f hf
      obtain ⟨x, x1, x2, x3⟩ := C05_expand s1 data f w m f1 f3 (by rw [hd, f2]; rfl)
      refine ⟨x, x1, x2, ?_⟩
      intro a i hr j hj
      unfold RootOf at hr
      rw [hf] at hr
      exact x3 a i j hr hj
  obtain ⟨x, x1, x2, x3⟩ := h1
  unfold Dist.pack
  rw [x1, Option.bind_some]
  unfold DistDir.permuteItems
  cases hq : d.fwd.items2content with
  | none =>
    refine ⟨x, rfl, x2, ?_⟩
    intro a i c hr hc j hj
    unfold ItemAt at hc
    rw [hq] at hc
    have : c = i := hc
    rw [this]
    exact x3 a i hr j hj
  | some q =>
    obtain ⟨y, y1, y2, y3⟩ := C05_permute s2 x q w m x2 (h.perm q hq)
    refine ⟨y, y1, y2, ?_⟩
    intro a i c hr hc j hj
    unfold ItemAt at hc
    rw [hq] at hc
    rw [y3 i c j hc hj]
    exact x3 a i hr j hj

theorem unpack_spec {α : Type} (s : Sched) {d : Dist} {m nroots : Nat} (h : DirOk d.rev m nroots) {w : Nat}
    {data : List α} (hd : data.length = m * w) :
    ∃ out, d.unpack s w data = some out ∧ out.length = m * w ∧
      ∀ k c, ItemAt d.rev k c → ∀ j, j < w → entry out w k j = entry data w c j := by
  unfold Dist.unpack
  cases hq : d.rev.items2content with
  | none =>
    refine ⟨data, rfl, hd, ?_⟩
    intro k c hc j _
    unfold ItemAt at hc
    rw [hq] at hc
    have : c = k := hc
    rw [this]
  | some q =>
    have hp := h.perm q hq
    obtain ⟨y, y1, y2, y3⟩ := C05_unmap s q data w m (by omega) hp.2.1
    refine ⟨y, y1, by rw [y2, hp.1], ?_⟩
    intro k c hc j hj
    unfold ItemAt at hc
    rw [hq] at hc
    exact y3 k c j hc hj

theorem choose_world {β : Type} [Inhabited β] {n : Nat} (f : Nat → Option β) (P : Nat → β → Prop)
    (h : ∀ r, r < n → ∃ x, f r = some x ∧ P r x) :
    ∃ W : Nat → β, (List.range n).mapM f = some (world n W) ∧ ∀ r, r < n → P r (W r) := by
  have : ∀ r, ∃ x, r < n → f r = some x ∧ P r x := by
    intro r
    by_cases hr : r < n
    · obtain ⟨x, hx⟩ := h r hr
      exact ⟨x, fun _ => hx⟩
    · exact ⟨default, fun hh => absurd hh hr⟩
  choose W hW using this
  exact ⟨W, mapM_range_some n f W (fun i hi => (hW i hi).1), fun r hr => (hW r hr).2⟩

/-- `exch`: every item of a destination rank gets the data of the root its item came from. -/
theorem exch_spec {α : Type} (s : Nat → Nat → Sched) {n : Nat} {D : Nat → Dist} {nf nr rf rr : Nat → Nat}
    (h : DistOk n D nf nr rf rr) {w : Nat} (hw : 0 < w) (data : Nat → List α) (hd : ∀ r, r < n → (data r).length = rf r * w) :
    ∃ out : Nat → List α, Dist.exch s (world n D) w (world n data) = some (world n out) ∧
      (∀ p, p < n → (out p).length = nr p * w) ∧
      ∀ r a i p k, r < n → RootOf (D r).fwd a i → Route D r i p k → ∀ j, j < w → entry (out p) w k j = entry (data r) w a j := by
  unfold Dist.exch
  rw [world_length]
  obtain ⟨B, b1, b2⟩ := choose_world (n := n)
    (fun r => ((world n D)[r]?).bind (fun d => ((world n data)[r]?).bind (fun x => d.pack (s r 0) (s r 1) w x)))
    (fun r out => out.length = nf r * w ∧
      ∀ a i c, RootOf (D r).fwd a i → ItemAt (D r).fwd i c → ∀ j, j < w → entry out w c j = entry (data r) w a j) (by
    intro r hr
    obtain ⟨out, o1, o2, o3⟩ := pack_spec (s r 0) (s r 1) (h.fwd r hr) (hd r hr)
    exact ⟨out, by rw [world_get _ hr, Option.bind_some, world_get _ hr, Option.bind_some]; exact o1, o2, o3⟩)
  rw [b1, Option.bind_some, world_map]
  obtain ⟨C, c1, c2, c3⟩ := alltoallv_spec (fun r => s r 2) h.wired hw B (fun r hr => (b2 r hr).1)
  rw [c1, Option.bind_some]
  obtain ⟨E, e1, e2⟩ := choose_world (n := n)
    (fun r => ((world n D)[r]?).bind (fun d => ((world n C)[r]?).bind (fun x => d.unpack (s r 3) w x)))
    (fun p out => out.length = nr p * w ∧
      ∀ k c, ItemAt (D p).rev k c → ∀ j, j < w → entry out w k j = entry (C p) w c j) (by
    intro r hr
    obtain ⟨out, o1, o2, o3⟩ := unpack_spec (s r 3) (h.rev r hr) (c2 r hr)
    exact ⟨out, by rw [world_get _ hr, Option.bind_some, world_get _ hr, Option.bind_some]; exact o1, o2, o3⟩)
  refine ⟨E, e1, fun p hp => (e2 p hp).1, ?_⟩
  rintro r a i p k hr hroot ⟨c, c', r1, r2, r3⟩ j hj
  have hp := (linked_lt h.wired hr r2).1
  rw [(e2 p hp).2 k c' r3 j hj, c3 r c p c' hr r2 j hj]
  exact (b2 r hr).2 a i c hroot r1 j hj

end OmegaH
