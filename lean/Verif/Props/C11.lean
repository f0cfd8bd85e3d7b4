import Verif.Lemmas.SelSort
import Verif.Lemmas.Perm
import Verif.Props.C04
import Verif.Props.C09
import Mathlib.Data.List.Perm.Basic

/-! # C11: adjacency inversion keeps exactly the incidences, with correct local positions -/

namespace OmegaH

open Spec

/-- Reading a stored `(high, code)` pair. -/
def Spec.readUse (h : Nat) (code : Int) : Use :=
  ⟨h, codeWhichDown code, codeIsFlipped code, codeRotation code⟩

/-- The orientation recorded by an optional array of downward codes (no codes: never turned). -/
def Spec.downOrient (codes : Option (List Int)) (hl : Nat) : Bool × Int :=
  match codes with
  | none => (false, 0)
  | some dc => match dc[hl]? with
    | none => (false, 0)
    | some c => (codeIsFlipped c, codeRotation c)

theorem inverse_row {a2b : List Nat} {nb : Nat} {o v : List Nat} (h : IsInverse a2b nb o v)
    {b lo hi : Nat} (h1 : o[b]? = some lo) (h2 : o[b + 1]? = some hi) :
    (segment v lo hi).Perm ((List.range a2b.length).filter (fun a => a2b[a]? = some b)) := by
  obtain ⟨hlen, hfan, hlast, hperm, hmem⟩ := h
  have hnd : v.Nodup := hperm.2.2.nodup
  refine (List.perm_ext_iff_of_nodup ?_ (List.nodup_range.filter _)).2 ?_
  · exact hnd.sublist ((List.drop_sublist _ _).trans (List.take_sublist _ _))
  · intro a
    rw [List.mem_filter, List.mem_range]
    constructor
    · intro ha
      obtain ⟨i, hi'⟩ := List.mem_iff_getElem?.1 ha
      unfold segment at hi'
      rw [List.getElem?_drop, List.getElem?_take] at hi'
      by_cases hc : lo + i < hi
      · rw [if_pos hc] at hi'
        refine ⟨hperm.2.1 a (List.mem_of_getElem? hi'), ?_⟩
        have := (hmem (lo + i) a b hi').1 ⟨lo, hi, h1, h2, by omega, hc⟩
        simpa using this
      · rw [if_neg hc] at hi'; cases hi'
    · rintro ⟨ha, hb⟩
      obtain ⟨p, hp⟩ := isPermutation_surj hperm a ha
      have hb' : a2b[a]? = some b := by simpa using hb
      obtain ⟨lo', hi', e1, e2, e3, e4⟩ := (hmem p a b hp).2 hb'
      rw [h1] at e1; rw [h2] at e2
      obtain rfl := Option.some.inj e1
      obtain rfl := Option.some.inj e2
      refine List.mem_iff_getElem?.2 ⟨p - lo, ?_⟩
      unfold segment
      rw [List.getElem?_drop, List.getElem?_take, Nat.add_sub_cancel' e3, if_pos e4, hp]

/-- The separation step computes, for every incidence, the high entity and a code that reads back the
local position and the downward orientation. -/
theorem separateUpward_spec (s1 s2 : Sched) (lh2hl : List Nat) (n nhl : Nat) (hn0 : 0 < n)
    (hn : n ≤ 16) (dc : Option (List Int)) (hr : InRange lh2hl nhl)
    (hdc : ∀ l, dc = some l → l.length = nhl) :
    ∃ z : List (Nat × Int), separateUpward s1 s2 lh2hl n dc = some (unz z) ∧
      z.length = lh2hl.length ∧
      ∀ lh hl : Nat, lh2hl[lh]? = some hl → ∃ c : Int, z[lh]? = some (hl / n, c) ∧ 0 ≤ c ∧
        readUse (hl / n) c = ⟨hl / n, (hl % n : Nat), (downOrient dc hl).1, (downOrient dc hl).2⟩ := by
  have hn' : n ≠ 0 := by omega
  have hcode : ∀ hl, hl < nhl → ∃ c : Int, upCode dc hl (hl % n) = some c ∧ 0 ≤ c ∧
        readUse (hl / n) c = ⟨hl / n, (hl % n : Nat), (downOrient dc hl).1, (downOrient dc hl).2⟩ := by
    intro hl hhl
    have hw : hl % n < 16 := by have := Nat.mod_lt hl hn0; omega
    cases dc with
    | none =>
      obtain ⟨c, e1, e2, _, e3, e4, e5⟩ := C09_unpack_pack false 0 (hl % n) (by omega) hw
      refine ⟨c, by simpa [upCode] using e1, e2, ?_⟩
      simp only [readUse, downOrient, e3, e4, e5, Int.natCast_zero]
    | some l =>
      have hlt : hl < l.length := by rw [hdc l rfl]; exact hhl
      have hc := List.getElem?_eq_getElem hlt
      have hrr := codeRotation_range l[hl]
      obtain ⟨c, e1, e2, _, e3, e4, e5⟩ := C09_unpack_pack (codeIsFlipped l[hl])
        (codeRotation l[hl]).toNat (hl % n) (by omega) hw
      rw [Int.toNat_of_nonneg hrr.1] at e1 e4
      refine ⟨c, by simpa [upCode, hc] using e1, e2, ?_⟩
      simp only [readUse, downOrient, hc, e3, e4, e5]
  unfold separateUpward
  obtain ⟨a, a1, a2, a3⟩ := parScatter_build s1 lh2hl.length lh2hl.length
    (fun lh => (lh2hl[lh]?).bind (fun hl => if n = 0 then none else some [(lh, hl / n)]))
    (fun lh => match lh2hl[lh]? with | some hl => [(lh, hl / n)] | none => [])
    (fun lh => (lh2hl[lh]?).map (· / n))
    (by intro i hi; simp [List.getElem?_eq_getElem hi, hn'])
    (by
      intro i hi p v hpv
      rw [List.getElem?_eq_getElem hi] at hpv
      simp at hpv
      obtain ⟨rfl, rfl⟩ := hpv
      exact ⟨hi, by simp [List.getElem?_eq_getElem hi]⟩)
    (by intro p hp; exact ⟨p, hp, _, by rw [List.getElem?_eq_getElem hp]; exact List.mem_singleton.2 rfl⟩)
  obtain ⟨b, b1, b2, b3⟩ := parScatter_buildR s2 lh2hl.length lh2hl.length
    (fun lh => (lh2hl[lh]?).bind (fun hl =>
      if n = 0 then none
      else (upCode dc hl (hl % n)).map (fun c => [(lh, c)])))
    (fun i p c => p = i ∧ ∃ hl, lh2hl[i]? = some hl ∧ upCode dc hl (hl % n) = some c)
    (fun i => (lh2hl[i]?).bind (fun hl => upCode dc hl (hl % n)))
    (by
      intro i hi
      obtain ⟨c, hc, _⟩ := hcode lh2hl[i] (hr _ (List.getElem_mem hi))
      refine ⟨[(i, c)], ?_, ?_⟩
      · simp only [List.getElem?_eq_getElem hi, Option.bind_some, hn', if_false]
        rw [hc]; rfl
      · intro p v
        rw [List.mem_singleton]
        constructor
        · intro e
          obtain ⟨rfl, rfl⟩ := Prod.mk.inj e
          exact ⟨rfl, _, List.getElem?_eq_getElem hi, hc⟩
        · rintro ⟨rfl, hl, e1, e2⟩
          rw [List.getElem?_eq_getElem hi] at e1
          obtain rfl := Option.some.inj e1
          rw [hc] at e2
          obtain rfl := Option.some.inj e2
          rfl)
    (by
      rintro i hi p v ⟨rfl, hl, e1, e2⟩
      exact ⟨hi, by simp only [e1, Option.bind_some]; exact e2⟩)
    (by
      intro p hp
      obtain ⟨c, hc, _⟩ := hcode lh2hl[p] (hr _ (List.getElem_mem hp))
      exact ⟨p, hp, c, rfl, _, List.getElem?_eq_getElem hp, hc⟩)
  refine ⟨a.zip b, ?_, by simp [a2, b2], ?_⟩
  · rw [a1]
    simp only [Option.bind_eq_bind, Option.bind_some]
    rw [b1]
    unfold unz
    have hab : a.length = b.length := a2.trans b2.symm
    simp [List.map_fst_zip (Nat.le_of_eq hab), List.map_snd_zip (Nat.le_of_eq hab.symm)]
  · intro lh hl h
    have hlt := (List.getElem?_eq_some_iff.1 h).1
    obtain ⟨c, hc, hc0, hc'⟩ := hcode hl (hr _ (List.mem_of_getElem? h))
    refine ⟨c, ?_, hc0, hc'⟩
    have e1 := a3 lh hlt
    have e2 := b3 lh hlt
    rw [h] at e1 e2
    simp only [Option.map_some, Option.bind_some] at e1 e2
    rw [hc] at e2
    rw [List.getElem?_zip_eq_some]
    exact ⟨e1, e2⟩

/-- `invert_adj`: for every schedule, fan `l` of the result lists the uses of `l` — each exactly once
and nothing else — in ascending order of the high entity; the codes read back the local position and
the downward orientation. (`n ≤ 16` because a code has four bits for the position; the largest
degree in the library is 12.) -/
theorem C11_invert_adj (s1 s2 s3 s4 s5 s6 : Sched) (down : Adj) (n nlows : Nat) (hn0 : 0 < n)
    (hn : n ≤ 16) (hr : InRange down.ab2b nlows)
    (hc : ∀ dc, down.codes = some dc → dc.length = down.ab2b.length) :
    ∃ up codes, invertAdj s1 s2 s3 s4 s5 s6 down n nlows = some up ∧ up.codes = some codes ∧
      up.ab2b.length = down.ab2b.length ∧ codes.length = down.ab2b.length ∧
      up.a2ab.length = nlows + 1 ∧ IsFan up.a2ab ∧ up.a2ab[nlows]? = some down.ab2b.length ∧
      ∀ l lo hi : Nat, up.a2ab[l]? = some lo → up.a2ab[l + 1]? = some hi →
        (segment (List.zipWith readUse up.ab2b codes) lo hi).Perm
          (usesOf down.ab2b (downOrient down.codes) n l) ∧
        (segment (List.zipWith readUse up.ab2b codes) lo hi).Pairwise (fun a b => a.high ≤ b.high) := by
  obtain ⟨g, g1, g2⟩ := C04_invert_by_atomics s1 s2 s3 down.ab2b nlows hr
  have g2' := g2
  obtain ⟨glen, gfan, glast, gperm, gmem⟩ := g2
  obtain ⟨z, z1, z2, z3⟩ := separateUpward_spec s4 s5 g.ab2b n down.ab2b.length hn0 hn down.codes
    gperm.2.1 hc
  have hz2 : z.length = down.ab2b.length := z2.trans gperm.1
  obtain ⟨y, y1, y2, y3⟩ := sortByHighIndex_spec s6 g.a2ab gfan z (by
    rw [glen, Nat.add_sub_cancel, glast, hz2])
  refine ⟨⟨g.a2ab, (unz y).1, some (unz y).2⟩, (unz y).2, ?_, rfl, ?_, ?_, glen, gfan, glast, ?_⟩
  · unfold invertAdj
    simp only [Option.bind_eq_bind, g1, Option.bind_some, z1, y1, Option.pure_def]
  · simp [unz, y2, hz2]
  · simp [unz, y2, hz2]
  · intro l lo hi h1 h2
    obtain ⟨k1, k2⟩ := y3 l lo hi h1 h2
    have hrow := inverse_row g2' h1 h2
    have hzip : ∀ w : List (Nat × Int), segment (List.zipWith readUse (unz w).1 (unz w).2) lo hi =
        (segment w lo hi).map (fun q => readUse q.1 q.2) := by
      intro w
      have : List.zipWith readUse (unz w).1 (unz w).2 = w.map (fun q => readUse q.1 q.2) := by
        unfold unz
        rw [List.zipWith_map]
        induction w with
        | nil => rfl
        | cons a w ih => simp
      rw [this]
      unfold segment
      rw [List.map_drop, List.map_take]
    refine ⟨?_, ?_⟩
    · rw [hzip]
      refine (k1.map _).trans ?_
      unfold usesOf
      refine List.Perm.trans (List.Perm.of_eq ?_) (hrow.map _)
      apply List.ext_getElem?
      intro i
      rw [List.getElem?_map, List.getElem?_map]
      unfold segment
      rw [List.getElem?_drop, List.getElem?_drop, List.getElem?_take, List.getElem?_take]
      by_cases hlt : lo + i < hi
      · rw [if_pos hlt, if_pos hlt]
        cases hv : g.ab2b[lo + i]? with
        | none =>
          have : z[lo + i]? = none := by
            rw [List.getElem?_eq_none_iff] at hv ⊢
            omega
          rw [this]; rfl
        | some hl =>
          obtain ⟨c, c1, _, c2⟩ := z3 _ _ hv
          rw [c1]
          simp only [Option.map_some]
          rw [c2]
      · rw [if_neg hlt, if_neg hlt]; rfl
    · rw [hzip, List.pairwise_map]
      exact k2

/-- Without repeated uses the result does not depend on any schedule. -/
theorem C11_invert_adj_deterministic (s1 s2 s3 s4 s5 s6 t1 t2 t3 t4 t5 t6 : Sched) (down : Adj)
    (n nlows : Nat) (hn0 : 0 < n) (hn : n ≤ 16) (hr : InRange down.ab2b nlows)
    (hc : ∀ dc, down.codes = some dc → dc.length = down.ab2b.length)
    (hrep : NoRepeats down.ab2b n) :
    ∃ up up' codes codes', invertAdj s1 s2 s3 s4 s5 s6 down n nlows = some up ∧
      invertAdj t1 t2 t3 t4 t5 t6 down n nlows = some up' ∧ up.codes = some codes ∧
      up'.codes = some codes' ∧ up.a2ab = up'.a2ab ∧ up.ab2b = up'.ab2b ∧
      List.zipWith readUse up.ab2b codes = List.zipWith readUse up'.ab2b codes' := by
  obtain ⟨u, c, a1, a2, a3, a4, a5, a6, a7, a8⟩ :=
    C11_invert_adj s1 s2 s3 s4 s5 s6 down n nlows hn0 hn hr hc
  obtain ⟨u', c', b1, b2, b3, b4, b5, b6, b7, b8⟩ :=
    C11_invert_adj t1 t2 t3 t4 t5 t6 down n nlows hn0 hn hr hc
  have hoff : u.a2ab = u'.a2ab := by
    have ex : ∀ (p1 p2 p3 p4 p5 p6 : Sched) (w : Adj), invertAdj p1 p2 p3 p4 p5 p6 down n nlows = some w →
        ∃ v, IsInverse down.ab2b nlows w.a2ab v := by
      intro p1 p2 p3 p4 p5 p6 w hw
      obtain ⟨g, g1, g2⟩ := C04_invert_by_atomics p1 p2 p3 down.ab2b nlows hr
      unfold invertAdj at hw
      simp only [Option.bind_eq_bind, g1, Option.bind_some] at hw
      obtain ⟨st, _, hw⟩ := Option.bind_eq_some_iff.1 hw
      obtain ⟨st', _, hw⟩ := Option.bind_eq_some_iff.1 hw
      simp at hw
      exact ⟨g.ab2b, by rw [← hw]; exact g2⟩
    obtain ⟨v, hv⟩ := ex _ _ _ _ _ _ _ a1
    obtain ⟨v', hv'⟩ := ex _ _ _ _ _ _ _ b1
    exact C04_inverse_offsets_unique _ _ _ _ _ _ hv hv'
  have huses : List.zipWith readUse u.ab2b c = List.zipWith readUse u'.ab2b c' := by
    apply List.ext_getElem?
    intro p
    by_cases hp : p < down.ab2b.length
    · have hlast : u.a2ab[u.a2ab.length - 1]? = some down.ab2b.length := by
        rw [a5, Nat.add_sub_cancel]; exact a7
      obtain ⟨l, lo, hi, e1, e2, e3, e4⟩ := inFan_cover a6 hlast hp
      obtain ⟨p1, q1⟩ := a8 l lo hi e1 e2
      rw [hoff] at e1 e2
      obtain ⟨p2, q2⟩ := b8 l lo hi e1 e2
      have hseg : segment (List.zipWith readUse u.ab2b c) lo hi =
          segment (List.zipWith readUse u'.ab2b c') lo hi := by
        refine List.Perm.eq_of_pairwise (le := fun a b => a.high ≤ b.high) ?_ q1 q2 (p1.trans p2.symm)
        intro a b ha hb hab hba
        have ha' := p1.mem_iff.1 ha
        have hb' := p2.mem_iff.1 hb
        unfold usesOf at ha' hb'
        obtain ⟨x, hx, rfl⟩ := List.mem_map.1 ha'
        obtain ⟨y, hy, rfl⟩ := List.mem_map.1 hb'
        have hx' := (List.mem_filter.1 hx).2
        have hy' := (List.mem_filter.1 hy).2
        have : x = y := hrep x y l (by simpa using hx') (by simpa using hy')
          (Nat.le_antisymm hab hba)
        rw [this]
      have := congrArg (fun w : List Use => w[p - lo]?) hseg
      unfold segment at this
      simp only [List.getElem?_drop, List.getElem?_take, Nat.add_sub_cancel' e3, if_pos e4] at this
      exact this
    · rw [List.getElem?_eq_none (by simp [a3, a4]; omega), List.getElem?_eq_none (by simp [b3, b4]; omega)]
  refine ⟨u, u', c, c', a1, b1, a2, b2, hoff, ?_, huses⟩
  have h1 : ∀ (a : List Nat) (b : List Int), a.length = b.length →
      (List.zipWith readUse a b).map Use.high = a := by
    intro a b hab
    rw [List.map_zipWith]
    simp only [readUse]
    induction a generalizing b with
    | nil => rfl
    | cons x a ih =>
      match b, hab with
      | y :: b, hab => simp [ih b (by simpa using hab)]
  rw [← h1 u.ab2b c (a3.trans a4.symm), huses, h1 u'.ab2b c' (b3.trans b4.symm)]

/-- If a high entity uses the same low entity twice, the order of the two entries depends on the
schedule of the atomic operations: the codes differ between two runs. -/
theorem C11_order_of_repeats_refuted :
    (invertAdj Sched.serial Sched.serial Sched.serial Sched.serial Sched.serial Sched.serial
      ⟨[0, 2], [0, 0], none⟩ 2 1) = some ⟨[0, 2], [0, 0], some [0, 8]⟩ ∧
    (invertAdj Sched.serial Sched.reversed Sched.serial Sched.serial Sched.serial Sched.serial
      ⟨[0, 2], [0, 0], none⟩ 2 1) = some ⟨[0, 2], [0, 0], some [8, 0]⟩ := by
  decide +kernel

/-- With more than sixteen positions per high entity the stored position is wrong (no element of the
library has that many). -/
theorem C11_degree_limit_refuted :
    ∃ up codes, invertAdj Sched.serial Sched.serial Sched.serial Sched.serial Sched.serial Sched.serial
      ⟨[0, 17], List.range 17, none⟩ 17 17 = some up ∧ up.codes = some codes ∧
      codes[16]? = some (-128) ∧ codeWhichDown (-128) = -16 := by
  refine ⟨_, _, rfl, rfl, by decide +kernel, by decide +kernel⟩

/-! Non-vacuity: two triangles sharing an edge, triangles to edges with codes. -/
example : InRange [0, 1, 2, 2, 3, 4] 5 ∧ NoRepeats [0, 1, 2, 2, 3, 4] 3 ∧
    invertAdj Sched.reversed Sched.reversed Sched.serial Sched.serial Sched.reversed Sched.reversed
      ⟨[0, 3, 6], [0, 1, 2, 2, 3, 4], some [0, 0, 2, 0, 2, 0]⟩ 3 5 =
    some ⟨[0, 1, 2, 4, 5, 6], [0, 0, 0, 1, 1, 1], some [0, 8, 18, 0, 10, 16]⟩ := by
  refine ⟨by simp [InRange], ?_, by decide +kernel⟩
  intro p q l hp hq h
  have hp' := (List.getElem?_eq_some_iff.1 hp).1
  have hq' := (List.getElem?_eq_some_iff.1 hq).1
  simp only [List.length_cons, List.length_nil] at hp' hq'
  have : ∀ p q : Fin 6, [0, 1, 2, 2, 3, 4][p.val]? = [0, 1, 2, 2, 3, 4][q.val]? → p.val / 3 = q.val / 3 →
      p = q := by decide +kernel
  have := this ⟨p, hp'⟩ ⟨q, hq'⟩ (hp.trans hq.symm) h
  exact congrArg Fin.val this

end OmegaH
