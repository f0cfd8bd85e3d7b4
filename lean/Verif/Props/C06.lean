import Verif.Spec.Map
import Verif.Spec.Scan
import Verif.Lemmas.Fan
import Verif.Lemmas.Offsets

/-! # C06 — fan operations are exact -/

namespace OmegaH
open Spec

/-- `get_degrees` returns the differences of consecutive offsets. -/
theorem C06_get_degrees (s : Sched) (offsets : List Nat) (hne : offsets ≠ []) :
    ∃ out, getDegrees s offsets = some out ∧ out.length = offsets.length - 1 ∧
      ∀ (i lo hi : Nat), offsets[i]? = some lo → offsets[i + 1]? = some hi →
        out[i]? = some ((hi : Int) - lo) := by
  obtain ⟨out, h1, h2, h3⟩ := parScatter_buildR s (offsets.length - 1) (offsets.length - 1)
    (fun i => match offsets[i]?, offsets[i + 1]? with
        | some lo, some hi => some [(i, (hi : Int) - lo)]
        | _, _ => none)
    (fun i p v => p = i ∧ ∃ lo hi : Nat, offsets[i]? = some lo ∧ offsets[i + 1]? = some hi ∧
      v = (hi : Int) - lo)
    (fun i => match offsets[i]?, offsets[i + 1]? with
        | some lo, some hi => some ((hi : Int) - lo)
        | _, _ => none)
    (by
      intro i hi
      rw [List.getElem?_eq_getElem (show i < offsets.length by omega),
        List.getElem?_eq_getElem (show i + 1 < offsets.length by omega)]
      refine ⟨_, rfl, ?_⟩
      intro p v
      simp)
    (by
      rintro i hi p v ⟨rfl, lo, hi', e1, e2, rfl⟩
      exact ⟨hi, by rw [e1, e2]⟩)
    (by
      intro p hp
      exact ⟨p, hp, _, rfl, _, _, List.getElem?_eq_getElem (by omega),
        List.getElem?_eq_getElem (by omega), rfl⟩)
  refine ⟨out, by unfold getDegrees; rw [if_neg hne]; exact h1, h2, ?_⟩
  intro i lo hi e1 e2
  have := (List.getElem?_eq_some_iff.1 e2).1
  rw [h3 i (by omega), e1, e2]

/-- `get_degrees` inverts `offset_scan`. -/
theorem C06_degrees_of_offsets (s : Sched) (d : List Nat) :
    getDegrees s (offsetScan d) = some (d.map Int.ofNat) := by
  have hf := offsetScan_isFan d
  obtain ⟨out, h1, h2, h3⟩ := C06_get_degrees s (offsetScan d) (fan_ne_nil hf)
  rw [offsetScan_length] at h2
  rw [h1]
  congr 1
  have ho := C01_offset_scan_exact (by simp) d
  apply List.ext_getElem?
  intro i
  by_cases hi : i < d.length
  · have e1 := List.getElem?_eq_getElem (show i < (offsetScan d).length by
      rw [offsetScan_length]; omega)
    have e2 := ho.2.2 i _ _ (List.getElem?_eq_getElem hi) e1
    rw [h3 i _ _ e1 e2]
    simp [hi]
    omega
  · rw [List.getElem?_eq_none (by omega), List.getElem?_eq_none (by simp; omega)]

/-- `offset_scan` inverts `get_degrees` on any array of fan offsets. -/
theorem C06_offsets_of_degrees (s : Sched) (offsets : List Nat) (hf : IsFan offsets) :
    ∃ d, getDegrees s offsets = some d ∧ offsetScan d = offsets.map Int.ofNat := by
  obtain ⟨d, h1, h2, h3⟩ := C06_get_degrees s offsets (fan_ne_nil hf)
  have hl : 0 < offsets.length := by
    cases offsets with
    | nil => exact absurd rfl (fan_ne_nil hf)
    | cons => simp
  refine ⟨d, h1, ?_⟩
  apply IsOffsets.unique (C01_offset_scan_exact (by simp) d)
  refine ⟨by simp; omega, by rw [List.getElem?_map, hf.1]; rfl, ?_⟩
  intro i x o hx ho
  have hi := (List.getElem?_eq_some_iff.1 hx).1
  have e1 := List.getElem?_eq_getElem (show i < offsets.length by omega)
  have e2 := List.getElem?_eq_getElem (show i + 1 < offsets.length by omega)
  rw [h3 i _ _ e1 e2] at hx
  rw [List.getElem?_map, e1] at ho
  rw [List.getElem?_map, e2]
  have a := Option.some.inj hx
  have b := Option.some.inj ho
  simp only [Option.map_some, Option.some.injEq, Int.ofNat_eq_natCast] at *
  omega

theorem runningMax_unique {a o o' : List Int} (h : IsRunningMax a o) (h' : IsRunningMax a o') :
    o = o' := by
  apply List.ext_getElem?
  intro i
  by_cases hi : i < a.length
  · have e1 := List.getElem?_eq_getElem (show i < o.length by rw [h.1]; exact hi)
    have e2 := List.getElem?_eq_getElem (show i < o'.length by rw [h'.1]; exact hi)
    obtain ⟨⟨j, hj, hj'⟩, hmax⟩ := h.2 i _ e1
    obtain ⟨⟨k, hk, hk'⟩, hmax'⟩ := h'.2 i _ e2
    rw [e1, e2]
    have l1 := hmax k _ hk hk'
    have l2 := hmax' j _ hj hj'
    congr 1; omega
  · rw [List.getElem?_eq_none (by rw [h.1]; omega), List.getElem?_eq_none (by rw [h'.1]; omega)]

/-- `invert_fan` maps each member to the fan containing it. -/
theorem C06_invert_fan (s : Sched) (a2b : List Nat) (hf : IsFan a2b) :
    ∃ out, invertFan s a2b = some out ∧ a2b.getLast? = some out.length ∧
      ∀ a b : Nat, InFan a2b a b ↔ out[b]? = some (a : Int) := by
  obtain ⟨nb, e1, e2⟩ := fan_last hf
  have hstart : ∀ a lo hi : Nat, a2b[a]? = some lo → a2b[a + 1]? = some hi → lo ≠ hi →
      InFan a2b a lo := by
    intro a lo hi h1 h2 h3
    have := hf.2 a lo hi h1 h2
    exact ⟨lo, hi, h1, h2, by omega, by omega⟩
  classical
  obtain ⟨out, h1, h2, h3, h4⟩ := parScatter_ontoR s (a2b.length - 1) (invertFanKernel a2b)
    (fun a p v => v = (a : Int) ∧ ∃ hi : Nat, a2b[a]? = some p ∧ a2b[a + 1]? = some hi ∧ p ≠ hi)
    (fun p => if h : ∃ a, InFan a2b a p then some ((Classical.choose h : Nat) : Int) else none)
    (List.replicate nb (-1))
    (by
      intro i hi
      have x1 := List.getElem?_eq_getElem (show i < a2b.length by omega)
      have x2 := List.getElem?_eq_getElem (show i + 1 < a2b.length by omega)
      unfold invertFanKernel
      rw [x1, x2]
      simp only
      by_cases hc : a2b[i] ≠ a2b[i + 1]
      · rw [if_pos hc]
        refine ⟨_, rfl, ?_⟩
        intro p v
        simp only [List.mem_singleton, Prod.mk.injEq, Option.some.injEq]
        constructor
        · rintro ⟨rfl, rfl⟩; exact ⟨rfl, _, rfl, rfl, hc⟩
        · rintro ⟨rfl, _, rfl, _, _⟩; exact ⟨rfl, rfl⟩
      · rw [if_neg hc]
        refine ⟨_, rfl, ?_⟩
        intro p v
        simp only [List.not_mem_nil, Option.some.injEq, false_iff]
        rintro ⟨_, hi', rfl, rfl, h⟩; exact hc h)
    (by
      rintro i hi p v ⟨rfl, hi', x1, x2, x3⟩
      have hin := hstart i p hi' x1 x2 x3
      refine ⟨by simpa using (inFan_lt hf hin e2).1, ?_⟩
      have hex : ∃ a, InFan a2b a p := ⟨i, hin⟩
      have hc : InFan a2b (Classical.choose hex) p := Classical.choose_spec hex
      rw [dif_pos hex, inFan_unique hf hc hin])
  rw [List.length_replicate] at h2
  have hlen : (fillRight out).length = nb := by rw [(C01_fill_right out).1, h2]
  -- the value at a member of fan `a` is `a`
  have hval : ∀ a b : Nat, InFan a2b a b → (fillRight out)[b]? = some (a : Int) := by
    intro a b hab
    obtain ⟨lo, hi, x1, x2, x3, x4⟩ := hab
    have hbn : b < nb := (inFan_lt hf ⟨lo, hi, x1, x2, x3, x4⟩ e2).1
    have hout : ∀ (p : Nat) (v : Int), p < nb → out[p]? = some v → v = -1 ∨
        ∃ c : Nat, v = c ∧ InFan a2b c p := by
      intro p v hp hv
      by_cases hw : ∃ i, i < a2b.length - 1 ∧ ∃ u : Int, u = (i : Int) ∧
          ∃ hi : Nat, a2b[i]? = some p ∧ a2b[i + 1]? = some hi ∧ p ≠ hi
      · obtain ⟨i, hi', u, rfl, h, y1, y2, y3⟩ := hw
        rw [h3 i hi' p _ ⟨rfl, h, y1, y2, y3⟩] at hv
        exact Or.inr ⟨i, (Option.some.inj hv).symm, hstart i p h y1 y2 y3⟩
      · rw [h4 p (fun i hi' v hv' => hw ⟨i, hi', v, hv'⟩)] at hv
        left
        simp [hp] at hv; omega
    have ⟨m, hm⟩ : ∃ m, (fillRight out)[b]? = some m :=
      ⟨_, List.getElem?_eq_getElem (by rw [hlen]; exact hbn)⟩
    obtain ⟨⟨j, hj, hj'⟩, hmax⟩ := (C01_fill_right out).2 b m hm
    have hlo : out[lo]? = some (a : Int) :=
      h3 a (by have := (List.getElem?_eq_some_iff.1 x2).1; omega) lo _ ⟨rfl, hi, x1, x2, by omega⟩
    have hge := hmax lo _ x3 hlo
    rcases hout j m (by omega) hj' with rfl | ⟨c, rfl, hc⟩
    · omega
    · obtain ⟨lo', hi', y1, y2, y3, y4⟩ := hc
      have : c ≤ a := by
        rcases Nat.lt_or_ge a c with hlt | hge'
        · have := fan_le hf (show a + 1 ≤ c by omega) x2 y1; omega
        · exact hge'
      rw [hm]; congr 1; omega
  refine ⟨fillRight out, ?_, by rw [hlen]; exact e1, ?_⟩
  · unfold invertFan
    rw [e1]
    simp only [Option.bind_eq_bind, Option.bind_some]
    rw [Mem.filled_eq]
    revert h1
    cases parScatter s (a2b.length - 1) (invertFanKernel a2b)
        (Mem.ofList (List.replicate nb (-1))) with
    | none => intro h1; simp at h1
    | some m => intro h1; simp only [Option.bind_some] at h1 ⊢; rw [h1]; rfl
  · intro a b
    constructor
    · exact hval a b
    · intro hb
      have hbn := (List.getElem?_eq_some_iff.1 hb).1
      obtain ⟨c, hc⟩ := inFan_cover hf e2 (show b < nb by omega)
      have := hval c b hc
      rw [hb] at this
      have : (a : Int) = c := Option.some.inj this
      have : a = c := by omega
      subst this; exact hc

/-- `fan_reduce` returns, for each fan and component, the reduction of exactly the members' values
in order. -/
theorem C06_fan_reduce {T VT : Type} (s : Sched) (f : Functor T VT) (a2b : List Nat)
    (bData : List T) (w nb : Nat) (hf : IsFan a2b) (hnb : a2b.getLast? = some nb)
    (hlen : bData.length = nb * w) :
    ∃ out, fanReduce s f a2b bData w = some out ∧ out.length = (a2b.length - 1) * w ∧
      ∀ (a lo hi j : Nat), a2b[a]? = some lo → a2b[a + 1]? = some hi → j < w →
        (∀ b, lo ≤ b → b < hi → (entry bData w b j).isSome) ∧
        entry out w a j =
          some (f.down ((fanValues bData w lo hi j).foldl (fun r x => f.join r (f.up x)) f.init)) := by
  obtain ⟨nb', e1, e2⟩ := fan_last hf
  rw [hnb] at e1
  obtain rfl := Option.some.inj e1
  have hin : ∀ a lo hi j b : Nat, a2b[a]? = some lo → a2b[a + 1]? = some hi → j < w → lo ≤ b →
      b < hi → b * w + j < bData.length := by
    intro a lo hi j b h1 h2 hj hb1 hb2
    have := (inFan_lt hf ⟨lo, hi, h1, h2, hb1, hb2⟩ e2).1
    rw [hlen]; exact row_lt this hj
  have hentry : ∀ a lo hi j : Nat, a2b[a]? = some lo → a2b[a + 1]? = some hi → j < w →
      fanReduceEntry f bData w (List.range' lo (hi - lo)) j =
      some (f.down ((fanValues bData w lo hi j).foldl (fun r x => f.join r (f.up x)) f.init)) := by
    intro a lo hi j h1 h2 hj
    unfold fanReduceEntry fanValues
    have : ∀ l : List Nat, (∀ b ∈ l, b * w + j < bData.length) →
        l.mapM (fun b => bData[b * w + j]?) = some (l.filterMap (fun b => entry bData w b j)) := by
      intro l hl
      induction l with
      | nil => rfl
      | cons b l ih =>
        have hb := List.getElem?_eq_getElem (hl b (by simp))
        rw [List.mapM_cons, hb, ih (fun x hx => hl x (by simp [hx]))]
        unfold entry
        rw [List.filterMap_cons, hb]
        rfl
    rw [this _ (by
      intro b hb
      rw [List.mem_range'_1] at hb
      exact hin a lo hi j b h1 h2 hj (by omega) (by omega))]
    rfl
  obtain ⟨out, h1, h2, h3⟩ := parScatter_buildR s (a2b.length - 1) ((a2b.length - 1) * w)
    (fun a => (fanMembers a2b a).bind (fun bs =>
          (List.range w).mapM (fun j => (fanReduceEntry f bData w bs j).map
            (fun v => (a * w + j, v)))))
    (fun a p v => ∃ j, j < w ∧ p = a * w + j ∧
      (fanMembers a2b a).bind (fun bs => fanReduceEntry f bData w bs j) = some v)
    (fun p => (fanMembers a2b (p / w)).bind (fun bs => fanReduceEntry f bData w bs (p % w)))
    (by
      intro a ha
      have x1 := List.getElem?_eq_getElem (show a < a2b.length by omega)
      have x2 := List.getElem?_eq_getElem (show a + 1 < a2b.length by omega)
      have hfm : fanMembers a2b a = some (List.range' a2b[a] (a2b[a + 1] - a2b[a])) := by
        unfold fanMembers; rw [x1, x2]
      rw [hfm]
      simp only [Option.bind_some]
      obtain ⟨ws, w1, w2, w3⟩ := mapM_range_spec w
        (fun j => (fanReduceEntry f bData w (List.range' a2b[a] (a2b[a + 1] - a2b[a])) j).map
            (fun v => (a * w + j, v))) (by
          intro j hj; simp [hentry a _ _ j x1 x2 hj])
      refine ⟨ws, w1, ?_⟩
      intro p v
      rw [List.mem_iff_getElem?]
      constructor
      · rintro ⟨j, hj⟩
        have hjw : j < w := by have := (List.getElem?_eq_some_iff.1 hj).1; omega
        rw [w3 j hjw, hentry a _ _ j x1 x2 hjw] at hj
        simp only [Option.map_some, Option.some.injEq, Prod.mk.injEq] at hj
        exact ⟨j, hjw, hj.1.symm, by rw [hentry a _ _ j x1 x2 hjw, hj.2]⟩
      · rintro ⟨j, hj, rfl, hv⟩
        exact ⟨j, by rw [w3 j hj, hv]; rfl⟩)
    (by
      rintro a ha p v ⟨j, hj, rfl, hv⟩
      refine ⟨row_lt ha hj, ?_⟩
      have d1 : (a * w + j) / w = a := by
        rw [Nat.mul_comm, Nat.mul_add_div (by omega), Nat.div_eq_of_lt hj]; omega
      have d2 : (a * w + j) % w = j := by
        rw [Nat.mul_comm, Nat.mul_add_mod, Nat.mod_eq_of_lt hj]
      rw [d1, d2]; exact hv)
    (by
      intro p hp
      obtain ⟨a, j, ha, hj, rfl⟩ := row_cover hp
      have x1 := List.getElem?_eq_getElem (show a < a2b.length by omega)
      have x2 := List.getElem?_eq_getElem (show a + 1 < a2b.length by omega)
      have hfm : fanMembers a2b a = some (List.range' a2b[a] (a2b[a + 1] - a2b[a])) := by
        unfold fanMembers; rw [x1, x2]
      exact ⟨a, ha, _, j, hj, rfl, by rw [hfm]; exact hentry a _ _ j x1 x2 hj⟩)
  refine ⟨out, ?_, h2, ?_⟩
  · unfold fanReduce
    rw [hnb]
    simp only
    rw [if_pos hlen.symm]
    exact h1
  · intro a lo hi j x1 x2 hj
    refine ⟨?_, ?_⟩
    · intro b hb1 hb2
      unfold entry
      simp [hin a lo hi j b x1 x2 hj hb1 hb2]
    · have ha : a < a2b.length - 1 := by
        have := (List.getElem?_eq_some_iff.1 x2).1; omega
      have hfm : fanMembers a2b a = some (List.range' lo (hi - lo)) := by
        unfold fanMembers; rw [x1, x2]
      unfold entry
      rw [h3 _ (row_lt ha hj)]
      have d1 : (a * w + j) / w = a := by
        rw [Nat.mul_comm, Nat.mul_add_div (by omega), Nat.div_eq_of_lt hj]; omega
      have d2 : (a * w + j) % w = j := by
        rw [Nat.mul_comm, Nat.mul_add_mod, Nat.mod_eq_of_lt hj]
      rw [d1, d2, hfm]
      exact hentry a lo hi j x1 x2 hj

theorem wrapSigned_id {n : Nat} {x : Int} (hn : 0 < n) (h1 : -2 ^ (n - 1) ≤ x)
    (h2 : x < 2 ^ (n - 1)) : wrapSigned n x = x := by
  obtain ⟨k, rfl⟩ : ∃ k, n = k + 1 := ⟨n - 1, by omega⟩
  simp only [Nat.add_sub_cancel] at *
  unfold wrapSigned
  have hp : ((2 ^ (k + 1) : Nat) : Int) = 2 * 2 ^ k := by
    rw [Nat.pow_succ]; simp; omega
  apply Int.bmod_eq_of_le_mul_two <;> rw [hp] <;> omega

theorem foldl_add_sum (l : List Int) : ∀ x, l.foldl (fun r y => r + y) x = x + l.sum := by
  induction l with
  | nil => simp
  | cons a l ih => intro x; rw [List.foldl_cons, ih]; simp; omega

/-- Summing over a fan gives the exact sum of the members' values whenever it fits the type. -/
theorem C06_fan_sum (s : Sched) (nbits : Nat) (hbits : 0 < nbits) (a2b : List Nat)
    (bData : List Int) (w nb : Nat) (hf : IsFan a2b) (hnb : a2b.getLast? = some nb)
    (hlen : bData.length = nb * w) :
    ∃ out, fanReduce s (sumFunctor nbits) a2b bData w = some out ∧
      ∀ (a lo hi j : Nat), a2b[a]? = some lo → a2b[a + 1]? = some hi → j < w →
        -2 ^ (nbits - 1) ≤ (fanValues bData w lo hi j).sum →
        (fanValues bData w lo hi j).sum < 2 ^ (nbits - 1) →
        entry out w a j = some (fanValues bData w lo hi j).sum := by
  obtain ⟨out, h1, _, h3⟩ := C06_fan_reduce s (sumFunctor nbits) a2b bData w nb hf hnb hlen
  refine ⟨out, h1, ?_⟩
  intro a lo hi j x1 x2 hj l1 l2
  rw [(h3 a lo hi j x1 x2 hj).2]
  simp only [sumFunctor, id]
  rw [foldl_add_sum, Int.zero_add, wrapSigned_id hbits l1 l2]

/-- The maximum over a non-empty fan of in-range values is one of them and bounds all of them. -/
theorem C06_fan_max (s : Sched) (nbits : Nat) (hbits : 0 < nbits) (a2b : List Nat)
    (bData : List Int) (w nb : Nat) (hf : IsFan a2b) (hnb : a2b.getLast? = some nb)
    (hlen : bData.length = nb * w) (hrange : ∀ x ∈ bData, -2 ^ (nbits - 1) ≤ x ∧ x < 2 ^ (nbits - 1)) :
    ∃ out, fanReduce s (maxFunctor nbits) a2b bData w = some out ∧
      ∀ (a lo hi j : Nat), a2b[a]? = some lo → a2b[a + 1]? = some hi → lo < hi → j < w →
        ∃ m, entry out w a j = some m ∧ m ∈ fanValues bData w lo hi j ∧
          ∀ x ∈ fanValues bData w lo hi j, x ≤ m := by
  obtain ⟨out, h1, _, h3⟩ := C06_fan_reduce s (maxFunctor nbits) a2b bData w nb hf hnb hlen
  refine ⟨out, h1, ?_⟩
  intro a lo hi j x1 x2 hlt hj
  obtain ⟨hs, he⟩ := h3 a lo hi j x1 x2 hj
  have hmemr : ∀ x ∈ fanValues bData w lo hi j, -2 ^ (nbits - 1) ≤ x ∧ x < 2 ^ (nbits - 1) := by
    intro x hx
    unfold fanValues at hx
    obtain ⟨b, _, hb⟩ := List.mem_filterMap.1 hx
    exact hrange x (List.mem_of_getElem? hb)
  obtain ⟨v, hv⟩ := Option.isSome_iff_exists.1 (hs lo (Nat.le_refl _) hlt)
  have hvmem : v ∈ fanValues bData w lo hi j :=
    List.mem_filterMap.2 ⟨lo, by rw [List.mem_range'_1]; omega, hv⟩
  obtain ⟨k1, k2, k3⟩ := foldl_max_spec (fanValues bData w lo hi j) (-2 ^ (nbits - 1))
  simp only [maxFunctor, id] at he
  generalize hM : (fanValues bData w lo hi j).foldl max (-2 ^ (nbits - 1)) = M at *
  have hmem : M ∈ fanValues bData w lo hi j := by
    rcases k1 with k1 | k1
    · have h5 := k3 v hvmem
      have h6 := (hmemr v hvmem).1
      have : v = M := by omega
      rw [← this]; exact hvmem
    · exact k1
  refine ⟨M, ?_, hmem, k3⟩
  rw [he, wrapSigned_id hbits (hmemr M hmem).1 (hmemr M hmem).2]

theorem foldl_min_spec (l : List Int) (v : Int) :
    (l.foldl min v = v ∨ l.foldl min v ∈ l) ∧ l.foldl min v ≤ v ∧ ∀ x ∈ l, l.foldl min v ≤ x := by
  induction l generalizing v with
  | nil => simp
  | cons y ys ih =>
    obtain ⟨h1, h2, h3⟩ := ih (min v y)
    simp only [List.foldl_cons]
    refine ⟨?_, by omega, ?_⟩
    · rcases h1 with h1 | h1
      · rw [h1]
        by_cases h : v ≤ y
        · left; rw [Int.min_eq_left h]
        · right; rw [Int.min_eq_right (by omega)]; simp
      · right; simp [h1]
    · intro x hx
      rcases List.mem_cons.1 hx with rfl | hx
      · omega
      · exact h3 x hx

/-- The minimum over a non-empty fan of in-range values is one of them and bounds all of them. -/
theorem C06_fan_min (s : Sched) (nbits : Nat) (hbits : 0 < nbits) (a2b : List Nat)
    (bData : List Int) (w nb : Nat) (hf : IsFan a2b) (hnb : a2b.getLast? = some nb)
    (hlen : bData.length = nb * w) (hrange : ∀ x ∈ bData, -2 ^ (nbits - 1) ≤ x ∧ x < 2 ^ (nbits - 1)) :
    ∃ out, fanReduce s (minFunctor nbits) a2b bData w = some out ∧
      ∀ (a lo hi j : Nat), a2b[a]? = some lo → a2b[a + 1]? = some hi → lo < hi → j < w →
        ∃ m, entry out w a j = some m ∧ m ∈ fanValues bData w lo hi j ∧
          ∀ x ∈ fanValues bData w lo hi j, m ≤ x := by
  obtain ⟨out, h1, _, h3⟩ := C06_fan_reduce s (minFunctor nbits) a2b bData w nb hf hnb hlen
  refine ⟨out, h1, ?_⟩
  intro a lo hi j x1 x2 hlt hj
  obtain ⟨hs, he⟩ := h3 a lo hi j x1 x2 hj
  have hmemr : ∀ x ∈ fanValues bData w lo hi j, -2 ^ (nbits - 1) ≤ x ∧ x < 2 ^ (nbits - 1) := by
    intro x hx
    unfold fanValues at hx
    obtain ⟨b, _, hb⟩ := List.mem_filterMap.1 hx
    exact hrange x (List.mem_of_getElem? hb)
  obtain ⟨v, hv⟩ := Option.isSome_iff_exists.1 (hs lo (Nat.le_refl _) hlt)
  have hvmem : v ∈ fanValues bData w lo hi j :=
    List.mem_filterMap.2 ⟨lo, by rw [List.mem_range'_1]; omega, hv⟩
  obtain ⟨k1, k2, k3⟩ := foldl_min_spec (fanValues bData w lo hi j) (2 ^ (nbits - 1) - 1)
  simp only [minFunctor, id] at he
  generalize hM : (fanValues bData w lo hi j).foldl min (2 ^ (nbits - 1) - 1) = M at *
  have hmem : M ∈ fanValues bData w lo hi j := by
    rcases k1 with k1 | k1
    · have h5 := k3 v hvmem
      have h6 := (hmemr v hvmem).2
      have : v = M := by omega
      rw [← this]; exact hvmem
    · exact k1
  refine ⟨M, ?_, hmem, k3⟩
  rw [he, wrapSigned_id hbits (hmemr M hmem).1 (hmemr M hmem).2]

/-- Summing 8-bit marks over a fan with 128 marked members wraps around: the result is `-128`, not
`128` (the sum is cast back to the 8-bit type; used by `filter_graph_edges`). -/
theorem C06_fan_sum_i8_overflow_refuted :
    fanReduce Sched.serial (sumFunctor 8) [0, 128] (List.replicate 128 1) 1 = some [-128] := by
  decide +kernel

/-- `multiply_fans` returns the offsets of the fans whose degrees are the products. -/
theorem C06_multiply_fans (s : Sched) (a2b a2c : List Nat) (hb : IsFan a2b) (hc : IsFan a2c)
    (hl : a2b.length = a2c.length) :
    ∃ out prods, multiplyFans s a2b a2c = some out ∧ IsOffsets prods out ∧
      prods.length = a2b.length - 1 ∧
      ∀ (i bl bh cl ch : Nat), a2b[i]? = some bl → a2b[i + 1]? = some bh → a2c[i]? = some cl →
        a2c[i + 1]? = some ch → prods[i]? = some (((bh : Int) - bl) * ((ch : Int) - cl)) := by
  obtain ⟨bd, b1, b2, b3⟩ := C06_get_degrees s a2b (fan_ne_nil hb)
  obtain ⟨cd, c1, c2, c3⟩ := C06_get_degrees s a2c (fan_ne_nil hc)
  have hmul : ∃ d, multiplyEach s bd cd = some d ∧ d.length = bd.length ∧
      ∀ (i : Nat) (x y : Int), bd[i]? = some x → cd[i]? = some y → d[i]? = some (x * y) := by
    unfold multiplyEach
    by_cases h0 : cd.length = 0
    · rw [if_pos h0, if_pos (by omega)]
      refine ⟨[], rfl, by simp; omega, ?_⟩
      intro i x y _ hy
      have := (List.getElem?_eq_some_iff.1 hy).1; omega
    · have hbc : bd.length = cd.length := by omega
      rw [if_neg h0, if_pos (by rw [hbc]; exact Nat.mod_self _)]
      have hw : bd.length / cd.length = 1 := by rw [hbc]; exact Nat.div_self (by omega)
      rw [hw]
      obtain ⟨d, d1, d2, d3⟩ := parScatter_buildR s cd.length bd.length
        (fun i => (cd[i]?).bind (fun y =>
          (List.range 1).mapM (fun j => (bd[i * 1 + j]?).map (fun x => (i * 1 + j, x * y)))))
        (fun i p v => p = i ∧ ∃ x y, bd[i]? = some x ∧ cd[i]? = some y ∧ v = x * y)
        (fun i => (cd[i]?).bind (fun y => (bd[i]?).map (fun x => x * y)))
        (by
          intro i hi
          have y1 := List.getElem?_eq_getElem hi
          have y2 := List.getElem?_eq_getElem (show i < bd.length by omega)
          refine ⟨[(i, bd[i] * cd[i])], ?_, ?_⟩
          · have : (List.range 1) = [0] := rfl
            rw [this, y1]
            simp only [Option.bind_some, List.mapM_cons, List.mapM_nil, Nat.mul_one, Nat.add_zero, y2]
            rfl
          · intro p v
            rw [y1, y2]; simp)
        (by
          rintro i hi p v ⟨rfl, x, y, e1, e2, rfl⟩
          exact ⟨by omega, by rw [e1, e2]; rfl⟩)
        (by
          intro p hp
          exact ⟨p, by omega, _, rfl, _, _, List.getElem?_eq_getElem hp,
            List.getElem?_eq_getElem (by omega), rfl⟩)
      refine ⟨d, d1, d2, ?_⟩
      intro i x y hx hy
      rw [d3 i (List.getElem?_eq_some_iff.1 hx).1, hx, hy]; rfl
  obtain ⟨d, d1, d2, d3⟩ := hmul
  refine ⟨offsetScan d, d, ?_, C01_offset_scan_exact (by simp) d, by omega, ?_⟩
  · unfold multiplyFans
    rw [b1, c1]
    simp only [Option.bind_eq_bind, Option.bind_some]
    rw [d1]; rfl
  · intro i bl bh cl ch h1 h2 h3 h4
    exact d3 i _ _ (b3 i bl bh h1 h2) (c3 i cl ch h3 h4)

/-- `mark_fan_preimage` marks exactly the non-empty fans. -/
theorem C06_mark_fan_preimage (s : Sched) (a2b : List Nat) (hf : IsFan a2b) :
    ∃ out, markFanPreimage s a2b = some out ∧ out.length = a2b.length - 1 ∧
      ∀ a, a < a2b.length - 1 →
        ((∃ b, InFan a2b a b) ∧ out[a]? = some 1) ∨ ((¬ ∃ b, InFan a2b a b) ∧ out[a]? = some 0) := by
  have hl : 1 ≤ a2b.length := by
    cases h : a2b with
    | nil => exact absurd h (fan_ne_nil hf)
    | cons => simp
  obtain ⟨out, h1, h2, h3⟩ := parScatter_buildR s (a2b.length - 1) (a2b.length - 1)
    (fun i => match a2b[i]?, a2b[i + 1]? with
        | some lo, some hi => some [(i, if lo ≠ hi then (1 : Int) else 0)]
        | _, _ => none)
    (fun i p v => p = i ∧ ∃ lo hi : Nat, a2b[i]? = some lo ∧ a2b[i + 1]? = some hi ∧
      v = if lo ≠ hi then (1 : Int) else 0)
    (fun i => match a2b[i]?, a2b[i + 1]? with
        | some lo, some hi => some (if lo ≠ hi then (1 : Int) else 0)
        | _, _ => none)
    (by
      intro i hi
      rw [List.getElem?_eq_getElem (show i < a2b.length by omega),
        List.getElem?_eq_getElem (show i + 1 < a2b.length by omega)]
      refine ⟨_, rfl, ?_⟩
      intro p v
      simp)
    (by
      rintro i hi p v ⟨rfl, lo, hi', e1, e2, rfl⟩
      exact ⟨hi, by rw [e1, e2]⟩)
    (by
      intro p hp
      exact ⟨p, hp, _, rfl, _, _, List.getElem?_eq_getElem (by omega),
        List.getElem?_eq_getElem (by omega), rfl⟩)
  refine ⟨out, by unfold markFanPreimage; rw [if_pos hl]; exact h1, h2, ?_⟩
  intro a ha
  have x1 := List.getElem?_eq_getElem (show a < a2b.length by omega)
  have x2 := List.getElem?_eq_getElem (show a + 1 < a2b.length by omega)
  rw [h3 a ha, x1, x2]
  have hle := hf.2 a _ _ x1 x2
  by_cases hc : a2b[a] = a2b[a + 1]
  · right
    refine ⟨?_, by simp [hc]⟩
    rintro ⟨b, lo, hi, y1, y2, y3, y4⟩
    rw [x1] at y1; rw [x2] at y2
    have := Option.some.inj y1; have := Option.some.inj y2
    omega
  · left
    exact ⟨⟨a2b[a], _, _, x1, x2, Nat.le_refl _, by omega⟩, by simp [hc]⟩

/-! Non-vacuity. -/
example : IsFan [0, 2, 2, 5] := by
  refine ⟨rfl, ?_⟩
  intro i lo hi h1 h2
  match i, h1, h2 with
  | 0, h1, h2 => simp at h1 h2; omega
  | 1, h1, h2 => simp at h1 h2; omega
  | 2, h1, h2 => simp at h1 h2; omega
  | (k + 3), h1, h2 => simp at h2
example : invertFan Sched.reversed [0, 2, 2, 5] = some [0, 0, 2, 2, 2] := by decide +kernel
example : fanReduce Sched.reversed (sumFunctor 32) [0, 2, 2, 5]
    [1, 10, 2, 20, 3, 30, 4, 40, 5, 50] 2 = some [3, 30, 0, 0, 12, 120] := by decide +kernel
example : fanReduce Sched.reversed (maxFunctor 32) [0, 2, 5] [1, -7, 3, 9, 5] 1 = some [1, 9] := by
  decide +kernel
example : multiplyFans Sched.reversed [0, 2, 3] [0, 3, 7] = some [0, 6, 10] := by decide +kernel
example : markFanPreimage Sched.reversed [0, 2, 2, 5] = some [1, 0, 1] := by decide +kernel

end OmegaH
