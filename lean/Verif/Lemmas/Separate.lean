import Verif.Lemmas.Conserve
/-!
# Separating cavities by colour
-/
namespace OmegaH
open Spec

section
variable {κ : Type}

/-- Where the edges of the key at place `a` begin. -/
def rowStart (keys : List κ) (R : κ → List Nat) (a : Nat) : Nat := ((keys.map (fun k => (R k).length)).take a).sum

theorem edgesOn_get (keys : List κ) (R : κ → List Nat) {a j : Nat} {k : κ} {e : Nat} (h : keys[a]? = some k) (hj : (R k)[j]? = some e) :
    (edgesOn keys R)[rowStart keys R a + j]? = some (k, e) := by
  have h3 := flatMap_segment keys (fun k => (R k).map (fun e => (k, e))) a k h
  simp only [List.length_map] at h3
  have h4 := congrArg (fun l : List (κ × Nat) => l[j]?) h3
  have hl := (List.getElem?_eq_some_iff.1 hj).1
  rw [List.getElem?_take, if_pos hl, List.getElem?_drop] at h4
  exact h4.trans (by rw [List.getElem?_map, hj]; rfl)

theorem edgesOn_cover (keys : List κ) (R : κ → List Nat) {p : Nat} (h : p < (edgesOn keys R).length) :
    ∃ a k j e, keys[a]? = some k ∧ (R k)[j]? = some e ∧ p = rowStart keys R a + j := by
  rw [edgesOn_length] at h
  obtain ⟨nb, l1, l2⟩ := fan_last (graphOn_fan keys R)
  rw [graphOn_last] at l1
  obtain rfl := Option.some.inj l1
  obtain ⟨a, lo, hi, q1, q2, q3, q4⟩ := inFan_cover (graphOn_fan keys R) l2 h
  have ha' : a < keys.length := by
    have := (List.getElem?_eq_some_iff.1 q2).1
    rw [graphOn_offsets_length] at this; omega
  have hk := List.getElem?_eq_getElem ha'
  rw [graphOn_offset keys R a (by omega)] at q1
  rw [graphOn_offset_succ keys R a _ hk] at q2
  obtain rfl := Option.some.inj q1
  obtain rfl := Option.some.inj q2
  refine ⟨a, keys[a], p - rowStart keys R a, _, hk, List.getElem?_eq_getElem (i := p - rowStart keys R a) (by unfold rowStart; omega), ?_⟩
  unfold rowStart; omega

/-- A loop over keys that writes a value for every edge. -/
theorem parEdges (s : Sched) (keys : List κ) (R : κ → List Nat) (g : κ × Nat → Int) (W : Nat → Option (List (Nat × Int)))
    (hW : ∀ a k, keys[a]? = some k → ∃ ws, W a = some ws ∧ ∀ p v, (p, v) ∈ ws ↔
      ∃ j e, (R k)[j]? = some e ∧ p = rowStart keys R a + j ∧ v = g (k, e)) :
    (parScatter s keys.length W (Mem.alloc (keys.flatMap R).length)).bind Mem.toArray? = some ((edgesOn keys R).map g) := by
  obtain ⟨out, o1, o2, o3⟩ := parScatter_buildR s keys.length (keys.flatMap R).length W
    (fun a p v => ∃ k j e, keys[a]? = some k ∧ (R k)[j]? = some e ∧ p = rowStart keys R a + j ∧ v = g (k, e))
    (fun p => ((edgesOn keys R).map g)[p]?) (by
      intro a ha
      have hk := List.getElem?_eq_getElem ha
      obtain ⟨ws, w1, w2⟩ := hW a _ hk
      refine ⟨ws, w1, ?_⟩
      intro p v
      rw [w2]
      constructor
      · rintro ⟨j, e, h⟩; exact ⟨_, j, e, hk, h⟩
      · rintro ⟨k, j, e, h1, h⟩
        rw [hk] at h1
        obtain rfl := Option.some.inj h1
        exact ⟨j, e, h⟩) (by
      rintro a ha p v ⟨k, j, e, h1, h2, rfl, rfl⟩
      have := edgesOn_get keys R h1 h2
      refine ⟨?_, by rw [List.getElem?_map, this]; rfl⟩
      have hl := (List.getElem?_eq_some_iff.1 this).1
      rw [edgesOn_length] at hl; exact hl) (by
      intro p hp
      obtain ⟨a, k, j, e, h1, h2, h3⟩ := edgesOn_cover keys R (p := p) (by rw [edgesOn_length]; exact hp)
      exact ⟨a, (List.getElem?_eq_some_iff.1 h1).1, _, k, j, e, h1, h2, h3, rfl⟩)
  rw [o1]
  congr 1
  apply List.ext_getElem?
  intro p
  by_cases hp : p < (keys.flatMap R).length
  · exact o3 p hp
  · rw [List.getElem?_eq_none (by omega), List.getElem?_eq_none (by rw [List.length_map, edgesOn_length]; omega)]

/-- The same when some keys write nothing and the value was there before. -/
theorem parEdges_onto (s : Sched) (keys : List κ) (R : κ → List Nat) (g : κ × Nat → Int) (skip : κ → Bool) (b : Int)
    (W : Nat → Option (List (Nat × Int)))
    (hW : ∀ a k, keys[a]? = some k → ∃ ws, W a = some ws ∧ ∀ p v, (p, v) ∈ ws ↔
      skip k = false ∧ ∃ j e, (R k)[j]? = some e ∧ p = rowStart keys R a + j ∧ v = g (k, e))
    (hs : ∀ k e, skip k = true → g (k, e) = b) :
    (parScatter s keys.length W (Mem.filled (keys.flatMap R).length b)).bind Mem.toArray? = some ((edgesOn keys R).map g) := by
  rw [Mem.filled_eq]
  obtain ⟨out, o1, o2, o3, o4⟩ := parScatter_ontoR s keys.length W
    (fun a p v => ∃ k j e, keys[a]? = some k ∧ skip k = false ∧ (R k)[j]? = some e ∧ p = rowStart keys R a + j ∧ v = g (k, e))
    (fun p => ((edgesOn keys R).map g)[p]?) (List.replicate (keys.flatMap R).length b) (by
      intro a ha
      have hk := List.getElem?_eq_getElem ha
      obtain ⟨ws, w1, w2⟩ := hW a _ hk
      refine ⟨ws, w1, ?_⟩
      intro p v
      rw [w2]
      constructor
      · rintro ⟨h0, j, e, h⟩; exact ⟨_, j, e, hk, h0, h⟩
      · rintro ⟨k, j, e, h1, h0, h⟩
        rw [hk] at h1
        obtain rfl := Option.some.inj h1
        exact ⟨h0, j, e, h⟩) (by
      rintro a ha p v ⟨k, j, e, h1, h0, h2, rfl, rfl⟩
      have := edgesOn_get keys R h1 h2
      refine ⟨?_, by rw [List.getElem?_map, this]; rfl⟩
      have hl := (List.getElem?_eq_some_iff.1 this).1
      rw [edgesOn_length] at hl; rw [List.length_replicate]; exact hl)
  rw [o1]
  congr 1
  rw [List.length_replicate] at o2
  apply List.ext_getElem?
  intro p
  by_cases hp : p < (keys.flatMap R).length
  · obtain ⟨a, k, j, e, h1, h2, h3⟩ := edgesOn_cover keys R (p := p) (by rw [edgesOn_length]; exact hp)
    have hget : ((edgesOn keys R).map g)[p]? = some (g (k, e)) := by
      rw [h3, List.getElem?_map, edgesOn_get keys R h1 h2]; rfl
    rw [hget]
    cases hk : skip k
    · exact o3 a (List.getElem?_eq_some_iff.1 h1).1 p _ ⟨k, j, e, h1, hk, h2, h3, rfl⟩
    · rw [o4 p, List.getElem?_replicate, if_pos hp, hs k e hk]
      rintro a' ha' v ⟨k', j', e', g1, g0, g2, g3, _⟩
      have x1 := edgesOn_get keys R h1 h2
      have x2 := edgesOn_get keys R g1 g2
      rw [← h3] at x1
      rw [← g3, x1] at x2
      have : k = k' := congrArg Prod.fst (Option.some.inj x2)
      rw [← this, hk] at g0
      exact Bool.noConfusion g0
  · rw [List.getElem?_eq_none (by omega), List.getElem?_eq_none (by rw [List.length_map, edgesOn_length]; omega)]

/-- The colour of the first old element. -/
def firstColor (oc : Nat → Int) (l : List Nat) : Option Int := l.head?.map oc

def keepOldOf (Ro : κ → List Nat) (oc : Nat → Int) (p : κ × Nat) : Bool := decide (firstColor oc (Ro p.1) = some (oc p.2))

def keepNewOf (Ro : κ → List Nat) (oc nc : Nat → Int) (p : κ × Nat) : Bool :=
  decide (Ro p.1 = []) || decide (firstColor oc (Ro p.1) = some (nc p.2))

/-- One loop over the edges of a key. -/
theorem rowLoop (keys : List κ) (R : κ → List Nat) (col : Nat → Int) (n : Nat) (c : Int) {a : Nat} {k : κ} (h : keys[a]? = some k)
    (hr : ∀ e ∈ R k, e < n) :
    ∃ ws, (List.range' (rowStart keys R a) (R k).length).mapM (fun ko => ((graphOn keys R).ab2b[ko]?).bind (fun elem =>
        (((List.range n).map col)[elem]?).bind (fun c' => some (ko, b2i (decide (c' = c)))))) = some ws ∧
      ∀ p v, (p, v) ∈ ws ↔ ∃ j e, (R k)[j]? = some e ∧ p = rowStart keys R a + j ∧ v = b2i (decide (col e = c)) := by
  have hget : ∀ j e, (R k)[j]? = some e → (graphOn keys R).ab2b[rowStart keys R a + j]? = some e := by
    intro j e he
    have := edgesOn_get keys R h he
    show (keys.flatMap R)[_]? = _
    rw [← edgesOn_snd, List.getElem?_map, this]; rfl
  have hcol : ∀ e ∈ R k, ((List.range n).map col)[e]? = some (col e) := by
    intro e he
    rw [List.getElem?_map, List.getElem?_range (hr e he)]; rfl
  have hval : ∀ j e, (R k)[j]? = some e → (((graphOn keys R).ab2b[rowStart keys R a + j]?).bind (fun elem =>
        (((List.range n).map col)[elem]?).bind (fun c' => some (rowStart keys R a + j, b2i (decide (c' = c)))))
        = some (rowStart keys R a + j, b2i (decide (col e = c)))) := by
    intro j e he
    rw [hget j e he, Option.bind_some, hcol e (List.mem_of_getElem? he), Option.bind_some]
  obtain ⟨ws, w1, _, w3, _⟩ := mapM_list_spec (List.range' (rowStart keys R a) (R k).length)
    (fun ko => ((graphOn keys R).ab2b[ko]?).bind (fun elem =>
        (((List.range n).map col)[elem]?).bind (fun c' => some (ko, b2i (decide (c' = c)))))) (by
      intro ko hko
      rw [List.mem_range'_1] at hko
      have hl : ko - rowStart keys R a < (R k).length := by omega
      have := hval _ _ (List.getElem?_eq_getElem hl)
      rw [show rowStart keys R a + (ko - rowStart keys R a) = ko by omega] at this
      rw [this]; rfl)
  refine ⟨ws, w1, ?_⟩
  intro p v
  rw [w3]
  constructor
  · rintro ⟨ko, hko, hv⟩
    rw [List.mem_range'_1] at hko
    have hl : ko - rowStart keys R a < (R k).length := by omega
    have := hval _ _ (List.getElem?_eq_getElem hl)
    rw [show rowStart keys R a + (ko - rowStart keys R a) = ko by omega] at this
    rw [this] at hv
    have hv := Option.some.inj hv
    rw [Prod.mk.injEq] at hv
    exact ⟨_, _, List.getElem?_eq_getElem hl, by omega, hv.2.symm⟩
  · rintro ⟨j, e, he, rfl, rfl⟩
    have hl := (List.getElem?_eq_some_iff.1 he).1
    exact ⟨rowStart keys R a + j, by rw [List.mem_range'_1]; omega, hval j e he⟩

theorem invertMarks_flags {α : Type} (s : Sched) (l : List α) (q : α → Bool) :
    invertMarks s (l.map (fun x => b2i (q x))) = some (l.map (fun x => b2i (! q x))) := by
  have h := mapEach_eq s (fun m : Int => some (if m = 0 then (1 : Int) else 0)) (fun m => if m = 0 then 1 else 0) (l.map (fun x => b2i (q x)))
    (fun _ _ => rfl)
  unfold mapEach at h
  unfold invertMarks
  have e : (fun i : Nat => ((l.map (fun x => b2i (q x)))[i]?).map (fun m => [(i, if m = 0 then (1 : Int) else 0)]))
      = (fun i : Nat => ((l.map (fun x => b2i (q x)))[i]?).bind (fun x => (some (if x = 0 then (1 : Int) else 0)).map (fun y => [(i, y)]))) := by
    funext i
    cases (l.map (fun x => b2i (q x)))[i]? <;> rfl
  rw [e, h, List.map_map]
  congr 1
  apply List.map_congr_left
  intro x _
  show (if b2i (q x) = 0 then (1 : Int) else 0) = b2i (! q x)
  cases q x <;> rfl

/-- One round of the separation, by rows. -/
theorem separateOnce_on (s : Nat → Sched) (keys : List κ) (Ro Rn : κ → List Nat) (oc nc : Nat → Int) (no nn : Nat)
    (ho : ∀ k ∈ keys, ∀ e ∈ Ro k, e < no) (hn : ∀ k ∈ keys, ∀ e ∈ Rn k, e < nn)
    (lo : ∀ k ∈ keys, (Ro k).length ≤ 127) (ln : ∀ k ∈ keys, (Rn k).length ≤ 127) :
    separateByColorOnce s (cavsOn keys Ro Rn) ((List.range no).map oc) ((List.range nn).map nc)
      = some (cavsOn keys (fun k => (Ro k).filter (fun e => keepOldOf Ro oc (k, e))) (fun k => (Rn k).filter (fun e => keepNewOf Ro oc nc (k, e))),
          cavsOn keys (fun k => (Ro k).filter (fun e => ! keepOldOf Ro oc (k, e))) (fun k => (Rn k).filter (fun e => ! keepNewOf Ro oc nc (k, e)))) := by
  have hoff : ∀ (R : κ → List Nat) (a : Nat) k, keys[a]? = some k → (graphOn keys R).a2ab[a]? = some (rowStart keys R a) ∧
      (graphOn keys R).a2ab[a + 1]? = some (rowStart keys R a + (R k).length) := by
    intro R a k hk
    have ha := (List.getElem?_eq_some_iff.1 hk).1
    exact ⟨graphOn_offset keys R a (by omega), graphOn_offset_succ keys R a k hk⟩
  have hfirst : ∀ (a : Nat) k e l, keys[a]? = some k → Ro k = e :: l → (graphOn keys Ro).ab2b[rowStart keys Ro a]? = some e ∧
      ((List.range no).map oc)[e]? = some (oc e) := by
    intro a k e l hk hl
    have := edgesOn_get keys Ro hk (j := 0) (e := e) (by rw [hl]; rfl)
    refine ⟨?_, ?_⟩
    · show (keys.flatMap Ro)[_]? = _
      rw [← edgesOn_snd, List.getElem?_map]
      rw [Nat.add_zero] at this
      rw [this]; rfl
    · rw [List.getElem?_map, List.getElem?_range (ho k (List.mem_of_getElem? hk) e (by rw [hl]; exact List.mem_cons_self ..))]; rfl
  have h1 : (parScatter (s 0) keys.length (keepOldKernel (graphOn keys Ro) ((List.range no).map oc)) (Mem.alloc (graphOn keys Ro).ab2b.length)).bind
      Mem.toArray? = some ((edgesOn keys Ro).map (fun p => b2i (keepOldOf Ro oc p))) := by
    refine parEdges (s 0) keys Ro (fun p => b2i (keepOldOf Ro oc p)) _ ?_
    intro a k hk
    obtain ⟨g1, g2⟩ := hoff Ro a k hk
    unfold keepOldKernel
    simp only [bind, g1, g2, Option.bind_some]
    cases hl : Ro k with
    | nil =>
      refine ⟨[], by simp, ?_⟩
      intro p v
      simp
    | cons e l =>
      obtain ⟨f1, f2⟩ := hfirst a k e l hk hl
      obtain ⟨ws, w1, w2⟩ := rowLoop keys Ro oc no (oc e) hk (ho k (List.mem_of_getElem? hk))
      rw [hl] at w1 w2
      refine ⟨ws, ?_, ?_⟩
      · rw [if_neg (by simp), f1, Option.bind_some, f2, Option.bind_some, Nat.add_sub_cancel_left]
        exact w1
      · intro p v
        rw [w2]
        refine exists_congr fun j => exists_congr fun x => ?_
        rw [show keepOldOf Ro oc (k, x) = decide (oc x = oc e) by
          unfold keepOldOf firstColor; rw [hl]; simp [eq_comm]]
  have h2 : (parScatter (s 0) keys.length (keepNewKernel (graphOn keys Ro) (graphOn keys Rn) ((List.range no).map oc) ((List.range nn).map nc))
      (Mem.filled (graphOn keys Rn).ab2b.length 1)).bind Mem.toArray? = some ((edgesOn keys Rn).map (fun p => b2i (keepNewOf Ro oc nc p))) := by
    refine parEdges_onto (s 0) keys Rn (fun p => b2i (keepNewOf Ro oc nc p)) (fun k => decide (Ro k = [])) 1 _ ?_ ?_
    · intro a k hk
      obtain ⟨g1, g2⟩ := hoff Ro a k hk
      obtain ⟨g3, g4⟩ := hoff Rn a k hk
      unfold keepNewKernel
      simp only [bind, g1, g2, g3, g4, Option.bind_some]
      cases hl : Ro k with
      | nil =>
        refine ⟨[], by simp, ?_⟩
        intro p v
        simp
      | cons e l =>
        obtain ⟨f1, f2⟩ := hfirst a k e l hk hl
        obtain ⟨ws, w1, w2⟩ := rowLoop keys Rn nc nn (oc e) hk (hn k (List.mem_of_getElem? hk))
        refine ⟨ws, ?_, ?_⟩
        · rw [if_neg (by simp), f1, Option.bind_some, f2, Option.bind_some, Nat.add_sub_cancel_left]
          exact w1
        · intro p v
          rw [w2]
          have : decide (e :: l = ([] : List Nat)) = false := by simp
          rw [this]
          simp only [true_and]
          refine exists_congr fun j => exists_congr fun x => ?_
          rw [show keepNewOf Ro oc nc (k, x) = decide (nc x = oc e) by
            unfold keepNewOf firstColor; rw [hl]; simp [eq_comm]]
    · intro k e hk
      have : keepNewOf Ro oc nc (k, e) = true := by
        unfold keepNewOf; simp only [hk, Bool.true_or]
      rw [this]; rfl
  have hlen : ∀ (R : κ → List Nat) (q : κ × Nat → Bool), (keys.flatMap (fun k => (R k).filter (fun e => ! q (k, e)))).length
      + (keys.flatMap (fun k => (R k).filter (fun e => q (k, e)))).length = (keys.flatMap R).length := by
    intro R q
    rw [List.length_flatMap, List.length_flatMap, List.length_flatMap]
    clear * -
    induction keys with
    | nil => rfl
    | cons k keys ih =>
      simp only [List.map_cons, List.sum_cons]
      have := List.length_eq_length_filter_add (l := R k) (fun e => q (k, e))
      omega
  have hsize : (cavsOn keys Ro Rn).size? = some keys.length := by
    unfold Cavs.size? cavsOn
    simp only [graphOn_offsets_length]
    simp
  have f1 := filterGraphEdges_on (fun k => s (k + 1)) keys Ro (keepOldOf Ro oc) lo
  have f2 := filterGraphEdges_on (fun k => s (k + 4)) keys Rn (keepNewOf Ro oc nc) ln
  have f3 := filterGraphEdges_on (fun k => s (k + 8)) keys Ro (fun p => ! keepOldOf Ro oc p) lo
  have f4 := filterGraphEdges_on (fun k => s (k + 12)) keys Rn (fun p => ! keepNewOf Ro oc nc p) ln
  have i1 := invertMarks_flags (s 7) (edgesOn keys Ro) (keepOldOf Ro oc)
  have i2 := invertMarks_flags (s 11) (edgesOn keys Rn) (keepNewOf Ro oc nc)
  unfold separateByColorOnce
  simp only [bind, hsize, Option.bind_some]
  rw [show (cavsOn keys Ro Rn).keys2old = graphOn keys Ro from rfl, show (cavsOn keys Ro Rn).keys2new = graphOn keys Rn from rfl, h1, h2]
  simp only [Option.bind_some]
  rw [f1, f2, i1, i2]
  simp only [Option.bind_some]
  rw [f3, f4]
  simp only [Option.bind_some]
  rw [if_neg (fun h => h (hlen Ro (keepOldOf Ro oc))), if_neg (fun h => h (hlen Rn (keepNewOf Ro oc nc)))]
  rfl

/-- The rows of the old and new elements of every key have the same colours. -/
def SameColors (keys : List κ) (Ro Rn : κ → List Nat) (oc nc : Nat → Int) : Prop :=
  ∀ k ∈ keys, ∀ c, (∃ e ∈ Ro k, oc e = c) ↔ ∃ e ∈ Rn k, nc e = c

/-- What `separateByColor` returns. -/
structure ColorSeparated (keys : List κ) (Ro Rn : κ → List Nat) (oc nc : Nat → Int) (parts : List ((κ → List Nat) × (κ → List Nat))) : Prop where
  old_perm : ∀ k ∈ keys, (parts.flatMap (fun p => p.1 k)).Perm (Ro k)
  new_perm : ∀ k ∈ keys, (parts.flatMap (fun p => p.2 k)).Perm (Rn k)
  pure : SameColors keys Ro Rn oc nc → ∀ p ∈ parts, ∀ k ∈ keys, ∃ c, (∀ e ∈ p.1 k, oc e = c) ∧ ∀ e ∈ p.2 k, nc e = c
  full : SameColors keys Ro Rn oc nc → ∀ p ∈ parts, ∀ k ∈ keys, p.2 k = [] → p.1 k = []

theorem separateByColor_on (oc nc : Nat → Int) (no nn : Nat) (keys : List κ) (m : Nat) : ∀ (s : Nat → Sched) (fuel : Nat) (Ro Rn : κ → List Nat),
    (∀ k ∈ keys, (Ro k).length ≤ m) → m < fuel →
    (∀ k ∈ keys, ∀ e ∈ Ro k, e < no) → (∀ k ∈ keys, ∀ e ∈ Rn k, e < nn) →
    (∀ k ∈ keys, (Ro k).length ≤ 127) → (∀ k ∈ keys, (Rn k).length ≤ 127) →
    ∃ parts, separateByColor s ((List.range no).map oc) ((List.range nn).map nc) fuel (cavsOn keys Ro Rn)
        = some (parts.map (fun p => cavsOn keys p.1 p.2)) ∧ ColorSeparated keys Ro Rn oc nc parts := by
  have hend : ∀ (s : Nat → Sched) (fuel : Nat) (Ro Rn : κ → List Nat), (∀ k ∈ keys, Ro k = []) → (∀ k ∈ keys, Rn k = []) →
      separateByColor s ((List.range no).map oc) ((List.range nn).map nc) fuel (cavsOn keys Ro Rn) = some [] := by
    intro s fuel Ro Rn h1 h2
    cases fuel <;> unfold separateByColor <;> rw [if_pos ⟨List.flatMap_eq_nil_iff.2 h1, List.flatMap_eq_nil_iff.2 h2⟩]
  have hstep : ∀ (s : Nat → Sched) (fuel : Nat) (Ro Rn : κ → List Nat), (∀ k ∈ keys, ∀ e ∈ Ro k, e < no) → (∀ k ∈ keys, ∀ e ∈ Rn k, e < nn) →
      (∀ k ∈ keys, (Ro k).length ≤ 127) → (∀ k ∈ keys, (Rn k).length ≤ 127) →
      (∀ parts, separateByColor s ((List.range no).map oc) ((List.range nn).map nc) fuel
          (cavsOn keys (fun k => (Ro k).filter (fun e => ! keepOldOf Ro oc (k, e))) (fun k => (Rn k).filter (fun e => ! keepNewOf Ro oc nc (k, e))))
            = some (parts.map (fun p => cavsOn keys p.1 p.2)) →
        ColorSeparated keys (fun k => (Ro k).filter (fun e => ! keepOldOf Ro oc (k, e))) (fun k => (Rn k).filter (fun e => ! keepNewOf Ro oc nc (k, e))) oc nc parts →
        ∃ parts, separateByColor s ((List.range no).map oc) ((List.range nn).map nc) (fuel + 1) (cavsOn keys Ro Rn)
          = some (parts.map (fun p => cavsOn keys p.1 p.2)) ∧ ColorSeparated keys Ro Rn oc nc parts) := by
    intro s fuel Ro Rn ho hn lo ln parts hp hS
    by_cases hempty : (∀ k ∈ keys, Ro k = []) ∧ ∀ k ∈ keys, Rn k = []
    · refine ⟨[], hend s (fuel + 1) Ro Rn hempty.1 hempty.2, ?_⟩
      refine ⟨fun k hk => ?_, fun k hk => ?_, fun _ p hp => by simp at hp, fun _ p hp => by simp at hp⟩
      · rw [hempty.1 k hk]; exact List.Perm.refl _
      · rw [hempty.2 k hk]; exact List.Perm.refl _
    · refine ⟨(fun k => (Ro k).filter (fun e => keepOldOf Ro oc (k, e)), fun k => (Rn k).filter (fun e => keepNewOf Ro oc nc (k, e))) :: parts, ?_, ?_⟩
      · unfold separateByColor
        rw [if_neg (by
          rintro ⟨h1, h2⟩
          exact hempty ⟨List.flatMap_eq_nil_iff.1 h1, List.flatMap_eq_nil_iff.1 h2⟩)]
        simp only [bind]
        rw [separateOnce_on _ keys Ro Rn oc nc no nn ho hn lo ln]
        simp only [Option.bind_some]
        rw [hp]
        rfl
      · have hsame : SameColors keys Ro Rn oc nc → SameColors keys (fun k => (Ro k).filter (fun e => ! keepOldOf Ro oc (k, e)))
            (fun k => (Rn k).filter (fun e => ! keepNewOf Ro oc nc (k, e))) oc nc := by
          intro h k hk c
          have hc := h k hk c
          cases hl : Ro k with
          | nil =>
            have hnil : Rn k = [] := by
              rw [List.eq_nil_iff_forall_not_mem]
              intro e he
              obtain ⟨x, hx, _⟩ := (h k hk (nc e)).2 ⟨e, he, rfl⟩
              rw [hl] at hx; exact absurd hx List.not_mem_nil
            simp [hl, hnil]
          | cons x l =>
            have e1 : ∀ e, (! keepOldOf Ro oc (k, e)) = true ↔ ¬ oc x = oc e := by
              intro e; unfold keepOldOf firstColor; simp [hl]
            have e2 : ∀ e, (! keepNewOf Ro oc nc (k, e)) = true ↔ ¬ oc x = nc e := by
              intro e; unfold keepNewOf firstColor; simp [hl]
            simp only [List.mem_filter, e1, e2]
            constructor
            · rintro ⟨e, ⟨he, hne⟩, rfl⟩
              obtain ⟨e', he', h'⟩ := hc.1 ⟨e, by rw [hl] at *; exact he, rfl⟩
              exact ⟨e', ⟨he', by rw [h']; exact hne⟩, h'⟩
            · rintro ⟨e, ⟨he, hne⟩, rfl⟩
              obtain ⟨e', he', h'⟩ := hc.2 ⟨e, he, rfl⟩
              exact ⟨e', ⟨he', by rw [h']; exact hne⟩, h'⟩
        refine ⟨?_, ?_, ?_, ?_⟩
        · intro k hk
          rw [List.flatMap_cons]
          exact (List.Perm.append_left _ (hS.old_perm k hk)).trans (List.filter_append_perm _ _)
        · intro k hk
          rw [List.flatMap_cons]
          exact (List.Perm.append_left _ (hS.new_perm k hk)).trans (List.filter_append_perm _ _)
        · intro h p hp k hk
          rcases List.mem_cons.1 hp with rfl | hp
          · cases hl : Ro k with
            | nil =>
              have hnil : Rn k = [] := by
                rw [List.eq_nil_iff_forall_not_mem]
                intro e he
                obtain ⟨x, hx, _⟩ := (h k hk (nc e)).2 ⟨e, he, rfl⟩
                rw [hl] at hx; exact absurd hx List.not_mem_nil
              exact ⟨0, by simp [hl], by simp [hnil]⟩
            | cons x l =>
              refine ⟨oc x, ?_, ?_⟩
              · intro e he
                have := (List.mem_filter.1 he).2
                unfold keepOldOf firstColor at this
                simpa [hl, eq_comm] using this
              · intro e he
                have := (List.mem_filter.1 he).2
                unfold keepNewOf firstColor at this
                simpa [hl, eq_comm] using this
          · exact hS.pure (hsame h) p hp k hk
        · intro h p hp k hk hnil
          rcases List.mem_cons.1 hp with rfl | hp
          · cases hl : Ro k with
            | nil => simp [hl]
            | cons x l =>
              exfalso
              obtain ⟨e, he, h'⟩ := (h k hk (oc x)).1 ⟨x, by rw [hl]; exact List.mem_cons_self .., rfl⟩
              have : e ∈ (Rn k).filter (fun e => keepNewOf Ro oc nc (k, e)) := by
                rw [List.mem_filter]
                refine ⟨he, ?_⟩
                unfold keepNewOf firstColor
                simp [hl, h']
              simp only at hnil
              rw [hnil] at this
              exact absurd this List.not_mem_nil
          · exact hS.full (hsame h) p hp k hk hnil
  induction m with
  | zero =>
    intro s fuel Ro Rn hm hf ho hn lo ln
    obtain ⟨fuel, rfl⟩ : ∃ f, fuel = f + 1 := ⟨fuel - 1, by omega⟩
    have hRo : ∀ k ∈ keys, Ro k = [] := fun k hk => List.length_eq_zero_iff.1 (Nat.le_zero.1 (hm k hk))
    refine hstep s fuel Ro Rn ho hn lo ln [] (hend _ _ _ _ ?_ ?_) ?_
    · intro k hk; simp [hRo k hk]
    · intro k hk
      rw [List.filter_eq_nil_iff]
      intro e _
      unfold keepNewOf
      simp [hRo k hk]
    · refine ⟨fun k hk => ?_, fun k hk => ?_, fun _ p hp => by simp at hp, fun _ p hp => by simp at hp⟩
      · simp [hRo k hk]
      · rw [List.filter_eq_nil_iff.2]
        · exact List.Perm.refl _
        · intro e _
          unfold keepNewOf
          simp [hRo k hk]
  | succ m ih =>
    intro s fuel Ro Rn hm hf ho hn lo ln
    obtain ⟨fuel, rfl⟩ : ∃ f, fuel = f + 1 := ⟨fuel - 1, by omega⟩
    obtain ⟨parts, p1, p2⟩ := ih s fuel (fun k => (Ro k).filter (fun e => ! keepOldOf Ro oc (k, e)))
      (fun k => (Rn k).filter (fun e => ! keepNewOf Ro oc nc (k, e))) (by
        intro k hk
        cases hl : Ro k with
        | nil => simp
        | cons x l =>
          have h0 := hm k hk
          rw [hl] at h0
          rw [List.filter_cons_of_neg (by unfold keepOldOf firstColor; simp [hl])]
          have := List.length_filter_le (fun e => ! keepOldOf Ro oc (k, e)) l
          simp only [List.length_cons] at h0
          omega) (by omega)
      (fun k hk e he => ho k hk e (List.mem_of_mem_filter he)) (fun k hk e he => hn k hk e (List.mem_of_mem_filter he))
      (fun k hk => Nat.le_trans (List.length_filter_le _ _) (lo k hk)) (fun k hk => Nat.le_trans (List.length_filter_le _ _) (ln k hk))
    exact hstep s fuel Ro Rn ho hn lo ln parts p1 p2

end
end OmegaH
