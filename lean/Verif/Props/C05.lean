import Verif.Spec.Map
import Verif.Lemmas.Map
import Verif.Lemmas.Fan
import Verif.Lemmas.Perm

/-! # C05 — gather/scatter through index maps -/

namespace OmegaH
open Spec

/-- `unmap` gathers rows: row `i` of the result is row `a2b[i]` of the input. -/
theorem C05_unmap {α : Type} (s : Sched) (a2b : List Nat) (bData : List α) (w nb : Nat)
    (hlen : nb * w ≤ bData.length) (hr : InRange a2b nb) :
    ∃ out, unmap s a2b bData w = some out ∧ out.length = a2b.length * w ∧
      ∀ i b j, a2b[i]? = some b → j < w → entry out w i j = entry bData w b j := by
  obtain ⟨out, h1, h2, h3⟩ := parScatter_buildR s a2b.length (a2b.length * w)
    (fun a => (a2b[a]?).bind (fun b => copyRow bData w b a))
    (fun a p v => ∃ b, a2b[a]? = some b ∧ ∃ j, j < w ∧ p = a * w + j ∧ bData[b * w + j]? = some v)
    (fun p => (a2b[p / w]?).bind (fun b => bData[b * w + p % w]?))
    (by
      intro i hi
      have hb := hr (a2b[i]) (List.getElem_mem hi)
      obtain ⟨ws, e1, e2⟩ := copyRow_spec bData w a2b[i] i
        (Nat.le_trans (Nat.mul_le_mul_right _ hb) hlen)
      refine ⟨ws, by rw [List.getElem?_eq_getElem hi]; exact e1, ?_⟩
      intro p v
      rw [e2, List.getElem?_eq_getElem hi]
      simp)
    (by
      rintro i hi p v ⟨b, hb, j, hj, rfl, hv⟩
      refine ⟨row_lt hi hj, ?_⟩
      have e1 : (i * w + j) / w = i := by
        rw [Nat.mul_comm, Nat.mul_add_div (by omega), Nat.div_eq_of_lt hj]; omega
      have e2 : (i * w + j) % w = j := by
        rw [Nat.mul_comm, Nat.mul_add_mod, Nat.mod_eq_of_lt hj]
      rw [e1, e2, hb]; exact hv)
    (by
      intro p hp
      obtain ⟨a, j, ha, hj, rfl⟩ := row_cover hp
      have hb := hr (a2b[a]) (List.getElem_mem ha)
      have := row_lt hb hj
      exact ⟨a, ha, bData[a2b[a] * w + j]'(by omega), a2b[a], List.getElem?_eq_getElem ha, j, hj,
        rfl, List.getElem?_eq_getElem _⟩)
  refine ⟨out, h1, h2, ?_⟩
  intro i b j hb hj
  have hi := (List.getElem?_eq_some_iff.1 hb).1
  unfold entry
  rw [h3 _ (row_lt hi hj)]
  have e1 : (i * w + j) / w = i := by
    rw [Nat.mul_comm, Nat.mul_add_div (by omega), Nat.div_eq_of_lt hj]; omega
  have e2 : (i * w + j) % w = j := by
    rw [Nat.mul_comm, Nat.mul_add_mod, Nat.mod_eq_of_lt hj]
  rw [e1, e2, hb]; rfl

/-- Gathering from a row that does not exist is undefined behaviour. -/
theorem C05_unmap_out_of_range {α : Type} (s : Sched) (a2b : List Nat) (bData : List α) (w i b : Nat)
    (hw : 0 < w) (hb : a2b[i]? = some b) (hout : bData.length ≤ b * w) :
    unmap s a2b bData w = none := by
  have hi := (List.getElem?_eq_some_iff.1 hb).1
  have hrow : copyRow bData w b i = none := by
    unfold copyRow
    obtain ⟨k, rfl⟩ : ∃ k, w = k + 1 := ⟨w - 1, by omega⟩
    rw [List.range_succ_eq_map, List.mapM_cons, List.getElem?_eq_none (by omega)]
    rfl
  have : ∀ l : List Nat, i ∈ l →
      l.mapM (fun a => (a2b[a]?).bind (fun b => copyRow bData w b a)) = none := by
    intro l hl
    induction l with
    | nil => simp at hl
    | cons x l ih =>
      rw [List.mapM_cons]
      rcases List.mem_cons.1 hl with rfl | h
      · simp [hb, hrow]
      · rw [ih h]
        cases (a2b[x]?).bind (fun b => copyRow bData w b x) <;> rfl
  unfold unmap parScatter
  rw [this _ (List.mem_range.2 hi)]
  rfl

/-- `map_into` along an injective map: row `a2b[i]` of the destination becomes row `i` of the source,
and all other cells of the destination are untouched, for every order of the iterations. -/
theorem C05_map_into {α : Type} (s : Sched) (aData : List α) (a2b : List Nat) (bData : Mem α)
    (w nb : Nat) (ha : aData.length = a2b.length * w) (hlen : nb * w ≤ bData.length)
    (hr : InRange a2b nb) (hinj : Injective a2b) :
    ∃ out, mapInto s aData a2b bData w = some out ∧ out.length = bData.length ∧
      (∀ i b j, a2b[i]? = some b → j < w → entry out w b j = some (entry aData w i j)) ∧
      (∀ b j, ¬ InImage a2b b → j < w → entry out w b j = entry bData w b j) ∧
      (∀ p, nb * w ≤ p → out[p]? = bData[p]?) := by
  have hW : ∀ i, ∃ ws, i < a2b.length →
      ((a2b[i]?).bind (fun b => copyRow aData w i b)) = some ws ∧
      ∀ p v, (p, v) ∈ ws ↔ ∃ b, a2b[i]? = some b ∧
        ∃ j, j < w ∧ p = b * w + j ∧ aData[i * w + j]? = some v := by
    intro i
    by_cases hi : i < a2b.length
    · obtain ⟨ws, e1, e2⟩ := copyRow_spec aData w i a2b[i] (by
        rw [ha]; exact Nat.mul_le_mul_right _ hi)
      refine ⟨ws, fun _ => ⟨by rw [List.getElem?_eq_getElem hi]; exact e1, ?_⟩⟩
      intro p v
      rw [e2, List.getElem?_eq_getElem hi]; simp
    · exact ⟨[], fun h => absurd h hi⟩
  obtain ⟨ws, hws⟩ := Classical.skolem.1 hW
  classical
  let F : Nat → Option α := fun p =>
    if h : ∃ i, a2b[i]? = some (p / w) then aData[Classical.choose h * w + p % w]? else none
  have hF : ∀ i b j, a2b[i]? = some b → j < w → F (b * w + j) = aData[i * w + j]? := by
    intro i b j hb hj
    have e1 : (b * w + j) / w = b := by
      rw [Nat.mul_comm, Nat.mul_add_div (by omega), Nat.div_eq_of_lt hj]; omega
    have e2 : (b * w + j) % w = j := by
      rw [Nat.mul_comm, Nat.mul_add_mod, Nat.mod_eq_of_lt hj]
    have hex : ∃ i, a2b[i]? = some ((b * w + j) / w) := ⟨i, by rw [e1]; exact hb⟩
    have hc : a2b[Classical.choose hex]? = some ((b * w + j) / w) := Classical.choose_spec hex
    have : Classical.choose hex = i := hinj _ _ _ hc (by rw [e1]; exact hb)
    simp only [F]
    rw [dif_pos hex, this, e2]
  obtain ⟨out, h1, h2, h3, h4⟩ := parScatter_specO s a2b.length _ ws F bData
    (fun i hi => (hws i hi).1) (by
      intro i hi p v hp
      obtain ⟨b, hb, j, hj, rfl, hv⟩ := ((hws i hi).2 p v).1 hp
      have := row_lt (hr b (List.mem_of_getElem? hb)) hj
      exact ⟨by omega, by rw [hF i b j hb hj, hv]⟩)
  refine ⟨out, ?_, h2, ?_, ?_, ?_⟩
  · unfold mapInto; rw [if_pos ha]; exact h1
  · intro i b j hb hj
    have hi := (List.getElem?_eq_some_iff.1 hb).1
    have hlt : i * w + j < aData.length := by rw [ha]; exact row_lt hi hj
    have hv := List.getElem?_eq_getElem hlt
    unfold entry
    rw [h3 i hi (b * w + j) _ (((hws i hi).2 _ _).2 ⟨b, hb, j, hj, rfl, hv⟩), hF i b j hb hj]
  · intro b j hb hj
    unfold entry
    apply h4
    intro i hi v hv
    obtain ⟨b', hb', j', hj', hp, _⟩ := ((hws i hi).2 _ _).1 hv
    have := (row_unique hj hj' hp).1
    subst this
    exact hb ⟨i, hb'⟩
  · intro p hp
    apply h4
    intro i hi v hv
    obtain ⟨b', hb', j', hj', rfl, _⟩ := ((hws i hi).2 _ _).1 hv
    have := row_lt (hr b' (List.mem_of_getElem? hb')) hj'
    omega

/-- Two arrays with the same rows (and the same size) are equal. -/
theorem eq_of_entries {α : Type} {x y : List α} {w n : Nat} (hx : x.length = n * w)
    (hy : y.length = n * w) (h : ∀ i j, i < n → j < w → entry x w i j = entry y w i j) : x = y := by
  apply List.ext_getElem?
  intro p
  by_cases hp : p < n * w
  · obtain ⟨a, j, ha, hj, rfl⟩ := row_cover hp
    exact h a j ha hj
  · rw [List.getElem?_eq_none (by omega), List.getElem?_eq_none (by omega)]

/-- The effect of `map_into` along an injective map does not depend on the schedule. -/
theorem C05_map_into_schedule_independent {α : Type} (s t : Sched) (aData : List α)
    (a2b : List Nat) (bData : Mem α) (w nb : Nat) (ha : aData.length = a2b.length * w)
    (hlen : nb * w ≤ bData.length) (hr : InRange a2b nb) (hinj : Injective a2b) :
    mapInto s aData a2b bData w = mapInto t aData a2b bData w := by
  obtain ⟨o, h1, h2, h3, h4, h5⟩ := C05_map_into s aData a2b bData w nb ha hlen hr hinj
  obtain ⟨o', h1', h2', h3', h4', h5'⟩ := C05_map_into t aData a2b bData w nb ha hlen hr hinj
  rw [h1, h1']
  congr 1
  apply List.ext_getElem?
  intro p
  by_cases hp : p < nb * w
  · obtain ⟨b, j, hb, hj, rfl⟩ := row_cover hp
    by_cases him : InImage a2b b
    · obtain ⟨i, hi⟩ := him
      have e1 := h3 i b j hi hj
      have e2 := h3' i b j hi hj
      unfold entry at e1 e2; rw [e1, e2]
    · have e1 := h4 b j him hj
      have e2 := h4' b j him hj
      unfold entry at e1 e2; rw [e1, e2]
  · rw [h5 p (by omega), h5' p (by omega)]

/-- Without injectivity the result does depend on the schedule. -/
theorem C05_map_into_noninjective_refuted :
    ∃ (s t : Sched) (aData : List Nat) (a2b : List Nat) (bData : Mem Nat),
      InRange a2b 1 ∧ mapInto s aData a2b bData 1 ≠ mapInto t aData a2b bData 1 :=
  ⟨Sched.serial, Sched.reversed, [10, 20], [0, 0], [some 5], by
    intro b hb; simp at hb; omega, by decide +kernel⟩

/-- `map_onto` along an injective map: mapped rows are copied, all others hold the initial value. -/
theorem C05_map_onto {α : Type} (s : Sched) (aData : List α) (a2b : List Nat) (nb : Nat) (init : α)
    (w : Nat) (ha : aData.length = a2b.length * w) (hle : aData.length ≤ nb * w)
    (hr : InRange a2b nb) (hinj : Injective a2b) :
    ∃ out, mapOnto s aData a2b nb init w = some out ∧ out.length = nb * w ∧
      (∀ i b j, a2b[i]? = some b → j < w → entry out w b j = entry aData w i j) ∧
      (∀ b j, b < nb → ¬ InImage a2b b → j < w → entry out w b j = some init) := by
  have hl : (Mem.filled (nb * w) init).length = nb * w := List.length_replicate
  obtain ⟨m, h1, h2, h3, h4, _⟩ := C05_map_into s aData a2b (Mem.filled (nb * w) init) w nb ha
    (by omega) hr hinj
  rw [hl] at h2
  obtain ⟨out, o1, o2, o3⟩ := Mem.toArray?_spec m (fun p => (m[p]?).join) (by
    intro p hp
    obtain ⟨b, j, hb, hj, rfl⟩ := row_cover (h2 ▸ hp)
    by_cases him : InImage a2b b
    · obtain ⟨i, hi⟩ := him
      have e1 := h3 i b j hi hj
      have hi' := (List.getElem?_eq_some_iff.1 hi).1
      unfold entry at e1
      rw [e1, List.getElem?_eq_getElem (by rw [ha]; exact row_lt hi' hj)]; simp
    · have e1 := h4 b j him hj
      unfold entry at e1
      have := row_lt hb hj
      rw [e1]; simp [Mem.filled, this])
  refine ⟨out, ?_, by omega, ?_, ?_⟩
  · unfold mapOnto; rw [if_pos hle, h1]; exact o1
  · intro i b j hb hj
    have e1 := h3 i b j hb hj
    have := row_lt (hr b (List.mem_of_getElem? hb)) hj
    unfold entry at *
    rw [o3 _ (by omega), e1]; rfl
  · intro b j hb him hj
    have e1 := h4 b j him hj
    have := row_lt hb hj
    unfold entry at *
    rw [o3 _ (by omega), e1]; simp [Mem.filled, this]

/-- Scattering along an injective map and gathering along the same map gives the data back. -/
theorem C05_scatter_gather {α : Type} (s t : Sched) (aData : List α) (a2b : List Nat) (nb : Nat)
    (init : α) (w : Nat) (ha : aData.length = a2b.length * w) (hle : aData.length ≤ nb * w)
    (hr : InRange a2b nb) (hinj : Injective a2b) :
    (mapOnto s aData a2b nb init w).bind (fun b => unmap t a2b b w) = some aData := by
  obtain ⟨out, h1, h2, h3, _⟩ := C05_map_onto s aData a2b nb init w ha hle hr hinj
  obtain ⟨back, b1, b2, b3⟩ := C05_unmap t a2b out w nb (by omega) hr
  rw [h1]
  simp only [Option.bind_some]
  rw [b1]
  congr 1
  refine eq_of_entries b2 ha ?_
  intro i j hi hj
  have hb := List.getElem?_eq_getElem hi
  rw [b3 i _ j hb hj, h3 i _ j hb hj]

/-- `permute` along a permutation moves row `i` to row `perm[i]`. -/
theorem C05_permute {α : Type} (s : Sched) (aData : List α) (perm : List Nat) (w n : Nat)
    (ha : aData.length = n * w) (hp : IsPermutation perm n) :
    ∃ out, permute s aData perm w = some out ∧ out.length = n * w ∧
      ∀ i b j, perm[i]? = some b → j < w → entry out w b j = entry aData w i j := by
  have hsurj := isPermutation_surj hp
  obtain ⟨hl, hr, hinj⟩ := hp
  have hal : (Mem.alloc (n * w) : Mem α).length = n * w := List.length_replicate
  obtain ⟨m, h1, h2, h3, h4, _⟩ := C05_map_into s aData perm (Mem.alloc (n * w)) w n
    (by rw [hl]; exact ha) (by omega) hr hinj
  rw [hal] at h2
  obtain ⟨out, o1, o2, o3⟩ := Mem.toArray?_spec m (fun p => (m[p]?).join) (by
    intro p hp
    obtain ⟨b, j, hb, hj, rfl⟩ := row_cover (h2 ▸ hp)
    obtain ⟨i, hi⟩ := hsurj b hb
    have e1 := h3 i b j hi hj
    have hi' := (List.getElem?_eq_some_iff.1 hi).1
    unfold entry at e1
    rw [e1, List.getElem?_eq_getElem (by rw [ha]; exact row_lt (hl ▸ hi') hj)]; simp)
  refine ⟨out, ?_, by omega, ?_⟩
  · unfold permute; rw [hl, h1]; exact o1
  · intro i b j hb hj
    have e1 := h3 i b j hb hj
    have := row_lt (hr b (List.mem_of_getElem? hb)) hj
    unfold entry at *
    rw [o3 _ (by omega), e1]; rfl

/-- `invert_permutation` gives the inverse permutation. -/
theorem C05_invert_permutation (s : Sched) (perm : List Nat) (n : Nat)
    (hp : IsPermutation perm n) :
    ∃ inv, invertPermutation s perm = some inv ∧ IsPermutation inv n ∧
      ∀ i b : Nat, perm[i]? = some b ↔ inv[b]? = some i := by
  have hsurj := isPermutation_surj hp
  obtain ⟨hl, hr, hinj⟩ := hp
  have hidx : ∀ b : Nat, b < n → ∃ i, perm[i]? = some b := hsurj
  obtain ⟨out, h1, h2, h3⟩ := parScatter_buildR s perm.length perm.length
    (fun a => (perm[a]?).map (fun b => [(b, a)])) (fun a p v => perm[a]? = some p ∧ v = a)
    (fun p => perm.findIdx? (· == p)) (by
      intro i hi
      rw [List.getElem?_eq_getElem hi]
      refine ⟨_, rfl, ?_⟩
      intro p v
      simp only [List.mem_singleton, Prod.mk.injEq, Option.some.injEq]
      constructor <;> rintro ⟨a, b⟩ <;> exact ⟨a.symm, b⟩)
    (by
      rintro i hi p v ⟨hb, rfl⟩
      refine ⟨by rw [hl]; exact hr p (List.mem_of_getElem? hb), ?_⟩
      rw [List.findIdx?_eq_some_iff_getElem]
      refine ⟨hi, by rw [List.getElem?_eq_getElem hi] at hb; simpa using hb, ?_⟩
      intro j hj
      simp only [beq_iff_eq]
      intro e
      have := hinj j v p (by rw [List.getElem?_eq_getElem (by omega), e]) hb
      omega)
    (by
      intro p hp
      obtain ⟨i, hi⟩ := hidx p (by omega)
      exact ⟨i, (List.getElem?_eq_some_iff.1 hi).1, i, hi, rfl⟩)
  have key : ∀ i b : Nat, perm[i]? = some b ↔ out[b]? = some i := by
    intro i b
    constructor
    · intro hb
      have hi := (List.getElem?_eq_some_iff.1 hb).1
      have hbn := hr b (List.mem_of_getElem? hb)
      rw [h3 b (by omega), List.findIdx?_eq_some_iff_getElem]
      refine ⟨hi, by rw [List.getElem?_eq_getElem hi] at hb; simpa using hb, ?_⟩
      intro j hj
      simp only [beq_iff_eq]
      intro e
      have := hinj j i b (by rw [List.getElem?_eq_getElem (by omega), e]) hb
      omega
    · intro ho
      have hbn := (List.getElem?_eq_some_iff.1 ho).1
      rw [h3 b (by omega), List.findIdx?_eq_some_iff_getElem] at ho
      obtain ⟨hi, he, _⟩ := ho
      rw [List.getElem?_eq_getElem hi]; simpa using he
  refine ⟨out, h1, ⟨by omega, ?_, ?_⟩, key⟩
  · intro i hi
    obtain ⟨b, hb⟩ := List.mem_iff_getElem?.1 hi
    have := (List.getElem?_eq_some_iff.1 ((key i b).2 hb)).1
    omega
  · intro x y b hx hy
    have h1 := (key b x).2 hx
    have h2 := (key b y).2 hy
    rw [h1] at h2; exact Option.some.inj h2

/-- Permuting and then permuting by the inverse gives the data back. -/
theorem C05_permute_inverse {α : Type} (s t u : Sched) (aData : List α) (perm inv : List Nat)
    (w n : Nat) (ha : aData.length = n * w) (hp : IsPermutation perm n)
    (hinv : invertPermutation u perm = some inv) :
    (permute s aData perm w).bind (fun x => permute t x inv w) = some aData := by
  obtain ⟨inv', i1, i2, i3⟩ := C05_invert_permutation u perm n hp
  rw [hinv] at i1
  obtain rfl := Option.some.inj i1
  obtain ⟨x, x1, x2, x3⟩ := C05_permute s aData perm w n ha hp
  obtain ⟨y, y1, y2, y3⟩ := C05_permute t x inv w n x2 i2
  rw [x1]
  simp only [Option.bind_some]
  rw [y1]
  congr 1
  refine eq_of_entries y2 ha ?_
  intro i j hi hj
  have hb := List.getElem?_eq_getElem (show i < perm.length by rw [hp.1]; exact hi)
  rw [y3 _ i j ((i3 i _).1 hb) hj, x3 i _ j hb hj]

/-- `compound_maps` composes index maps. -/
theorem C05_compound_maps {α : Type} (s : Sched) (a2b : List Nat) (b2c : List α) (hr : InRange a2b b2c.length) :
    ∃ a2c, compoundMaps s a2b b2c = some a2c ∧ a2c.length = a2b.length ∧
      ∀ (a b : Nat), a2b[a]? = some b → a2c[a]? = b2c[b]? := by
  obtain ⟨out, h1, h2, h3⟩ := parScatter_buildR s a2b.length a2b.length
    (fun a => (a2b[a]?).bind (fun b => (b2c[b]?).map (fun c => [(a, c)])))
    (fun a p v => p = a ∧ (a2b[a]?).bind (fun b => b2c[b]?) = some v)
    (fun p => (a2b[p]?).bind (fun b => b2c[b]?)) (by
      intro i hi
      have hb := hr _ (List.getElem_mem hi)
      rw [List.getElem?_eq_getElem hi]
      simp only [Option.bind_some]
      rw [List.getElem?_eq_getElem hb]
      refine ⟨_, rfl, ?_⟩
      intro p v
      simp only [List.mem_singleton, Prod.mk.injEq, Option.some.injEq]
      constructor <;> rintro ⟨a, b⟩ <;> exact ⟨a, b.symm⟩)
    (by rintro i hi p v ⟨rfl, h⟩; exact ⟨hi, h⟩)
    (by
      intro p hp
      have hb := hr _ (List.getElem_mem hp)
      refine ⟨p, hp, b2c[a2b[p]], rfl, ?_⟩
      rw [List.getElem?_eq_getElem hp]
      simp [List.getElem?_eq_getElem hb])
  refine ⟨out, h1, h2, ?_⟩
  intro a b hb
  rw [h3 a (List.getElem?_eq_some_iff.1 hb).1, hb]; rfl

/-- Gathering through a compound map is gathering twice. -/
theorem C05_unmap_compound {α : Type} (s t u v : Sched) (a2b b2c : List Nat) (data : List α)
    (w nc : Nat) (hlen : nc * w ≤ data.length) (hr : InRange a2b b2c.length) (hc : InRange b2c nc) :
    (compoundMaps s a2b b2c).bind (fun a2c => unmap t a2c data w) =
      (unmap u b2c data w).bind (fun bData => unmap v a2b bData w) := by
  obtain ⟨a2c, c1, c2, c3⟩ := C05_compound_maps s a2b b2c hr
  have hac : InRange a2c nc := by
    intro c hcm
    obtain ⟨a, hca⟩ := List.mem_iff_getElem?.1 hcm
    have ha := (List.getElem?_eq_some_iff.1 hca).1
    rw [c3 a _ (List.getElem?_eq_getElem (by omega))] at hca
    exact hc c (List.mem_of_getElem? hca)
  obtain ⟨x, x1, x2, x3⟩ := C05_unmap t a2c data w nc hlen hac
  obtain ⟨y, y1, y2, y3⟩ := C05_unmap u b2c data w nc hlen hc
  obtain ⟨z, z1, z2, z3⟩ := C05_unmap v a2b y w b2c.length (by omega) hr
  rw [c1, y1]
  simp only [Option.bind_some]
  rw [x1, z1]
  congr 1
  refine eq_of_entries (x2.trans (by rw [c2])) z2 ?_
  intro i j hi hj
  have hb := List.getElem?_eq_getElem hi
  have hbr := hr _ (List.getElem_mem hi)
  have hc' := List.getElem?_eq_getElem hbr
  have hac' := c3 i _ hb
  rw [hc'] at hac'
  rw [x3 i _ j hac' hj, z3 i _ j hb hj, y3 _ _ j hc' hj]

/-- `expand` repeats row `a` once for every member of fan `a`. -/
theorem C05_expand {α : Type} (s : Sched) (aData : List α) (a2b : List Nat) (w nb : Nat)
    (hf : IsFan a2b) (hnb : a2b.getLast? = some nb) (ha : aData.length = (a2b.length - 1) * w) :
    ∃ out, expand s aData a2b w = some out ∧ out.length = nb * w ∧
      ∀ a b j, InFan a2b a b → j < w → entry out w b j = entry aData w a j := by
  obtain ⟨nb', e1, e2⟩ := fan_last hf
  rw [hnb] at e1
  obtain rfl := Option.some.inj e1
  classical
  obtain ⟨out, h1, h2, h3⟩ := parScatter_buildR s (a2b.length - 1) (nb * w)
    (fun a => (fanMembers a2b a).bind (fun bs =>
        (bs.mapM (fun b => copyRow aData w a b)).map List.flatten))
    (fun a p v => ∃ b, InFan a2b a b ∧ ∃ j, j < w ∧ p = b * w + j ∧ aData[a * w + j]? = some v)
    (fun p => if h : ∃ a, InFan a2b a (p / w) then aData[Classical.choose h * w + p % w]? else none)
    (by
      intro a hal
      obtain ⟨bs, b1, _, b3⟩ := fanMembers_spec hal
      have hle : (a + 1) * w ≤ aData.length := by rw [ha]; exact Nat.mul_le_mul_right _ hal
      obtain ⟨rows, r1, _, r3, _⟩ := mapM_list_spec bs (fun b => copyRow aData w a b) (by
        intro b _
        obtain ⟨ws, h, _⟩ := copyRow_spec aData w a b hle
        simp [h])
      refine ⟨rows.flatten, by rw [b1]; simp [r1], ?_⟩
      intro p v
      rw [List.mem_flatten]
      constructor
      · rintro ⟨l, hl, hp⟩
        obtain ⟨b, hb, hrow⟩ := (r3 l).1 hl
        obtain ⟨ws, c1, c2⟩ := copyRow_spec aData w a b hle
        rw [hrow] at c1
        obtain rfl := Option.some.inj c1
        exact ⟨b, (b3 b).1 hb, (c2 p v).1 hp⟩
      · rintro ⟨b, hb, hx⟩
        obtain ⟨ws, c1, c2⟩ := copyRow_spec aData w a b hle
        exact ⟨ws, (r3 ws).2 ⟨b, (b3 b).2 hb, c1⟩, (c2 p v).2 hx⟩)
    (by
      rintro a hal p v ⟨b, hb, j, hj, rfl, hv⟩
      refine ⟨row_lt (inFan_lt hf hb e2).1 hj, ?_⟩
      have d1 : (b * w + j) / w = b := by
        rw [Nat.mul_comm, Nat.mul_add_div (by omega), Nat.div_eq_of_lt hj]; omega
      have d2 : (b * w + j) % w = j := by
        rw [Nat.mul_comm, Nat.mul_add_mod, Nat.mod_eq_of_lt hj]
      have hex : ∃ a, InFan a2b a ((b * w + j) / w) := ⟨a, by rw [d1]; exact hb⟩
      have hc : InFan a2b (Classical.choose hex) ((b * w + j) / w) := Classical.choose_spec hex
      rw [dif_pos hex, d2, inFan_unique hf hc (by rw [d1]; exact hb)]
      exact hv)
    (by
      intro p hp
      obtain ⟨b, j, hb, hj, rfl⟩ := row_cover hp
      obtain ⟨a, hab⟩ := inFan_cover hf e2 hb
      have hal := (inFan_lt hf hab e2).2
      exact ⟨a, hal, aData[a * w + j]'(by rw [ha]; exact row_lt hal hj), b, hab, j, hj, rfl,
        List.getElem?_eq_getElem _⟩)
  refine ⟨out, ?_, h2, ?_⟩
  · unfold expand expandInto
    rw [hnb]
    simp only [Option.bind_some]
    rw [if_pos ⟨fan_ne_nil hf, ha⟩]
    exact h1
  · intro a b j hab hj
    unfold entry
    rw [h3 _ (row_lt (inFan_lt hf hab e2).1 hj)]
    have d1 : (b * w + j) / w = b := by
      rw [Nat.mul_comm, Nat.mul_add_div (by omega), Nat.div_eq_of_lt hj]; omega
    have d2 : (b * w + j) % w = j := by
      rw [Nat.mul_comm, Nat.mul_add_mod, Nat.mod_eq_of_lt hj]
    have hex : ∃ a, InFan a2b a ((b * w + j) / w) := ⟨a, by rw [d1]; exact hab⟩
    have hc : InFan a2b (Classical.choose hex) ((b * w + j) / w) := Classical.choose_spec hex
    rw [dif_pos hex, d2, inFan_unique hf hc (by rw [d1]; exact hab)]

/-- `unmap_range` returns the rows `b … e-1`. -/
theorem C05_unmap_range {α : Type} (s : Sched) (b e : Nat) (bData : List α) (w nb : Nat)
    (hbe : b ≤ e) (hen : e ≤ nb) (hlen : nb * w ≤ bData.length) :
    ∃ out, unmapRange s b e bData w = some out ∧ out.length = (e - b) * w ∧
      ∀ i j, i < e - b → j < w → entry out w i j = entry bData w (b + i) j := by
  have hin : ∀ i, i < e - b → (i + b + 1) * w ≤ bData.length := fun i hi =>
    Nat.le_trans (Nat.mul_le_mul_right _ (by omega)) hlen
  obtain ⟨out, h1, h2, h3⟩ := parScatter_buildR s (e - b) ((e - b) * w)
    (fun a => copyRow bData w (a + b) a)
    (fun a p v => ∃ j, j < w ∧ p = a * w + j ∧ bData[(a + b) * w + j]? = some v)
    (fun p => bData[(p / w + b) * w + p % w]?)
    (fun i hi => copyRow_spec bData w (i + b) i (hin i hi))
    (by
      rintro i hi p v ⟨j, hj, rfl, hv⟩
      refine ⟨row_lt hi hj, ?_⟩
      have d1 : (i * w + j) / w = i := by
        rw [Nat.mul_comm, Nat.mul_add_div (by omega), Nat.div_eq_of_lt hj]; omega
      have d2 : (i * w + j) % w = j := by
        rw [Nat.mul_comm, Nat.mul_add_mod, Nat.mod_eq_of_lt hj]
      rw [d1, d2]; exact hv)
    (by
      intro p hp
      obtain ⟨a, j, hal, hj, rfl⟩ := row_cover hp
      have := hin a hal
      rw [Nat.add_mul] at this
      exact ⟨a, hal, bData[(a + b) * w + j]'(by omega), j, hj, rfl, List.getElem?_eq_getElem _⟩)
  refine ⟨out, by unfold unmapRange; rw [if_pos hbe]; exact h1, h2, ?_⟩
  intro i j hi hj
  unfold entry
  rw [h3 _ (row_lt hi hj)]
  have d1 : (i * w + j) / w = i := by
    rw [Nat.mul_comm, Nat.mul_add_div (by omega), Nat.div_eq_of_lt hj]; omega
  have d2 : (i * w + j) % w = j := by
    rw [Nat.mul_comm, Nat.mul_add_mod, Nat.mod_eq_of_lt hj]
  rw [d1, d2, Nat.add_comm i b]

/-- `map_into_range` overwrites the rows `b … e-1` and nothing else. -/
theorem C05_map_into_range {α : Type} (s : Sched) (aData bData : List α) (b e w : Nat)
    (hbe : b ≤ e) (ha : aData.length = (e - b) * w) (hlen : e * w ≤ bData.length) :
    ∃ out, (mapIntoRange s aData b e (Mem.ofList bData) w).bind Mem.toArray? = some out ∧
      out.length = bData.length ∧
      (∀ i j, i < e - b → j < w → entry out w (b + i) j = entry aData w i j) ∧
      (∀ i j, (i < b ∨ e ≤ i) → j < w → entry out w i j = entry bData w i j) := by
  obtain ⟨out, h1, h2, h3, h4⟩ := parScatter_ontoR s (e - b)
    (fun a => copyRow aData w a (b + a))
    (fun a p v => ∃ j, j < w ∧ p = (b + a) * w + j ∧ aData[a * w + j]? = some v)
    (fun p => aData[(p / w - b) * w + p % w]?) bData
    (fun i hi => copyRow_spec aData w i (b + i) (by rw [ha]; exact Nat.mul_le_mul_right _ hi))
    (by
      rintro i hi p v ⟨j, hj, rfl, hv⟩
      have := row_lt (show b + i < e by omega) hj
      refine ⟨by omega, ?_⟩
      have d1 : ((b + i) * w + j) / w = b + i := by
        rw [Nat.mul_comm, Nat.mul_add_div (by omega), Nat.div_eq_of_lt hj]; omega
      have d2 : ((b + i) * w + j) % w = j := by
        rw [Nat.mul_comm, Nat.mul_add_mod, Nat.mod_eq_of_lt hj]
      rw [d1, d2, Nat.add_sub_cancel_left]; exact hv)
  refine ⟨out, by unfold mapIntoRange; rw [if_pos ⟨hbe, ha⟩]; exact h1, h2, ?_, ?_⟩
  · intro i j hi hj
    unfold entry
    have hlt : i * w + j < aData.length := by rw [ha]; exact row_lt hi hj
    rw [h3 i hi _ _ ⟨j, hj, rfl, List.getElem?_eq_getElem hlt⟩, List.getElem?_eq_getElem hlt]
  · intro i j hi hj
    unfold entry
    apply h4
    rintro a hal v ⟨j', hj', hp, _⟩
    have := (row_unique hj hj' hp).1
    omega

/-- `map_value_into` stores the value at exactly the mapped positions. -/
theorem C05_map_value_into {α : Type} (s : Sched) (v : α) (a2b : List Nat) (bData : List α)
    (hr : InRange a2b bData.length) :
    ∃ out, (mapValueInto s v a2b (Mem.ofList bData)).bind Mem.toArray? = some out ∧
      out.length = bData.length ∧
      (∀ b, InImage a2b b → out[b]? = some v) ∧ (∀ b, ¬ InImage a2b b → out[b]? = bData[b]?) := by
  obtain ⟨out, h1, h2, h3, h4⟩ := parScatter_ontoR s a2b.length
    (fun a => (a2b[a]?).map (fun b => [(b, v)])) (fun a p u => a2b[a]? = some p ∧ u = v)
    (fun _ => some v) bData
    (by
      intro i hi
      rw [List.getElem?_eq_getElem hi]
      refine ⟨_, rfl, ?_⟩
      intro p u
      simp only [List.mem_singleton, Prod.mk.injEq, Option.some.injEq]
      constructor <;> rintro ⟨a, b⟩ <;> exact ⟨a.symm, b⟩)
    (by
      rintro i hi p u ⟨hp, rfl⟩
      exact ⟨hr p (List.mem_of_getElem? hp), rfl⟩)
  refine ⟨out, h1, h2, ?_, ?_⟩
  · rintro b ⟨a, ha⟩
    exact h3 a (List.getElem?_eq_some_iff.1 ha).1 b v ⟨ha, rfl⟩
  · intro b hb
    exact h4 b (fun a _ u h => hb ⟨a, h.1⟩)

/-! Non-vacuity: concrete arrays meeting the hypotheses, run in reverse order. -/
example : unmap Sched.reversed [2, 0, 2] [10, 11, 20, 21, 30, 31] 2 =
    some [30, 31, 10, 11, 30, 31] := by decide +kernel
example : mapOnto Sched.reversed [1, 2, 3, 4] [2, 0] 4 7 2 = some [3, 4, 7, 7, 1, 2, 7, 7] := by
  decide +kernel
example : permute Sched.reversed [1, 2, 3, 4, 5, 6] [1, 2, 0] 2 = some [5, 6, 1, 2, 3, 4] := by
  decide +kernel
example : IsPermutation [1, 2, 0] 3 := isPermutation_of_perm (by decide)
example : invertPermutation Sched.reversed [1, 2, 0] = some [2, 0, 1] := by decide +kernel
example : expand Sched.reversed [10, 20, 30] [0, 2, 2, 5] 1 = some [10, 10, 30, 30, 30] := by
  decide +kernel
example : unmapRange Sched.reversed 1 3 [10, 20, 30, 40] 1 = some [20, 30] := by decide +kernel
example : unmap Sched.serial [0, 3] [10, 20, 30] 1 = none := by decide +kernel

end OmegaH
