import Verif.Spec.ArrayOps
import Verif.Model.ArrayOps
import Verif.Lemmas.Reduce
import Verif.Lemmas.Map
import Verif.Spec.Map

/-! # C43 — array helpers are exact and elementwise -/

namespace OmegaH

theorem mapEach_eq {α β : Type} (s : Sched) (f : α → Option β) (g : α → β) (a : List α)
    (h : ∀ x ∈ a, f x = some (g x)) : mapEach s f a = some (a.map g) := by
  obtain ⟨out, h1, h2, h3⟩ := parScatter_buildR s a.length a.length
    (fun i => (a[i]?).bind (fun x => (f x).map (fun y => [(i, y)])))
    (fun i p v => p = i ∧ (a[i]?).map g = some v) (fun p => (a[p]?).map g)
    (by
      intro i hi
      refine ⟨[(i, g a[i])], ?_, ?_⟩
      · simp [List.getElem?_eq_getElem hi, h a[i] (List.getElem_mem hi)]
      · intro p v; simp [List.getElem?_eq_getElem hi]; intro _; exact eq_comm)
    (by rintro i hi p v ⟨rfl, hv⟩; exact ⟨hi, hv⟩)
    (fun p hp => ⟨p, hp, g a[p], rfl, by simp [List.getElem?_eq_getElem hp]⟩)
  unfold mapEach
  rw [h1]
  congr 1
  apply List.ext_getElem?
  intro i
  by_cases hi : i < a.length
  · rw [h3 i hi]; simp
  · rw [List.getElem?_eq_none (by omega), List.getElem?_eq_none (by simp; omega)]

theorem zipEach_eq {α β γ : Type} (s : Sched) (f : α → β → Option γ) (g : α → β → γ)
    (a : List α) (b : List β) (hl : a.length = b.length)
    (h : ∀ (i : Nat) x y, a[i]? = some x → b[i]? = some y → f x y = some (g x y)) :
    zipEach s f a b = some (List.zipWith g a b) := by
  obtain ⟨out, h1, h2, h3⟩ := parScatter_buildR s a.length a.length
    (fun i => (a[i]?).bind (fun x => (b[i]?).bind (fun y => (f x y).map (fun z => [(i, z)]))))
    (fun i p v => p = i ∧ (List.zipWith g a b)[i]? = some v)
    (fun p => (List.zipWith g a b)[p]?)
    (by
      intro i hi
      have hi' : i < b.length := by omega
      refine ⟨[(i, g a[i] b[i])], ?_, ?_⟩
      · simp [List.getElem?_eq_getElem hi, List.getElem?_eq_getElem hi',
          h i a[i] b[i] (List.getElem?_eq_getElem hi) (List.getElem?_eq_getElem hi')]
      · intro p v
        simp [List.getElem?_zipWith, List.getElem?_eq_getElem hi, List.getElem?_eq_getElem hi']
        intro _; exact eq_comm)
    (by rintro i hi p v ⟨rfl, hv⟩; exact ⟨hi, hv⟩)
    (fun p hp => by
      have hp' : p < b.length := by omega
      exact ⟨p, hp, g a[p] b[p], rfl, by
        simp [List.getElem?_zipWith, List.getElem?_eq_getElem hp, List.getElem?_eq_getElem hp']⟩)
  unfold zipEach
  rw [if_pos hl, h1]
  congr 1
  apply List.ext_getElem?
  intro i
  by_cases hi : i < a.length
  · rw [h3 i hi]
  · rw [List.getElem?_eq_none (by omega), List.getElem?_eq_none (by simp; omega)]

theorem map_elementwise {α β : Type} (g : α → β) (a : List α) : Spec.Elementwise g a (a.map g) :=
  ⟨by simp, fun i x h => by simp [h]⟩

theorem zipWith_elementwise {α β γ : Type} (g : α → β → γ) (a : List α) (b : List β)
    (h : b.length = a.length) : Spec.Elementwise2 g a b (List.zipWith g a b) :=
  ⟨by simp [h], h, fun i x y hx hy => by simp [List.getElem?_zipWith, hx, hy]⟩

theorem mapEach_total {α β : Type} (s : Sched) (g : α → β) (a : List α) :
    ∃ c, mapEach s (fun x => some (g x)) a = some c ∧ Spec.Elementwise g a c :=
  ⟨_, mapEach_eq s _ g a (fun _ _ => rfl), map_elementwise g a⟩

theorem zipEach_total {α β γ : Type} (s : Sched) (g : α → β → γ) (a : List α) (b : List β)
    (h : b.length = a.length) :
    ∃ c, zipEach s (fun x y => some (g x y)) a b = some c ∧ Spec.Elementwise2 g a b c :=
  ⟨_, zipEach_eq s _ g a b h.symm (fun _ _ _ _ _ => rfl), zipWith_elementwise g a b h⟩

/-- The operations on one array and one value act elementwise on every array, on every schedule. -/
theorem C43_unary_elementwise (s : Sched) (a : List Int) (v : Int) :
    (∃ c, multiplyEachBy s a v = some c ∧ Spec.Elementwise (fun x => x * v) a c) ∧
    (∃ c, addToEach s a v = some c ∧ Spec.Elementwise (fun x => x + v) a c) ∧
    (∃ c, subtractFromEach s a v = some c ∧ Spec.Elementwise (fun x => x - v) a c) ∧
    (∃ c, eachGeqTo s a v = some c ∧ Spec.Elementwise (fun x => Spec.flag (x ≥ v)) a c) ∧
    (∃ c, eachLeqTo s a v = some c ∧ Spec.Elementwise (fun x => Spec.flag (x ≤ v)) a c) ∧
    (∃ c, eachGt s a v = some c ∧ Spec.Elementwise (fun x => Spec.flag (x > v)) a c) ∧
    (∃ c, eachLt s a v = some c ∧ Spec.Elementwise (fun x => Spec.flag (x < v)) a c) ∧
    (∃ c, eachNeqTo s a v = some c ∧ Spec.Elementwise (fun x => Spec.flag (x ≠ v)) a c) ∧
    (∃ c, eachEqTo s a v = some c ∧ Spec.Elementwise (fun x => Spec.flag (x = v)) a c) ∧
    (∃ c, eachMaxWith s a v = some c ∧ Spec.Elementwise (fun x => max x v) a c) := by
  have e : ∀ (g g' : Int → Int), (∀ x, g x = g' x) →
      ∃ c, mapEach s (fun x => some (g x)) a = some c ∧ Spec.Elementwise g' a c := by
    intro g g' h
    have : g = g' := funext h
    subst this
    exact mapEach_total s g a
  have fl : ∀ p : Prop, [Decidable p] → b2i (decide p) = Spec.flag p := by
    intro p _; unfold b2i Spec.flag; by_cases h : p <;> simp [h]
  refine ⟨e _ _ (fun _ => rfl), e _ _ (fun _ => rfl), e _ _ (fun _ => rfl), e _ _ (fun x => fl _),
    e _ _ (fun x => fl _), e _ _ (fun x => fl _), e _ _ (fun x => fl _), e _ _ (fun x => fl _),
    e _ _ (fun x => fl _), e _ _ (fun x => ?_)⟩
  by_cases h : x < v <;> simp [h] <;> omega

/-- Dividing by a value is elementwise; dividing a nonempty array by zero is undefined. -/
theorem C43_divide_each_by (s : Sched) (a : List Int) (v : Int) :
    (v ≠ 0 → ∃ c, divideEachBy s a v = some c ∧ Spec.Elementwise (fun x => x.tdiv v) a c) := by
  intro hv
  refine ⟨_, mapEach_eq s _ (fun x => x.tdiv v) a (fun x _ => by simp [cdiv, hv]),
    map_elementwise _ a⟩

/-- The operations on two arrays of equal length act elementwise, on every schedule. -/
theorem C43_binary_elementwise (s : Sched) (a b : List Int) (h : b.length = a.length) :
    (∃ c, addEach s a b = some c ∧ Spec.Elementwise2 (fun x y => x + y) a b c) ∧
    (∃ c, subtractEach s a b = some c ∧ Spec.Elementwise2 (fun x y => x - y) a b c) ∧
    (∃ c, gtEach s a b = some c ∧ Spec.Elementwise2 (fun x y => Spec.flag (x > y)) a b c) ∧
    (∃ c, ltEach s a b = some c ∧ Spec.Elementwise2 (fun x y => Spec.flag (x < y)) a b c) ∧
    (∃ c, eqEach s a b = some c ∧ Spec.Elementwise2 (fun x y => Spec.flag (x = y)) a b c) ∧
    (∃ c, eachEq s a b = some c ∧ Spec.Elementwise2 (fun x y => Spec.flag (x = y)) a b c) ∧
    (∃ c, neqEach s a b = some c ∧ Spec.Elementwise2 (fun x y => Spec.flag (x ≠ y)) a b c) ∧
    (∃ c, geqEach s a b = some c ∧ Spec.Elementwise2 (fun x y => Spec.flag (x ≥ y)) a b c) ∧
    (∃ c, minEach s a b = some c ∧ Spec.Elementwise2 (fun x y => min x y) a b c) ∧
    (∃ c, maxEach s a b = some c ∧ Spec.Elementwise2 (fun x y => max x y) a b c) ∧
    (∃ c, landEach s a b = some c ∧
      Spec.Elementwise2 (fun x y => Spec.flag (x ≠ 0 ∧ y ≠ 0)) a b c) ∧
    (∃ c, lorEach s a b = some c ∧
      Spec.Elementwise2 (fun x y => Spec.flag (x ≠ 0 ∨ y ≠ 0)) a b c) := by
  have e : ∀ (g g' : Int → Int → Int), (∀ x y, g x y = g' x y) →
      ∃ c, zipEach s (fun x y => some (g x y)) a b = some c ∧ Spec.Elementwise2 g' a b c := by
    intro g g' hg
    have : g = g' := funext (fun x => funext (hg x))
    subst this
    exact zipEach_total s g a b h
  have fl : ∀ p : Prop, [Decidable p] → b2i (decide p) = Spec.flag p := by
    intro p _; unfold b2i Spec.flag; by_cases h : p <;> simp [h]
  refine ⟨e _ _ (fun _ _ => rfl), e _ _ (fun _ _ => rfl), e _ _ (fun x y => fl _),
    e _ _ (fun x y => fl _), e _ _ (fun x y => fl _), e _ _ (fun x y => fl _),
    e _ _ (fun x y => fl _), e _ _ (fun x y => fl _), e _ _ (fun x y => ?_),
    e _ _ (fun x y => ?_), e _ _ (fun x y => ?_), e _ _ (fun x y => ?_)⟩
  · by_cases h : y < x <;> simp [h] <;> omega
  · by_cases h : x < y <;> simp [h] <;> omega
  · unfold b2i Spec.flag; by_cases hx : x = 0 <;> by_cases hy : y = 0 <;> simp [hx, hy]
  · unfold b2i Spec.flag; by_cases hx : x = 0 <;> by_cases hy : y = 0 <;> simp [hx, hy]

/-- Arrays of different lengths are rejected. -/
theorem C43_size_mismatch_rejected (s : Sched) (a b : List Int) (h : a.length ≠ b.length) :
    addEach s a b = none ∧ subtractEach s a b = none ∧ gtEach s a b = none ∧ ltEach s a b = none ∧
    eqEach s a b = none ∧ neqEach s a b = none ∧ geqEach s a b = none ∧ minEach s a b = none ∧
    maxEach s a b = none ∧ landEach s a b = none ∧ lorEach s a b = none := by
  simp [addEach, subtractEach, gtEach, ltEach, eqEach, neqEach, geqEach, minEach, maxEach, landEach,
    lorEach, zipEach, h]

/-- Bit operations act bytewise; negating the bits twice restores the array. -/
theorem C43_bitwise (s s' : Sched) (a b : List (BitVec 8)) (h : b.length = a.length) :
    (∃ c, bitOrEach s a b = some c ∧ Spec.Elementwise2 (fun x y => x ||| y) a b c) ∧
    (∃ c, bitNegEach s a = some c ∧ Spec.Elementwise (fun x => ~~~ x) a c ∧
      bitNegEach s' c = some a) := by
  refine ⟨zipEach_total s _ a b h, a.map (~~~ ·), mapEach_eq s _ _ a (fun _ _ => rfl),
    map_elementwise _ a, ?_⟩
  have := mapEach_eq s' (fun x => some (~~~ x)) (fun x => ~~~ x) (a.map (fun x : BitVec 8 => ~~~ x))
    (fun _ _ => rfl)
  unfold bitNegEach
  rw [this, List.map_map]
  congr 1
  have e : ((fun x : BitVec 8 => ~~~ x) ∘ (fun x : BitVec 8 => ~~~ x)) = id := by
    funext x; simp
  rw [e, List.map_id]

theorem divideNoRemainder_mul (n w : Nat) (hn : n ≠ 0) : divideNoRemainder (n * w) n = some w := by
  simp [divideNoRemainder, hn, Nat.mul_div_cancel_left w (Nat.pos_of_ne_zero hn)]

theorem rowEach_spec {α β γ : Type} (s : Sched) (f : α → β → Option γ) (g : α → β → γ)
    (a : List α) (b : List β) (w : Nat) (hl : a.length = b.length * w)
    (h : ∀ (i j : Nat) x y, j < w → a[i * w + j]? = some x → b[i]? = some y →
      f x y = some (g x y)) :
    ∃ c, rowEach s f a b w = some c ∧ Spec.Rowwise g w a b c := by
  have inb : ∀ i j, i < b.length → j < w → i * w + j < a.length := by
    intro i j hi hj
    rw [hl]
    have : (i + 1) * w ≤ b.length * w := Nat.mul_le_mul_right w hi
    rw [Nat.add_mul] at this
    omega
  obtain ⟨out, h1, h2, h3⟩ := parScatter_buildR s b.length a.length
    (fun i => (b[i]?).bind (fun y => (List.range w).mapM (fun j =>
      (a[i * w + j]?).bind (fun x => (f x y).map (fun z => (i * w + j, z))))))
    (fun i p v => ∃ j x y, j < w ∧ p = i * w + j ∧ a[i * w + j]? = some x ∧ b[i]? = some y ∧
      v = g x y)
    (fun p => (a[p]?).bind (fun x => (b[p / w]?).map (fun y => g x y)))
    (by
      intro i hi
      have hb := List.getElem?_eq_getElem hi
      refine ⟨(List.range w).pmap (fun j (hj : j ∈ List.range w) =>
        (i * w + j, g (a[i * w + j]'(inb i j hi (List.mem_range.1 hj))) b[i])) (fun _ h => h), ?_, ?_⟩
      · rw [hb]
        simp only [Option.bind_some]
        have aux : ∀ (l : List Nat) (hll : ∀ j ∈ l, j ∈ List.range w), l.mapM (fun j =>
            (a[i * w + j]?).bind (fun x => (f x b[i]).map (fun z => (i * w + j, z)))) =
            some (l.pmap (fun j (hj : j ∈ List.range w) =>
              (i * w + j, g (a[i * w + j]'(inb i j hi (List.mem_range.1 hj))) b[i])) hll) := by
          intro l
          induction l with
          | nil => intro _; rfl
          | cons j l ih =>
            intro hll
            have hj : j < w := List.mem_range.1 (hll j (by simp))
            have hin := inb i j hi hj
            rw [List.mapM_cons, ih (fun k hk => hll k (by simp [hk])), List.getElem?_eq_getElem hin]
            simp only [Option.bind_some]
            rw [h i j _ _ hj (List.getElem?_eq_getElem hin) hb]
            simp
        exact aux _ _
      · intro p v
        simp only [List.mem_pmap, Prod.mk.injEq]
        constructor
        · rintro ⟨j, hj, rfl, rfl⟩
          have hj' : j < w := List.mem_range.1 hj
          exact ⟨j, _, _, hj', rfl, List.getElem?_eq_getElem (inb i j hi hj'), hb, rfl⟩
        · rintro ⟨j, x, y, hj, rfl, hx, hy, rfl⟩
          rw [List.getElem?_eq_getElem (inb i j hi hj)] at hx
          rw [hb] at hy
          exact ⟨j, List.mem_range.2 hj, rfl, by rw [Option.some.inj hx, Option.some.inj hy]⟩)
    (by
      rintro i hi p v ⟨j, x, y, hj, rfl, hx, hy, rfl⟩
      refine ⟨inb i j hi hj, ?_⟩
      have hd : (i * w + j) / w = i := by
        rw [Nat.mul_comm, Nat.mul_add_div (by omega), Nat.div_eq_of_lt hj]; omega
      rw [hx, hd, hy]; rfl)
    (by
      intro p hp
      have hw : 0 < w := by
        apply Nat.pos_of_ne_zero; rintro rfl; rw [Nat.mul_zero] at hl; omega
      have hi : p / w < b.length := by
        rw [Nat.div_lt_iff_lt_mul hw]; omega
      have hpe : p / w * w + p % w = p := by rw [Nat.mul_comm]; exact Nat.div_add_mod p w
      exact ⟨p / w, hi, g a[p] b[p / w], p % w, a[p], b[p / w], Nat.mod_lt _ hw, hpe.symm,
        by rw [hpe]; exact List.getElem?_eq_getElem hp, List.getElem?_eq_getElem hi, rfl⟩)
  refine ⟨out, h1, hl, h2, ?_⟩
  intro i j x y hj hx hy
  have hlt : i * w + j < a.length := (List.getElem?_eq_some_iff.1 hx).1
  have hd : (i * w + j) / w = i := by
    rw [Nat.mul_comm, Nat.mul_add_div (by omega), Nat.div_eq_of_lt hj]; omega
  rw [h3 _ hlt, hx, hd, hy]; rfl

theorem multiplyEach_rowEach (s : Sched) (a b : List Int) (hb : b ≠ []) :
    multiplyEach s a b = (divideNoRemainder a.length b.length).bind
      (fun w => rowEach s (fun x y => some (x * y)) a b w) := by
  have hb' : b.length ≠ 0 := by simpa using hb
  unfold multiplyEach divideNoRemainder
  rw [if_neg hb', if_neg hb']
  by_cases h : a.length % b.length = 0
  · rw [if_pos h, if_pos h]
    simp only [Option.bind_some, rowEach]
    congr 2
    funext i
    congr 1
    funext y
    congr 1
    funext j
    cases a[i * (a.length / b.length) + j]? <;> rfl
  · rw [if_neg h, if_neg h]; rfl

/-- Multiplying the rows of one array by the entries of another. -/
theorem C43_multiply_each (s : Sched) (a b : List Int) (w : Nat) (hb : b ≠ [])
    (h : a.length = b.length * w) :
    ∃ c, multiplyEach s a b = some c ∧ Spec.Rowwise (fun x y => x * y) w a b c := by
  have hb' : b.length ≠ 0 := by simpa using hb
  rw [multiplyEach_rowEach s a b hb, h, divideNoRemainder_mul _ _ hb']
  exact rowEach_spec s _ _ a b w h (fun _ _ _ _ _ _ _ => rfl)

/-- Dividing the rows of one array by the (nonzero) entries of another. -/
theorem C43_divide_each (s : Sched) (a b : List Int) (w : Nat) (hb : b ≠ []) (h0 : (0 : Int) ∉ b)
    (h : a.length = b.length * w) :
    ∃ c, divideEach s a b = some c ∧ Spec.Rowwise (fun x y => x.tdiv y) w a b c := by
  have hb' : b.length ≠ 0 := by simpa using hb
  unfold divideEach
  rw [h, divideNoRemainder_mul _ _ hb']
  refine rowEach_spec s _ _ a b w h ?_
  intro i j x y _ _ hy
  have : y ≠ 0 := by rintro rfl; exact h0 (List.mem_of_getElem? hy)
  simp [cdiv, this]

/-- Division that tolerates 0/0: the result is the quotient, or zero where both are zero. -/
theorem C43_divide_each_maybe_zero (s : Sched) (q : Int → Int → Int) (a b : List Int) (w : Nat)
    (hb : b ≠ []) (h : a.length = b.length * w)
    (hz : ∀ (i j : Nat) (x : Int), j < w → b[i]? = some 0 → a[i * w + j]? = some x → x = 0) :
    ∃ c, divideEachMaybeZero s q a b = some c ∧
      Spec.Rowwise (fun x y => if y = 0 then 0 else q x y) w a b c := by
  have hb' : b.length ≠ 0 := by simpa using hb
  unfold divideEachMaybeZero
  rw [if_neg hb', h, divideNoRemainder_mul _ _ hb']
  refine rowEach_spec s _ _ a b w h ?_
  intro i j x y hj hx hy
  by_cases h0 : y = 0
  · subst h0; simp [hz i j x hj hy hx]
  · simp [h0]

/-- The three divisions and `multiply_each` disagree on empty arrays: multiplying nothing by nothing
gives nothing, but dividing nothing by nothing stops the program. -/
theorem C43_divide_empty_refuted (s : Sched) :
    multiplyEach s [] [] = some [] ∧ divideEach s [] [] = none ∧
    divideEachMaybeZero s (fun x y => x.tdiv y) [] [] = some [] ∧
    ternaryEach s [] ([] : List Int) [] = none :=
  ⟨rfl, rfl, rfl, rfl⟩

/-- `ternary_each` selects whole rows by the condition of the row. -/
theorem C43_ternary_each {α : Type} (s : Sched) (cond : List Int) (a b : List α) (w : Nat)
    (hc : cond ≠ []) (ha : a.length = cond.length * w) (hb : b.length = a.length) :
    ∃ c, ternaryEach s cond a b = some c ∧ c.length = a.length ∧
      ∀ (i j : Nat) (k : Int), j < w → cond[i]? = some k →
        c[i * w + j]? = if k ≠ 0 then a[i * w + j]? else b[i * w + j]? := by
  have hc' : cond.length ≠ 0 := by simpa using hc
  have hdiv : ∀ p, p < a.length → p / w < cond.length := by
    intro p hp
    have hw : 0 < w := by apply Nat.pos_of_ne_zero; rintro rfl; rw [Nat.mul_zero] at ha; omega
    rw [Nat.div_lt_iff_lt_mul hw]; omega
  let F : Nat → Option α := fun p => (cond[p / w]?).bind (fun c => if c ≠ 0 then a[p]? else b[p]?)
  have hFs : ∀ p, p < a.length → ∃ v, F p = some v := by
    intro p hp
    simp only [F, List.getElem?_eq_getElem (hdiv p hp), Option.bind_some]
    split
    · exact ⟨_, List.getElem?_eq_getElem hp⟩
    · exact ⟨_, List.getElem?_eq_getElem (by omega)⟩
  obtain ⟨out, h1, h2, h3⟩ := parScatter_buildR s a.length a.length
    (fun i => (cond[i / w]?).bind (fun c =>
          (if c ≠ 0 then a[i]? else b[i]?).map (fun v => [(i, v)])))
    (fun i p v => p = i ∧ F i = some v) F
    (by
      intro i hi
      obtain ⟨v, hv⟩ := hFs i hi
      refine ⟨[(i, v)], ?_, ?_⟩
      · simp only [F] at hv
        rw [List.getElem?_eq_getElem (hdiv i hi)] at hv ⊢
        simp only [Option.bind_some] at hv ⊢
        rw [hv]; rfl
      · intro p v'; simp [hv]; intro _; exact eq_comm)
    (by rintro i hi p v ⟨rfl, hv⟩; exact ⟨hi, hv⟩)
    (fun p hp => by obtain ⟨v, hv⟩ := hFs p hp; exact ⟨p, hp, v, rfl, hv⟩)
  refine ⟨out, ?_, h2, ?_⟩
  · unfold ternaryEach
    rw [if_pos hb.symm, ha, divideNoRemainder_mul _ _ hc']
    simp only [Option.bind_some]
    rw [← ha]
    exact h1
  · intro i j k hj hk
    have hi := (List.getElem?_eq_some_iff.1 hk).1
    have hlt : i * w + j < a.length := by
      rw [ha]
      have : (i + 1) * w ≤ cond.length * w := Nat.mul_le_mul_right w hi
      rw [Nat.add_mul] at this
      omega
    have hd : (i * w + j) / w = i := by
      rw [Nat.mul_comm, Nat.mul_add_div (by omega), Nat.div_eq_of_lt hj]; omega
    rw [h3 _ hlt]
    simp only [F]
    rw [hd, hk]
    rfl

/-- The component `comp` of every row. -/
theorem C43_get_component {α : Type} (s : Sched) (a : List α) (n ncomps comp : Nat)
    (hc : comp < ncomps) (ha : a.length = n * ncomps) :
    ∃ c, getComponent s a ncomps comp = some c ∧ c.length = n ∧
      ∀ i, i < n → c[i]? = Spec.entry a ncomps i comp := by
  have inb : ∀ i, i < n → i * ncomps + comp < a.length := by
    intro i hi
    rw [ha]
    have : (i + 1) * ncomps ≤ n * ncomps := Nat.mul_le_mul_right ncomps hi
    rw [Nat.add_mul] at this
    omega
  obtain ⟨out, h1, h2, h3⟩ := parScatter_buildR s n n
    (fun i => (a[i * ncomps + comp]?).map (fun v => [(i, v)]))
    (fun i p v => p = i ∧ a[i * ncomps + comp]? = some v) (fun p => a[p * ncomps + comp]?)
    (by
      intro i hi
      refine ⟨[(i, a[i * ncomps + comp]'(inb i hi))], ?_, ?_⟩
      · simp [List.getElem?_eq_getElem (inb i hi)]
      · intro p v; simp [List.getElem?_eq_getElem (inb i hi)]; intro _; exact eq_comm)
    (by rintro i hi p v ⟨rfl, hv⟩; exact ⟨hi, hv⟩)
    (fun p hp => ⟨p, hp, _, rfl, List.getElem?_eq_getElem (inb p hp)⟩)
  refine ⟨out, ?_, h2, h3⟩
  unfold getComponent
  rw [ha, Nat.mul_comm, divideNoRemainder_mul _ _ (by omega)]
  exact h1

/-- `set_component` changes exactly the given component of every row. -/
theorem C43_set_component {α : Type} (s : Sched) (out a : List α) (ncomps comp : Nat)
    (hc : comp < ncomps) (ho : out.length = a.length * ncomps) :
    ∃ c, (setComponent s (Mem.ofList out) a ncomps comp).bind Mem.toArray? = some c ∧
      c.length = out.length ∧
      ∀ i j, i < a.length → j < ncomps →
        Spec.entry c ncomps i j = if j = comp then a[i]? else Spec.entry out ncomps i j := by
  have inb : ∀ i j, i < a.length → j < ncomps → i * ncomps + j < out.length := by
    intro i j hi hj
    rw [ho]
    have : (i + 1) * ncomps ≤ a.length * ncomps := Nat.mul_le_mul_right ncomps hi
    rw [Nat.add_mul] at this
    omega
  have hinj : ∀ i i' j j', j < ncomps → j' < ncomps → i * ncomps + j = i' * ncomps + j' →
      i = i' ∧ j = j' := by
    intro i i' j j' hj hj' he
    have h1 : (i * ncomps + j) / ncomps = i := by
      rw [Nat.mul_comm, Nat.mul_add_div (by omega), Nat.div_eq_of_lt hj]; omega
    have h2 : (i' * ncomps + j') / ncomps = i' := by
      rw [Nat.mul_comm, Nat.mul_add_div (by omega), Nat.div_eq_of_lt hj']; omega
    have : i = i' := by rw [← h1, ← h2, he]
    subst this; exact ⟨rfl, by omega⟩
  obtain ⟨c, h1, h2, h3, h4⟩ := parScatter_ontoR s a.length
    (fun i => (a[i]?).map (fun v => [(i * ncomps + comp, v)]))
    (fun i p v => p = i * ncomps + comp ∧ a[i]? = some v) (fun p => a[p / ncomps]?) out
    (by
      intro i hi
      refine ⟨[(i * ncomps + comp, a[i])], ?_, ?_⟩
      · simp [List.getElem?_eq_getElem hi]
      · intro p v; simp [List.getElem?_eq_getElem hi]; intro _; exact eq_comm)
    (by
      rintro i hi p v ⟨rfl, hv⟩
      refine ⟨inb i comp hi hc, ?_⟩
      have h1 : (i * ncomps + comp) / ncomps = i := by
        rw [Nat.mul_comm, Nat.mul_add_div (by omega), Nat.div_eq_of_lt hc]; omega
      rw [h1, hv])
  refine ⟨c, h1, h2, ?_⟩
  intro i j hi hj
  unfold Spec.entry
  by_cases hjc : j = comp
  · subst hjc
    rw [if_pos rfl, h3 i hi (i * ncomps + j) a[i] ⟨rfl, List.getElem?_eq_getElem hi⟩,
      List.getElem?_eq_getElem hi]
  · rw [if_neg hjc]
    apply h4
    rintro i' hi' v ⟨he, _⟩
    exact hjc (hinj i i' j comp hj hc he).2

theorem and_fold (l : List Bool) : l.foldl and true = true ↔ ∀ b ∈ l, b = true := by
  have : ∀ (l : List Bool) (a : Bool), l.foldl and a = true ↔ a = true ∧ ∀ b ∈ l, b = true := by
    intro l
    induction l with
    | nil => simp
    | cons b l ih => intro a; simp [ih, and_assoc]
  simpa using this l true

/-- Equality of arrays is decided correctly by every team of threads. -/
theorem C43_arrays_equal (t : Team) (a b : List Int) (h : a.length = b.length) :
    arraysEqual t a b = some (decide (a = b)) := by
  unfold arraysEqual
  rw [if_pos h]
  rw [transformReduce_eq t and true true _
    (fun i => decide (a[i]? = b[i]?)) a.length Bool.and_assoc Bool.and_comm (by simp) (by
      intro i hi
      have hi' : i < b.length := by omega
      simp [List.getElem?_eq_getElem hi, List.getElem?_eq_getElem hi'])]
  congr 1
  rw [Bool.eq_iff_iff, and_fold]
  simp only [List.mem_map, List.mem_range, decide_eq_true_eq]
  constructor
  · intro hall
    apply List.ext_getElem?
    intro i
    by_cases hi : i < a.length
    · simpa using hall _ ⟨i, hi, rfl⟩
    · rw [List.getElem?_eq_none (by omega), List.getElem?_eq_none (by omega)]
  · rintro rfl b ⟨i, _, rfl⟩; simp

theorem range_map_getElem (a : List Int) :
    ∃ w : Nat → Int, (∀ i, i < a.length → a[i]? = some (w i)) ∧
      (List.range a.length).map w = a := by
  refine ⟨fun i => (a[i]?).getD 0, ?_, ?_⟩
  · intro i hi; simp [hi]
  · exact map_getElem_range a _ (fun i hi => by simp [hi])

/-- `get_sum` is the sum, for every team of threads. -/
theorem C43_get_sum (t : Team) (a : List Int) : arraySum t a = some a.sum := by
  obtain ⟨w, hw, he⟩ := range_map_getElem a
  unfold arraySum
  rw [transformReduce_eq t (· + ·) 0 0 _ w a.length Int.add_assoc Int.add_comm (by simp) hw, he,
    List.sum_eq_foldl]

theorem max2_eq (x y : Int) : (if x < y then y else x) = max x y := by
  by_cases h : x < y <;> simp [h] <;> omega

theorem min2_eq (x y : Int) : (if y < x then y else x) = min x y := by
  by_cases h : y < x <;> simp [h] <;> omega

theorem foldl_max_le (l : List Int) : ∀ lo : Int, lo ≤ l.foldl max lo ∧
    (∀ x ∈ l, x ≤ l.foldl max lo) ∧ (l.foldl max lo = lo ∨ l.foldl max lo ∈ l) := by
  induction l with
  | nil => intro lo; simp
  | cons a l ih =>
    intro lo
    obtain ⟨h1, h2, h3⟩ := ih (max lo a)
    rw [List.foldl_cons]
    generalize List.foldl max (max lo a) l = M at *
    refine ⟨by omega, ?_, ?_⟩
    · intro x hx
      rcases List.mem_cons.1 hx with rfl | hx
      · omega
      · exact h2 x hx
    · rcases h3 with h3 | h3
      · by_cases hle : lo ≤ a
        · exact Or.inr (by rw [h3, Int.max_eq_right hle]; simp)
        · exact Or.inl (by rw [h3, Int.max_eq_left (by omega)])
      · exact Or.inr (by simp [h3])

theorem foldl_min_ge (l : List Int) : ∀ hi : Int, l.foldl min hi ≤ hi ∧
    (∀ x ∈ l, l.foldl min hi ≤ x) ∧ (l.foldl min hi = hi ∨ l.foldl min hi ∈ l) := by
  induction l with
  | nil => intro lo; simp
  | cons a l ih =>
    intro lo
    obtain ⟨h1, h2, h3⟩ := ih (min lo a)
    rw [List.foldl_cons]
    generalize List.foldl min (min lo a) l = M at *
    refine ⟨by omega, ?_, ?_⟩
    · intro x hx
      rcases List.mem_cons.1 hx with rfl | hx
      · omega
      · exact h2 x hx
    · rcases h3 with h3 | h3
      · by_cases hle : a ≤ lo
        · exact Or.inr (by rw [h3, Int.min_eq_right hle]; simp)
        · exact Or.inl (by rw [h3, Int.min_eq_left (by omega)])
      · exact Or.inr (by simp [h3])

theorem foldl_congr_op {β : Type} (f g : β → β → β) (h : ∀ a b, f a b = g a b) (l : List β) (a : β) :
    l.foldl f a = l.foldl g a := by
  have : f = g := funext (fun a => funext (h a))
  rw [this]

/-- `transformReduce` for `max2` with private copies starting at a lower bound of all values. -/
theorem reduceMax_eq (t : Team) (lo init : Int) (f : Nat → Option Int) (w : Nat → Int) (n : Nat)
    (hlo : lo ≤ init) (hw : ∀ i, i < n → f i = some (w i)) :
    transformReduce t (fun x y => if x < y then y else x) lo init f n =
      some (((List.range n).map w).foldl max init) := by
  have e : (fun x y : Int => if x < y then y else x) = max := by
    funext x y; exact max2_eq x y
  rw [e]
  have hp := t.ok n
  -- the private copies start at a lower bound of the values, which is neutral for them
  have key : ∀ (ls : List (List Int)) (a : Int), lo ≤ a →
      (ls.map (fun l => l.foldl max lo)).foldl max a = ls.flatten.foldl max a := by
    intro ls
    induction ls with
    | nil => intro a _; rfl
    | cons l ls ih =>
      intro a ha
      have h1 : max a (l.foldl max lo) = l.foldl max a := by
        rw [← foldl_assoc_init max Int.max_assoc l a lo, Int.max_eq_left ha]
      rw [List.map_cons, List.foldl_cons, List.flatten_cons, List.foldl_append, h1]
      exact ih _ (Int.le_trans ha (foldl_max_le l a).1)
  obtain ⟨t', h1, h2⟩ := RTree.mapM?_of
    (fun its => (its.mapM f).map (fun vs => vs.foldl max lo))
    (fun its => (its.map w).foldl max lo) (t.tree n) (by
      intro its hits
      have : its.mapM f = some (its.map w) := by
        apply mapM_list_of
        intro x hx
        apply hw
        have : x ∈ (t.tree n).leaves.flatten := List.mem_flatten.2 ⟨its, hits, hx⟩
        simpa using (hp.mem_iff.1 this)
      rw [this]; rfl)
  unfold transformReduce
  rw [h1]
  simp only [Option.map_some, Option.some.injEq]
  rw [RTree.reduce_foldl max Int.max_assoc, h2]
  have e2 : (t.tree n).leaves.map (fun its => (its.map w).foldl max lo) =
      ((t.tree n).leaves.map (List.map w)).map (fun l => l.foldl max lo) := by
    simp [List.map_map, Function.comp_def]
  rw [e2, key _ _ hlo, ← List.map_flatten]
  exact foldl_perm max Int.max_assoc Int.max_comm (hp.map w) init

/-- `get_max` returns the largest entry — for an empty array the smallest value of the type. -/
theorem C43_get_max (t : Team) (lo : Int) (a : List Int) (h : ∀ x ∈ a, lo ≤ x) :
    ∃ m, arrayMax t lo a = some m ∧ (∀ x ∈ a, x ≤ m) ∧ (a = [] → m = lo) ∧ (a ≠ [] → m ∈ a) := by
  obtain ⟨w, hw, he⟩ := range_map_getElem a
  refine ⟨a.foldl max lo, ?_, (foldl_max_le a lo).2.1, by rintro rfl; rfl, ?_⟩
  · unfold arrayMax
    rw [reduceMax_eq t lo lo _ w _ (Int.le_refl _) hw, he]
  · intro hne
    rcases (foldl_max_le a lo).2.2 with h3 | h3
    · cases a with
      | nil => exact absurd rfl hne
      | cons x l =>
        have h1 := (foldl_max_le (x :: l) lo).2.1 x (by simp)
        have h2 := h x (by simp)
        rw [h3] at h1 ⊢
        have : lo = x := by omega
        simp [this]
    · exact h3

/-- `get_min` returns the smallest entry — for an empty array the largest value of the type. -/
theorem C43_get_min (t : Team) (hi : Int) (a : List Int) (h : ∀ x ∈ a, x ≤ hi) :
    ∃ m, arrayMin t hi a = some m ∧ (∀ x ∈ a, m ≤ x) ∧ (a = [] → m = hi) ∧ (a ≠ [] → m ∈ a) := by
  obtain ⟨w, hw, he⟩ := range_map_getElem a
  have key : ∀ (ls : List (List Int)) (a : Int), a ≤ hi →
      (ls.map (fun l => l.foldl min hi)).foldl min a = ls.flatten.foldl min a := by
    intro ls
    induction ls with
    | nil => intro a _; rfl
    | cons l ls ih =>
      intro a ha
      have h1 : min a (l.foldl min hi) = l.foldl min a := by
        rw [← foldl_assoc_init min Int.min_assoc l a hi, Int.min_eq_left ha]
      rw [List.map_cons, List.foldl_cons, List.flatten_cons, List.foldl_append, h1]
      exact ih _ (Int.le_trans (foldl_min_ge l a).1 ha)
  have hp := t.ok a.length
  obtain ⟨t', h1, h2⟩ := RTree.mapM?_of
    (fun its => (its.mapM (fun i : Nat => a[i]?)).map (fun vs => vs.foldl min hi))
    (fun its => (its.map w).foldl min hi) (t.tree a.length) (by
      intro its hits
      have : its.mapM (fun i : Nat => a[i]?) = some (its.map w) := by
        apply mapM_list_of
        intro x hx
        apply hw
        have : x ∈ (t.tree a.length).leaves.flatten := List.mem_flatten.2 ⟨its, hits, hx⟩
        simpa using (hp.mem_iff.1 this)
      rw [this]; rfl)
  have hmin : arrayMin t hi a = some (a.foldl min hi) := by
    unfold arrayMin
    have e' : (fun x y : Int => if y < x then y else x) = min := by
      funext x y; exact min2_eq x y
    rw [e']
    unfold transformReduce
    rw [h1]
    simp only [Option.map_some, Option.some.injEq]
    rw [RTree.reduce_foldl min Int.min_assoc, h2]
    have e2 : (t.tree a.length).leaves.map (fun its => (its.map w).foldl min hi) =
        ((t.tree a.length).leaves.map (List.map w)).map (fun l => l.foldl min hi) := by
      simp [List.map_map, Function.comp_def]
    rw [e2, key _ _ (Int.le_refl _), ← List.map_flatten]
    rw [foldl_perm min Int.min_assoc Int.min_comm (hp.map w) hi, he]
  refine ⟨_, hmin, (foldl_min_ge a hi).2.1, by rintro rfl; rfl, ?_⟩
  intro hne
  rcases (foldl_min_ge a hi).2.2 with h3 | h3
  · cases a with
    | nil => exact absurd rfl hne
    | cons x l =>
      have h1 := (foldl_min_ge (x :: l) hi).2.1 x (by simp)
      have h2 := h x (by simp)
      rw [h3] at h1 ⊢
      have : hi = x := by omega
      simp [this]
  · exact h3

/-- `find_last` returns the last position of the value, or -1 if it does not occur. -/
theorem C43_find_last (t : Team) (a : List Int) (v : Int) :
    ∃ k, findLast t a v = some k ∧
      ((k = -1 ∧ v ∉ a) ∨ ∃ i : Nat, k = i ∧ a[i]? = some v ∧ ∀ j : Nat, a[j]? = some v → j ≤ i) := by
  let w : Nat → Int := fun i => if a[i]? = some v then (i : Int) else -1
  have hw : ∀ i, i < a.length →
      (a[i]?).map (fun x => if x = v then (i : Int) else -1) = some (w i) := by
    intro i hi; simp [w, List.getElem?_eq_getElem hi]
  have := reduceMax_eq t (-2 ^ 31) (-1) _ w a.length (by omega) hw
  refine ⟨_, this, ?_⟩
  obtain ⟨h1, h2, h3⟩ := foldl_max_le ((List.range a.length).map w) (-1)
  generalize List.foldl max (-1) ((List.range a.length).map w) = M at *
  have hle : ∀ j : Nat, a[j]? = some v → (j : Int) ≤ M := by
    intro j hj
    have hlt := (List.getElem?_eq_some_iff.1 hj).1
    have := h2 (w j) (List.mem_map.2 ⟨j, List.mem_range.2 hlt, rfl⟩)
    simpa [w, hj] using this
  have hcase : M = -1 ∨ ∃ i : Nat, M = i ∧ a[i]? = some v := by
    rcases h3 with h3 | h3
    · exact Or.inl h3
    · obtain ⟨i, hi, he⟩ := List.mem_map.1 h3
      by_cases hv : a[i]? = some v
      · exact Or.inr ⟨i, by simp [← he, w, hv], hv⟩
      · exact Or.inl (by simp [← he, w, hv])
  rcases hcase with hM | ⟨i, hM, hi⟩
  · refine Or.inl ⟨hM, ?_⟩
    intro hmem
    obtain ⟨j, hj⟩ := List.getElem?_of_mem hmem
    have := hle j hj
    omega
  · exact Or.inr ⟨i, hM, hi, fun j hj => by have := hle j hj; omega⟩

/-- `is_sorted` decides whether the array is ascending. -/
theorem C43_is_sorted (t : Team) (a : List Int) :
    ∃ b, isSorted t a = some b ∧ (b = true ↔ Spec.Ascending a) := by
  unfold isSorted
  by_cases h2 : a.length < 2
  · refine ⟨true, by rw [if_pos h2], iff_of_true rfl ?_⟩
    intro i j x y hij hx hy
    have := (List.getElem?_eq_some_iff.1 hy).1
    omega
  · rw [if_neg h2]
    obtain ⟨w, hw, _⟩ := range_map_getElem a
    rw [transformReduce_eq t and true true _
      (fun i => decide (w i ≤ w (i + 1))) (a.length - 1) Bool.and_assoc Bool.and_comm (by simp) (by
        intro i hi
        rw [hw i (by omega), hw (i + 1) (by omega)]; rfl)]
    refine ⟨_, rfl, ?_⟩
    rw [and_fold]
    simp only [List.mem_map, List.mem_range]
    constructor
    · intro hall
      have step : ∀ i, i < a.length - 1 → w i ≤ w (i + 1) := fun i hi => by
        simpa using hall _ ⟨i, hi, rfl⟩
      have mono : ∀ d i, i + d < a.length → w i ≤ w (i + d) := by
        intro d
        induction d with
        | zero => intro i _; exact Int.le_refl _
        | succ d ih =>
          intro i hi
          exact Int.le_trans (ih i (by omega)) (step (i + d) (by omega))
      intro i j x y hij hx hy
      have hj := (List.getElem?_eq_some_iff.1 hy).1
      rw [hw i (by omega)] at hx
      rw [hw j hj] at hy
      have := mono (j - i) i (by omega)
      rw [Nat.add_sub_of_le (by omega)] at this
      rw [← Option.some.inj hx, ← Option.some.inj hy]; exact this
    · rintro hasc b ⟨i, hi, rfl⟩
      have := hasc i (i + 1) _ _ (by omega) (hw i (by omega)) (hw (i + 1) (by omega))
      simpa using this

theorem interleaveLoop_spec {α : Type} (s : Sched) (narrays n : Nat) :
    ∀ (as : List (List α)) (i : Nat) (m : Mem α), i + as.length = narrays →
    (∀ a ∈ as, a.length = n) → m.length = narrays * n →
    ∃ m', interleaveLoop s narrays i as m = some m' ∧ m'.length = m.length ∧
      (∀ (k j : Nat) (a : List α), as[k]? = some a → j < n →
        m'[j * narrays + (i + k)]? = (a[j]?).map some) ∧
      (∀ k j, k < i → j < n → m'[j * narrays + k]? = m[j * narrays + k]?) := by
  intro as
  induction as with
  | nil => intro i m _ _ _; exact ⟨m, rfl, rfl, by simp, by simp⟩
  | cons a as ih =>
    intro i m hi hn hm
    simp only [List.length_cons] at hi
    have ha : a.length = n := hn a (by simp)
    have inb : ∀ j k, j < n → k < narrays → j * narrays + k < m.length := by
      intro j k hj hk
      rw [hm, Nat.mul_comm narrays n]
      have : (j + 1) * narrays ≤ n * narrays := Nat.mul_le_mul_right narrays hj
      rw [Nat.add_mul] at this
      omega
    have hdiv : ∀ j k, k < narrays → (j * narrays + k) / narrays = j := by
      intro j k hk
      rw [Nat.mul_comm, Nat.mul_add_div (by omega), Nat.div_eq_of_lt hk]; omega
    have hmod : ∀ j k, k < narrays → (j * narrays + k) % narrays = k := by
      intro j k hk
      rw [Nat.mul_comm, Nat.mul_add_mod, Nat.mod_eq_of_lt hk]
    obtain ⟨m1, g1, g2, g3, g4⟩ := parScatter_specO s a.length
      (fun j => (a[j]?).map (fun v => [(j * narrays + i, v)]))
      (fun j => ((a[j]?).map (fun v => [(j * narrays + i, v)])).getD [])
      (fun p => a[p / narrays]?) m
      (by intro j hj; simp [List.getElem?_eq_getElem hj])
      (by
        intro j hj p v hv
        simp [List.getElem?_eq_getElem hj] at hv
        obtain ⟨rfl, rfl⟩ := hv
        exact ⟨inb j i (by omega) (by omega), by
          rw [hdiv j i (by omega), List.getElem?_eq_getElem hj]⟩)
    obtain ⟨m', k1, k2, k3, k4⟩ := ih (i + 1) m1 (by omega) (fun b hb => hn b (by simp [hb]))
      (by rw [g2, hm])
    refine ⟨m', ?_, by rw [k2, g2], ?_, ?_⟩
    · rw [interleaveLoop, g1]; exact k1
    · intro k j b hb hj
      cases k with
      | zero =>
        simp only [List.getElem?_cons_zero, Option.some.injEq] at hb
        subst hb
        have hja : j < a.length := by omega
        rw [Nat.add_zero, k4 i j (by omega) hj]
        rw [g3 j hja (j * narrays + i) a[j] (by simp [List.getElem?_eq_getElem hja]),
          hdiv j i (by omega), List.getElem?_eq_getElem hja]
        rfl
      | succ k =>
        rw [List.getElem?_cons_succ] at hb
        have := k3 k j b hb hj
        rw [show i + 1 + k = i + (k + 1) by omega] at this
        exact this
    · intro k j hk hj
      rw [k4 k j (by omega) hj]
      apply g4
      intro j' hj' v hv
      simp [List.getElem?_eq_getElem hj'] at hv
      have h1 := hmod j k (by omega)
      have h2 := hmod j' i (by omega)
      rw [hv.1, h2] at h1
      omega

/-- `interleave` puts entry `j` of array `i` at component `i` of row `j`. -/
theorem C43_interleave {α : Type} (s : Sched) (arrays : List (List α)) (n : Nat)
    (hne : arrays ≠ []) (hn : ∀ a ∈ arrays, a.length = n) :
    ∃ out, interleave s arrays = some out ∧ out.length = n * arrays.length ∧
      ∀ (i j : Nat) (a : List α), arrays[i]? = some a → j < n →
        Spec.entry out arrays.length j i = a[j]? := by
  cases arrays with
  | nil => exact absurd rfl hne
  | cons a as =>
  have ha := hn a (by simp)
  have hall : (a :: as).all (fun b => b.length == a.length) = true := by
    rw [List.all_eq_true]
    intro b hb
    simp [hn b hb, ha]
  obtain ⟨m', h1, h2, h3, _⟩ := interleaveLoop_spec s (a :: as).length n (a :: as) 0
    (Mem.alloc ((a :: as).length * n)) (by simp) hn (by simp [Mem.alloc])
  have hml : m'.length = (a :: as).length * n := by rw [h2]; simp [Mem.alloc]
  -- every cell is of the form `j * narrays + i`
  have hcell : ∀ p, p < m'.length → ∃ v, m'[p]? = some (some v) ∧
      ((a :: as)[p % (a :: as).length]?).bind (fun b => b[p / (a :: as).length]?) = some v := by
    intro p hp
    rw [hml] at hp
    have hpos : 0 < (a :: as).length := by simp
    have hi : p % (a :: as).length < (a :: as).length := Nat.mod_lt _ hpos
    have hj : p / (a :: as).length < n := by
      rw [Nat.div_lt_iff_lt_mul hpos, Nat.mul_comm]; exact hp
    have hpe : p / (a :: as).length * (a :: as).length + p % (a :: as).length = p := by
      rw [Nat.mul_comm]; exact Nat.div_add_mod p _
    have hget := List.getElem?_eq_getElem hi
    have := h3 _ _ _ hget hj
    rw [Nat.zero_add, hpe] at this
    have hlen := hn _ (List.getElem_mem hi)
    have hg2 : (a :: as)[p % (a :: as).length][p / (a :: as).length]? =
        some ((a :: as)[p % (a :: as).length][p / (a :: as).length]'(by omega)) :=
      List.getElem?_eq_getElem (by omega)
    rw [hg2] at this
    refine ⟨_, this, ?_⟩
    rw [hget]
    simp only [Option.bind_some]
    exact hg2
  obtain ⟨out, o1, o2, o3⟩ := Mem.toArray?_spec m'
    (fun p => ((a :: as)[p % (a :: as).length]?).bind (fun b => b[p / (a :: as).length]?)) (by
      intro p hp
      obtain ⟨v, hv1, hv2⟩ := hcell p hp
      exact ⟨by rw [hv1, hv2], by rw [hv2]; rfl⟩)
  refine ⟨out, ?_, by rw [o2, hml, Nat.mul_comm], ?_⟩
  · unfold interleave
    simp only [hall, if_true]
    rw [ha, h1]
    exact o1
  · intro i j b hb hj
    have hi : i < (a :: as).length := (List.getElem?_eq_some_iff.1 hb).1
    have hlt : j * (a :: as).length + i < m'.length := by
      rw [hml, Nat.mul_comm (a :: as).length n]
      have : (j + 1) * (a :: as).length ≤ n * (a :: as).length := Nat.mul_le_mul_right _ hj
      rw [Nat.add_mul] at this
      omega
    unfold Spec.entry
    rw [o3 _ hlt]
    have hdiv : (j * (a :: as).length + i) / (a :: as).length = j := by
      rw [Nat.mul_comm, Nat.mul_add_div (by omega), Nat.div_eq_of_lt hi]; omega
    have hmod : (j * (a :: as).length + i) % (a :: as).length = i := by
      rw [Nat.mul_comm, Nat.mul_add_mod, Nat.mod_eq_of_lt hi]
    simp only [hdiv, hmod, hb, Option.bind_some]

/-- Taking component `i` of the interleaved arrays gives array `i` back. -/
theorem C43_get_component_interleave {α : Type} (s s' : Sched) (arrays : List (List α)) (n : Nat)
    (hn : ∀ a ∈ arrays, a.length = n) (i : Nat) (a : List α) (hi : arrays[i]? = some a) :
    ∃ out, interleave s arrays = some out ∧ getComponent s' out arrays.length i = some a := by
  have hlt : i < arrays.length := (List.getElem?_eq_some_iff.1 hi).1
  obtain ⟨out, h1, h2, h3⟩ := C43_interleave s arrays n (by rintro rfl; simp at hlt) hn
  obtain ⟨c, k1, k2, k3⟩ := C43_get_component s' out n arrays.length i hlt h2
  have hal := hn a (List.mem_of_getElem? hi)
  refine ⟨out, h1, ?_⟩
  rw [k1]
  congr 1
  apply List.ext_getElem?
  intro j
  by_cases hj : j < n
  · rw [k3 j hj, h3 i j a hi hj]
  · rw [List.getElem?_eq_none (by omega), List.getElem?_eq_none (by omega)]

/-- The components of an array of rows, interleaved, give the array back. -/
theorem C43_interleave_get_component {α : Type} (s s' : Sched) (a : List α) (n ncomps : Nat)
    (hc : 0 < ncomps) (ha : a.length = n * ncomps) :
    ∃ cs, (List.range ncomps).mapM (fun c => getComponent s' a ncomps c) = some cs ∧
      interleave s cs = some a := by
  obtain ⟨cs, h1, h2, h3⟩ := mapM_range_spec ncomps (fun c => getComponent s' a ncomps c) (by
    intro c hcc
    obtain ⟨o, ho, _⟩ := C43_get_component s' a n ncomps c hcc ha
    rw [ho]; rfl)
  refine ⟨cs, h1, ?_⟩
  have hcs : ∀ c, c < ncomps → ∃ o, cs[c]? = some o ∧ o.length = n ∧
      ∀ i, i < n → o[i]? = Spec.entry a ncomps i c := by
    intro c hcc
    obtain ⟨o, ho, hl, he⟩ := C43_get_component s' a n ncomps c hcc ha
    exact ⟨o, by rw [h3 c hcc, ho], hl, he⟩
  obtain ⟨out, k1, k2, k3⟩ := C43_interleave s cs n (by rintro rfl; simp at h2; omega) (by
    intro b hb
    obtain ⟨c, hcb⟩ := List.getElem?_of_mem hb
    have hlt := (List.getElem?_eq_some_iff.1 hcb).1
    obtain ⟨o, ho, hl, _⟩ := hcs c (by omega)
    rw [ho] at hcb
    rw [← Option.some.inj hcb]; exact hl)
  rw [k1]
  congr 1
  apply List.ext_getElem?
  intro p
  by_cases hp : p < a.length
  · have hi : p % ncomps < ncomps := Nat.mod_lt _ hc
    have hj : p / ncomps < n := by rw [Nat.div_lt_iff_lt_mul hc]; omega
    have hpe : p / ncomps * ncomps + p % ncomps = p := by
      rw [Nat.mul_comm]; exact Nat.div_add_mod p _
    obtain ⟨o, ho, hl, he⟩ := hcs (p % ncomps) hi
    have := k3 (p % ncomps) (p / ncomps) o ho hj
    rw [he _ hj, h2] at this
    unfold Spec.entry at this
    rwa [hpe] at this
  · rw [List.getElem?_eq_none (by rw [k2, h2]; omega), List.getElem?_eq_none (by omega)]

/-! ## Non-vacuity -/

example : addEach .reversed [1, 2, 3] [10, 20, 30] = some [11, 22, 33] := by decide
example : multiplyEach .reversed [1, 2, 3, 4] [10, 20] = some [10, 20, 60, 80] := by decide
example : divideEachMaybeZero .serial (fun x y => x.tdiv y) [4, 6, 0, 0] [2, 0] =
    some [2, 3, 0, 0] := by decide
example : ternaryEach .reversed [0, 1] [1, 2, 3, 4] [5, 6, 7, 8] = some [5, 6, 3, 4] := by decide
example : interleave .reversed [[1, 2], [3, 4], [5, 6]] = some [1, 3, 5, 2, 4, 6] := by decide
example : getComponent .reversed [1, 3, 5, 2, 4, 6] 3 1 = some [3, 4] := by decide
example : findLast .two [7, 1, 7, 2] 7 = some 2 := by decide +kernel
example : isSorted .two [1, 2, 2, 5] = some true := by decide +kernel
example : isSorted .two [1, 3, 2, 5] = some false := by decide +kernel
example : arrayMax .two (-100) [3, 9, 2] = some 9 := by decide +kernel

end OmegaH
