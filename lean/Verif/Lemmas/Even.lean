import Verif.Lemmas.Converge
import Verif.Props.C39
import Verif.Props.C40
/-!
# Evening out errors
-/
namespace OmegaH
open Spec

section
variable {K : Type}

theorem getComponent_table (s : Sched) (n w c : Nat) (hc : c < w) (F : Nat → Nat → K) :
    getComponent s (tableOf (List.range n) w F) w c = some ((List.range n).map (fun e => F e c)) := by
  obtain ⟨out, o1, o2, o3⟩ := C43_get_component s (tableOf (List.range n) w F) n w c hc (by rw [tableOf_length, List.length_range])
  rw [o1]
  congr 1
  apply List.ext_getElem?
  intro p
  by_cases hp : p < n
  · rw [o3 p hp, range_get _ _ hp]
    exact table_get n w F hp hc
  · rw [List.getElem?_eq_none (by omega), List.getElem?_eq_none (by simp; omega)]

/-- Setting the components one after another fills the array. -/
theorem setComponents_table (s : Sched) (n w : Nat) (D : Nat → Option (List K)) (Y : Nat → Nat → K)
    (hD : ∀ c, c < w → D c = some ((List.range n).map (Y c))) :
    ((List.range w).foldlM (fun out c => (D c).bind (fun y => setComponent s out y w c)) (Mem.alloc (n * w))).bind Mem.toArray?
      = some (tableOf (List.range n) w (fun e c => Y c e)) := by
  obtain ⟨out, o1, o2, o3⟩ := foldlM_range (fun (out : Mem K) c => (D c).bind (fun y => setComponent s out y w c))
    (fun k out => out.length = n * w ∧ ∀ e c, e < n → c < k → c < w → out[e * w + c]? = some (some (Y c e))) w (Mem.alloc (n * w))
    ⟨List.length_replicate, by intros; omega⟩ (by
      rintro k hk out ⟨h1, h2⟩
      simp only [hD k hk, Option.bind_some]
      unfold setComponent
      rw [List.length_map, List.length_range]
      have inb : ∀ e, e < n → e * w + k < n * w := by
        intro e he
        have := Nat.mul_le_mul_right w (Nat.succ_le_of_lt he)
        rw [Nat.succ_mul] at this
        omega
      have inj : ∀ e e' c c', c < w → c' < w → e * w + c = e' * w + c' → e = e' ∧ c = c' := by
        intro e e' c c' hc hc' h
        have h1 := congrArg (· / w) h
        have h2 := congrArg (· % w) h
        simp only [Nat.mul_comm _ w, Nat.mul_add_div (by omega : w > 0), Nat.div_eq_of_lt hc, Nat.div_eq_of_lt hc', Nat.mul_add_mod,
          Nat.mod_eq_of_lt hc, Nat.mod_eq_of_lt hc'] at h1 h2
        exact ⟨by omega, h2⟩
      obtain ⟨out', p1, p2, p3, p4⟩ := parScatter_specO s n (fun i => (((List.range n).map (Y k))[i]?).map (fun v => [(i * w + k, v)]))
        (fun i => [(i * w + k, Y k i)]) (fun p => some (Y k (p / w))) out (by
          intro i hi
          rw [range_get _ _ hi]; rfl) (by
          intro i hi p v hp
          rw [List.mem_singleton, Prod.mk.injEq] at hp
          obtain ⟨rfl, rfl⟩ := hp
          refine ⟨by rw [h1]; exact inb i hi, ?_⟩
          rw [Nat.mul_comm i w, Nat.mul_add_div (by omega : w > 0), Nat.div_eq_of_lt hk, Nat.add_zero])
      refine ⟨out', p1, by rw [p2, h1], ?_⟩
      intro e c he hck hc
      by_cases hcc : c = k
      · subst hcc
        rw [p3 e he _ _ (List.mem_singleton.2 rfl), Nat.mul_comm e w, Nat.mul_add_div (by omega : w > 0), Nat.div_eq_of_lt hk, Nat.add_zero]
      · rw [p4, h2 e c he (by omega) hc]
        intro i hi v hv
        rw [List.mem_singleton, Prod.mk.injEq] at hv
        exact hcc (inj _ _ _ _ hc hk hv.1).2)
  rw [o1, Option.bind_some]
  have hlen : (tableOf (List.range n) w (fun e c => Y c e)).length = n * w := by rw [tableOf_length, List.length_range]
  obtain ⟨arr, a1, a2, a3⟩ := Mem.toArray?_spec out (fun p => (tableOf (List.range n) w (fun e c => Y c e))[p]?) (by
    intro p hp
    rw [o2] at hp
    obtain ⟨e, c, he, hc, rfl⟩ := row_cover hp
    rw [o3 e c he hc hc, table_get n w _ he hc]
    exact ⟨rfl, rfl⟩)
  rw [a1]
  congr 1
  apply List.ext_getElem?
  intro p
  by_cases hp : p < n * w
  · exact a3 p (by omega)
  · rw [List.getElem?_eq_none (by omega), List.getElem?_eq_none (by omega)]

theorem foldlM_none {α β : Type} (f : α → β → Option α) (l : List β) (a : α) {x : β} (hx : x ∈ l) (h : ∀ acc, f acc x = none) :
    l.foldlM f a = none := by
  induction l generalizing a with
  | nil => simp at hx
  | cons y l ih =>
    rw [List.foldlM_cons]
    rcases List.mem_cons.1 hx with rfl | hx
    · rw [h a]; rfl
    · cases hf : f a y with
      | none => rfl
      | some b => exact ih b hx

variable [Field K] [LinearOrder K] [IsStrictOrderedRing K] {m : FluxMesh K}

variable (m) in
/-- The values that diffusion starts from: errors relative to what the elements hold. -/
def relative (opts : DiffuseOpts K) (E Q : Nat → K) (e : Nat) : K := E e / weight opts (Q e)

variable (m) in
/-- The errors after `k` rounds. -/
def spread (opts : DiffuseOpts K) (E Q : Nat → K) (k e : Nat) : K :=
  (fluxStep m (fun e => weight opts (Q e)))^[k] (relative opts E Q) e * weight opts (Q e)

variable (m) in
/-- All errors are small. -/
def Spread (opts : DiffuseOpts K) (E Q : Nat → K) (k : Nat) : Prop :=
  Small m opts.tolerance ((fluxStep m (fun e => weight opts (Q e)))^[k] (relative opts E Q))

theorem diffuseComponent_spec (s : Nat → Sched) (hm : m.Sound) (fuel : Nat) (E Q : Nat → K) (opts : DiffuseOpts K)
    (hQ : ∀ e, e < m.nelems → 0 < weight opts (Q e)) :
    (∃ k, k ≤ fuel ∧ Spread m opts E Q k ∧
      diffuseComponent s fuel m.dim (graphOn (List.range m.nelems) m.neighbours) ((List.range m.nelems).map E) ((List.range m.nelems).map Q) opts
        = some ((List.range m.nelems).map (spread m opts E Q k))) ∨
    ((∀ k, k ≤ fuel → ¬ Spread m opts E Q k) ∧
      diffuseComponent s fuel m.dim (graphOn (List.range m.nelems) m.neighbours) ((List.range m.nelems).map E) ((List.range m.nelems).map Q) opts = none) := by
  unfold diffuseComponent
  rw [mapEach_eq (s 0) _ (fun q => |q|) _ (fun _ _ => rfl)]
  simp only [bind, Option.bind_some]
  rw [mapEach_eq (s 1) _ (fun q => max q opts.floor) _ (fun _ _ => rfl), Option.bind_some, List.map_map, List.map_map]
  have hw : List.map (((fun q => max q opts.floor) ∘ fun q => |q|) ∘ Q) (List.range m.nelems) = (List.range m.nelems).map (fun e => weight opts (Q e)) := rfl
  rw [hw]
  have hd := divide_table (s 2) (List.range m.nelems) 1 (fun e _ => E e) (fun e => weight opts (Q e)) (by
    intro e he h0
    exact absurd h0 (hQ e (List.mem_range.1 he)).ne')
  rw [tableOf_one, tableOf_one] at hd
  rw [hd, Option.bind_some]
  rcases diffuseDensities_spec (fun k => s (k + 4)) hm hQ opts.tolerance fuel (relative opts E Q) with ⟨k, h1, h2, _, h4⟩ | ⟨h1, h2⟩
  · left
    refine ⟨k, h1, h2, ?_⟩
    have h5 : diffuseDensities (fun k => s (k + 4)) m.dim (graphOn (List.range m.nelems) m.neighbours) ((List.range m.nelems).map (fun e => weight opts (Q e)))
      opts.tolerance fuel ((List.range m.nelems).map (fun e => E e / weight opts (Q e))) = _ := h4
    rw [h5, Option.bind_some]
    have := multiply_table (s 3) (List.range m.nelems) 1 (fun e _ => (fluxStep m (fun e => weight opts (Q e)))^[k] (relative opts E Q) e) (fun e => weight opts (Q e))
    rw [tableOf_one, tableOf_one] at this
    exact this
  · right
    refine ⟨h1, ?_⟩
    have h5 : diffuseDensities (fun k => s (k + 4)) m.dim (graphOn (List.range m.nelems) m.neighbours) ((List.range m.nelems).map (fun e => weight opts (Q e)))
      opts.tolerance fuel ((List.range m.nelems).map (fun e => E e / weight opts (Q e))) = _ := h2
    rw [h5]; rfl

/-- What diffusion makes of the errors, for every component. -/
def Evened (m : FluxMesh K) (opts : DiffuseOpts K) (w fuel : Nat) (E Q E' : Nat → Nat → K) : Prop :=
  (opts.isNone = true ∧ ∀ e c, E' e c = E e c) ∨
  (opts.isNone = false ∧ ∀ c, c < w → ∃ k, k ≤ fuel ∧ Spread m opts (fun e => E e c) (fun e => Q e c) k ∧
    ∀ e, E' e c = spread m opts (fun e => E e c) (fun e => Q e c) k e)

theorem diffuseWeighted_spec (s : Nat → Sched) (hm : m.Sound) (fuel w : Nat) (hw : 0 < w) (E Q : Nat → Nat → K) (opts : DiffuseOpts K)
    (hQ : ∀ e c, e < m.nelems → c < w → 0 < weight opts (Q e c)) :
    (∃ E', Evened m opts w fuel E Q E' ∧
      diffuseWeighted s fuel m.dim (graphOn (List.range m.nelems) m.neighbours) (tableOf (List.range m.nelems) w E) (tableOf (List.range m.nelems) w Q) opts
        = some (tableOf (List.range m.nelems) w E')) ∨
    ((opts.isNone = false ∧ ∃ c, c < w ∧ ∀ k, k ≤ fuel → ¬ Spread m opts (fun e => E e c) (fun e => Q e c) k) ∧
      diffuseWeighted s fuel m.dim (graphOn (List.range m.nelems) m.neighbours) (tableOf (List.range m.nelems) w E) (tableOf (List.range m.nelems) w Q) opts
        = none) := by
  unfold diffuseWeighted
  cases hopt : opts.isNone
  · have hn : divideNoRemainder (tableOf (List.range m.nelems) w E).length ((graphOn (List.range m.nelems) m.neighbours).a2ab.length - 1) = some w := by
      rw [graphOn_offsets_length, tableOf_length, List.length_range]
      exact divide_width hm.some.ne' rfl
    simp only [Bool.false_eq_true, if_false, hn, Option.bind_some]
    have hcomp := fun c (hc : c < w) => diffuseComponent_spec (fun k => s (k + 3)) hm fuel (fun e => E e c) (fun e => Q e c) opts (fun e he => hQ e c he hc)
    by_cases hall : ∀ c, c < w → ∃ k, k ≤ fuel ∧ Spread m opts (fun e => E e c) (fun e => Q e c) k
    · left
      have hex : ∀ c, ∃ k, c < w → (k ≤ fuel ∧ Spread m opts (fun e => E e c) (fun e => Q e c) k ∧
          diffuseComponent (fun k => s (k + 3)) fuel m.dim (graphOn (List.range m.nelems) m.neighbours) ((List.range m.nelems).map (fun e => E e c))
            ((List.range m.nelems).map (fun e => Q e c)) opts = some ((List.range m.nelems).map (spread m opts (fun e => E e c) (fun e => Q e c) k))) := by
        intro c
        by_cases hc : c < w
        · rcases hcomp c hc with ⟨k, h1, h2, h3⟩ | ⟨h1, _⟩
          · exact ⟨k, fun _ => ⟨h1, h2, h3⟩⟩
          · obtain ⟨k, h2, h3⟩ := hall c hc
            exact absurd h3 (h1 k h2)
        · exact ⟨0, fun h => absurd h hc⟩
      obtain ⟨k, hk⟩ := Classical.skolem.1 hex
      refine ⟨fun e c => spread m opts (fun e => E e c) (fun e => Q e c) (k c) e,
        Or.inr ⟨hopt, fun c hc => ⟨k c, (hk c hc).1, (hk c hc).2.1, fun _ => rfl⟩⟩, ?_⟩
      by_cases hw1 : w > 1
      · rw [if_pos hw1, tableOf_length, List.length_range]
        rw [← setComponents_table (s 2) m.nelems w (fun c => (getComponent (s 0) (tableOf (List.range m.nelems) w E) w c).bind (fun ei =>
          (getComponent (s 1) (tableOf (List.range m.nelems) w Q) w c).bind (fun qi =>
          diffuseComponent (fun k => s (k + 3)) fuel m.dim (graphOn (List.range m.nelems) m.neighbours) ei qi opts)))
          (fun c e => spread m opts (fun e => E e c) (fun e => Q e c) (k c) e) (by
            intro c hc
            rw [getComponent_table _ _ _ _ hc, getComponent_table _ _ _ _ hc]
            exact (hk c hc).2.2)]
        congr 2
        funext out c
        cases getComponent (s 0) (tableOf (List.range m.nelems) w E) w c with
        | none => rfl
        | some x =>
          cases getComponent (s 1) (tableOf (List.range m.nelems) w Q) w c with
          | none => rfl
          | some y => rfl
      · obtain rfl : w = 1 := by omega
        rw [if_neg (by omega), tableOf_one, tableOf_one, tableOf_one]
        exact (hk 0 (by omega)).2.2
    · right
      have hex : ∃ c, c < w ∧ ∀ k, k ≤ fuel → ¬ Spread m opts (fun e => E e c) (fun e => Q e c) k := by
        by_contra hcon
        apply hall
        intro c hc
        by_contra hc2
        exact hcon ⟨c, hc, fun k hk hs => hc2 ⟨k, hk, hs⟩⟩
      obtain ⟨c, hc, h⟩ := hex
      refine ⟨⟨trivial, c, hc, h⟩, ?_⟩
      have hcn : diffuseComponent (fun k => s (k + 3)) fuel m.dim (graphOn (List.range m.nelems) m.neighbours) ((List.range m.nelems).map (fun e => E e c))
            ((List.range m.nelems).map (fun e => Q e c)) opts = none := by
        rcases hcomp c hc with ⟨k, h1, h2, _⟩ | ⟨_, h1⟩
        · exact absurd h2 (h k h1)
        · exact h1
      by_cases hw1 : w > 1
      · rw [if_pos hw1, foldlM_none _ _ _ (List.mem_range.2 hc)]
        · rfl
        · intro acc
          rw [getComponent_table _ _ _ _ hc, getComponent_table _ _ _ _ hc]
          simp only [Option.bind_some, hcn]
          rfl
      · obtain rfl : w = 1 := by omega
        obtain rfl : c = 0 := by omega
        rw [if_neg (by omega), tableOf_one, tableOf_one]
        exact hcn
  · left
    exact ⟨E, Or.inl ⟨hopt, fun _ _ => rfl⟩, by simp⟩

omit [IsStrictOrderedRing K] in
theorem relative_mul {opts : DiffuseOpts K} {E Q : Nat → K} {e : Nat} (h : 0 < weight opts (Q e)) : relative opts E Q e * weight opts (Q e) = E e := by
  unfold relative
  rw [div_mul_cancel₀ _ h.ne']

omit [LinearOrder K] [IsStrictOrderedRing K] in
theorem total_congr {f g : Nat → K} {C : Nat → Bool} (h : ∀ e, e < m.nelems → f e = g e) : m.total C f = m.total C g :=
  sumOver_congr (fun e he => ⟨rfl, fun _ => h e (List.mem_range.1 he)⟩)

/-- Diffusion keeps the total of the errors of every closed part. -/
theorem Evened.total (hm : m.Sound) {opts : DiffuseOpts K} {w fuel : Nat} {E Q E' : Nat → Nat → K}
    (hQ : ∀ e c, e < m.nelems → c < w → 0 < weight opts (Q e c)) (h : Evened m opts w fuel E Q E') {C : Nat → Bool} (hC : m.Closed C)
    {c : Nat} (hc : c < w) : m.total C (fun e => E' e c) = m.total C (fun e => E e c) := by
  rcases h with ⟨_, h⟩ | ⟨_, h⟩
  · exact total_congr (fun e _ => h e c)
  · obtain ⟨k, _, _, h3⟩ := h c hc
    rw [total_congr (g := fun e => spread m opts (fun e => E e c) (fun e => Q e c) k e) (fun e _ => h3 e)]
    unfold spread
    rw [iterate_total hm (fun e he => hQ e c he hc) hC]
    exact total_congr (fun e he => relative_mul (E := fun e => E e c) (Q := fun e => Q e c) (hQ e c he hc))

theorem Evened.small {opts : DiffuseOpts K} {w fuel : Nat} {E Q E' : Nat → Nat → K}
    (hQ : ∀ e c, e < m.nelems → c < w → 0 < weight opts (Q e c)) (h : Evened m opts w fuel E Q E') (hn : opts.isNone = false)
    {e c : Nat} (he : e < m.nelems) (hc : c < w) : |E' e c| ≤ opts.tolerance * weight opts (Q e c) := by
  rcases h with ⟨h, _⟩ | ⟨_, h⟩
  · rw [hn] at h; simp at h
  · obtain ⟨k, _, h2, h3⟩ := h c hc
    rw [h3 e]
    unfold spread
    rw [abs_mul, abs_of_pos (hQ e c he hc)]
    exact mul_le_mul_of_nonneg_right (h2 e he) (hQ e c he hc).le

end
end OmegaH
