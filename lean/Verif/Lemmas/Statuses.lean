import Verif.Lemmas.Separate
import Verif.Spec.Conserve
import Verif.Props.C39
/-!
# Which cavities touch the boundary
-/
namespace OmegaH
open Spec

theorem markedList_range (n : Nat) (q : Nat → Bool) : markedList ((List.range n).map (fun x => b2i (q x))) = (List.range n).filter q := by
  unfold markedList
  rw [List.length_map, List.length_range]
  apply List.filter_congr
  intro i hi
  rw [List.getElem?_map, List.getElem?_range (List.mem_range.1 hi)]
  cases h : q i <;> simp [b2i, h]

theorem graphOn_map {κ ι : Type} (l : List ι) (g : ι → κ) (R : κ → List Nat) : graphOn (l.map g) R = graphOn l (fun i => R (g i)) := by
  unfold graphOn
  rw [List.map_map, List.flatMap_map]; rfl

theorem unmapCavs_on (s : Nat → Sched) (l : List Nat) (n : Nat) (Ro Rn : Nat → List Nat) (hl : ∀ k ∈ l, k < n) :
    unmapCavs s l (cavsOn (List.range n) Ro Rn) = some (cavsOn l Ro Rn) := by
  unfold unmapCavs
  have h1 := unmapGraph_on s l n Ro hl
  have h2 := unmapGraph_on (fun k => s (k + 3)) l n Rn hl
  simp only [cavsOn, bind]
  rw [h1]
  simp only [Option.bind_some]
  rw [h2]; rfl

theorem mapEach_map {α β γ : Type} (s : Sched) (f : β → γ) (g : α → β) (l : List α) :
    mapEach s (fun x => some (f x)) (l.map g) = some (l.map (fun x => f (g x))) := by
  rw [mapEach_eq s _ f _ (fun _ _ => rfl), List.map_map]; rfl

theorem zipEach_map {α β γ δ : Type} (s : Sched) (f : β → γ → δ) (g : α → β) (h : α → γ) (l : List α) :
    zipEach s (fun x y => some (f x y)) (l.map g) (l.map h) = some (l.map (fun x => f (g x) (h x))) := by
  rw [zipEach_eq s _ f _ _ (by simp) (fun _ _ _ _ _ => rfl), List.zipWith_map, List.zipWith_self]

section
variable {K : Type}

/-- An element touches the boundary. -/
def touchB (m : MassMesh K) (e : Nat) : Bool := (List.range (m.dim + 1)).any (fun i => ! decide (m.vertDim (m.verts e i) = m.dim))

theorem touchB_iff (m : MassMesh K) (e : Nat) : touchB m e = true ↔ m.touches e := by
  unfold touchB MassMesh.touches
  rw [List.any_eq_true]
  constructor
  · rintro ⟨i, h1, h2⟩
    exact ⟨i, by have := List.mem_range.1 h1; omega, by simpa using h2⟩
  · rintro ⟨i, h1, h2⟩
    exact ⟨i, List.mem_range.2 (by omega), by simpa using h2⟩

theorem elemClassIds_arrays (m : MassMesh K) : elemClassIds m.arrays = (List.range m.nelems).map m.material := by
  unfold elemClassIds MassMesh.arrays MassMesh.material
  cases m.ids with
  | some f => rfl
  | none => simp [List.map_const']

theorem elemsAreBdry_arrays (s : Nat → Sched) (m : MassMesh K) (hv : ∀ e, e < m.nelems → ∀ i, i ≤ m.dim → m.verts e i < m.nverts) :
    elemsAreBdry s m.arrays = some ((List.range m.nelems).map (fun e => b2i (touchB m e))) := by
  have h1 : eachEqTo (s 0) m.arrays.vertClassDims m.arrays.dim
      = some ((List.range m.nverts).map (fun v => b2i (decide (m.vertDim v = m.dim)))) :=
    mapEach_map (s 0) (fun x : Int => b2i (decide (x = m.dim))) m.vertDim (List.range m.nverts)
  have h2 := invertMarks_flags (s 1) (List.range m.nverts) (fun v => decide (m.vertDim v = m.dim))
  have hent : ∀ h i, h < m.nelems → i < m.dim + 1 → m.arrays.elemVerts[h * (m.dim + 1) + i]? = some (m.verts h i) := by
    intro h i hh hi
    show entry (tableOf (List.range m.nelems) (m.dim + 1) m.verts) (m.dim + 1) h i = _
    rw [tableOf_entry _ _ _ _ _ hi, List.getElem?_range hh]; rfl
  obtain ⟨out, o1, o2, o3, o4⟩ := markUp_spec (s 2) m.arrays.elemVerts (m.dim + 1) m.nelems m.nverts
    ((List.range m.nverts).map (fun v => b2i (! decide (m.vertDim v = m.dim)))) (by simp) (isMarks_flags _ _)
    (fun h i hh hi => ⟨_, hent h i hh hi, hv h hh i (by omega)⟩)
  unfold elemsAreBdry
  simp only [bind]
  rw [h1]
  simp only [Option.bind_some]
  rw [h2]
  simp only [Option.bind_some]
  show markUp (s 2) m.arrays.elemVerts (m.dim + 1) m.nelems _ = _
  rw [o1]
  congr 1
  apply List.ext_getElem?
  intro e
  by_cases he : e < m.nelems
  · rw [List.getElem?_map, List.getElem?_range he]
    simp only [Option.map_some]
    have hm := o4 e
    unfold Marked at hm
    by_cases ht : touchB m e = true
    · rw [ht]
      refine hm.2 ⟨he, ?_⟩
      obtain ⟨i, hi1, hi2⟩ := (touchB_iff m e).1 ht
      refine ⟨i, _, by omega, hent e i he (by omega), ?_⟩
      rw [List.getElem?_map, List.getElem?_range (hv e he i hi1)]
      simp [b2i, hi2]
    · have hn : ¬ out[e]? = some 1 := by
        intro hc
        obtain ⟨_, i, l, i1, i2, i3⟩ := hm.1 hc
        apply ht
        refine (touchB_iff m e).2 ⟨i, by omega, ?_⟩
        rw [hent e i he i1] at i2
        obtain rfl := Option.some.inj i2
        rw [List.getElem?_map, List.getElem?_range (hv e he i (by omega))] at i3
        intro hd
        simp [b2i, hd] at i3
      have hg := List.getElem?_eq_getElem (show e < out.length by omega)
      rw [hg]
      rcases o3 _ (List.getElem_mem (show e < out.length by omega)) with h0 | h0
      · rw [h0]; simp [b2i, ht]
      · exact absurd (by rw [hg, h0]) hn
  · rw [List.getElem?_eq_none (by omega), List.getElem?_eq_none (by simp; omega)]

/-- What `separateCavities` finds. -/
theorem separateCavities_on (s : Nat → Sched) (fuel : Nat) (old new : MassMesh K) (b : MassChange) (hf : 127 < fuel)
    (hv : ∀ e, e < old.nelems → ∀ i, i ≤ old.dim → old.verts e i < old.nverts)
    (hk : ∀ k, k < b.nkeys → b.ent k < b.nents)
    (ho : ∀ k, k < b.nkeys → ∀ e ∈ b.around (b.ent k), e < old.nelems) (hn : ∀ k, k < b.nkeys → ∀ e ∈ b.made k, e < new.nelems)
    (lo : ∀ k, k < b.nkeys → (b.around (b.ent k)).length ≤ 127) (ln : ∀ k, k < b.nkeys → (b.made k).length ≤ 127) :
    ∃ parts, separateCavities s fuel old.arrays new.arrays (cavsOn (List.range b.nkeys) (fun k => b.around (b.ent k)) b.made)
        ((List.range b.nents).map b.entDim) ((List.range b.nkeys).map b.ent)
      = some ⟨[cavsOn ((List.range b.nkeys).filter (fun k => ! (b.around (b.ent k)).any (touchB old))) (fun k => b.around (b.ent k)) b.made],
          [cavsOn ((List.range b.nkeys).filter (fun k => (b.around (b.ent k)).any (touchB old) && ! decide (b.entDim (b.ent k) < old.dim)))
            (fun k => b.around (b.ent k)) b.made],
          parts.map (fun p => cavsOn ((List.range b.nkeys).filter (fun k => decide (b.entDim (b.ent k) < old.dim))) p.1 p.2)⟩ ∧
      ColorSeparated ((List.range b.nkeys).filter (fun k => decide (b.entDim (b.ent k) < old.dim))) (fun k => b.around (b.ent k)) b.made
        old.material new.material parts := by
  have hmem : ∀ (q : Nat → Bool), ∀ k ∈ (List.range b.nkeys).filter q, k < b.nkeys :=
    fun q k h => List.mem_range.1 (List.mem_filter.1 h).1
  have h1 := elemsAreBdry_arrays s old hv
  have h2 := unmap_ones (s 3) ((List.range b.nkeys).flatMap (fun k => b.around (b.ent k))) old.nelems (fun e => b2i (touchB old e)) (by
    intro e he
    obtain ⟨k, k1, k2⟩ := List.mem_flatMap.1 he
    exact ho k (List.mem_range.1 k1) e k2)
  have h3 : fanReduce (s 4) (sumFunctor 32) (graphOn (List.range b.nkeys) (fun k => b.around (b.ent k))).a2ab
      (((List.range b.nkeys).flatMap (fun k => b.around (b.ent k))).map (fun e => b2i (touchB old e))) 1
      = some ((List.range b.nkeys).map (fun k => (((b.around (b.ent k)).filter (touchB old)).length : Int))) := by
    have := fanReduce_table (s 4) (sumFunctor 32) (List.range b.nkeys) (fun k => b.around (b.ent k)) 1 (fun p _ => b2i (touchB old p.2))
    rw [tableOf_one, tableOf_one] at this
    rw [show (edgesOn (List.range b.nkeys) (fun k => b.around (b.ent k))).map (fun p => b2i (touchB old p.2))
      = ((List.range b.nkeys).flatMap (fun k => b.around (b.ent k))).map (fun e => b2i (touchB old e)) by
        rw [← edgesOn_snd, List.map_map]; rfl] at this
    rw [this]
    congr 1
    apply List.map_congr_left
    intro k hk
    show wrapSigned 32 (List.foldl (fun r x => r + x) 0 _) = _
    rw [foldl_add_sum, Int.zero_add, sum_flags (b.around (b.ent k)) (touchB old)]
    have hle := Nat.le_trans (List.length_filter_le (touchB old) (b.around (b.ent k))) (lo k (List.mem_range.1 hk))
    exact wrapSigned_id (by omega) (by omega) (by omega)
  have h4 : eachGt (s 5) ((List.range b.nkeys).map (fun k => (((b.around (b.ent k)).filter (touchB old)).length : Int))) 0
      = some ((List.range b.nkeys).map (fun k => b2i ((b.around (b.ent k)).any (touchB old)))) := by
    refine (mapEach_map (s 5) (fun x : Int => b2i (decide (x > 0))) _ _).trans ?_
    congr 1
    apply List.map_congr_left
    intro k _
    congr 1
    rw [Bool.eq_iff_iff, decide_eq_true_eq, List.any_eq_true]
    constructor
    · intro h
      obtain ⟨e, he⟩ := List.exists_mem_of_length_pos (l := (b.around (b.ent k)).filter (touchB old)) (by omega)
      exact ⟨e, List.mem_filter.1 he⟩
    · rintro ⟨e, e1, e2⟩
      have := List.length_pos_of_mem (List.mem_filter.2 ⟨e1, e2⟩)
      omega
  have h5 := invertMarks_flags (s 6) (List.range b.nkeys) (fun k => (b.around (b.ent k)).any (touchB old))
  have h6 := collectMarked_flags (s 7) (List.range b.nkeys) (fun k => ! (b.around (b.ent k)).any (touchB old))
  have h7 := unmapCavs_on (fun k => s (k + 8)) ((List.range b.nkeys).filter (fun k => ! (b.around (b.ent k)).any (touchB old))) b.nkeys
    (fun k => b.around (b.ent k)) b.made (hmem _)
  have h8 : unmap (s 14) ((List.range b.nkeys).map b.ent) ((List.range b.nents).map b.entDim) 1
      = some ((List.range b.nkeys).map (fun k => b.entDim (b.ent k))) := by
    rw [unmap_ones, List.map_map]
    · rfl
    · intro e he
      obtain ⟨k, k1, rfl⟩ := List.mem_map.1 he
      exact hk k (List.mem_range.1 k1)
  have h9 : eachLt (s 15) ((List.range b.nkeys).map (fun k => b.entDim (b.ent k))) old.arrays.dim
      = some ((List.range b.nkeys).map (fun k => b2i (decide (b.entDim (b.ent k) < old.dim)))) :=
    mapEach_map (s 15) (fun x : Int => b2i (decide (x < old.dim))) _ _
  have h10 := collectMarked_flags (s 16) (List.range b.nkeys) (fun k => decide (b.entDim (b.ent k) < old.dim))
  have h11 := unmapCavs_on (fun k => s (k + 17)) ((List.range b.nkeys).filter (fun k => decide (b.entDim (b.ent k) < old.dim))) b.nkeys
    (fun k => b.around (b.ent k)) b.made (hmem _)
  have h12 := invertMarks_flags (s 23) (List.range b.nkeys) (fun k => decide (b.entDim (b.ent k) < old.dim))
  have h13 : landEach (s 24) ((List.range b.nkeys).map (fun k => b2i ((b.around (b.ent k)).any (touchB old))))
      ((List.range b.nkeys).map (fun k => b2i (! decide (b.entDim (b.ent k) < old.dim))))
      = some ((List.range b.nkeys).map (fun k => b2i ((b.around (b.ent k)).any (touchB old) && ! decide (b.entDim (b.ent k) < old.dim)))) := by
    refine (zipEach_map (s 24) (fun x y : Int => b2i (decide (x ≠ 0) && decide (y ≠ 0))) _ _ _).trans ?_
    congr 1
    apply List.map_congr_left
    intro k _
    cases (b.around (b.ent k)).any (touchB old) <;> cases decide (b.entDim (b.ent k) < old.dim) <;> rfl
  have h14 := collectMarked_flags (s 25) (List.range b.nkeys)
    (fun k => (b.around (b.ent k)).any (touchB old) && ! decide (b.entDim (b.ent k) < old.dim))
  have h15 := unmapCavs_on (fun k => s (k + 26)) ((List.range b.nkeys).filter
    (fun k => (b.around (b.ent k)).any (touchB old) && ! decide (b.entDim (b.ent k) < old.dim))) b.nkeys
    (fun k => b.around (b.ent k)) b.made (hmem _)
  obtain ⟨parts, p1, p2⟩ := separateByColor_on old.material new.material old.nelems new.nelems
    ((List.range b.nkeys).filter (fun k => decide (b.entDim (b.ent k) < old.dim))) 127 (fun k => s (k + 32)) fuel
    (fun k => b.around (b.ent k)) b.made (fun k h => lo k (hmem _ k h)) hf (fun k h => ho k (hmem _ k h)) (fun k h => hn k (hmem _ k h))
    (fun k h => lo k (hmem _ k h)) (fun k h => ln k (hmem _ k h))
  refine ⟨parts, ?_, p2⟩
  rw [markedList_range] at h6 h10 h14
  unfold separateCavities
  simp only [bind]
  rw [h1]
  simp only [Option.bind_some]
  rw [show (cavsOn (List.range b.nkeys) (fun k => b.around (b.ent k)) b.made).keys2old.ab2b
    = (List.range b.nkeys).flatMap (fun k => b.around (b.ent k)) from rfl, h2]
  simp only [Option.bind_some]
  rw [show (cavsOn (List.range b.nkeys) (fun k => b.around (b.ent k)) b.made).keys2old
    = graphOn (List.range b.nkeys) (fun k => b.around (b.ent k)) from rfl, h3]
  simp only [Option.bind_some]
  rw [h4]
  simp only [Option.bind_some]
  rw [h5]
  simp only [Option.bind_some]
  rw [h6]
  simp only [Option.bind_some]
  rw [h7]
  simp only [Option.bind_some]
  rw [h8]
  simp only [Option.bind_some]
  rw [h9]
  simp only [Option.bind_some]
  rw [h10]
  simp only [Option.bind_some]
  rw [h11]
  simp only [Option.bind_some]
  rw [h12]
  simp only [Option.bind_some]
  rw [h13]
  simp only [Option.bind_some]
  rw [h14]
  simp only [Option.bind_some]
  rw [h15]
  simp only [Option.bind_some]
  rw [elemClassIds_arrays, elemClassIds_arrays, p1]
  rfl

end
end OmegaH
