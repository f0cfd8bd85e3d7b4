import Verif.Lemmas.Chain
import Verif.Spec.Loop
import Mathlib.Data.List.Permutation
/-!
# Relabelling vertices
-/
namespace OmegaH
open Spec

/-- A one-to-one naming of `0, 1, …` that starts with the distinct names `L`. -/
def naming (L : List Nat) (i : Nat) : Nat := (L[i]?).getD (L.sum + 1 + i)

theorem naming_get {L : List Nat} {i v : Nat} (h : L[i]? = some v) : naming L i = v := by
  unfold naming; rw [h]; rfl

theorem le_sum_of_mem {L : List Nat} {x : Nat} (h : x ∈ L) : x ≤ L.sum := by
  induction L with
  | nil => exact absurd h (by simp)
  | cons a L ih =>
    rw [List.sum_cons]
    rcases List.mem_cons.1 h with rfl | h
    · omega
    · have := ih h; omega

theorem naming_injective {L : List Nat} (hL : L.Nodup) : Function.Injective (naming L) := by
  intro i j h
  unfold naming at h
  cases hi : L[i]? with
  | some a =>
    cases hj : L[j]? with
    | some b =>
      rw [hi, hj] at h
      simp only [Option.getD_some] at h
      have hl := (List.getElem?_eq_some_iff.1 hi).1
      exact (List.getElem?_inj hl hL).1 (by rw [hi, hj, h])
    | none =>
      rw [hi, hj] at h
      have := le_sum_of_mem (List.mem_of_getElem? hi)
      simp only [Option.getD_some, Option.getD_none] at h
      omega
  | none =>
    cases hj : L[j]? with
    | some b =>
      rw [hi, hj] at h
      have := le_sum_of_mem (List.mem_of_getElem? hj)
      simp only [Option.getD_some, Option.getD_none] at h
      omega
    | none =>
      rw [hi, hj] at h
      simp only [Option.getD_none] at h
      omega

theorem map_naming_range (L : List Nat) : (List.range L.length).map (naming L) = L := by
  apply List.ext_getElem?
  intro i
  by_cases h : i < L.length
  · rw [List.getElem?_map, List.getElem?_range h, List.getElem?_eq_getElem h]
    exact congrArg some (naming_get (List.getElem?_eq_getElem h))
  · rw [List.getElem?_eq_none (by simpa using h), List.getElem?_eq_none (by omega)]

theorem mapM_lookup_map (f : Nat → Nat) (verts ls : List Nat) :
    ls.mapM (fun l => (verts.map f)[l]?) = (ls.mapM (fun l => verts[l]?)).map (List.map f) := by
  induction ls with
  | nil => rfl
  | cons a ls ih =>
    rw [List.mapM_cons, List.mapM_cons, ih, List.getElem?_map]
    cases verts[a]? with
    | none => rfl
    | some v => cases ls.mapM (fun l => verts[l]?) <;> rfl

theorem sameTet_boundary {row tet : List Nat} (h : SameTet row tet) : SameBoundary [row] [tet] := by
  obtain ⟨o, h1, h2, h3, h4, h5⟩ := h
  have hol : o.length = 4 := by rw [h1.length_eq]; rfl
  have hc : ∀ o ∈ [0, 1, 2, 3].permutations', inversions o % 2 = 0 →
      sameBoundaryB [o] [[0, 1, 2, 3]] = true := by decide +kernel
  have := SameBoundary_map (sameBoundary_of_check (hc o (List.mem_permutations'.2 h1) h2)) (naming tet)
  simp only [List.map_cons, List.map_nil] at this
  have e1 : o.map (naming tet) = row := by
    apply List.ext_getElem?
    intro i
    rw [List.getElem?_map]
    by_cases hi : i < 4
    · have e := List.getElem?_eq_getElem (show i < o.length by omega)
      have hm := h1.mem_iff.1 (List.mem_of_getElem? e)
      have hm4 : o[i] < tet.length := by simp at hm; omega
      rw [e, h5 i _ e, List.getElem?_eq_getElem hm4]
      exact congrArg some (naming_get (List.getElem?_eq_getElem hm4))
    · rw [List.getElem?_eq_none (by omega), List.getElem?_eq_none (by omega)]; rfl
  have e2 := map_naming_range tet
  rw [h3] at e2
  rw [e1] at this
  have e3 : [naming tet 0, naming tet 1, naming tet 2, naming tet 3] = tet := e2
  rw [e3] at this
  exact this

end OmegaH
