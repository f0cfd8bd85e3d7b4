import Verif.Model.Swap3d
import Verif.Spec.Triangulation
import Mathlib.Data.List.Sublists
import Mathlib.Data.List.Perm.Subperm
/-!
# C34 — the edge-swap tables list all triangulations of the loop polygon
-/
namespace OmegaH
open Spec

/-- The triangles of configuration `c` for a loop of `n` vertices, read from the tables the way
src/Omega_h_swap3d_topology.cpp:84-91 reads them. -/
def configTris (n c : Nat) : Option (List (List Nat)) := do
  let k ← swapMeshSizes[n]?
  let ms ← swapMeshes n
  let ts ← swapTriangles n
  (List.range k).mapM (fun i => (ms[c * k + i]?).bind (fun u => ts[u]?))

/-- The interior edges of configuration `c`, read as in src/Omega_h_swap3d_topology.cpp:62-69. -/
def configEdges (n c : Nat) : Option (List (List Nat)) := do
  let k ← swapNedges[n]?
  (List.range k).mapM (fun i => do
    let u ← (← (← edges2Unique n)[c]?)[i]?
    (← uniqueEdges n)[u]?)

/-- Number of triangulations of an `n`-gon, by splitting along the triangle on a fixed side. -/
def Spec.polygonCount : List Nat := [0, 0, 1, 1, 2, 5, 14, 42]

example : ∀ n, n < 8 → 3 ≤ n → polygonCount[n]? = some (((List.range' 1 (n - 2)).map
    (fun k => (polygonCount.getD (k + 1) 0) * (polygonCount.getD (n - k) 0))).sum) := by decide

/-- Each configuration is a triangulation of the polygon with all triangles running the same way
round as the polygon. -/
theorem C34_configs_are_triangulations : ∀ n, n < 8 → 3 ≤ n → ∀ c, c < swapMeshCounts.getD n 0 →
    ∃ T, configTris n c = some T ∧ IsTriangulation n T := by
  have h : ∀ n, n < 8 → 3 ≤ n → ∀ c, c < swapMeshCounts.getD n 0 →
      (configTris n c).any (fun T => decide (IsTriangulation n T)) = true := by decide +kernel
  intro n h1 h2 c hc
  have := h n h1 h2 c hc
  rw [Option.any_eq_true] at this
  obtain ⟨T, e, hT⟩ := this
  exact ⟨T, e, of_decide_eq_true hT⟩

/-- The listed interior edges of a configuration are, each once, the pairs its triangles run along in
both directions. -/
theorem C34_interior_edges : ∀ n, n < 8 → 4 ≤ n → ∀ c, c < swapMeshCounts.getD n 0 →
    ∃ T E, configTris n c = some T ∧ configEdges n c = some E ∧ E.length = n - 3 ∧
      (∀ e ∈ E, ∃ a b, e = [a, b]) ∧
      ∀ a, a < n → ∀ b, b < n → E.count [a, b] + E.count [b, a] =
        if a < b ∧ IsDiagonal n (a, b) ∨ b < a ∧ IsDiagonal n (b, a) then uses T a b else 0 := by
  have h : ∀ n, n < 8 → 4 ≤ n → ∀ c, c < swapMeshCounts.getD n 0 →
      (configTris n c).any (fun T => (configEdges n c).any (fun E => decide (E.length = n - 3 ∧
        (∀ e ∈ E, e.length = 2) ∧
        ∀ a, a < n → ∀ b, b < n → E.count [a, b] + E.count [b, a] =
        if a < b ∧ IsDiagonal n (a, b) ∨ b < a ∧ IsDiagonal n (b, a) then uses T a b else 0))) = true := by
    decide +kernel
  intro n h1 h2 c hc
  have := h n h1 h2 c hc
  rw [Option.any_eq_true] at this
  obtain ⟨T, e, hT⟩ := this
  rw [Option.any_eq_true] at hT
  obtain ⟨E, e', hE⟩ := hT
  have hE := of_decide_eq_true hE
  refine ⟨T, E, e, e', hE.1, ?_, hE.2.2⟩
  intro e he
  match e, hE.2.1 e he with
  | [a, b], _ => exact ⟨a, b, rfl⟩

/-- All diagonals of the `n`-gon. -/
def diagonals (n : Nat) : List (Nat × Nat) :=
  ((List.range n).flatMap (fun a => (List.range n).map (fun b => (a, b)))).filter (fun e => IsDiagonal n e)

theorem mem_diagonals (n : Nat) (e : Nat × Nat) : e ∈ diagonals n ↔ IsDiagonal n e := by
  obtain ⟨a, b⟩ := e
  simp only [diagonals, List.mem_filter, List.mem_flatMap, List.mem_range, List.mem_map, Prod.mk.injEq,
    decide_eq_true_eq]
  constructor
  · exact fun h => h.2
  · intro h
    obtain ⟨h1, h2, h3⟩ := h
    simp only at h1 h2 h3
    exact ⟨⟨a, by omega, b, by omega, rfl, rfl⟩, h1, h2, h3⟩

/-- Every way to cut the polygon along `n-3` diagonals that do not cross is one of the listed
configurations, and only one. -/
theorem C34_all_triangulations : ∀ n, n < 8 → 3 ≤ n → ∀ D : List (Nat × Nat), D.Nodup →
    (∀ e ∈ D, IsDiagonal n e) → (∀ d ∈ D, ∀ e ∈ D, ¬ Cross d e) → D.length = n - 3 →
    ∃ c T, c < swapMeshCounts.getD n 0 ∧ configTris n c = some T ∧
      (∀ a b, IsDiagonal n (a, b) → ((a, b) ∈ D ↔ uses T a b = 1)) ∧
      ∀ c' T', c' < swapMeshCounts.getD n 0 → configTris n c' = some T' →
        (∀ a b, IsDiagonal n (a, b) → ((a, b) ∈ D ↔ uses T' a b = 1)) → c' = c := by
  have h : ∀ n, n < 8 → 3 ≤ n → (diagonals n).Nodup ∧ ∀ D ∈ (diagonals n).sublistsLen (n - 3),
      (∀ d ∈ D, ∀ e ∈ D, ¬ Cross d e) →
      ((List.range (swapMeshCounts.getD n 0)).filter (fun c =>
        match configTris n c with
        | some T => (diagonals n).all (fun e => decide (e ∈ D) == decide (uses T e.1 e.2 = 1))
        | none => true)).length = 1 := by decide +kernel
  intro n h1 h2 D hnd hdiag hcr hlen
  obtain ⟨hdn, hall⟩ := h n h1 h2
  -- order the diagonals as in the enumeration
  let S := (diagonals n).filter (fun e => decide (e ∈ D))
  have hmem : ∀ e, e ∈ S ↔ e ∈ D := by
    intro e
    simp only [S, List.mem_filter, mem_diagonals, decide_eq_true_eq]
    exact ⟨fun h => h.2, fun h => ⟨hdiag e h, h⟩⟩
  have hSlen : S.length = n - 3 := by
    have hp : S.Perm D := (List.perm_ext_iff_of_nodup (hdn.filter _) hnd).2 hmem
    rw [hp.length_eq, hlen]
  have hone := hall S (List.mem_sublistsLen.2 ⟨List.filter_sublist, hSlen⟩)
    (fun d hd e he => hcr d ((hmem d).1 hd) e ((hmem e).1 he))
  obtain ⟨c, hc⟩ := List.length_eq_one_iff.1 hone
  have key : ∀ c' T', c' < swapMeshCounts.getD n 0 → configTris n c' = some T' →
      ((∀ a b, IsDiagonal n (a, b) → ((a, b) ∈ D ↔ uses T' a b = 1)) ↔ c' = c) := by
    intro c' T' hc' hT'
    have hm : c' ∈ (List.range (swapMeshCounts.getD n 0)).filter (fun c =>
        match configTris n c with
        | some T => (diagonals n).all (fun e => decide (e ∈ S) == decide (uses T e.1 e.2 = 1))
        | none => true) ↔ c' = c := by rw [hc, List.mem_singleton]
    rw [← hm, List.mem_filter, List.mem_range, hT']
    simp only [hc', true_and, List.all_eq_true, beq_iff_eq, decide_eq_decide, hmem]
    constructor
    · intro h e he
      exact h e.1 e.2 ((mem_diagonals n e).1 he)
    · intro h a b hab
      exact h (a, b) ((mem_diagonals n _).2 hab)
  have hcm : c ∈ [c] := by simp
  rw [← hc, List.mem_filter, List.mem_range] at hcm
  obtain ⟨T, hT, _⟩ := C34_configs_are_triangulations n h1 h2 c hcm.1
  exact ⟨c, T, hcm.1, hT, (key c T hcm.1 hT).2 rfl, fun c' T' h1 h2 h3 => (key c' T' h1 h2).1 h3⟩

/-- The number of configurations is the number of triangulations. -/
theorem C34_counts : ∀ n, n < 8 → 3 ≤ n → swapMeshCounts[n]? = polygonCount[n]? ∧
    swapMeshSizes[n]? = some (n - 2) ∧ (4 ≤ n → swapNedges[n]? = some (n - 3)) := by decide

/-- Configurations are pairwise different sets of triangles. -/
theorem C34_configs_distinct : ∀ n, n < 8 → 3 ≤ n → ∀ c, c < swapMeshCounts.getD n 0 →
    ∀ c', c' < swapMeshCounts.getD n 0 → c ≠ c' → ∀ T T', configTris n c = some T →
    configTris n c' = some T' → ∃ t ∈ T, t ∉ T' := by
  have h : ∀ n, n < 8 → 3 ≤ n → ∀ c, c < swapMeshCounts.getD n 0 →
      ∀ c', c' < swapMeshCounts.getD n 0 → c = c' ∨
      (configTris n c).all (fun T => (configTris n c').all (fun T' => decide (∃ t ∈ T, t ∉ T'))) = true := by
    decide +kernel
  intro n h1 h2 c hc c' hc' hne T T' hT hT'
  have := (h n h1 h2 c hc c' hc').resolve_left hne
  rw [hT, hT'] at this
  exact of_decide_eq_true this

/-! Non-vacuity: a pentagon cut along two diagonals, and its configuration. -/
example : ([(0, 2), (2, 4)] : List (Nat × Nat)).Nodup ∧ (∀ e ∈ [(0, 2), (2, 4)], IsDiagonal 5 e) ∧
    (∀ d ∈ [(0, 2), (2, 4)], ∀ e ∈ [(0, 2), (2, 4)], ¬ Cross d e) ∧
    configTris 5 2 = some [[0, 1, 2], [2, 3, 4], [0, 2, 4]] ∧ configEdges 5 2 = some [[2, 0], [4, 2]] := by
  decide +kernel

end OmegaH
