import Verif.Props.C58
import Mathlib.Tactic.NormNum
/-!
# C58: an error that gets lost

A square of triangles whose right side is a curve with one vertex in the middle. That vertex is collapsed, which cuts off some area;
then an edge is split whose triangles touch the boundary, then one whose triangles do not.
-/
namespace OmegaH
open Spec

/-- A mesh of triangles in the plane. The defaults are never used. -/
def planeMesh (coords : List (ℚ × ℚ)) (dims : List Int) (tris : List (List Nat)) : MassMesh ℚ :=
  { dim := 2, nelems := tris.length, nverts := coords.length, verts := fun e i => (tris.getD e []).getD i 0,
    vertDim := fun v => dims.getD v 0, ids := none,
    size := fun e =>
      let p := fun i => coords.getD ((tris.getD e []).getD i 0) (0, 0)
      (((p 1).1 - (p 0).1) * ((p 2).2 - (p 0).2) - ((p 1).2 - (p 0).2) * ((p 2).1 - (p 0).1)) / 2 }

/-- Density one everywhere, and these errors. -/
def triState (m : MassMesh ℚ) (errors : List ℚ) : MassState ℚ := ⟨m, fun _ _ => 1, fun e _ => errors.getD e 0⟩

/-- The triangles that have all of these vertices. -/
def trisWith (m : MassMesh ℚ) (vs : List Nat) : List Nat :=
  (List.range m.nelems).filter (fun e => vs.all (fun v => (List.range 3).any (fun i => m.verts e i == v)))

def square0 : MassMesh ℚ := planeMesh [(0, 0), (4, 0), (5, 2), (4, 4), (0, 4), (1, 1), (3, 2), (1, 3)] [0, 0, 1, 0, 0, 2, 2, 2]
  [[0, 1, 5], [1, 6, 5], [1, 2, 6], [2, 3, 6], [3, 7, 6], [3, 4, 7], [4, 0, 5], [4, 5, 7], [5, 6, 7]]

def square1 : MassMesh ℚ := planeMesh [(0, 0), (4, 0), (4, 4), (0, 4), (1, 1), (3, 2), (1, 3)] [0, 0, 0, 0, 2, 2, 2]
  [[0, 1, 4], [1, 5, 4], [2, 6, 5], [2, 3, 6], [3, 0, 4], [3, 4, 6], [4, 5, 6], [1, 2, 5]]

def square2 : MassMesh ℚ := planeMesh [(0, 0), (4, 0), (4, 4), (0, 4), (1, 1), (3, 2), (1, 3), (7 / 2, 1)] [0, 0, 0, 0, 2, 2, 2, 2]
  [[0, 1, 4], [2, 6, 5], [2, 3, 6], [3, 0, 4], [3, 4, 6], [4, 5, 6], [1, 7, 4], [7, 5, 4], [1, 2, 7], [7, 2, 5]]

def square3 : MassMesh ℚ := planeMesh [(0, 0), (4, 0), (4, 4), (0, 4), (1, 1), (3, 2), (1, 3), (7 / 2, 1), (2, 3 / 2)] [0, 0, 0, 0, 2, 2, 2, 2, 2]
  [[0, 1, 4], [2, 6, 5], [2, 3, 6], [3, 0, 4], [3, 4, 6], [1, 7, 4], [1, 2, 7], [7, 2, 5], [4, 8, 6], [8, 5, 6], [7, 5, 8], [7, 8, 4]]

/-- Vertex 2 is collapsed. -/
def lossStep1 : MassChange :=
  { nkeys := 1, nents := 8, ent := fun _ => 2, around := fun v => trisWith square0 [v], made := fun _ => [7],
    entDim := fun v => square0.vertDim v, same := [(0, 0), (1, 1), (4, 2), (5, 3), (6, 4), (7, 5), (8, 6)] }

def edges1 : List (List Nat) := [[0, 1], [1, 2], [2, 3], [3, 0], [0, 4], [1, 4], [1, 5], [2, 5], [2, 6], [3, 6], [3, 4], [4, 5], [5, 6], [6, 4]]

def edges2 : List (List Nat) :=
  [[0, 1], [1, 2], [2, 3], [3, 0], [0, 4], [1, 4], [1, 7], [7, 5], [2, 5], [2, 6], [3, 6], [3, 4], [4, 5], [5, 6], [6, 4], [7, 4], [7, 2]]

/-- The edge from 1 to 5 is split. -/
def lossStep2 : MassChange :=
  { nkeys := 1, nents := 14, ent := fun _ => 6, around := fun i => trisWith square1 (edges1.getD i []), made := fun _ => [6, 7, 8, 9],
    entDim := fun i => if i < 4 then 1 else 2, same := [(0, 0), (2, 1), (3, 2), (4, 3), (5, 4), (6, 5)] }

/-- The edge from 4 to 5 is split. -/
def lossStep3 : MassChange :=
  { nkeys := 1, nents := 17, ent := fun _ => 12, around := fun i => trisWith square2 (edges2.getD i []), made := fun _ => [8, 9, 10, 11],
    entDim := fun i => if i < 4 then 1 else 2, same := [(0, 0), (1, 1), (2, 2), (3, 3), (4, 4), (6, 5), (8, 6), (9, 7)] }

def loss0 : MassState ℚ := triState square0 [0, 0, 0, 0, 0, 0, 0, 0, 0]
def loss1 : MassState ℚ := triState square1 [0, 0, 0, 0, 0, 0, 0, -2]
def loss2 : MassState ℚ := triState square2 [0, 0, 0, 0, 0, 0, -5 / 9, -5 / 9, -4 / 9, -4 / 9]
def loss3 : MassState ℚ := triState square3 [0, 0, 0, 0, 0, -5 / 9, -4 / 9, -4 / 9, 0, 0, 0, 0]

theorem loss_recorded1 : Recorded (densityFlags .coarsen) 1 lossStep1 loss0 loss1 := ⟨fun _ => Sched.serial, 128, by decide, by decide +kernel⟩
theorem loss_recorded2 : Recorded (densityFlags .refine) 1 lossStep2 loss1 loss2 := ⟨fun _ => Sched.serial, 128, by decide, by decide +kernel⟩
theorem loss_recorded3 : Recorded (densityFlags .refine) 1 lossStep3 loss2 loss3 := ⟨fun _ => Sched.serial, 128, by decide, by decide +kernel⟩

/-- One key, no materials: what has to be checked. -/
theorem tri_sound {b : MassChange} {m m' : MassMesh ℚ} (h1 : m.ids = none) (h2 : m'.ids = none) (hk : b.nkeys = 1)
    (a1 : m.nelems ≠ 0) (a2 : ∀ e, e < m.nelems → ∀ i, i < m.dim + 1 → m.verts e i < m.nverts) (a3 : ∀ e, e < m'.nelems → 0 < m'.size e)
    (a4 : b.ent 0 < b.nents)
    (a5 : (b.same.map Prod.fst ++ b.around (b.ent 0)).Perm (List.range m.nelems)) (a6 : (b.same.map Prod.snd ++ b.made 0).Perm (List.range m'.nelems))
    (a7 : ∀ p ∈ b.same, m'.size p.2 = m.size p.1) (a8 : (b.around (b.ent 0)).length ≤ 127 ∧ (b.made 0).length ≤ 127)
    (a9 : b.entDim (b.ent 0) < m.dim → (b.around (b.ent 0)).any (touchB m) = true) (a10 : b.around (b.ent 0) ≠ [] ∧ b.made 0 ≠ []) : b.Sound m m' := by
  have hm : ∀ e, m.material e = 1 := by intro e; unfold MassMesh.material; rw [h1]
  have hm' : ∀ e, m'.material e = 1 := by intro e; unfold MassMesh.material; rw [h2]
  have h0 : ∀ k, k < b.nkeys → k = 0 := by intro k h; omega
  refine ⟨a1, fun e he i hi => a2 e he i (by omega), a3, ?_, ?_, ?_, fun p hp => ⟨a7 p hp, by rw [hm, hm']⟩, ?_, ?_, fun _ _ _ => ⟨1, fun e _ => hm e⟩, ?_⟩
  · intro k hk; obtain rfl := h0 k hk; exact a4
  · rw [hk]; simpa using a5
  · rw [hk]; simpa using a6
  · intro k hk; obtain rfl := h0 k hk; exact a8
  · intro k hk hb
    obtain rfl := h0 k hk
    obtain ⟨e, e1, e2⟩ := List.any_eq_true.1 (a9 hb)
    exact ⟨e, e1, (touchB_iff m e).1 e2⟩
  · intro k hk c
    obtain rfl := h0 k hk
    obtain ⟨e, he⟩ := List.exists_mem_of_ne_nil _ a10.1
    obtain ⟨e', he'⟩ := List.exists_mem_of_ne_nil _ a10.2
    constructor
    · rintro ⟨x, _, hx⟩; exact ⟨e', he', by rw [hm', ← hx, hm]⟩
    · rintro ⟨x, _, hx⟩; exact ⟨e, he, by rw [hm, ← hx, hm']⟩

theorem tri_densities {flags : ConservedBools × ConservedBools × ConservedBools} {b : MassChange} {m m' : MassMesh ℚ} {E E' : List ℚ} (h1 : m.ids = none)
    (h2 : m'.ids = none) (hk : b.nkeys = 1)
    (h : (∀ t, b.inCase m 0 t → (flagsFor flags t).thisTime = false) ∨ ((b.made 0).map m'.size).sum = ((b.around (b.ent 0)).map m.size).sum) :
    DensitiesAs flags 1 b (triState m E) (triState m' E') := by
  have hm : ∀ e, m.material e = 1 := by intro e; unfold MassMesh.material; rw [h1]
  have hm' : ∀ e, m'.material e = 1 := by intro e; unfold MassMesh.material; rw [h2]
  refine ⟨fun _ _ _ _ => rfl, ?_⟩
  intro k hk t ht hf C j _
  obtain rfl : k = 0 := by omega
  rcases h with h | h
  · have := h t ht
    rw [this] at hf; cases hf
  · unfold MassState.amount triState
    simp only [hm, hm', one_mul]
    cases C 1
    · simp
    · simpa using h

theorem loss_sound1 : lossStep1.Sound loss0.mesh loss1.mesh :=
  tri_sound rfl rfl rfl (by decide) (by decide) (by decide +kernel) (by decide) (by decide +kernel) (by decide +kernel) (by decide +kernel)
    (by decide +kernel) (by decide +kernel) (by decide +kernel)
theorem loss_sound2 : lossStep2.Sound loss1.mesh loss2.mesh :=
  tri_sound rfl rfl rfl (by decide) (by decide) (by decide +kernel) (by decide) (by decide +kernel) (by decide +kernel) (by decide +kernel)
    (by decide +kernel) (by decide +kernel) (by decide +kernel)
theorem loss_sound3 : lossStep3.Sound loss2.mesh loss3.mesh :=
  tri_sound rfl rfl rfl (by decide) (by decide) (by decide +kernel) (by decide) (by decide +kernel) (by decide +kernel) (by decide +kernel)
    (by decide +kernel) (by decide +kernel) (by decide +kernel)

theorem loss_densities1 : DensitiesAs (densityFlags .coarsen) 1 lossStep1 loss0 loss1 :=
  tri_densities rfl rfl rfl (Or.inl (by
    intro t ht
    cases t with
    | onBdry => rfl
    | touching => exact absurd (by show (1 : Int) < 2; decide) ht.1
    | inside =>
      exact absurd ⟨2, by decide +kernel, (touchB_iff _ _).1 (by decide +kernel)⟩ ht))
theorem loss_densities2 : DensitiesAs (densityFlags .refine) 1 lossStep2 loss1 loss2 := tri_densities rfl rfl rfl (Or.inr (by decide +kernel))
theorem loss_densities3 : DensitiesAs (densityFlags .refine) 1 lossStep3 loss2 loss3 := tri_densities rfl rfl rfl (Or.inr (by decide +kernel))

theorem loss_history : History densityFlags 1 loss0 loss3 :=
  .step .refine lossStep3 (.step .refine lossStep2 (.step .coarsen lossStep1 .none loss_sound1 loss_densities1 loss_recorded1)
    loss_sound2 loss_densities2 loss_recorded2) loss_sound3 loss_densities3 loss_recorded3

/-- The errors of a density do not account for what is lost: a collapse on the boundary, then a split next to the boundary, then a split
inside, and the integral minus the errors is not what it was at first, although there were no errors then. -/
theorem C58_density_refuted : ∃ σ σ' : MassState ℚ, History densityFlags 1 σ σ' ∧ (∀ e j, σ.error e j = 0) ∧
    σ.accounted (fun _ => true) 0 = 18 ∧ σ'.accounted (fun _ => true) 0 = 18 - 5 / 9 := by
  refine ⟨loss0, loss3, loss_history, ?_, by decide +kernel, by decide +kernel⟩
  intro e j
  show ([0, 0, 0, 0, 0, 0, 0, 0, 0] : List ℚ).getD e 0 = 0
  rw [List.getD_eq_getElem?_getD]
  rcases h : ([0, 0, 0, 0, 0, 0, 0, 0, 0] : List ℚ)[e]? with _ | x
  · rfl
  · have := List.mem_of_getElem? h
    simpa using this

/-- The first two steps meet the hypotheses of the partial theorem, and what they cut off is accounted for. -/
example : CleanHistory densityFlags 1 loss0 loss2 ∧ loss2.accounted (fun _ => true) 0 = 18 ∧ loss2.amount (fun _ => true) 0 (List.range 10) = 16 := by
  refine ⟨.step .refine lossStep2 (.step .coarsen lossStep1 .none loss_sound1 loss_densities1 ?_ loss_recorded1)
    loss_sound2 loss_densities2 ?_ loss_recorded2, by decide +kernel, by decide +kernel⟩
  · intro k hk t ht hf
    obtain rfl : k = 0 := Nat.lt_one_iff.1 hk
    cases t with
    | onBdry => cases hf
    | touching => cases hf
    | inside => exact absurd ⟨2, by decide +kernel, (touchB_iff _ _).1 (by decide +kernel)⟩ ht
  · intro k hk t ht hf
    obtain rfl : k = 0 := Nat.lt_one_iff.1 hk
    cases t with
    | onBdry => cases hf
    | touching => cases hf
    | inside => exact absurd ⟨1, by decide +kernel, (touchB_iff _ _).1 (by decide +kernel)⟩ ht

/-- The same steps with the flags of momenta: nothing is lost. -/
example : ∃ σ' : MassState ℚ, History momentumFlags 1 loss0 σ' ∧ σ'.mesh = square3 ∧ σ'.recorded (fun _ => true) 0 = -2 := by
  refine ⟨triState square3 [0, 0, 0, 0, 0, -5 / 9, -4 / 9, -4 / 9, -20 / 117, -20 / 117, -25 / 234, -25 / 234], ?_, rfl, ?_⟩
  · refine .step (σ₁ := loss2) .refine lossStep3 (.step (σ₁ := loss1) .refine lossStep2 (.step .coarsen lossStep1 .none loss_sound1 ?_ ?_) loss_sound2 ?_ ?_)
      loss_sound3 ?_ ?_
    · exact tri_densities rfl rfl rfl (Or.inl (by intro t _; cases t <;> rfl))
    · exact ⟨fun _ => Sched.reversed, 128, by decide, by decide +kernel⟩
    · exact tri_densities rfl rfl rfl (Or.inr (by decide +kernel))
    · exact ⟨fun _ => Sched.reversed, 128, by decide, by decide +kernel⟩
    · exact tri_densities rfl rfl rfl (Or.inr (by decide +kernel))
    · exact ⟨fun _ => Sched.reversed, 128, by decide, by decide +kernel⟩
  · decide +kernel

end OmegaH
