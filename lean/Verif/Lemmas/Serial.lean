import Verif.Spec.Layers
import Verif.Lemmas.Diffuse
import Verif.Lemmas.Marks
/-!
# Meshes on one rank, for examples
-/
namespace OmegaH
open Spec

theorem graphOn_beside {n : Nat} {R : Nat → List Nat} {l h : Nat} : Beside (graphOn (List.range n) R) l h ↔ l < n ∧ h ∈ R l := by
  constructor
  · rintro ⟨lo, hi, k, h1, h2, h3, h4, h5⟩
    have hl : l < n := by
      have := (List.getElem?_eq_some_iff.1 h2).1
      rw [graphOn_offsets_length, List.length_range] at this
      omega
    rw [graphOn_offset _ _ _ (by rw [List.length_range]; omega)] at h1
    rw [graphOn_offset_succ _ _ _ _ (List.getElem?_range hl)] at h2
    obtain rfl := Option.some.inj h1
    obtain rfl := Option.some.inj h2
    obtain ⟨j, rfl⟩ := Nat.exists_eq_add_of_le h3
    rw [graphOn_edge n R hl (by omega)] at h5
    exact ⟨hl, List.mem_of_getElem? h5⟩
  · rintro ⟨hl, hm⟩
    obtain ⟨j, hj⟩ := List.mem_iff_getElem?.1 hm
    have hjl := (List.getElem?_eq_some_iff.1 hj).1
    exact ⟨_, _, _, graphOn_offset _ _ _ (by rw [List.length_range]; omega), graphOn_offset_succ _ _ _ _ (List.getElem?_range hl),
      Nat.le_add_right _ j, by omega, by rw [graphOn_edge n R hl hjl]; exact hj⟩

theorem graphOn_good {n m : Nat} {R : Nat → List Nat} (h : ∀ l, l < n → ∀ x ∈ R l, x < m) : GoodGraph (graphOn (List.range n) R) n m := by
  refine ⟨graphOn_fan _ _, by rw [graphOn_offsets_length, List.length_range], graphOn_last _ _, ?_⟩
  intro x hx
  obtain ⟨l, hl, hx⟩ := List.mem_flatMap.1 hx
  exact h l (List.mem_range.1 hl) x hx

/-- A mesh on one rank: `sub hi lo h` are the entities of dimension `lo` of entity `h` of dimension `hi`. -/
structure SerialMesh where
  nents : Nat → Nat
  degree : Nat → Nat → Nat
  sub : Nat → Nat → Nat → Nat → Nat
  cdim : Nat → Nat → Int
  cid : Nat → Nat → Int

def SerialMesh.upOf (M : SerialMesh) (lo hi l : Nat) : List Nat :=
  (List.range (M.nents hi)).filter (fun h => (List.range (M.degree hi lo)).any (fun j => M.sub hi lo h j == l))

def SerialMesh.rank (M : SerialMesh) : MarkRank where
  nents := M.nents
  up lo hi := graphOn (List.range (M.nents lo)) (M.upOf lo hi)
  down hi lo := tableOf (List.range (M.nents hi)) (M.degree hi lo) (M.sub hi lo)
  degree := M.degree
  classDim d := (List.range (M.nents d)).map (M.cdim d)
  classId d := (List.range (M.nents d)).map (M.cid d)

def SerialMesh.toWorld (M : SerialMesh) : MarkWorld := ⟨fun _ => M.rank, fun _ r e => (r, e)⟩

theorem SerialMesh.mem_upOf {M : SerialMesh} {lo hi l h : Nat} :
    h ∈ M.upOf lo hi l ↔ h < M.nents hi ∧ ∃ j, j < M.degree hi lo ∧ M.sub hi lo h j = l := by
  unfold SerialMesh.upOf
  rw [List.mem_filter, List.mem_range, List.any_eq_true]
  simp only [List.mem_range, beq_iff_eq]

theorem SerialMesh.toWorld_ok (M : SerialMesh) (dim : Nat) (hdim : dim ≤ 3)
    (hs : ∀ hi lo h j, lo < hi → hi ≤ dim → h < M.nents hi → j < M.degree hi lo → M.sub hi lo h j < M.nents lo) :
    M.toWorld.Ok 1 dim (fun _ => false) (fun _ => true) where
  size := by decide
  small := hdim
  owners := by
    intro d _
    exact ⟨fun r i hr hi => ⟨hr, hi, rfl⟩, fun _ r i _ _ => rfl⟩
  up := by
    intro r lo hi _ hlo hhi
    exact graphOn_good (fun l _ x hx => (SerialMesh.mem_upOf.1 hx).1)
  down := by
    intro r hi lo h hr hlo hhi hh
    have hh : h < M.nents hi := hh
    have hget : ∀ j, j < M.degree hi lo → (tableOf (List.range (M.nents hi)) (M.degree hi lo) (M.sub hi lo))[h * M.degree hi lo + j]? = some (M.sub hi lo h j) :=
      fun j hj => table_get _ _ _ hh hj
    refine ⟨fun j hj => ⟨_, hget j hj, hs hi lo h j hlo hhi hh hj⟩, ?_⟩
    intro x
    constructor
    · rintro ⟨r', l, h', b1, b2, b3, b4, b5⟩
      obtain ⟨rfl, rfl⟩ := Prod.mk.inj (show (r', h') = (r, h) from b5)
      obtain ⟨c1, j, j1, j2⟩ := SerialMesh.mem_upOf.1 (graphOn_beside.1 b3).2
      exact ⟨j, l, j1, by rw [← j2]; exact hget j j1, b4⟩
    · rintro ⟨j, l, j1, j2, j3⟩
      obtain rfl := Option.some.inj ((hget j j1).symm.trans j2)
      have hl := hs hi lo h j hlo hhi hh j1
      exact ⟨r, _, h, hr, hl, graphOn_beside.2 ⟨hl, SerialMesh.mem_upOf.2 ⟨hh, j, j1, rfl⟩⟩, j3, rfl⟩
  classes := by
    intro r d e hr hd he
    have he : e < M.nents d := he
    exact ⟨M.cdim d e, M.cid d e, ⟨range_get _ _ he, range_get _ _ he⟩, range_get _ _ he, range_get _ _ he⟩
  lengths := by
    intro r d _ _
    simp [SerialMesh.toWorld, SerialMesh.rank]
  upward := by
    intro lo hi _ hlo hhi x y hx
    rintro ⟨r, l, h, b1, b2, b3, rfl, rfl⟩
    exact ⟨h, b3, rfl⟩

/-- A strip of `m` triangles: triangle `i` has the vertices `i`, `i + 1` and `i + 2`; edge `i` connects vertices `i` and `i + 1`, edge
`m + 1 + i` vertices `i` and `i + 2`. -/
def stripMesh (m : Nat) : SerialMesh where
  nents d := if d = 0 then m + 2 else if d = 1 then 2 * m + 1 else m
  degree hi _ := if hi = 1 then 2 else 3
  sub hi lo h j :=
    if hi = 1 then (if h < m + 1 then h + j else h - (m + 1) + 2 * j)
    else if lo = 0 then h + j
    else if j < 2 then h + j else m + 1 + h
  cdim d e := if d = 2 then 2 else if d = 1 then (if 0 < e ∧ e < m then 2 else 1) else 1
  cid _ _ := 0

theorem stripMesh_ok (m : Nat) : (stripMesh m).toWorld.Ok 1 2 (fun _ => false) (fun _ => true) := by
  apply SerialMesh.toWorld_ok _ _ (by omega)
  intro hi lo h j hlo hhi hh hj
  have : hi = 1 ∨ hi = 2 := by omega
  rcases this with rfl | rfl
  · obtain rfl : lo = 0 := by omega
    have hh : h < 2 * m + 1 := hh
    have hj : j < 2 := hj
    show (if h < m + 1 then h + j else h - (m + 1) + 2 * j) < m + 2
    split <;> omega
  · have hh : h < m := hh
    have hj : j < 3 := hj
    have : lo = 0 ∨ lo = 1 := by omega
    rcases this with rfl | rfl
    · show h + j < m + 2
      omega
    · show (if j < 2 then h + j else m + 1 + h) < 2 * m + 1
      split <;> omega

/-- The triangles beside triangle `i` of the strip. -/
def stripBeside (m i : Nat) : List Nat := (List.range m).filter (fun h => h + 1 == i || h == i + 1)

/-- The graph of neighbours of the strip. -/
def stripDual (m : Nat) : Graph := graphOn (List.range m) (stripBeside m)

theorem stripDual_adjacent {m : Nat} {x y : Nat × Nat} : (stripMesh m).toWorld.Adjacent (fun _ => stripDual m) 2 x y ↔
    x.1 = y.1 ∧ x.2 < m ∧ y.2 < m ∧ (y.2 + 1 = x.2 ∨ y.2 = x.2 + 1) := by
  constructor
  · rintro ⟨h, hb, rfl⟩
    obtain ⟨h1, h2⟩ := graphOn_beside.1 hb
    obtain ⟨h3, h4⟩ := List.mem_filter.1 h2
    exact ⟨rfl, h1, List.mem_range.1 h3, by show h + 1 = x.2 ∨ h = x.2 + 1; simpa using h4⟩
  · rintro ⟨h1, h2, h3, h4⟩
    exact ⟨y.2, graphOn_beside.2 ⟨h2, List.mem_filter.2 ⟨List.mem_range.2 h3, by simpa using h4⟩⟩, by rw [show (stripMesh m).toWorld.owner 2 x.1 y.2 = (x.1, y.2) from rfl, h1]⟩

theorem stripDual_ok (m : Nat) : (stripMesh m).toWorld.DualOk 1 2 (fun _ => stripDual m) where
  good _ _ := graphOn_good (fun _ _ x hx => List.mem_range.1 (List.mem_filter.1 hx).1)
  both x y _ h := by
    rw [stripDual_adjacent] at h ⊢
    omega

end OmegaH
