import Verif.Model.Bipart
import Verif.Model.Migrate

/-! # `Mesh::balance`: src/Omega_h_mesh.cpp:535-567 -/

namespace OmegaH

/-- The plan that `balance` makes of the elements assigned to each rank: src/Omega_h_mesh.cpp:561-565. -/
def balancePlan (s : Nat → Nat → Sched) (assigned : List Remotes) (nelems : List Nat) (globals : List (List Int)) : Option (List Dist) :=
  (newDist s assigned nelems).bind (fun unsorted =>
  (setDestGlobals (fun r k => s r (k + 10)) (unsorted.map Dist.invert) globals).map (fun D => D.map Dist.invert))

/-- `Mesh::balance` on more than one rank, after the change to an element-based partitioning: src/Omega_h_mesh.cpp:539-566. The rows that
are bisected are the owners of the elements. The coordinates and masses that travel with them are functions of the element, and enter
only into the choice of the marks, which is any function `mark`. -/
def balanceMesh (s0 : List Bool → Nat → Nat → Sched) (s1 : Nat → Nat → Sched) (s : Nat → Nat → Nat → Sched)
    (mark : List Bool → List (List (Nat × Nat)) → List (List Int)) (deg : Nat → Nat) (mesh : Nat → MeshLevel) (dim : Nat) : Res (List NewLevel) :=
  (recursivelyBisect s0 mark [] (mesh dim).owners.length ((mesh dim).owners.map (fun o => o.ranks.zip o.idxs))).bind (fun assigned =>
  Res.ofOption ((balancePlan s1 (assigned.map (fun a => ⟨a.map Prod.fst, a.map Prod.snd⟩)) (mesh dim).nents (mesh dim).globals).bind (fun plan =>
    migrateMesh s .elemBased deg mesh dim plan)))

end OmegaH
