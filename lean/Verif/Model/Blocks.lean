import Verif.Model.Mem
/-!
# Consecutive writes
-/
namespace OmegaH

/-- The writes `a[off] = vals[0]; a[off + 1] = vals[1]; …`, the form of the innermost loops that
store the vertices of new entities (for example src/Omega_h_swap3d_topology.cpp:71-73). -/
def blockWrites {α : Type} (off : Nat) (vals : List α) : List (Nat × α) :=
  (vals.zipIdx off).map (fun x => (x.2, x.1))

end OmegaH
