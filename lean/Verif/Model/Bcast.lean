import Verif.Model.Res
import Verif.Model.Map

/-! # Broadcast: src/Omega_h_comm.cpp:257-277 (MPI builds)

A collective call is a function on the list of the values that the ranks hold. -/

namespace OmegaH

/-- `MPI_Bcast` of one value: every rank gets the root's. `none`: the root is not a rank. -/
def bcast {α : Type} (xs : List α) (root : Nat) : Option (List α) :=
  (xs[root]?).map fun x => xs.map fun _ => x

/-- `std::string::resize(n)`: truncates or appends NUL characters. -/
def strResize (s : List UInt8) (n : Nat) : List UInt8 := s.take n ++ List.replicate (n - s.length) 0

/-- `MPI_Bcast(&s[0], len, MPI_CHAR, root)`: the first `len` bytes of every rank become those of the
root. The lengths are per rank; the call is erroneous (`ub`) if they differ or if a rank's buffer is
shorter than its length. -/
def bcastBytes (ss : List (List UInt8)) (len : Nat) (root : Nat) : Res (List (List UInt8)) :=
  match ss[root]? with
  | none => .fail
  | some r =>
    if ∀ s ∈ ss, len ≤ s.length then .ok (ss.map fun s => r.take len ++ s.drop len) else .ub

/-- `bcast_string`: src/Omega_h_comm.cpp:267-277. The length is broadcast with the default root,
rank 0 (src/Omega_h_comm.hpp:72). A length that does not fit 32 bits becomes negative or too short
in the cast; `resize` of a negative length converted to `size_t` throws. -/
def bcastString (ss : List (List UInt8)) (root : Nat) : Res (List (List UInt8)) :=
  let lens := ss.map fun s => wrapSigned 32 (s.length : Int)
  match bcast lens 0 with
  | none => .fail
  | some lens =>
    match lens.head? with
    | none => .fail
    | some len =>
      if len < 0 then .fail
      else bcastBytes (ss.map fun s => strResize s len.toNat) len.toNat root

end OmegaH
