import Verif.Model.File
import Mathlib.Data.Nat.Digits.Defs

/-!
# Mesh directories: src/Omega_h_file.cpp:466-575

A directory gives the contents of the files in it. Files are opened for writing from scratch.
-/

namespace OmegaH

abbrev FileDir := FileBytes → Option FileBytes

/-- A number that is not negative in decimal notation, as `<<` and `std::to_string` write it. -/
def decimal (n : Nat) : FileBytes := if n = 0 then [48#8] else (Nat.digits 10 n).reverse.map (fun d => BitVec.ofNat 8 (48 + d))

def isDecimalDigit (c : BitVec 8) : Bool := decide (48 ≤ c.toNat ∧ c.toNat ≤ 57)

/-- The digits at the start, as a number; none if there are none or if it is not an `I32`. -/
def parseDigits (s : FileBytes) : Option Nat :=
  let ds := s.takeWhile isDecimalDigit
  let n : Nat := ds.foldl (fun (acc : Nat) (c : BitVec 8) => 10 * acc + (c.toNat - 48)) 0
  if ds.isEmpty || decide (2147483647 < n) then none else some n

/-- `>>` to an `I32`: blanks, a sign and digits. (The number -2147483648 is not taken care of.) -/
def parseI32 (s : FileBytes) : Option Int :=
  match s.dropWhile (fun c => decide (c.toNat = 32 ∨ (9 ≤ c.toNat ∧ c.toNat ≤ 13))) with
  | 45#8 :: r => (parseDigits r).map fun n => -(n : Int)
  | 43#8 :: r => (parseDigits r).map fun n => (n : Int)
  | r => (parseDigits r).map fun n => (n : Int)

/-- The name of the file of a rank: src/Omega_h_file.cpp:528-530, 543-545. -/
def partName (rank : Nat) : FileBytes := decimal rank ++ [46#8, 111#8, 115#8, 104#8]

def npartsName : FileBytes := [110#8, 112#8, 97#8, 114#8, 116#8, 115#8]

def versionName : FileBytes := [118#8, 101#8, 114#8, 115#8, 105#8, 111#8, 110#8]

/-- Writing a file. -/
def FileDir.put (dir : FileDir) (f : FileBytes × FileBytes) : FileDir := fun name => if name = f.1 then some f.2 else dir name

/-- What a rank writes: its part, and on rank 0 the number of parts and the version: src/Omega_h_file.cpp:466-481, 518-537. -/
def rankFiles (commSize rank : Nat) (part : FileBytes) : List (FileBytes × FileBytes) :=
  (partName rank, part) :: (if rank = 0 then [(npartsName, decimal commSize ++ [10#8]), (versionName, decimal 9 ++ [10#8])] else [])

/-- `read` of a directory on a rank in strict mode: src/Omega_h_file.cpp:483-516, 539-562. Rank 0 reads the two small files and broadcasts the numbers. -/
def readDir (z : Option Zlib) (little : Bool) (commSize commRank : Nat) (dir : FileDir) : Res FileMesh :=
  match (dir npartsName).bind parseI32 with
  | none => .fail
  | some nparts =>
    let version : Option Int := match dir versionName with
      | none => some (-1)
      | some s => parseI32 s
    match version with
    | none => .fail
    | some version =>
      if nparts ≠ commSize then .fail
      else match dir (if version ≠ -1 then partName commRank else decimal commRank) with
        | none => .fail
        | some s => (readMesh z little version commSize commRank s).bind fun r => .ok r.1

end OmegaH
