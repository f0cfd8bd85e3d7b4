import Verif.Model.Res

/-! # Paths, kinds of files and the removal of directories: src/Omega_h_filesystem.cpp

The part for systems other than Windows. A path is its list of characters. -/

namespace OmegaH

/-- `path`, src/Omega_h_filesystem.hpp:22-51 -/
abbrev FsPath := List Char

/-- `preferred_separator`, src/Omega_h_filesystem.hpp:28 -/
def pathSep : Char := '/'

/-- `std::string::find_last_of` of one character; `none` is `npos`. -/
def findLastOf (c : Char) : List Char → Option Nat
  | [] => none
  | x :: xs =>
    match findLastOf c xs with
    | some i => some (i + 1)
    | none => if x = c then some 0 else none

/-- `path::filename`, src/Omega_h_filesystem.cpp:277-281 -/
def pathFilename (p : FsPath) : FsPath :=
  match findLastOf pathSep p with
  | none => p
  | some i => p.drop (i + 1)

/-- `path::parent_path`, src/Omega_h_filesystem.cpp:283-287 -/
def pathParent (p : FsPath) : FsPath :=
  match findLastOf pathSep p with
  | none => p
  | some i => p.take i

/-- `path::extension`, src/Omega_h_filesystem.cpp:289-304 -/
def pathExtension (p : FsPath) : FsPath :=
  let f := pathFilename p
  match findLastOf '.' f with
  | none => []
  | some i => if f = ['.'] ∨ f = ['.', '.'] then [] else if i = 0 then [] else f.drop i

/-- `path::stem`, src/Omega_h_filesystem.cpp:307-314 -/
def pathStem (p : FsPath) : FsPath :=
  let f := pathFilename p
  match findLastOf '.' f with
  | none => f
  | some i => if f = ['.'] ∨ f = ['.', '.'] then f else if i = 0 then f else f.take i

/-- `operator/`, src/Omega_h_filesystem.cpp:316-332, 354-358 -/
def pathJoin (a b : FsPath) : FsPath := a ++ [pathSep] ++ b

/-- Where `read_pvtu` and `read_pvd` look for a file that is named in the file `p`.
src/Omega_h_vtk.cpp:847-854, 996-997 -/
def pathBeside (p named : FsPath) : FsPath := pathJoin (pathParent p) named

/-- `file_type`, src/Omega_h_filesystem.hpp:62-72. Those that are never given are left out. -/
inductive FileType where
  | regular | directory | symlink | block | character | fifo
deriving DecidableEq, Repr

/-- `status` from the mode that `stat` gives, with the bits as on Linux; a mode that is none of
these is reported. src/Omega_h_filesystem.cpp:216-239 -/
def fileStatus (mode : Nat) : Res FileType :=
  if mode &&& 0o100000 ≠ 0 then .ok .regular
  else if mode &&& 0o040000 ≠ 0 then .ok .directory
  else if mode &&& 0o120000 ≠ 0 then .ok .symlink
  else if mode &&& 0o060000 ≠ 0 then .ok .block
  else if mode &&& 0o020000 ≠ 0 then .ok .character
  else if mode &&& 0o010000 ≠ 0 then .ok .fifo
  else .fail

/-- What is left to be read of a directory, in the order in which it is read, without names. A link
to a directory names one of those that lie elsewhere by its number; a number that is not there is a
link to nothing. -/
inductive DirEntries where
  | done
  | file (rest : DirEntries)
  | sub (entries rest : DirEntries)
  | linkFile (rest : DirEntries)
  | linkDir (target : Nat) (rest : DirEntries)
deriving DecidableEq, Repr

/-- `remove_all` of a directory with these entries, when the directories elsewhere are `others`:
what is left of those, and the count that is returned. The kind of an entry is asked of `stat`,
which follows links, so a link to a directory is opened and emptied like a directory, and then
removed itself. Asking for the kind of a link to nothing is reported. `none`: links that lead
around in a circle. Simplification: nothing else changes the directories, and every removal is
permitted. src/Omega_h_filesystem.cpp:245-261 -/
def removeAll : Nat → List DirEntries → DirEntries → Option (Res (List DirEntries × Nat))
  | 0, _, _ => none
  | _ + 1, others, .done => some (.ok (others, 1))
  | n + 1, others, .file rest =>
    (removeAll n others rest).map fun r => r.bind fun r => .ok (r.1, r.2 + 1)
  | n + 1, others, .linkFile rest =>
    (removeAll n others rest).map fun r => r.bind fun r => .ok (r.1, r.2 + 1)
  | n + 1, others, .sub entries rest =>
    match removeAll n others entries with
    | none => none
    | some .fail => some .fail
    | some .ub => some .ub
    | some (.ok a) =>
      (removeAll n a.1 rest).map fun r => r.bind fun r => .ok (r.1, r.2 + a.2)
  | n + 1, others, .linkDir t rest =>
    match others[t]? with
    | none => some .fail
    | some entries =>
      match removeAll n others entries with
      | none => none
      | some .fail => some .fail
      | some .ub => some .ub
      | some (.ok a) =>
        (removeAll n (a.1.set t .done) rest).map fun r => r.bind fun r => .ok (r.1, r.2 + a.2)

end OmegaH
