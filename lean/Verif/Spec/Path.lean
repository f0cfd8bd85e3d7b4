import Verif.Model.Path

/-! # What the parts of a path and the kinds of files are to be -/

namespace OmegaH.Spec
open OmegaH

/-- What POSIX says of a mode: the kind is the value of the bits of the mask, as a whole. Sockets
have no name here. -/
def posixType (mode : Nat) : Option FileType :=
  match mode &&& 0o170000 with
  | 0o100000 => some .regular
  | 0o040000 => some .directory
  | 0o120000 => some .symlink
  | 0o060000 => some .block
  | 0o020000 => some .character
  | 0o010000 => some .fifo
  | _ => none

/-- Everything below a directory. -/
def below : DirEntries → Nat
  | .done => 0
  | .file rest => 1 + below rest
  | .linkFile rest => 1 + below rest
  | .sub entries rest => 1 + below entries + below rest
  | .linkDir _ rest => 1 + below rest

/-- There is no link to a directory anywhere below. -/
def NoDirLinks : DirEntries → Prop
  | .done => True
  | .file rest => NoDirLinks rest
  | .linkFile rest => NoDirLinks rest
  | .sub entries rest => NoDirLinks entries ∧ NoDirLinks rest
  | .linkDir _ _ => False

end OmegaH.Spec
