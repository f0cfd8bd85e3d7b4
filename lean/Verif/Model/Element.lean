/-! # Canonical boundary orderings of one simplex and one hypercube

The tables of src/Omega_h_simplex.hpp, src/Omega_h_hypercube.hpp and their dispatchers in
src/Omega_h_element.hpp, transcribed entry by entry. -/

namespace OmegaH

/-- src/Omega_h_template_up.hpp:17-25 -/
structure TemplateUp where
  up : Int
  whichDown : Int
  isFlipped : Bool
  deriving DecidableEq, Repr

/-- src/Omega_h_template_up.hpp:27-30 -/
structure SplitVertex where
  dim : Int
  whichDown : Int
  deriving DecidableEq, Repr

/-- src/Omega_h_simplex.hpp:23-88 -/
def simplexDownTemplate (elemDim bdryDim whichBdry whichVert : Int) : Int :=
  (match elemDim with
    | 3 => (match bdryDim with
      | 2 => (match whichBdry with
        | 0 => (match whichVert with | 0 => 0 | 1 => 2 | 2 => 1 | _ => (-1))
        | 1 => (match whichVert with | 0 => 0 | 1 => 1 | 2 => 3 | _ => (-1))
        | 2 => (match whichVert with | 0 => 1 | 1 => 2 | 2 => 3 | _ => (-1))
        | 3 => (match whichVert with | 0 => 2 | 1 => 0 | 2 => 3 | _ => (-1))
        | _ => (-1))
      | 1 => (match whichBdry with
        | 0 => (match whichVert with | 0 => 0 | 1 => 1 | _ => (-1))
        | 1 => (match whichVert with | 0 => 1 | 1 => 2 | _ => (-1))
        | 2 => (match whichVert with | 0 => 2 | 1 => 0 | _ => (-1))
        | 3 => (match whichVert with | 0 => 0 | 1 => 3 | _ => (-1))
        | 4 => (match whichVert with | 0 => 1 | 1 => 3 | _ => (-1))
        | 5 => (match whichVert with | 0 => 2 | 1 => 3 | _ => (-1))
        | _ => (-1))
      | 0 => (match whichBdry with | 0 => 0 | 1 => 1 | 2 => 2 | 3 => 3 | _ => (-1))
      | _ => (-1))
    | 2 => (match bdryDim with
      | 1 => (match whichBdry with
        | 0 => (match whichVert with | 0 => 0 | 1 => 1 | _ => (-1))
        | 1 => (match whichVert with | 0 => 1 | 1 => 2 | _ => (-1))
        | 2 => (match whichVert with | 0 => 2 | 1 => 0 | _ => (-1))
        | _ => (-1))
      | 0 => (match whichBdry with | 0 => 0 | 1 => 1 | 2 => 2 | _ => (-1))
      | _ => (-1))
    | 1 => (match bdryDim with
      | 0 => (match whichBdry with | 0 => 0 | 1 => 1 | _ => (-1))
      | _ => (-1))
    | _ => (-1))

/-- src/Omega_h_simplex.hpp:93-230 -/
def simplexUpTemplate (elemDim bdryDim whichBdry whichUp : Int) : TemplateUp :=
  (match elemDim with
    | 3 => (match bdryDim with
      | 0 => (match whichBdry with
        | 0 => (match whichUp with | 0 => ⟨0, 0, false⟩ | 1 => ⟨2, 1, false⟩ | 2 => ⟨3, 0, false⟩ | _ => ⟨-1, -1, false⟩)
        | 1 => (match whichUp with | 0 => ⟨1, 0, false⟩ | 1 => ⟨0, 1, false⟩ | 2 => ⟨4, 0, false⟩ | _ => ⟨-1, -1, false⟩)
        | 2 => (match whichUp with | 0 => ⟨2, 0, false⟩ | 1 => ⟨1, 1, false⟩ | 2 => ⟨5, 0, false⟩ | _ => ⟨-1, -1, false⟩)
        | 3 => (match whichUp with | 0 => ⟨5, 1, false⟩ | 1 => ⟨4, 1, false⟩ | 2 => ⟨3, 1, false⟩ | _ => ⟨-1, -1, false⟩)
        | _ => ⟨-1, -1, false⟩)
      | 1 => (match whichBdry with
        | 0 => (match whichUp with | 0 => ⟨0, 2, true⟩ | 1 => ⟨1, 0, false⟩ | _ => ⟨-1, -1, false⟩)
        | 1 => (match whichUp with | 0 => ⟨0, 1, true⟩ | 1 => ⟨2, 0, false⟩ | _ => ⟨-1, -1, false⟩)
        | 2 => (match whichUp with | 0 => ⟨0, 0, true⟩ | 1 => ⟨3, 0, false⟩ | _ => ⟨-1, -1, false⟩)
        | 3 => (match whichUp with | 0 => ⟨1, 2, true⟩ | 1 => ⟨3, 1, false⟩ | _ => ⟨-1, -1, false⟩)
        | 4 => (match whichUp with | 0 => ⟨2, 2, true⟩ | 1 => ⟨1, 1, false⟩ | _ => ⟨-1, -1, false⟩)
        | 5 => (match whichUp with | 0 => ⟨3, 2, true⟩ | 1 => ⟨2, 1, false⟩ | _ => ⟨-1, -1, false⟩)
        | _ => ⟨-1, -1, false⟩)
      | _ => ⟨-1, -1, false⟩)
    | 2 => (match bdryDim with
      | 0 => (match whichBdry with
        | 0 => (match whichUp with | 0 => ⟨0, 0, false⟩ | 1 => ⟨2, 1, false⟩ | _ => ⟨-1, -1, false⟩)
        | 1 => (match whichUp with | 0 => ⟨1, 0, false⟩ | 1 => ⟨0, 1, false⟩ | _ => ⟨-1, -1, false⟩)
        | 2 => (match whichUp with | 0 => ⟨2, 0, false⟩ | 1 => ⟨1, 1, false⟩ | _ => ⟨-1, -1, false⟩)
        | _ => ⟨-1, -1, false⟩)
      | _ => ⟨-1, -1, false⟩)
    | _ => ⟨-1, -1, false⟩)

/-- src/Omega_h_simplex.hpp:232-311 -/
def simplexOppositeTemplate (elemDim bdryDim whichBdry : Int) : Int :=
  (match elemDim with
    | 3 => (match bdryDim with
      | 0 => (match whichBdry with | 0 => 2 | 1 => 3 | 2 => 1 | 3 => 0 | _ => (-1))
      | 1 => (match whichBdry with | 0 => 5 | 1 => 3 | 2 => 4 | 3 => 1 | 4 => 2 | 5 => 0 | _ => (-1))
      | 2 => (match whichBdry with | 0 => 3 | 1 => 2 | 2 => 0 | 3 => 1 | _ => (-1))
      | _ => (-1))
    | 2 => (match bdryDim with
      | 0 => (match whichBdry with | 0 => 1 | 1 => 2 | 2 => 0 | _ => (-1))
      | 1 => (match whichBdry with | 0 => 2 | 1 => 0 | 2 => 1 | _ => (-1))
      | _ => (-1))
    | 1 => (match bdryDim with | 0 => (1 - whichBdry) | _ => (-1))
    | _ => (-1))

/-- src/Omega_h_simplex.hpp:313-329 -/
def simplexDegree (fromDim toDim : Int) : Int :=
  (match fromDim with
    | 0 => 1
    | 1 => (match toDim with | 0 => 2 | 1 => 1 | _ => (-1))
    | 2 => (match toDim with | 0 => 3 | 1 => 3 | 2 => 1 | _ => (-1))
    | 3 => (match toDim with | 0 => 4 | 1 => 6 | 2 => 4 | 3 => 1 | _ => (-1))
    | _ => (-1))

/-- src/Omega_h_hypercube.hpp:26-260 -/
def hypercubeDownTemplate (elemDim bdryDim whichBdry whichVert : Int) : Int :=
  (match elemDim with
    | 1 => (match bdryDim with | 0 => whichBdry | _ => (-1))
    | 2 => (match bdryDim with
      | 0 => whichBdry
      | 1 => (match whichBdry with
        | 0 => (match whichVert with | 0 => 0 | 1 => 1 | _ => (-1))
        | 1 => (match whichVert with | 0 => 1 | 1 => 2 | _ => (-1))
        | 2 => (match whichVert with | 0 => 2 | 1 => 3 | _ => (-1))
        | 3 => (match whichVert with | 0 => 3 | 1 => 0 | _ => (-1))
        | _ => (-1))
      | _ => (-1))
    | 3 => (match bdryDim with
      | 0 => whichBdry
      | 1 => (match whichBdry with
        | 0 => (match whichVert with | 0 => 0 | 1 => 1 | _ => (-1))
        | 1 => (match whichVert with | 0 => 1 | 1 => 2 | _ => (-1))
        | 2 => (match whichVert with | 0 => 2 | 1 => 3 | _ => (-1))
        | 3 => (match whichVert with | 0 => 3 | 1 => 0 | _ => (-1))
        | 4 => (match whichVert with | 0 => 0 | 1 => 4 | _ => (-1))
        | 5 => (match whichVert with | 0 => 1 | 1 => 5 | _ => (-1))
        | 6 => (match whichVert with | 0 => 2 | 1 => 6 | _ => (-1))
        | 7 => (match whichVert with | 0 => 3 | 1 => 7 | _ => (-1))
        | 8 => (match whichVert with | 0 => 4 | 1 => 5 | _ => (-1))
        | 9 => (match whichVert with | 0 => 5 | 1 => 6 | _ => (-1))
        | 10 => (match whichVert with | 0 => 6 | 1 => 7 | _ => (-1))
        | 11 => (match whichVert with | 0 => 7 | 1 => 4 | _ => (-1))
        | _ => (-1))
      | 2 => (match whichBdry with
        | 0 => (match whichVert with | 0 => 1 | 1 => 0 | 2 => 3 | 3 => 2 | _ => (-1))
        | 1 => (match whichVert with | 0 => 0 | 1 => 1 | 2 => 5 | 3 => 4 | _ => (-1))
        | 2 => (match whichVert with | 0 => 1 | 1 => 2 | 2 => 6 | 3 => 5 | _ => (-1))
        | 3 => (match whichVert with | 0 => 2 | 1 => 3 | 2 => 7 | 3 => 6 | _ => (-1))
        | 4 => (match whichVert with | 0 => 3 | 1 => 0 | 2 => 4 | 3 => 7 | _ => (-1))
        | 5 => (match whichVert with | 0 => 4 | 1 => 5 | 2 => 6 | 3 => 7 | _ => (-1))
        | _ => (-1))
      | _ => (-1))
    | _ => (-1))

/-- src/Omega_h_hypercube.hpp:262-492 -/
def hypercubeUpTemplate (elemDim bdryDim whichBdry whichUp : Int) : TemplateUp :=
  (match elemDim with
    | 3 => (match bdryDim with
      | 0 => (match whichBdry with
        | 0 => (match whichUp with | 0 => ⟨0, 0, false⟩ | 1 => ⟨3, 1, false⟩ | 2 => ⟨4, 0, false⟩ | _ => ⟨-1, -1, false⟩)
        | 1 => (match whichUp with | 0 => ⟨1, 0, false⟩ | 1 => ⟨0, 1, false⟩ | 2 => ⟨5, 0, false⟩ | _ => ⟨-1, -1, false⟩)
        | 2 => (match whichUp with | 0 => ⟨2, 0, false⟩ | 1 => ⟨1, 1, false⟩ | 2 => ⟨6, 0, false⟩ | _ => ⟨-1, -1, false⟩)
        | 3 => (match whichUp with | 0 => ⟨3, 0, false⟩ | 1 => ⟨2, 1, false⟩ | 2 => ⟨7, 0, false⟩ | _ => ⟨-1, -1, false⟩)
        | 4 => (match whichUp with | 0 => ⟨8, 0, false⟩ | 1 => ⟨11, 1, false⟩ | 2 => ⟨4, 1, false⟩ | _ => ⟨-1, -1, false⟩)
        | 5 => (match whichUp with | 0 => ⟨9, 0, false⟩ | 1 => ⟨8, 1, false⟩ | 2 => ⟨5, 1, false⟩ | _ => ⟨-1, -1, false⟩)
        | 6 => (match whichUp with | 0 => ⟨10, 0, false⟩ | 1 => ⟨9, 1, false⟩ | 2 => ⟨6, 1, false⟩ | _ => ⟨-1, -1, false⟩)
        | 7 => (match whichUp with | 0 => ⟨11, 0, false⟩ | 1 => ⟨10, 1, false⟩ | 2 => ⟨7, 1, false⟩ | _ => ⟨-1, -1, false⟩)
        | _ => ⟨-1, -1, false⟩)
      | 1 => (match whichBdry with
        | 0 => (match whichUp with | 0 => ⟨0, 0, true⟩ | 1 => ⟨1, 0, false⟩ | _ => ⟨-1, -1, false⟩)
        | 1 => (match whichUp with | 0 => ⟨0, 3, true⟩ | 1 => ⟨2, 0, false⟩ | _ => ⟨-1, -1, false⟩)
        | 2 => (match whichUp with | 0 => ⟨0, 2, true⟩ | 1 => ⟨3, 0, false⟩ | _ => ⟨-1, -1, false⟩)
        | 3 => (match whichUp with | 0 => ⟨0, 1, true⟩ | 1 => ⟨4, 0, false⟩ | _ => ⟨-1, -1, false⟩)
        | 4 => (match whichUp with | 0 => ⟨1, 3, true⟩ | 1 => ⟨4, 1, false⟩ | _ => ⟨-1, -1, false⟩)
        | 5 => (match whichUp with | 0 => ⟨2, 3, true⟩ | 1 => ⟨1, 1, false⟩ | _ => ⟨-1, -1, false⟩)
        | 6 => (match whichUp with | 0 => ⟨3, 3, true⟩ | 1 => ⟨2, 1, false⟩ | _ => ⟨-1, -1, false⟩)
        | 7 => (match whichUp with | 0 => ⟨4, 3, true⟩ | 1 => ⟨3, 1, false⟩ | _ => ⟨-1, -1, false⟩)
        | 8 => (match whichUp with | 0 => ⟨5, 0, false⟩ | 1 => ⟨1, 2, true⟩ | _ => ⟨-1, -1, false⟩)
        | 9 => (match whichUp with | 0 => ⟨5, 1, false⟩ | 1 => ⟨2, 2, true⟩ | _ => ⟨-1, -1, false⟩)
        | 10 => (match whichUp with | 0 => ⟨5, 2, false⟩ | 1 => ⟨3, 2, true⟩ | _ => ⟨-1, -1, false⟩)
        | 11 => (match whichUp with | 0 => ⟨5, 3, false⟩ | 1 => ⟨4, 2, true⟩ | _ => ⟨-1, -1, false⟩)
        | _ => ⟨-1, -1, false⟩)
      | _ => ⟨-1, -1, false⟩)
    | 2 => (match bdryDim with
      | 0 => (match whichBdry with
        | 0 => (match whichUp with | 0 => ⟨3, 1, false⟩ | 1 => ⟨0, 0, false⟩ | _ => ⟨-1, -1, false⟩)
        | 1 => (match whichUp with | 0 => ⟨0, 1, false⟩ | 1 => ⟨1, 0, false⟩ | _ => ⟨-1, -1, false⟩)
        | 2 => (match whichUp with | 0 => ⟨1, 1, false⟩ | 1 => ⟨2, 0, false⟩ | _ => ⟨-1, -1, false⟩)
        | 3 => (match whichUp with | 0 => ⟨2, 1, false⟩ | 1 => ⟨3, 0, false⟩ | _ => ⟨-1, -1, false⟩)
        | _ => ⟨-1, -1, false⟩)
      | _ => ⟨-1, -1, false⟩)
    | _ => ⟨-1, -1, false⟩)

/-- src/Omega_h_hypercube.hpp:494-511 -/
def hypercubeDegree (fromDim toDim : Int) : Int :=
  (match fromDim with
    | 0 => (match toDim with | 0 => 1 | _ => (-1))
    | 1 => (match toDim with | 0 => 2 | 1 => 1 | _ => (-1))
    | 2 => (match toDim with | 0 => 4 | 1 => 4 | 2 => 1 | _ => (-1))
    | 3 => (match toDim with | 0 => 8 | 1 => 12 | 2 => 6 | 3 => 1 | _ => (-1))
    | _ => (-1))

/-- src/Omega_h_defines.hpp: `Omega_h_Family` -/
inductive Family where
  | simplex
  | hypercube
  deriving DecidableEq, Repr

/-- src/Omega_h_element.hpp:10-16 -/
def elementDownTemplate (f : Family) (elemDim bdryDim whichBdry whichVert : Int) : Int :=
  if f = .simplex then simplexDownTemplate elemDim bdryDim whichBdry whichVert
  else hypercubeDownTemplate elemDim bdryDim whichBdry whichVert

/-- src/Omega_h_element.hpp:18-22 -/
def elementDegree (f : Family) (fromDim toDim : Int) : Int :=
  if f = .simplex then simplexDegree fromDim toDim else hypercubeDegree fromDim toDim

/-- src/Omega_h_element.hpp:24-30 -/
def elementUpTemplate (f : Family) (elemDim bdryDim whichBdry whichUp : Int) : TemplateUp :=
  if f = .simplex then simplexUpTemplate elemDim bdryDim whichBdry whichUp
  else hypercubeUpTemplate elemDim bdryDim whichBdry whichUp

end OmegaH
