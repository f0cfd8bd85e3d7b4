import Verif.Model.File

/-! # XML tags: src/Omega_h_xml_lite.cpp -/

namespace OmegaH

/-- The code of a character. -/
def ch (c : Char) : BitVec 8 := BitVec.ofNat 8 c.toNat

/-- The bytes of a string literal. -/
def str (s : String) : FileBytes := s.toList.map ch

/-- src/Omega_h_xml_lite.hpp:14 -/
inductive XmlType where
  | start
  | end_
  | selfClosing
deriving DecidableEq, Repr

/-- `Tag`; the map of attributes is a list with one entry for each name: src/Omega_h_xml_lite.hpp:12-16. -/
structure XmlTag where
  name : FileBytes
  type : XmlType
  attribs : List (FileBytes × FileBytes)
deriving DecidableEq, Repr

/-- `attribs[name] = value` -/
def setAttrib (name value : FileBytes) : List (FileBytes × FileBytes) → List (FileBytes × FileBytes)
  | [] => [(name, value)]
  | a :: rest => if a.1 = name then (name, value) :: rest else a :: setAttrib name value rest

/-- The local variables of `parse_tag`: src/Omega_h_xml_lite.cpp:17-22. -/
structure XmlState where
  state : Nat
  tag : XmlTag
  attNm : FileBytes
  attVal : FileBytes
  quot : BitVec 8
deriving DecidableEq, Repr

/-- One character: src/Omega_h_xml_lite.cpp:24-93. None if the function returns false. -/
def xmlStep (s : XmlState) (c : BitVec 8) : Option XmlState :=
  match s.state with
  | 0 => if c = (ch '<') then some { s with state := 1 } else if c ≠ (ch ' ') then none else some s
  | 1 =>
    if c = (ch '/') then some { s with state := 2, tag := { s.tag with type := .end_ } }
    else if c ≠ (ch ' ') then some { s with state := 3, tag := { s.tag with name := s.tag.name ++ [c] } }
    else some s
  | 2 => if c ≠ (ch ' ') then some { s with state := 3, tag := { s.tag with name := s.tag.name ++ [c] } } else some s
  | 3 =>
    if c = (ch ' ') then some { s with state := 4 }
    else if c = (ch '/') then some { s with state := 8 }
    else if c = (ch '>') then some { s with state := 9 }
    else some { s with tag := { s.tag with name := s.tag.name ++ [c] } }
  | 4 =>
    if c = (ch '/') then some { s with state := 8, tag := { s.tag with type := .selfClosing } }
    else if c = (ch '>') then some { s with state := 9 }
    else if c ≠ (ch ' ') then some { s with state := 5, attNm := s.attNm ++ [c] }
    else some s
  | 5 => if c = (ch '=') then some { s with state := 6 } else some { s with attNm := s.attNm ++ [c] }
  | 6 => if c = (ch '"') ∨ c = (ch '\'') then some { s with state := 7, quot := c } else some s
  | 7 =>
    if c = s.quot then some { s with state := 4, tag := { s.tag with attribs := setAttrib s.attNm s.attVal s.tag.attribs }, attNm := [], attVal := [] }
    else some { s with attVal := s.attVal ++ [c] }
  | 8 => if c = (ch '>') then some { s with state := 9 } else some s
  | _ => some s

/-- `parse_tag`: src/Omega_h_xml_lite.cpp:12-100. None if it returns false. -/
def parseTag (line : FileBytes) : Option XmlTag :=
  (line.foldlM xmlStep ⟨0, ⟨[], .start, []⟩, [], [], 0#8⟩).bind fun s => if s.state = 9 then some s.tag else none

end OmegaH
