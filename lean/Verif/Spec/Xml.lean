import Verif.Model.Xml

/-! # Specification of XML tags -/

namespace OmegaH.Spec

/-- An attribute as it is written: blanks, the name, `=` and the value in quotes. -/
structure XmlAttr where
  gap : Nat
  name : FileBytes
  quot : BitVec 8
  value : FileBytes

def XmlAttr.text (a : XmlAttr) : FileBytes := List.replicate a.gap (ch ' ') ++ (a.name ++ (ch '=') :: a.quot :: (a.value ++ [a.quot]))

/-- The characters of an attribute: the name is not empty, has no `=` and does not start with a blank, `/` or `>`; the value has no quote. -/
structure XmlAttr.Good (a : XmlAttr) : Prop where
  name : ∃ c rest, a.name = c :: rest ∧ c ≠ (ch ' ') ∧ c ≠ (ch '/') ∧ c ≠ (ch '>') ∧ (ch '=') ∉ rest
  quot : a.quot = (ch '"') ∨ a.quot = (ch '\'')
  value : a.quot ∉ a.value

/-- A tag as it is written: blanks, `<` and, if it is an end tag, `/`, blanks, the name, the attributes, blanks, and `/` if it closes itself, and `>`. -/
def tagText (type : XmlType) (lead gap : Nat) (name : FileBytes) (attrs : List XmlAttr) (tail : Nat) : FileBytes :=
  List.replicate lead (ch ' ') ++ (ch '<') :: ((if type = .end_ then [(ch '/')] else []) ++ (List.replicate gap (ch ' ') ++ (name ++ (attrs.flatMap XmlAttr.text ++
    (List.replicate tail (ch ' ') ++ ((if type = .selfClosing then [(ch '/')] else []) ++ [(ch '>')]))))))

/-- The value of an attribute is the last one given. -/
def attrValue (attrs : List XmlAttr) (name : FileBytes) : Option (FileBytes) := (attrs.reverse.find? (fun a => decide (a.name = name))).map XmlAttr.value

/-- A name is not empty and has no blank, `/` or `>`. -/
def GoodName (name : FileBytes) : Prop := name ≠ [] ∧ (ch ' ') ∉ name ∧ (ch '/') ∉ name ∧ (ch '>') ∉ name

/-- The first attribute is separated from the name by a blank. -/
def Separated (attrs : List XmlAttr) : Prop := ∀ a, attrs.head? = some a → 0 < a.gap

end OmegaH.Spec
