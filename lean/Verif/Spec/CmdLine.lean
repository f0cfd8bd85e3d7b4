/-!
What a command line says to a program that declared some flags and some required arguments.
-/

namespace OmegaH.Spec

/-- The flags in the order they were declared, each with the names of its arguments, and the names of the required arguments. -/
structure CDecl where
  flags : List (String × List String)
  args : List String

def CDecl.names (d : CDecl) : List String := d.flags.map (·.1)

/-- A piece of the line: a flag with the words it takes, a call for help, a required argument, or a word nobody asked for. -/
inductive CItem where
  | flag (name : String) (values : List String)
  | help
  | arg (word : String)
  | extra (word : String)
deriving DecidableEq

def CItem.words : CItem → List String
  | .flag n vs => n :: vs
  | .help => ["--help"]
  | .arg w => [w]
  | .extra w => [w]

def CItem.flagName? : CItem → Option String
  | .flag n _ => some n
  | _ => none

def CItem.arg? : CItem → Option String
  | .arg w => some w
  | _ => none

/-- The words that stay on the line for whoever parses it next. -/
def CItem.left : CItem → List String
  | .help => ["--help"]
  | .extra w => [w]
  | _ => []

/-- A flag is one that was declared, with as many words as it takes. Other words are no flags. -/
def CItem.Fits (d : CDecl) : CItem → Prop
  | .flag n vs => ∃ ns, (n, ns) ∈ d.flags ∧ vs.length = ns.length
  | .help => "--help" ∉ d.names
  | .arg w => w ∉ d.names ∧ w ≠ "--help"
  | .extra w => w ∉ d.names ∧ w ≠ "--help"

/-- `items` is what the words say: no flag twice, as many arguments as required, and words nobody asked for only after those. -/
structure IsReading (d : CDecl) (words : List String) (items : List CItem) : Prop where
  words : items.flatMap CItem.words = words
  fits : ∀ x ∈ items, x.Fits d
  once : (items.filterMap CItem.flagName?).Nodup
  args : (items.filterMap CItem.arg?).length = d.args.length
  extra : ∀ before w after, items = before ++ .extra w :: after → (before.filterMap CItem.arg?).length = d.args.length

/-- The line ends with a value of a flag, and that value is also the name of a flag declared later. -/
def EndsInFlagName (d : CDecl) (items : List CItem) : Prop :=
  ∃ n vs v, items.getLast? = some (.flag n vs) ∧ vs.getLast? = some v ∧ [n, v].Sublist d.names

end OmegaH.Spec
