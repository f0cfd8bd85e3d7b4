import Verif.Model.Pvd

/-! # Specification of the list of time steps -/

namespace OmegaH.Spec

/-- Times are printed so that they can be read again, with at least six characters (there are 18 digits) and none of quote, line feed and `>`. -/
structure GoodTime {T : Type} (F : TimeFormat T) : Prop where
  back : ∀ t, F.stod (F.format t) = some t
  length : ∀ t, 6 ≤ (F.format t).length
  chars : ∀ t, ∀ c ∈ F.format t, c ≠ ch '"' ∧ c ≠ ch '\n' ∧ c ≠ ch '>'

/-- The steps that are listed after a session: of those that were listed, the ones up to the restart, then the ones that were written. If the last write is cut short,
it counts if all of its line but the line feed has been written. -/
def listedAfter {T : Type} (F : TimeFormat T) (listed : List (PvdEntry T)) (s : PvdSession T) : List (PvdEntry T) :=
  listed.takeWhile (fun e => F.before e.time s.restart) ++
    match s.crash, (writerSteps 0 s.writes).getLast? with
    | some k, some e => (writerSteps 0 s.writes).dropLast ++ if (pvdLine F e).length ≤ k + 1 then [e] else []
    | _, _ => writerSteps 0 s.writes

/-- What a reader of the list should get. -/
def entryFiles {T : Type} (l : List (PvdEntry T)) : List (T × FileBytes) := l.map fun e => (e.time, stepFile e.step)

/-- No session writes a step that is still listed. -/
def FreshSteps {T : Type} (F : TimeFormat T) : List (PvdEntry T) → List (PvdSession T) → Prop
  | _, [] => True
  | listed, s :: ss =>
    ((listed.takeWhile (fun e => F.before e.time s.restart) ++ writerSteps 0 s.writes).map PvdEntry.step).Nodup ∧ FreshSteps F (listedAfter F listed s) ss

end OmegaH.Spec
