import Verif.Model.Vtk

/-!
# The list of time steps: src/Omega_h_vtk.cpp:532-556, 912-1055

Times are of a type `T`; `format` is how the stream prints them (`std::scientific`, 18 digits), `stod` is `std::stod`, none if it throws, and `before a b` is `!(a >= b)`.
The state of a directory is the contents of the file `steps.pvd`, if there is one, and, for each step, the time at which its directory was last written.
-/

namespace OmegaH

structure TimeFormat (T : Type) where
  format : T → FileBytes
  stod : FileBytes → Option T
  before : T → T → Bool

structure PvdEntry (T : Type) where
  step : Int
  time : T
deriving DecidableEq

/-- src/Omega_h_vtk.cpp:913-914 -/
def pvdPrologue : FileBytes := str "<VTKFile type=\"Collection\" version=\"0.1\">\n<Collection>\n"

/-- src/Omega_h_vtk.cpp:915 -/
def pvdEpilogue : FileBytes := str "</Collection>\n</VTKFile>\n"

/-- `get_pvtu_path(get_rel_step_path(step))`: src/Omega_h_vtk.cpp:532-537, 546-550. -/
def stepFile (step : Int) : FileBytes := str "steps/step_" ++ intText step ++ str "/pieces.pvtu"

/-- The line of a step: src/Omega_h_vtk.cpp:962-966. -/
def pvdLine {T : Type} (F : TimeFormat T) (e : PvdEntry T) : FileBytes :=
  str "<DataSet timestep=\"" ++ F.format e.time ++ str "\" part=\"0\" " ++ (str "file=\"" ++ stepFile e.step ++ str "\"/>\n")

/-- The lines that `std::getline` delivers. -/
def fileLines : FileBytes → List FileBytes
  | [] => []
  | c :: s =>
    if c = ch '\n' then [] :: fileLines s
    else match fileLines s with
      | [] => [[c]]
      | l :: ls => (c :: l) :: ls

/-- The value of an attribute that may be missing. -/
def XmlTag.attr? (t : XmlTag) (name : FileBytes) : Option FileBytes := (t.attribs.find? (fun a => decide (a.1 = name))).map Prod.snd

/-- The loop over the lines of an existing file: src/Omega_h_vtk.cpp:929-938. It fails if the time is no number. -/
def keepLines {T : Type} (F : TimeFormat T) (restart : T) : List FileBytes → Res FileBytes
  | [] => .ok []
  | line :: rest =>
    match parseTag line with
    | none => .ok []
    | some tag =>
      if tag.name ≠ str "DataSet" then .ok []
      else match tag.attr? (str "timestep") with
        | none => .ok []
        | some text =>
          match F.stod text with
          | none => .fail
          | some time => if F.before time restart then (keepLines F restart rest).bind fun b => .ok (line ++ str "\n" ++ b) else .ok []

/-- `read_existing_pvd`: src/Omega_h_vtk.cpp:917-940. -/
def readExistingPvd {T : Type} (F : TimeFormat T) (restart : T) (file : Option FileBytes) : Res FileBytes :=
  match file with
  | none => .ok pvdPrologue
  | some s =>
    if (getLine s).1 ++ str "\n" ++ (getLine (getLine s).2).1 ++ str "\n" ≠ pvdPrologue then .ok pvdPrologue
    else (keepLines F restart (fileLines (getLine (getLine s).2).2)).bind fun b => .ok (pvdPrologue ++ b)

/-- `write_initial_pvd`: the contents of the file and the position, src/Omega_h_vtk.cpp:942-953. -/
def openPvd {T : Type} (F : TimeFormat T) (restart : T) (file : Option FileBytes) : Res (FileBytes × Nat) :=
  (readExistingPvd F restart file).bind fun c => .ok (c ++ pvdEpilogue, c.length)

/-- `write_initial_pvd` if only the first `k` bytes reach the file, which has been emptied before. -/
def openPvdCrash {T : Type} (F : TimeFormat T) (restart : T) (file : Option FileBytes) (k : Nat) : Res FileBytes :=
  (openPvd F restart file).bind fun w => .ok (w.1.take k)

/-- The file if, from a position on, `b` has been written over it. -/
def overwrite (file : FileBytes) (pos : Nat) (b : FileBytes) : FileBytes := file.take pos ++ (b ++ file.drop (pos + b.length))

/-- `update_pvd`: src/Omega_h_vtk.cpp:955-970. -/
def updatePvd {T : Type} (F : TimeFormat T) (w : FileBytes × Nat) (e : PvdEntry T) : FileBytes × Nat :=
  (overwrite w.1 w.2 (pvdLine F e ++ pvdEpilogue), w.2 + (pvdLine F e).length)

/-- `update_pvd` if only the first `k` bytes reach the file. -/
def updatePvdCrash {T : Type} (F : TimeFormat T) (w : FileBytes × Nat) (e : PvdEntry T) (k : Nat) : FileBytes :=
  overwrite w.1 w.2 ((pvdLine F e ++ pvdEpilogue).take k)

/-- `read_pvd` from a stream: src/Omega_h_vtk.cpp:972-986. An attribute that is missing is the empty string. -/
def readPvdLines {T : Type} (F : TimeFormat T) : List FileBytes → Res (List (T × FileBytes))
  | [] => .ok []
  | line :: rest =>
    match parseTag line with
    | none => readPvdLines F rest
    | some tag =>
      if tag.name ≠ str "DataSet" then readPvdLines F rest
      else match F.stod (tag.attr (str "timestep")) with
        | none => .fail
        | some time => (readPvdLines F rest).bind fun l => .ok ((time, tag.attr (str "file")) :: l)

def readPvd {T : Type} (F : TimeFormat T) (file : FileBytes) : Res (List (T × FileBytes)) := readPvdLines F (fileLines file)

/-- `Writer::write` with or without the number of the step, with the number that the writer has: src/Omega_h_vtk.cpp:1035-1048. -/
structure WriteCall (T : Type) where
  step : Option Int
  time : T
deriving DecidableEq

/-- The steps that are written by a writer with the given number: `step_` is set by the first form and incremented by the second. -/
def writerSteps {T : Type} : Int → List (WriteCall T) → List (PvdEntry T)
  | _, [] => []
  | n, w :: ws =>
    match w.step with
    | some k => ⟨k, w.time⟩ :: writerSteps k ws
    | none => ⟨n, w.time⟩ :: writerSteps (n + 1) ws

/-- The directory of a writer. -/
structure PvdDir (T : Type) where
  file : Option FileBytes
  data : Int → Option T

/-- The data of a step are written: src/Omega_h_vtk.cpp:1037-1038. -/
def putStep {T : Type} (data : Int → Option T) (e : PvdEntry T) : Int → Option T := fun s => if s = e.step then some e.time else data s

/-- What a program does with a writer, from its construction on; the last write may be cut short after some bytes of the list have been written. -/
structure PvdSession (T : Type) where
  restart : T
  writes : List (WriteCall T)
  crash : Option Nat

/-- The writes one after the other, given the file and the position. -/
def runWrites {T : Type} (F : TimeFormat T) (w : FileBytes × Nat) (data : Int → Option T) : List (PvdEntry T) → Option Nat → FileBytes × (Int → Option T)
  | [], _ => (w.1, data)
  | [e], some k => (updatePvdCrash F w e k, putStep data e)
  | e :: es, crash => runWrites F (updatePvd F w e) (putStep data e) es crash

/-- A session: src/Omega_h_vtk.cpp:1010-1048. -/
def runSession {T : Type} (F : TimeFormat T) (dir : PvdDir T) (s : PvdSession T) : Res (PvdDir T) :=
  (openPvd F s.restart dir.file).bind fun w =>
    .ok ⟨some (runWrites F w dir.data (writerSteps 0 s.writes) s.crash).1, (runWrites F w dir.data (writerSteps 0 s.writes) s.crash).2⟩

def runSessions {T : Type} (F : TimeFormat T) (dir : PvdDir T) : List (PvdSession T) → Res (PvdDir T)
  | [] => .ok dir
  | s :: ss => (runSession F dir s).bind fun d => runSessions F d ss

end OmegaH
