/-!
Model of the command line parser: src/Omega_h_cmdline.cpp, src/Omega_h_cmdline.hpp.

`argv` is memory that is longer than `argc` tells: words that were shifted out leave copies behind. `none` stands for a read or write past
the end of that memory, and for a loop that does not end. Messages are not modelled.

A value is kept as the word it was made from: `parse_arg` (src/Omega_h_cmdline.cpp:30-43) never fails, so `atoi` and `atof` have no say in
how a line is parsed. The default value is `none`.
-/

namespace OmegaH

/-- `*p_argc` and `argv`. -/
structure Argv where
  argc : Nat
  mem : List String
deriving DecidableEq

/-- The words the caller sees. -/
def Argv.line (a : Argv) : List String := a.mem.take a.argc

/-- `shift`: src/Omega_h_cmdline.cpp:25-28. It is called with `*p_argc` at least 1. -/
def Argv.shift (a : Argv) (i : Nat) : Option Argv :=
  ((List.range' i (a.argc - 1 - i)).foldlM (fun m j => (m[j + 1]?).map (fun w => m.set j w)) a.mem).map (fun m => ⟨a.argc - 1, m⟩)

/-- `CmdLineArg`: src/Omega_h_cmdline.hpp:27-37. -/
structure CArg where
  name : String
  value : Option String
  parsed : Bool
deriving DecidableEq

/-- `CmdLineFlag`: src/Omega_h_cmdline.hpp:39-55. -/
structure CFlag where
  name : String
  parsed : Bool
  args : List CArg
deriving DecidableEq

/-- `CmdLine`: src/Omega_h_cmdline.hpp:57-85. -/
structure CLine where
  args : List CArg
  flags : List CFlag
  nargs : Nat
  help : Bool
deriving DecidableEq

/-- The constructors and `add_arg`: src/Omega_h_cmdline.cpp:47-48, 66-68, 117-121, 196-200. -/
def CArg.fresh (name : String) : CArg := ⟨name, none, false⟩

/-- `CmdLine::add_flag` followed by one `add_arg` for each name: src/Omega_h_cmdline.cpp:92-93, 117-121, 190-194. -/
def CFlag.fresh (name : String) (args : List String) : CFlag := ⟨name, false, args.map CArg.fresh⟩

/-- A `CmdLine` after all calls of `add_flag` and `add_arg`, before parsing: src/Omega_h_cmdline.cpp:135, 190-200. -/
def CLine.fresh (flags : List (String × List String)) (args : List String) : CLine :=
  ⟨args.map CArg.fresh, flags.map (fun f => CFlag.fresh f.1 f.2), 0, false⟩

/-- `CmdLineItem::parse` of a `CmdLineArg`: src/Omega_h_cmdline.cpp:50-60, 73-85. -/
def CArg.parse (c : CArg) (a : Argv) (i : Nat) : Option (Bool × CArg × Argv) :=
  if c.parsed then some (false, c, a)
  else (a.mem[i]?).bind (fun w => (a.shift i).map (fun a1 => (true, { c with value := some w, parsed := true }, a1)))

/-- The loop of `CmdLineFlag::parse_impl`: src/Omega_h_cmdline.cpp:105-114. -/
def parseArgs (i : Nat) : List CArg → Argv → Option (Bool × List CArg × Argv)
  | [], a => some (true, [], a)
  | c :: cs, a => (c.parse a i).bind (fun r =>
    if r.1 then (parseArgs i cs r.2.2).map (fun s => (s.1, r.2.1 :: s.2.1, s.2.2)) else some (false, r.2.1 :: cs, r.2.2))

/-- `CmdLineItem::parse` of a `CmdLineFlag`: src/Omega_h_cmdline.cpp:50-60, 95-115. -/
def CFlag.parse (f : CFlag) (a : Argv) (i : Nat) : Option (Bool × CFlag × Argv) :=
  if f.parsed then some (false, f, a)
  else (a.shift i).bind (fun a1 =>
    if (a1.argc : Int) - (i : Int) < (f.args.length : Int) then some (false, f, a1)
    else (parseArgs i f.args a1).map (fun r => (r.1, { f with args := r.2.1, parsed := r.1 }, r.2.2)))

/-- The loop over the flags in `CmdLine::parse`: src/Omega_h_cmdline.cpp:154-165. The first Boolean is false if a flag failed, the second
is `parsed_by_flag`. The loop goes on after a flag was parsed. -/
def parseFlags (i : Nat) : List CFlag → Argv → Option (Bool × Bool × List CFlag × Argv)
  | [], a => some (true, false, [], a)
  | f :: fs, a => (a.mem[i]?).bind (fun w =>
    if f.name = w then (f.parse a i).bind (fun r =>
      if r.1 then (parseFlags i fs r.2.2).map (fun s => (s.1, true, r.2.1 :: s.2.2.1, s.2.2.2))
      else some (false, false, r.2.1 :: fs, r.2.2))
    else (parseFlags i fs a).map (fun s => (s.1, s.2.1, f :: s.2.2.1, s.2.2.2)))

/-- The loop over the words in `CmdLine::parse` and the check after it: src/Omega_h_cmdline.cpp:153-187. -/
def CLine.loop : Nat → CLine → Argv → Nat → Option (Bool × CLine × Argv)
  | 0, _, _, _ => none
  | fuel + 1, c, a, i =>
    if i < a.argc then
      (parseFlags i c.flags a).bind (fun r =>
        let c1 := { c with flags := r.2.2.1 }
        let a1 := r.2.2.2
        if r.1 = false then some (false, c1, a1)
        else if r.2.1 then CLine.loop fuel c1 a1 i
        else (a1.mem[i]?).bind (fun w =>
          if w = "--help" then CLine.loop fuel { c1 with help := true } a1 (i + 1)
          else match c1.args[c1.nargs]? with
            | some arg => (arg.parse a1 i).bind (fun s =>
                if s.1 then CLine.loop fuel { c1 with args := c1.args.set c1.nargs s.2.1, nargs := c1.nargs + 1 } s.2.2 i
                else CLine.loop fuel c1 s.2.2 i)
            | none => CLine.loop fuel c1 a1 (i + 1)))
    else some (!decide (c.nargs < c.args.length), c, a)

/-- `CmdLine::parse`, and what `CmdLine::parse(comm, ...)` returns: src/Omega_h_cmdline.cpp:145-188. Every round of the loop takes a word
away or goes on to the next one, so `argc` rounds and one more are enough. -/
def CLine.parse (c : CLine) (a : Argv) : Option (Bool × CLine × Argv) := c.loop (a.argc + 1) a 1

/-- `CmdLine::parse_final` with `check_empty`: src/Omega_h_cmdline.cpp:137-143, 243-253. -/
def CLine.parseFinal (c : CLine) (a : Argv) : Option (Bool × CLine × Argv) :=
  (c.parse a).map (fun r => (r.1 && !r.2.1.help && decide (r.2.2.argc = 1), r.2.1, r.2.2))

/-- `CmdLine::parsed(flag_name)`: src/Omega_h_cmdline.cpp:202-206. -/
def CLine.parsedFlag (c : CLine) (flag : String) : Bool :=
  match c.flags.find? (fun f => f.name == flag) with
  | some f => f.parsed
  | none => false

/-- `CmdLine::get(flag_name, arg_name)`: src/Omega_h_cmdline.cpp:127-131, 208-221, with the type the argument was added with. `none` is a
failed check. -/
def CLine.getOfFlag (c : CLine) (flag arg : String) : Option (Option String) :=
  (c.flags.find? (fun f => f.name == flag)).bind (fun f => (f.args.find? (fun x => x.name == arg)).map CArg.value)

/-- `CmdLine::get(arg_name)`: src/Omega_h_cmdline.cpp:229-235, with the type the argument was added with. -/
def CLine.getArg (c : CLine) (arg : String) : Option (Option String) :=
  (c.args.find? (fun x => x.name == arg)).map CArg.value

/-- `CmdLine::parsed(i)`: src/Omega_h_cmdline.cpp:237. -/
def CLine.parsedArg (c : CLine) (i : Nat) : Option Bool := (c.args[i]?).map CArg.parsed

/-- `CmdLine::parsed(flag_name, i)`: src/Omega_h_cmdline.cpp:223-227. -/
def CLine.parsedOfFlag (c : CLine) (flag : String) (i : Nat) : Option Bool :=
  match c.flags.find? (fun f => f.name == flag) with
  | some f => (f.args[i]?).map CArg.parsed
  | none => some false

end OmegaH
