import Verif.App.Run

/-! Model of the command line: the arguments declared in `smd/src/args.rs`, and how clap 4.5 (Cargo.lock 138-150) reads them.
clap is not in the repository; what is assumed of it is in `DESIGN.md`. Only whether there is an error is modelled, not which. -/

namespace Smd.App
open Smd.Core Smd.Rs

/-- `clap::ArgAction`, those that occur or are expected here. -/
inductive Action where
  | help
  | version
  | count
  | set
  deriving DecidableEq

/-- A declared argument: name of the field, short form, long forms with aliases, action. -/
structure ArgDef where
  id : Str
  short : Char
  longs : List Str
  action : Action

/-- `help` (args.rs 39-48), `global`. -/
def helpArg : ArgDef := { id := c!"help", short := 'h', longs := [c!"help"], action := .help }

/-- `version` (args.rs 50-59), `global`. Its action is `ArgAction::Help`. -/
def versionArg : ArgDef := { id := c!"version", short := 'V', longs := [c!"version"], action := .help }

/-- `verbose` (args.rs 61-69), not `global`. -/
def verboseArg : ArgDef := { id := c!"verbose", short := 'v', longs := [c!"verbose", c!"debug"], action := .count }

/-- `input` (args.rs 84-93). -/
def inputArg : ArgDef := { id := c!"input", short := 'i', longs := [c!"input"], action := .set }

/-- `output` (args.rs 95-104). -/
def outputArg : ArgDef := { id := c!"output", short := 'o', longs := [c!"output"], action := .set }

/-- `struct Cli` (args.rs 35-70). -/
def cliArgs : List ArgDef := [helpArg, versionArg, verboseArg]

/-- `struct ParseArgs` (args.rs 82-105) and the global arguments. -/
def parseArgs : List ArgDef := [inputArg, outputArg, helpArg, versionArg]

/-- `Commands::Initialize` (args.rs 77-79) has the global arguments only. -/
def initArgs : List ArgDef := [helpArg, versionArg]

/-- `enum Commands` (args.rs 72-80): the names of the subcommands. -/
def subcommands : List Str := [c!"parse", c!"initialize"]

/-- `OutputFileFormat` (args.rs 10-14) as a `ValueEnum`: lower-case names, compared exactly. -/
def formatOf (v : Str) : Option Format :=
  if v = c!"pdf" then some .pdf else if v = c!"html" then some .html else none

/-- What ends the reading before a command is run: help or version are printed (status 0), or there is an error
(status 2). -/
inductive Stop where
  | help
  | version
  | usage
  deriving DecidableEq

/-- What has been read: how often a flag was counted, and the values. -/
structure Vals where
  count : Nat := 0
  vals : List (Str × Str) := []

/-- The value of an option, unless it has one already (clap: an option may not be used twice) or the value is refused. -/
def Vals.set (st : Vals) (check : Str → Str → Bool) (id v : Str) : Except Stop Vals :=
  if st.vals.any (·.1 == id) || !check id v then .error .usage else .ok { st with vals := st.vals ++ [(id, v)] }

/-- The value of an option. -/
def Vals.get (st : Vals) (id : Str) : Option Str := (st.vals.find? (·.1 == id)).map (·.2)

/-- A flag: no value is attached. Counting stops at 255. -/
def Vals.flag (st : Vals) : Action → Except Stop Vals
  | .help => .error .help
  | .version => .error .version
  | .count => .ok { st with count := min (st.count + 1) 255 }
  | .set => .error .usage

/-- The letters of `-abc`. The rest of them is the value of an option, without a `=` in front. An option that is last takes
the next argument as its value: the second component is its name. -/
def readShorts (defs : List ArgDef) (check : Str → Str → Bool) (st : Vals) : Str → Except Stop (Vals × Option Str)
  | [] => .ok (st, none)
  | c :: cs =>
    match defs.find? (·.short == c) with
    | none => .error .usage
    | some d =>
      if d.action = .set then
        match cs with
        | [] => .ok (st, some d.id)
        | '=' :: v => (st.set check d.id v).map fun st => (st, none)
        | v => (st.set check d.id v).map fun st => (st, none)
      else match st.flag d.action with
        | .error e => .error e
        | .ok st => readShorts defs check st cs

/-- `--name` and `--name=value`. -/
def readLong (defs : List ArgDef) (check : Str → Str → Bool) (st : Vals) (body : Str) : Except Stop (Vals × Option Str) :=
  let (name, value) := match splitOnce '=' body with
    | some (n, v) => (n, some v)
    | none => (body, none)
  match defs.find? (·.longs.contains name) with
  | none => .error .usage
  | some d =>
    match value with
    | none => if d.action = .set then .ok (st, some d.id) else (st.flag d.action).map fun st => (st, none)
    | some v => if d.action = .set then (st.set check d.id v).map fun st => (st, none) else .error .usage

/-- The kinds of arguments: `--`, `--body`, `-letters`, and others, among them `-` (crate `clap_lex`). -/
inductive Kind where
  | escape
  | long (body : Str)
  | short (letters : Str)
  | other

def kindOf : Str → Kind
  | '-' :: '-' :: [] => .escape
  | '-' :: '-' :: body => .long body
  | '-' :: c :: cs => .short (c :: cs)
  | _ => .other

/-- How the arguments of a level end: early, with all read, or with a subcommand and the arguments after it. -/
inductive LevelEnd where
  | stop (s : Stop)
  | done (st : Vals)
  | sub (st : Vals) (name : Str) (rest : List Str)

/-- `?` in the reading of a level. -/
def orStop {α : Type} (x : Except Stop α) (f : α → LevelEnd) : LevelEnd :=
  match x with
  | .error e => .stop e
  | .ok a => f a

/-- The arguments of one level. `pending` is an option that waits for its value: an argument that starts with a hyphen is
none, except the hyphen alone. After `--` there may be positional arguments only, and none is declared. -/
def readLevel (defs : List ArgDef) (subs : List Str) (check : Str → Str → Bool) : Vals → Option Str → List Str → LevelEnd
  | st, none, [] => .done st
  | _, some _, [] => .stop .usage
  | st, some id, a :: rest =>
    if a.head? = some '-' && a ≠ c!"-" then .stop .usage
    else orStop (st.set check id a) fun st => readLevel defs subs check st none rest
  | st, none, a :: rest =>
    if subs.contains a then .sub st a rest
    else match kindOf a with
      | .escape => if rest = [] then .done st else .stop .usage
      | .long body => orStop (readLong defs check st body) fun x => readLevel defs subs check x.1 x.2 rest
      | .short letters => orStop (readShorts defs check st letters) fun x => readLevel defs subs check x.1 x.2 rest
      | .other => .stop .usage

/-- The command line as read: an early end, or the number of `-v` and the command. -/
inductive Parsed where
  | stop (s : Stop)
  | run (verbose : Nat) (cmd : Command)

/-- The value parsers: `Cli::parse_dir` for `input`, the names of the formats for `output`. -/
def checkValue (canon : Str → Option Path) (home : Option Str) (id v : Str) : Bool :=
  if id = c!"input" then (parseInput canon home v).isSome
  else if id = c!"output" then (formatOf v).isSome
  else true

/-- The arguments of `parse`: `input` is required, `output` is `pdf` by default (args.rs 82-105). -/
def readParse (canon : Str → Option Path) (home : Option Str) (verbose : Nat) (args : List Str) : Parsed :=
  match readLevel parseArgs [] (checkValue canon home) {} none args with
  | .stop s => .stop s
  | .sub _ _ _ => .stop .usage
  | .done st =>
    match (st.get c!"input").bind (parseInput canon home) with
    | none => .stop .usage
    | some p => .run verbose (.parse p (((st.get c!"output").bind formatOf).getD .pdf))

/-- `Cli::parse` (main.rs 11). A subcommand is required. -/
def parseCli (canon : Str → Option Path) (home : Option Str) (args : List Str) : Parsed :=
  match readLevel cliArgs subcommands (checkValue canon home) {} none args with
  | .stop s => .stop s
  | .done _ => .stop .usage
  | .sub st name rest =>
    if name = c!"parse" then readParse canon home st.count rest
    else match readLevel initArgs [] (checkValue canon home) {} none rest with
      | .stop s => .stop s
      | .sub _ _ _ => .stop .usage
      | .done _ => .run st.count .init

/-- The exit status of the process started with `args` (clap: 0 after help or version, 2 after an error). `ending` is how
`run` ends. -/
def processStatus (canon : Str → Option Path) (home : Option Str) (args : List Str) (ending : Command → End) : Option Nat :=
  match parseCli canon home args with
  | .stop .usage => some 2
  | .stop _ => some 0
  | .run _ cmd => exitStatus (ending cmd)

end Smd.App
