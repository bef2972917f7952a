import Verif.Core.Config
import Verif.Core.Convert
import Verif.Gfm.Render

/-! Model of `smd/src/lib.rs`, `smd/src/main.rs` and `Cli::parse_dir` (`smd/src/args.rs`). -/

namespace Smd.App
open Smd.Core Smd.Rs

/-- `enum OutputFileFormat` (args.rs 11-14). -/
inductive Format where
  | pdf
  | html
  deriving DecidableEq

/-- `HTML_FILE_ENDING` and `PDF_FILE_ENDING` (lib.rs 19-20). -/
def Format.ending : Format → Str
  | .html => c!"html"
  | .pdf => c!"pdf"

/-- `enum Commands` and `struct ParseArgs` (args.rs 73-105). -/
inductive Command where
  | parse (input : Path) (output : Format)
  | init

/-- `Path::file_stem` of a file name: up to the last dot, unless that is the first character (std). -/
def fileStem (name : Str) : Str :=
  if name = c!".." then name
  else match rsplitOnce '.' name with
    | none => name
    | some (before, _) => if before = [] then name else before

/-- `PathBuf::set_extension` (std): the file name's stem, a dot and the extension. A path without a file name stays. -/
def setExtension (ext : Str) (p : Path) : Path :=
  match p.getLast? with
  | none => p
  | some name => p.dropLast ++ [fileStem name ++ '.' :: ext]

/-- How a call of `run` ends if it does: with a result, with a panic, or never. -/
abbrev End := Outcome (Res Unit)

/-- `?` in `run`. -/
def orErr {α : Type} (p : Prog (Res α)) (f : α → Prog End) : Prog End :=
  p.bind fun
    | .ok a => f a
    | .error e => .ret (.ok (.error e))

/-- The result of rendering as a step of `run`: a panic ends the run, and an endless loop is one. -/
def withRender (o : Outcome Str) (f : Str → Prog End) : Prog End :=
  match o with
  | .ok html => f html
  | .panic => .ret .panic
  | .hang => .ret .hang
  | .fuelOut => .ret .fuelOut

/-- The `Parse` arm of `run` (lib.rs 32-56). -/
def convert (input : Path) (output : Format) : Prog End :=
  orErr (readToString input) fun content =>
  withRender (Gfm.render content) fun result =>
  match output with
  | .html => orErr (writeToFile (setExtension Format.html.ending input) result) fun _ => .ret (.ok (.ok ()))
  | .pdf => orErr (fromHtml result) fun converted =>
      orErr (writeBytes (setExtension Format.pdf.ending input) converted) fun _ => .ret (.ok (.ok ()))

/-- `run` (lib.rs 23-61). The configuration is loaded and not used. -/
def run (os : Os) (x : Ctx) : Command → Prog End
  | .init => (initConfig x).bind fun r => .ret (.ok r)
  | .parse input output => orErr (loadConfig os x) fun _ => convert input output

/-- `shellexpand::tilde` (crate `shellexpand`): a leading `~` that is followed by `/` or by nothing becomes the home
directory, if there is one. -/
def tilde (home : Option Str) (s : Str) : Str :=
  match s, home with
  | '~' :: [], some h => h
  | '~' :: '/' :: rest, some h => h ++ '/' :: rest
  | _, _ => s

/-- `main` (main.rs 12-18): the value of `RUST_LOG` for the logger. `verbose` is the number of `-v`. -/
def rustLog (verbose : Nat) (env : Option Str) : Option Str :=
  if verbose = 1 then some c!"debug"
  else if verbose > 1 then some c!"trace"
  else match env with
    | none => some c!"info"
    | some v => some v

/-- The exit status of `main` (main.rs 10-30) when the command line is accepted, the logger is initialised and the run
ends. A panic exits with 101 (release profile; the development profile aborts). -/
def exitStatus : End → Option Nat
  | .ok (.ok ()) => some 0
  | .ok (.error _) => some 1
  | .panic => some 101
  | .hang => none
  | .fuelOut => none

/-- What clap does with `-i`: `Cli::parse_dir` (args.rs 114-118) fails if the path does not exist, and then the process
exits with status 2 before `run`. `canon` is `canonicalize`. -/
def parseInput (canon : Str → Option Path) (home : Option Str) (arg : Str) : Option Path := canon (tilde home arg)

/-- The exit status of `smd parse -i arg`: `ending` is how `run` ends for the resolved path. -/
def mainStatus (canon : Str → Option Path) (home : Option Str) (arg : Str) (ending : Path → End) : Option Nat :=
  match parseInput canon home arg with
  | none => some 2
  | some p => exitStatus (ending p)

end Smd.App
