import Verif.App.Run

/-!
Model of the two programs that are run when the package is built: `smd/src/bin/mangen.rs` and `smd/src/bin/completion.rs`.
The texts of the man page and of the scripts come from the crates `clap_mangen` and `clap_complete` and are parameters; that
a script is written in pieces is kept. `resolve` is the directory that the system finds for a text. What is printed at the end
is not modelled.
-/

namespace Smd.App
open Smd.Core

/-- `Write::write_all` (std): writes the rest until nothing is left. A write of nothing is an error. A write that is
interrupted by a signal is repeated; since it changes nothing, the repetition is left out. -/
def writeAll (h : Nat) : Bytes → Prog (Res Unit)
  | [] => .ret (.ok ())
  | c :: b => .call (.write h (c :: b)) fun
    | .error e => .ret (.error (.io e))
    | .ok 0 => .ret (.error (.io 0))
    | .ok (n + 1) => writeAll h (b.drop n)
termination_by b => b.length
decreasing_by simp only [List.length_drop, List.length_cons]; omega

/-- Several calls of `write_all`. -/
def writePieces (h : Nat) : List Bytes → Prog (Res Unit)
  | [] => .ret (.ok ())
  | b :: bs => (writeAll h b).andThen fun _ => writePieces h bs

/-- Creating a file, writing it, and closing it. `failed` is what an error while writing leads to. -/
def createWith (failed : Error → End) (p : Path) (pieces : List Bytes) : Prog End :=
  .call (.create p) fun
    | .error e => .ret (.ok (.error (.io e)))
    | .ok h => (writePieces h pieces).bind fun r => .call (.close h) fun _ =>
      .ret (match r with
        | .ok _ => .ok (.ok ())
        | .error e => failed e)

/-- `fs::write` (std). -/
def fsWrite (p : Path) (b : Bytes) : Prog End := createWith (fun e => .ok (.error e)) p [b]

/-- `env::var("OUT_DIR").expect(…)` (mangen.rs 13, completion.rs 15). -/
def withOutDir (x : Ctx) (f : Str → Prog End) : Prog End :=
  match x.env.lookup c!"OUT_DIR" with
  | none => .ret .panic
  | some d => f d

/-- `main` of `smd-mangen` (mangen.rs 12-24). Rendering the page writes to memory and does not fail. -/
def mangen (x : Ctx) (resolve : Str → Path) (page : Bytes) : Prog End :=
  withOutDir x fun d => fsWrite (resolve d ++ [c!"smd.1"]) page

/-- `clap_complete::Shell`. -/
inductive Shell where
  | bash
  | elvish
  | fish
  | powerShell
  | zsh
  deriving DecidableEq

/-- `Shell::value_variants` (crate `clap_complete`). -/
def Shell.all : List Shell := [.bash, .elvish, .fish, .powerShell, .zsh]

/-- `Generator::file_name` for the program `smd` (crate `clap_complete`). -/
def Shell.fileName : Shell → Str
  | .bash => c!"smd.bash"
  | .elvish => c!"smd.elv"
  | .fish => c!"smd.fish"
  | .powerShell => c!"_smd.ps1"
  | .zsh => c!"_smd"

/-- `clap_complete::generate_to`: an error while writing is a panic. -/
def generateTo (dir : Path) (scripts : Shell → List Bytes) (s : Shell) : Prog End :=
  createWith (fun _ => .panic) (dir ++ [s.fileName]) (scripts s)

/-- The loop (completion.rs 17-24). -/
def generateAll (dir : Path) (scripts : Shell → List Bytes) : List Shell → Prog End
  | [] => .ret (.ok (.ok ()))
  | s :: ss => (generateTo dir scripts s).bind fun
    | .ok (.ok _) => generateAll dir scripts ss
    | r => .ret r

/-- `main` of `smd-completions` (completion.rs 14-28). -/
def completions (x : Ctx) (resolve : Str → Path) (scripts : Shell → List Bytes) : Prog End :=
  withOutDir x fun d => generateAll (resolve d) scripts Shell.all

end Smd.App
