import Verif.Npm.Args

/-! Model of `npm/smd/src/cli.ts` with `runGitCliff` of `index.ts`. What is assumed of node and execa is in `DESIGN.md`. -/

namespace Smd.Npm
open Smd

/-- How the started program may end: it could not be started, it exited with a status, or a signal killed it. -/
inductive Child where
  | missing
  | exited (status : Nat)
  | killed (signal : Nat)
  deriving DecidableEq

/-- The name of the package in a module such as `package/bin/file`. -/
def packageOf (module : Str) : Str := module.takeWhile (· ≠ '/')

/-- `getExePath` (getExePath.ts 12-33): `import.meta.resolve` throws if the package is not installed. -/
def getExePath (installed : Str → Bool) (platform arch : Str) : Option Str :=
  if installed (packageOf (exeModule platform arch)) then some (exeModule platform arch) else none

/-- `execa(…)`: the promise gives a result, whose `exitCode` may be undefined, or is rejected. It is rejected unless the
program exits with 0. -/
def execa : Child → Option (Option Nat)
  | .exited 0 => some (some 0)
  | _ => none

/-- `runGitCliff` (index.ts 57-70) as called by the command. `child` is how the executable ends that is started with
arguments; stdio is inherited. -/
def runGitCliff (installed : Str → Bool) (platform arch : Str) (child : Str → List Js → Child) (input : Input) : Option (Option Nat) :=
  match getExePath installed platform arch with
  | none => none
  | some exe => execa (child exe (runArgs input))

/-- The exit status of the command (cli.ts 5-12): `exitCode ?? 0`, and 1 for a rejection that nobody handles. -/
def cliStatus (installed : Str → Bool) (platform arch : Str) (child : Str → List Js → Child) (args : List Str) : Nat :=
  match runGitCliff installed platform arch child (.args args) with
  | some code => code.getD 0
  | none => 1

end Smd.Npm
