import Verif.Spec.Manifest

/-! What a `Cargo.lock` says about a crate, and the dependencies of a manifest. -/

namespace Smd.Spec
open Smd

/-- The lines of a lock file about a crate: from its name to a blank line. -/
def lockEntry (name : Str) (lock : List Str) : List Str :=
  (lock.dropWhile (· != c!"name = \"" ++ name ++ c!"\"")).takeWhile (· != [])

/-- The version that a lock file has of a crate. -/
def lockVersion (name : Str) (lock : List Str) : Option Str :=
  ((lockEntry name lock).find? fun l => c!"version = \"".isPrefixOf l).map fun l => (l.drop 11).takeWhile (· != '"')

/-- The dependencies that a lock file has of a crate; a version behind the name tells crates of the same name apart. -/
def lockDeps (name : Str) (lock : List Str) : List Str :=
  ((lockEntry name lock).filter fun l => c!" \"".isPrefixOf l).map fun l => (l.drop 2).takeWhile fun c => c != '"' && c != ' '

/-- The dependencies of a manifest: the keys of `[dependencies]` and the sections `[dependencies.name]`. -/
def manifestDeps : Str → List Str → List Str
  | _, [] => []
  | cur, l :: ls =>
    if c!"[dependencies." <+: l then (l.drop 14).dropLast :: manifestDeps l ls
    else if l.head? = some '[' then manifestDeps l ls
    else if cur = c!"[dependencies]" ∧ l ≠ [] then l.takeWhile (fun c => c != ' ' && c != '.') :: manifestDeps cur ls
    else manifestDeps cur ls

example : manifestDeps [] [c!"[package]", c!"name = \"x\"", [], c!"[dependencies]", c!"a.workspace = true", c!"b = \"1\"", [], c!"[dependencies.c]", c!"path = \"../c\""] =
    [c!"a", c!"b", c!"c"] := by decide

end Smd.Spec
