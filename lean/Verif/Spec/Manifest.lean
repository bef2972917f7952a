import Verif.Rust.Str

/-! Reading versions from manifests. Nothing here is taken from the code. -/

namespace Smd.Spec

/-- The text of a version: letters, digits, `.`, `-`, `+` and `_`, and not empty. -/
def VersionText (v : Str) : Prop := v ≠ [] ∧ ∀ c ∈ v, c.isAlphanum = true ∨ c ∈ c!".-+_"

instance (v : Str) : Decidable (VersionText v) := inferInstanceAs (Decidable (_ ∧ _))

/-- The value of `key = "value"` in a section of a TOML file; `cur` is the heading of the section at hand. -/
def tomlValue (sec key : Str) : Str → List Str → Option Str
  | _, [] => none
  | cur, l :: ls =>
    if l.head? = some '[' then tomlValue sec key l ls
    else if cur = sec ∧ key ++ c!" = \"" <+: l then some ((l.drop (key.length + 4)).takeWhile (· != '"'))
    else tomlValue sec key cur ls

/-- The value of `"key": "value"` in a JSON file with one entry per line. -/
def jsonValue (key : Str) : List Str → Option Str
  | [] => none
  | l :: ls =>
    if '"' :: key ++ c!"\": \"" <+: l.dropWhile (· == ' ') then
      some (((l.dropWhile (· == ' ')).drop (key.length + 5)).takeWhile (· != '"'))
    else jsonValue key ls

/-- The first item of `"key": [` in a JSON file with one item per line. -/
def jsonItem (key : Str) : List Str → Option Str
  | l :: i :: ls =>
    if l.dropWhile (· == ' ') = '"' :: key ++ c!"\": [" then some (((i.dropWhile (· == ' ')).drop 1).takeWhile (· != '"')) else jsonItem key (i :: ls)
  | _ => none

/-- The crates that a manifest depends on by a section `[dependencies.name]` with a `path`. -/
def pathDeps : Str → List Str → List Str
  | _, [] => []
  | cur, l :: ls =>
    if l.head? = some '[' then pathDeps l ls
    else if c!"[dependencies." <+: cur ∧ c!"path = " <+: l then (cur.drop 14).dropLast :: pathDeps cur ls
    else pathDeps cur ls

/-- crates.io takes no crate without a description and a license. -/
def Publishable (manifest : List Str) : Prop :=
  (tomlValue c!"[package]" c!"description" [] manifest).isSome ∧ (tomlValue c!"[package]" c!"license" [] manifest).isSome

instance (m : List Str) : Decidable (Publishable m) := inferInstanceAs (Decidable (_ ∧ _))

/-- Where the index of crates.io has the file of a crate (of a name in lower case). -/
def indexPath : Str → Str
  | [] => []
  | [a] => c!"1/" ++ [a]
  | [a, b] => c!"2/" ++ [a, b]
  | [a, b, c] => c!"3/" ++ [a] ++ c!"/" ++ [a, b, c]
  | a :: b :: c :: d :: r => [a, b] ++ c!"/" ++ [c, d] ++ c!"/" ++ a :: b :: c :: d :: r

/-- An index has files for crates only. -/
def IndexOk (index : Str → Option Str) : Prop := ∀ path, (index path).isSome = true → ∃ name, name ≠ [] ∧ path = indexPath name

example : indexPath c!"smd-core" = c!"sm/d-/smd-core" ∧ indexPath c!"gfm" = c!"3/g/gfm" := by decide

example : tomlValue c!"[a.b]" c!"version" [] [c!"version = \"1\"", c!"[a.b]", c!"x = 1", c!"version = \"2\" # y"] = some c!"2" := by decide

example : jsonValue c!"b" [c!"{", c!"  \"a\": \"1\",", c!"  \"b\": \"2\"", c!"}"] = some c!"2" := by decide

/-- The dependencies that a manifest takes from the workspace, by lines `name.workspace = true` in `[dependencies]`. -/
def inheritedDeps : Str → List Str → List Str
  | _, [] => []
  | cur, l :: ls =>
    if l.head? = some '[' then inheritedDeps l ls
    else if cur = c!"[dependencies]" ∧ c!".workspace = true" <:+ l then l.takeWhile (· != '.') :: inheritedDeps cur ls
    else inheritedDeps cur ls

/-- The keys of a section. -/
def sectionKeys (sec : Str) : Str → List Str → List Str
  | _, [] => []
  | cur, l :: ls =>
    if l.head? = some '[' then sectionKeys sec l ls
    else if cur = sec ∧ l ≠ [] then l.takeWhile (· != ' ') :: sectionKeys sec cur ls
    else sectionKeys sec cur ls

/-- The texts in quotes of a line: the number is the length of the line or more. -/
def quotedTexts : Nat → Str → List Str
  | 0, _ => []
  | n + 1, l =>
    match l.dropWhile (· != '"') with
    | [] => []
    | _ :: r => r.takeWhile (· != '"') :: quotedTexts n ((r.dropWhile (· != '"')).drop 1)

/-- The members of a workspace, if they are in one line. -/
def workspaceMembers : List Str → List Str
  | [] => []
  | l :: ls => if c!"members = [" <+: l then quotedTexts l.length l else workspaceMembers ls

end Smd.Spec
