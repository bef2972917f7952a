import Verif.Spec.Manifest

/-!
What a `package.json` means to npm, node and tsup, for files with one entry per line; and the programs of a `Cargo.toml`.
-/

namespace Smd.Spec
open Smd

/-- The texts of a JSON file with one entry per line: the keys that lead to a text, and the text. The first argument has the keys of the objects around, the
innermost first. Items of lists are left out. -/
def jsonLeaves : List Str → List Str → List (List Str × Str)
  | _, [] => []
  | st, l :: ls =>
    match l.dropWhile (· == ' ') with
    | '}' :: _ => jsonLeaves (st.drop 1) ls
    | '"' :: r =>
      match (r.dropWhile (· != '"')).drop 3 with
      | '{' :: _ => jsonLeaves (r.takeWhile (· != '"') :: st) ls
      | '"' :: x => (st.reverse ++ [r.takeWhile (· != '"')], x.takeWhile (· != '"')) :: jsonLeaves st ls
      | _ => jsonLeaves st ls
    | _ => jsonLeaves st ls

example : jsonLeaves [] [c!"{", c!"  \"a\": {", c!"    \"b\": \"1\",", c!"    \"c\": [", c!"      \"d\"", c!"    ]", c!"  },", c!"  \"e\": \"2\"", c!"}"] =
    [([c!"a", c!"b"], c!"1"), ([c!"e"], c!"2")] := by decide

/-- The file that node loads for the path `sub` of a package (`.` is the package itself) under the given conditions: the first one in `exports` all whose conditions
hold; `default` always holds. -/
def nodeResolve (conds : List Str) (sub : Str) (manifest : List Str) : Option Str :=
  ((jsonLeaves [] manifest).find? fun p =>
    p.1.head? == some c!"exports" && (p.1.drop 1).head? == some sub && (p.1.drop 2).all fun c => c == c!"default" || conds.contains c).map (·.2)

/-- The files that a manifest names: those of `main`, `module`, `types` and `bin`, and those of `exports`, which begin with `./`. -/
def namedFiles (manifest : List Str) : List Str :=
  (jsonLeaves [] manifest).filterMap fun p =>
    if p.1.head? = some c!"exports" then some (p.2.drop 2)
    else if p.1 = [c!"main"] ∨ p.1 = [c!"module"] ∨ p.1 = [c!"types"] ∨ p.1 = [c!"bin"] then some p.2 else none

/-- How node reads a file: as a module (`some true`), as CommonJS (`some false`), or not at all. A file `.js` is a module if the manifest says so in `type`. -/
def nodeKind (manifest : List Str) (file : Str) : Option Bool :=
  if c!".mjs" <:+ file then some true else if c!".cjs" <:+ file then some false
  else if c!".js" <:+ file then some (decide (([c!"type"], c!"module") ∈ jsonLeaves [] manifest)) else none

/-- Whether npm packs a file: `files` of the manifest names its directory. -/
def packed (manifest : List Str) (file : Str) : Prop := ∃ d, jsonItem c!"files" manifest = some d ∧ d ++ c!"/" <+: file

/-- Where tsup looks for its configuration. -/
def tsupConfigs : List Str :=
  [c!"tsup.config.ts", c!"tsup.config.cts", c!"tsup.config.mts", c!"tsup.config.js", c!"tsup.config.cjs", c!"tsup.config.mjs", c!"tsup.config.json"]

/-- Whether tsup is given a file to build: by the words behind its name in the script `build`, by a configuration in one of the directories, or by an entry `tsup` of the
manifest. -/
def TsupInput (files dirs : List Str) (manifest : List Str) : Prop :=
  (∃ script, ([c!"scripts", c!"build"], script) ∈ jsonLeaves [] manifest ∧ ' ' ∈ script) ∨ (∃ d ∈ dirs, ∃ c ∈ tsupConfigs, d ++ c ∈ files) ∨
    ∃ p ∈ jsonLeaves [] manifest, p.1.head? = some c!"tsup"

/-- A build with tsup: which files it makes, or that it fails. Without a file to build it does. -/
def TsupOk (dirs : List Str) (build : List Str → List Str → Option (List Str)) : Prop :=
  ∀ files manifest, ¬ TsupInput files dirs manifest → build files manifest = none

/-- The names of the programs of a crate: `name` of the sections `[[bin]]`. All of them are installed by `cargo install`, and put into a wheel by maturin. -/
def binNames : Str → List Str → List Str
  | _, [] => []
  | cur, l :: ls =>
    if l.head? = some '[' then binNames l ls
    else if cur = c!"[[bin]]" ∧ c!"name = \"" <+: l then (l.drop 8).takeWhile (· != '"') :: binNames cur ls
    else binNames cur ls

end Smd.Spec
