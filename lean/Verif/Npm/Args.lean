import Verif.Rust.Str

/-! Model of `npm/smd/src/optionsToStringArgs.ts`, `getExePath.ts`, `index.ts` and the dependencies in `package.json`. -/

namespace Smd.Npm
open Smd

/-- A JavaScript value of an option. -/
inductive Js where
  | undefined
  | null
  | bool (b : Bool)
  | num (n : Int)
  | str (s : Str)
  | arr (l : List Js)

/-- `key.replace(/([A-Z])/g, "-$1").toLowerCase()` (optionsToStringArgs.ts 14), for keys whose other characters have no
upper case. -/
def hyphenCase (key : Str) : Str := (key.flatMap fun c => if 'A' ≤ c ∧ c ≤ 'Z' then ['-', c] else [c]).map Char.toLower

/-- `--${hyphenCaseKey}`. -/
def flag (key : Str) : Js := .str (c!"--" ++ hyphenCase key)

/-- The loop (optionsToStringArgs.ts 13-27) over the entries of the object in their order. -/
def optionsToStringArgs : List (Str × Js) → List Js
  | [] => []
  | (key, value) :: rest =>
    (match value with
      | .arr l => l.flatMap fun v => [flag key, v]
      | .bool true => [flag key]
      | .bool false => []
      | .null => []
      | v => [flag key, v]) ++ optionsToStringArgs rest

/-- The module that `getExePath` resolves (getExePath.ts 12-29). -/
def exeModule (platform arch : Str) : Str :=
  let win := platform = c!"win32" ∨ platform = c!"cygwin"
  let os := if win then c!"windows" else platform
  let extension := if win then c!".exe" else []
  c!"git-cliff-" ++ os ++ '-' :: arch ++ c!"/bin/git-cliff" ++ extension

/-- `optionalDependencies` and `dependencies` (package.json 51-72). -/
def dependencies : List Str :=
  [c!"execa", c!"smd-darwin-arm64", c!"smd-darwin-x64", c!"smd-linux-arm64", c!"smd-linux-x64", c!"smd-windows-arm64", c!"smd-windows-x64"]

/-- The types that occur in `options.ts`. -/
inductive JsType where
  | boolean
  | boolOrString
  | string
  | stringOrArray
  | oneOf (l : List Str)

/-- `Options` (options.ts 1-94). -/
def optionTypes : List (Str × JsType) :=
  [(c!"help", .boolean), (c!"version", .boolean), (c!"verbose", .boolean), (c!"bumpedVersion", .boolean), (c!"latest", .boolean),
    (c!"current", .boolean), (c!"unreleased", .boolean), (c!"topoOrder", .boolean), (c!"useBranchTags", .boolean), (c!"noExec", .boolean),
    (c!"context", .boolean), (c!"init", .boolOrString), (c!"bump", .oneOf [c!"auto", c!"major", c!"minor", c!"patch"]),
    (c!"config", .string), (c!"workdir", .string), (c!"repository", .string), (c!"includePath", .string), (c!"excludePath", .string),
    (c!"tagPattern", .string), (c!"withCommit", .string), (c!"withTagMessage", .string), (c!"ignoreTags", .stringOrArray),
    (c!"countTags", .stringOrArray), (c!"skipCommit", .stringOrArray), (c!"prepend", .string), (c!"output", .string), (c!"tag", .string),
    (c!"body", .string), (c!"fromContext", .string), (c!"strip", .oneOf [c!"header", c!"footer", c!"all"]),
    (c!"sort", .oneOf [c!"oldest", c!"newest"]), (c!"githubToken", .string), (c!"githubRepo", .string), (c!"gitlabToken", .string),
    (c!"gitlabRepo", .string), (c!"giteaToken", .string), (c!"giteaRepo", .string), (c!"bitbucketToken", .string), (c!"bitbucketRepo", .string)]

/-- The argument of `runGitCliff`: an object or an array (index.ts 61-64). -/
inductive Input where
  | options (o : List (Str × Js))
  | args (l : List Str)

/-- The arguments for the executable (index.ts 66-68). -/
def runArgs : Input → List Js
  | .options o => optionsToStringArgs o
  | .args l => l.map .str

/-- What the executable gets for a value: texts as they are, `undefined` as `String(undefined)`. Other values do not occur
among the arguments if the types are right; `other` is anything. -/
def argText (other : Js → Str) : Js → Str
  | .str s => s
  | .undefined => c!"undefined"
  | v => other v

end Smd.Npm
