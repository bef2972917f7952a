import Verif.Core.Config

/-! The values of the settings: a variable of the environment counts before the file, the last of several before the
others. -/

namespace Smd.Spec
open Smd Smd.Core

/-- Where the configuration is: `smd/config.toml` in the user's directory of configurations, and in the working directory if
there is no such directory. -/
def configFile (x : Ctx) : Path :=
  match x.configDir with
  | some d => d ++ [c!"smd", c!"config.toml"]
  | none => x.cwd ++ [c!"smd", c!"config.toml"]

/-- Printing to the edges of the page, with backgrounds. -/
def fullPage : PrintOptions := ⟨some 0, some 0, some 0, some 0, some true⟩

/-- The variable, in any case, names the setting `parse.name`. -/
def Names (v name : Str) : Bool :=
  v.map Char.toLower = c!"smd__parse__" ++ name ∨ v.map Char.toLower = c!"smd__parse." ++ name

/-- The value of the setting `parse.name`. -/
def setting (file : List (Str × Val)) (env : List (Str × Str)) (name : Str) : Option Val :=
  match (env.filter fun v => Names v.1 name).getLast? with
  | some v => some (.str v.2)
  | none => ((file.filter fun e => e.1 = c!"parse." ++ name).getLast?).map (·.2)

/-- A value means an action: it is the name of the action, written in lower case if the case matters. -/
def MeansAction (anyCase : Bool) (v : Val) (a : ParseErrorAction) : Prop :=
  ∃ s name, v = .str s ∧ (a, name) ∈ [(.abort, c!"abort"), (.skip, c!"skip"), (.serialize, c!"serialize")] ∧
    (s = name ∨ anyCase = true ∧ s.map Char.toLower = name)

/-- A value means a Boolean. -/
def MeansBool (v : Val) (b : Bool) : Prop :=
  v = .bool b ∨ (∃ n, v = .int n ∧ (b = true ↔ n ≠ 0)) ∨
    ∃ s, v = .str s ∧ s.map Char.toLower ∈ (if b then [c!"1", c!"true", c!"on", c!"yes"] else [c!"0", c!"false", c!"off", c!"no"])

/-! ### A part of TOML -/

/-- The lines of a text, without their ends. -/
def linesOf (s : Str) : List Str :=
  s.foldr (fun c ls => if c = '\n' then [] :: ls else match ls with
    | [] => [[c]]
    | l :: ls => (c :: l) :: ls) [[]]

/-- A key without quotes. -/
def bareKey (k : Str) : Bool := decide (k ≠ []) && k.all fun c => c.isAlphanum || c = '_' || c = '-'

/-- A character that may stand in comments and strings. -/
def plainChar (c : Char) : Bool := decide (32 ≤ c.toNat) && decide (c.toNat ≠ 127)

/-- A value: a string in double quotes without backslashes, a truth value or a number. -/
def tomlVal (v : Str) : Option Val :=
  if v = c!"true" then some (.bool true)
  else if v = c!"false" then some (.bool false)
  else match v with
    | '"' :: t =>
      if t.getLast? = some '"' ∧ (t.dropLast.all fun c => c ≠ '"' && c ≠ '\\' && plainChar c) then some (.str t.dropLast) else none
    | v => if v ≠ [] ∧ v.length ≤ 18 ∧ v.head? ≠ some '0' ∧ v.all Char.isDigit then some (.int (v.foldl (fun n c => 10 * n + (c.toNat - 48)) 0)) else none

/-- The lines of a file: comments, blank lines, headers `[table]` and lines `key = value`. Every key and every table at most
once. -/
def tomlLines (table : Str) (seen : List Str) : List Str → Option (List (Str × Val))
  | [] => some []
  | l :: ls =>
    if l = [] ∨ l.head? = some '#' ∧ l.all plainChar then tomlLines table seen ls
    else if l.head? = some '[' then
      let name := (l.drop 1).takeWhile (· ≠ ']')
      if l = c!"[" ++ name ++ c!"]" ∧ bareKey name ∧ name ∉ seen then tomlLines (name ++ c!".") (name :: seen) ls else none
    else
      let key := l.takeWhile (· ≠ ' ')
      let name := table ++ key
      if c!" = " <+: l.drop key.length ∧ bareKey key ∧ name ∉ seen then
        match tomlVal (l.drop (key.length + 3)), tomlLines table (name :: seen) ls with
        | some v, some vs => some ((name, v) :: vs)
        | _, _ => none
      else none

/-- The keys, joined by dots, and values of a TOML file, as far as this part of TOML goes. -/
def tomlOf (s : Str) : Option (List (Str × Val)) := tomlLines [] [] (linesOf s)

/-- The system reads this part of TOML as it should. -/
def ReadsToml (os : Os) : Prop := ∀ s vs, tomlOf s = some vs → os.toml s = some vs

/-- What `initialize` has to write. -/
def firstConfig : Str :=
  c!"# Documentation for the config is available at\n# <https://docs.rs/smd_core/1.0.0/smd_core/config/struct.Config.html>\n\n" ++
  c!"[parse]\non_parse_error = \"serialize\"\nkeep_temp_files = false\n"

end Smd.Spec
