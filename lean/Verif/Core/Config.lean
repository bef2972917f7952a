import Verif.Core.Fs

/-!
Model of `smd-core/src/config.rs`.

The crates `toml` and `config` are not part of the repository. Reading a TOML file is the parameter `Os.toml`, which yields
the values with their keys joined by dots. The crate `config` is modelled as documented: later sources override earlier
ones; `Environment::with_prefix("SMD").separator("__")` takes the variables whose name, in lower case, starts with `smd__`
(the prefix separator is the separator), and puts dots for the other separators; values of variables are strings; a
Boolean may be written as a Boolean, a number or one of the words below. A variable or key that replaces the whole table
`parse` is not modelled.
-/

namespace Smd.Core

/-- `enum ParseErrorAction` (config.rs 32-40). -/
inductive ParseErrorAction where
  | abort
  | skip
  | serialize
  deriving DecidableEq

/-- `struct Config` and `struct ParseConfig` (config.rs 14-26). -/
structure Config where
  onParseError : ParseErrorAction
  keepTempFiles : Bool
  deriving DecidableEq

/-- `Config::default()` (config.rs 13, 19, 38). -/
def Config.default : Config := { onParseError := .serialize, keepTempFiles := false }

/-- A variable as a key (crate `config`): `none` if it does not have the prefix. -/
def envKey (name : Str) : Option Str :=
  let k := name.map Char.toLower
  match Rs.stripPrefix c!"smd__" k with
  | none => none
  | some k => some (Rs.replaceStr c!"__" c!"." k)

/-- The last assignment of a key. -/
def lookupLast (k : Str) (l : List (Str × Val)) : Option Val := (l.reverse.find? fun e => e.1 = k).map (·.2)

/-- The sources in the order they are added (config.rs 45-49). -/
def sources (file : List (Str × Val)) (env : List (Str × Str)) : List (Str × Val) :=
  file ++ env.filterMap fun v => (envKey v.1).map fun k => (k, .str v.2)

/-- Deserializing the enum (config.rs 30: the names of the variants in lower case). Whether `config` compares them with the case is
left open. -/
def asAction (os : Os) : Val → Option ParseErrorAction
  | .str s =>
    let s := if os.anyCase then s.map Char.toLower else s
    if s = c!"abort" then some .abort else if s = c!"skip" then some .skip else if s = c!"serialize" then some .serialize else none
  | _ => none

/-- Deserializing a Boolean (crate `config`). -/
def asBool : Val → Option Bool
  | .bool b => some b
  | .int n => some (n ≠ 0)
  | .str s =>
    let l := s.map Char.toLower
    if l ∈ [c!"1", c!"true", c!"on", c!"yes"] then some true
    else if l ∈ [c!"0", c!"false", c!"off", c!"no"] then some false
    else none

/-- `Config::parse_from_str` (config.rs 43-52). -/
def parseFromStr (os : Os) (x : Ctx) (content : Str) : Res Config :=
  match os.toml content with
  | none => .error .configRead
  | some file =>
    let l := sources file x.env
    match (lookupLast c!"parse.on_parse_error" l).bind (asAction os), (lookupLast c!"parse.keep_temp_files" l).bind asBool with
    | some a, some b => .ok { onParseError := a, keepTempFiles := b }
    | _, _ => .error .configRead

/-- `dirs::config_dir().unwrap_or_default().join(DEFAULT_CONFIG)` (config.rs 55-56, 73; lib.rs 17). A relative path is
relative to the working directory. -/
def configPath (x : Ctx) : Path := x.configDir.getD x.cwd ++ [c!"smd", c!"config.toml"]

/-- `Config::load_config` (config.rs 54-64). -/
def loadConfig (os : Os) (x : Ctx) : Prog (Res Config) :=
  .call (.isThere (configPath x)) fun
    | true => (readToString (configPath x)).andThen fun content => .ret (parseFromStr os x content)
    | false => .ret (.ok .default)

/-- The name of a variant in a configuration file (config.rs 30). -/
def ParseErrorAction.name : ParseErrorAction → Str
  | .abort => c!"abort"
  | .skip => c!"skip"
  | .serialize => c!"serialize"

/-- `toml::to_string_pretty` of a `Config` (config.rs 13-26, 68; crate `toml`: a table for the structure, one line for each
field in the order of the declaration). -/
def toToml (c : Config) : Str :=
  c!"[parse]\non_parse_error = \"" ++ c.onParseError.name ++ c!"\"\nkeep_temp_files = " ++
    (if c.keepTempFiles then c!"true" else c!"false") ++ c!"\n"

/-- The text `initialize` writes: a comment and the default (config.rs 67-72). -/
def defaultToml : Str :=
  c!"# Documentation for the config is available at\n# <https://docs.rs/smd_core/1.0.0/smd_core/config/struct.Config.html>\n\n" ++
  toToml .default

/-- `Config::initialize` (config.rs 66-87). -/
def initConfig (x : Ctx) : Prog (Res Unit) :=
  .call (.isThere (configPath x)) fun
    | true => .ret (.error (.configExists (configPath x)))
    | false => .call (.createDirs (configPath x).dropLast) fun
      | .error e => .ret (.error (.io e))
      | .ok _ => (writeToFile (configPath x) defaultToml).andThen fun _ => .ret (.ok ())

end Smd.Core
