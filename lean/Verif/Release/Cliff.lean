import Verif.Release.Script

/-!
Model of the changelog: `.cliff/default.toml`, `.cliff/detailed.toml` and release.sh 22-37, as git-cliff reads them. Texts are lists of lines; blank lines
and white space at the ends of lines are left out (git-cliff trims the templates). Of a commit only the first line of its message, its identifier and
whether a footer says that it is breaking are kept. What git-cliff does with the configuration is part of the trusted base; the examples at the end compare
it with parts of `CHANGELOG.md`, which it has written.
-/

namespace Smd.Release
open Smd Smd.Rs

/-- A commit: the first line of its message, its identifier, and whether there is a footer `BREAKING CHANGE`. -/
structure Commit where
  subject : Str
  id : Str
  footer : Bool := false

/-- The first line of a message in the form `type(scope)!: description`. -/
structure Conv where
  kind : Str
  scope : Option Str
  bang : Bool
  description : Str

/-- The characters of a type. -/
def kindChar (c : Char) : Bool := !isWs c && c != '(' && c != ')' && c != '!' && c != ':'

/-- The scope in parentheses, if there is one, and what follows; nothing if the parentheses are empty or not closed. -/
def scopePart : Str → Option (Option Str × Str)
  | '(' :: r =>
    match r.dropWhile (fun c => c != '(' && c != ')') with
    | ')' :: r' => if r.takeWhile (fun c => c != '(' && c != ')') = [] then none else some (some (r.takeWhile (fun c => c != '(' && c != ')')), r')
    | _ => none
  | r => some (none, r)

/-- The exclamation mark of a breaking change. -/
def bangPart : Str → Bool × Str
  | '!' :: r => (true, r)
  | r => (false, r)

/-- `conventional_commits = true` (default.toml 50, detailed.toml 43). -/
def conventional (s : Str) : Option Conv :=
  if s.takeWhile kindChar = [] then none else
    match scopePart (s.dropWhile kindChar) with
    | none => none
    | some (sc, r) =>
      match (bangPart r).2 with
      | ':' :: d =>
        if d.dropWhile isWs = [] then none
        else some { kind := s.takeWhile kindChar, scope := sc, bang := (bangPart r).1, description := d.dropWhile isWs }
      | _ => none

/-- `commit_parsers` (default.toml 53-61, detailed.toml 47-55). -/
def parsers : List (Str × Str) :=
  [(c!"feat", c!"✨ Features"), (c!"fix", c!"🐛 Bug Fixes"), (c!"refactor", c!"🚜 Refactoring"), (c!"init", c!"🎉 Initial Commit"),
    (c!"style", c!"🎨 Styling"), (c!"revert", c!"↩️ Reverts"), (c!"chore", c!"🔧Chores")]

/-- The group of the first parser that matches. -/
def parserGroup (s : Str) : Option Str := (parsers.find? (fun p => startsWith s p.1)).map (·.2)

/-- What the templates see of a commit. -/
structure Listed where
  group : Str
  scope : Option Str
  breaking : Bool
  message : Str
  id : Str
deriving DecidableEq

/-- What the templates see of a commit; `filter` is `filter_unconventional` (default.toml 51, detailed.toml 45). A commit that is in no group is not seen,
because the templates go through the groups. -/
def seen (filter : Bool) (c : Commit) : Option Listed :=
  match conventional c.subject with
  | some v => some { group := (parserGroup c.subject).getD v.kind, scope := v.scope, breaking := v.bang || c.footer, message := v.description, id := c.id }
  | none =>
    if filter then none
    else (parserGroup c.subject).map fun g => { group := g, scope := none, breaking := false, message := c.subject, id := c.id }

/-- The filter `upper_first`, for ASCII. -/
def upperFirst : Str → Str
  | [] => []
  | c :: cs => c.toUpper :: cs

/-- `remote_url` (default.toml 6-8, 15-17). -/
def remoteUrl : Str := c!"https://github.com/" ++ c!"Flokkq" ++ c!"/" ++ c!"https://github.com/orhun/git-cliff/blob/main/cliff.toml"

/-- `print_commit` (default.toml 19-24). -/
def printCommit (l : Listed) : Str :=
  c!"- " ++ (match l.scope with | some s => c!"*(" ++ s ++ c!")* " | none => []) ++ (if l.breaking then c!"[**breaking**] " else []) ++
    upperFirst l.message ++ c!" - " ++ (c!"([" ++ l.id.take 7 ++ c!"](" ++ remoteUrl ++ c!"/commit/" ++ l.id ++ c!"))")

/-- One step of `group_by`: the groups are in the order of their names, the commits of each in the order in which they come. -/
def addTo (l : Listed) : List (Str × List Listed) → List (Str × List Listed)
  | [] => [(l.group, [l])]
  | g :: gs => if l.group = g.1 then (g.1, g.2 ++ [l]) :: gs else if l.group < g.1 then (l.group, [l]) :: g :: gs else g :: addTo l gs

/-- `commits | group_by(attribute="group")` (default.toml 37, detailed.toml 24). -/
def groupBy (ls : List Listed) : List (Str × List Listed) := ls.foldl (fun gs l => addTo l gs) []

/-- The part of a section behind its heading (default.toml 37-42); `cs` are the commits from old to new. -/
def sectionBody (cs : List Commit) : List Str :=
  (groupBy (cs.filterMap (seen true)).reverse).flatMap fun g => (c!"### " ++ upperFirst (trim g.1)) :: g.2.map printCommit

/-- `trim_start_matches(pat="v")` (default.toml 28, 31). -/
def dropVs (s : Str) : Str := s.dropWhile (· == 'v')

/-- The heading of a section (default.toml 26-35). -/
def heading (date : Str → Str) (previous version : Option Str) : Str :=
  match version with
  | none => c!"## [Unreleased]"
  | some v =>
    match previous with
    | some p => c!"## [" ++ dropVs v ++ c!"](" ++ remoteUrl ++ c!"/compare/" ++ p ++ c!".." ++ v ++ c!") - " ++ date v
    | none => c!"## [" ++ dropVs v ++ c!"] - " ++ date v

/-- `tag_pattern = "v[0-9].*"` (default.toml 63), which may match anywhere. -/
def tagPattern : Str → Bool
  | [] => false
  | c :: cs => (c == 'v' && (match cs with | d :: _ => d.isDigit | [] => false)) || tagPattern cs

/-- A history: the commits from old to new, each with its tag, if it has one. -/
abbrev History := List (Commit × Option Str)

/-- The releases from old to new; `last` is the argument of `--tag`, which is the version of the commits behind the last tag, `acc` the commits of the
release that is being read. -/
def releases (last : Option Str) (acc : List Commit) : History → List (Option Str × List Commit)
  | [] => if acc = [] then [] else [(last, acc)]
  | (c, some t) :: h => if tagPattern t then (some t, acc ++ [c]) :: releases last [] h else releases last (acc ++ [c]) h
  | (c, none) :: h => releases last (acc ++ [c]) h

/-- The sections from old to new, with their versions: their headings and what is below. Sections without entries are left out. -/
def sections (date : Str → Str) (previous : Option Str) : List (Option Str × List Commit) → List (Option Str × List Str)
  | [] => []
  | (v, cs) :: rs =>
    if sectionBody cs = [] then sections date v rs else (v, heading date previous v :: sectionBody cs) :: sections date v rs

/-- `git-cliff --config .cliff/default.toml --tag tag` (release.sh 23). -/
def changelog (date : Str → Str) (last : Option Str) (h : History) : List Str :=
  [c!"# Changelog"] ++ (sections date none (releases last [] h)).reverse.flatMap (·.2) ++ [c!"<!-- generated by git-cliff -->"]

/-- The commit of release.sh 24. -/
def prepare (tag id : Str) : Commit := { subject := c!"chore(release): prepare for " ++ tag, id := id }

/-- release.sh 22-24, 38: the changelog is written, committed, and the commit is tagged. -/
def releaseHistory (date : Str → Str) (tag id : Str) (h : History) : List Str × History :=
  (changelog date (some tag) h, h ++ [(prepare tag id, some tag)])

/-- The commits behind the last tag (`--unreleased`, release.sh 36), whatever it is: detailed.toml has no `tag_pattern`. -/
def unreleased (acc : List Commit) : History → List Commit
  | [] => acc
  | (_, some _) :: h => unreleased [] h
  | (c, none) :: h => unreleased (acc ++ [c]) h

/-- A line of `GIT_CLIFF_TEMPLATE` (release.sh 31). -/
def messageLine (l : Listed) : Str :=
  c!"- " ++ (if l.breaking then c!"(breaking) " else []) ++ upperFirst l.message ++ c!" (" ++ l.id.take 7 ++ c!")"

/-- The message of the tag (release.sh 28-38), made after the commit of line 24 and before its tag. -/
def tagMessage (tag id : Str) (h : History) : List Str :=
  (c!"Release " ++ tag) ::
    (groupBy ((unreleased [] (h ++ [(prepare tag id, none)])).filterMap (seen false))).flatMap fun g => upperFirst g.1 :: g.2.map messageLine

/-- CHANGELOG.md 9-17. -/
example :
    sectionBody [⟨c!"chore(release): prepare for v0.1.1-pre", c!"39451d6daec9e467aec1ff3540abdaef23fc8ba2", false⟩,
      ⟨c!"fix(ci): attempt to fix pipeline issues", c!"1100a7c46937617fc6ecddf75ff6399c3cc9c18c", false⟩,
      ⟨c!"fix(ci): -\"\"-", c!"ccfb4d212bd8ece869d70a041ff178a224df78dc", false⟩,
      ⟨c!"chore(release): prepare for v0.1.2-pre", c!"1d53654751bac41ed8cd4aa36b813b9395c212ff", false⟩] =
    [c!"### 🐛 Bug Fixes",
      c!"- *(ci)* -\"\"- - ([ccfb4d2](https://github.com/Flokkq/https://github.com/orhun/git-cliff/blob/main/cliff.toml/commit/ccfb4d212bd8ece869d70a041ff178a224df78dc))",
      c!"- *(ci)* Attempt to fix pipeline issues - ([1100a7c](https://github.com/Flokkq/https://github.com/orhun/git-cliff/blob/main/cliff.toml/commit/1100a7c46937617fc6ecddf75ff6399c3cc9c18c))",
      c!"### 🔧Chores",
      c!"- *(release)* Prepare for v0.1.2-pre - ([1d53654](https://github.com/Flokkq/https://github.com/orhun/git-cliff/blob/main/cliff.toml/commit/1d53654751bac41ed8cd4aa36b813b9395c212ff))",
      c!"- *(release)* Prepare for v0.1.1-pre - ([39451d6](https://github.com/Flokkq/https://github.com/orhun/git-cliff/blob/main/cliff.toml/commit/39451d6daec9e467aec1ff3540abdaef23fc8ba2))"] := by
  decide +kernel

/-- CHANGELOG.md 4, 20, and the order of the groups of 0.1.0-pre (CHANGELOG.md 25-161). -/
example :
    heading (fun _ => c!"2025-01-05") (some c!"v0.1.0-pre") (some c!"v0.1.3-pre") =
      c!"## [0.1.3-pre](https://github.com/Flokkq/https://github.com/orhun/git-cliff/blob/main/cliff.toml/compare/v0.1.0-pre..v0.1.3-pre) - 2025-01-05" ∧
    heading (fun _ => c!"2025-01-05") none (some c!"v0.1.0-pre") = c!"## [0.1.0-pre] - 2025-01-05" ∧
    (sectionBody ([c!"refactor(a): b", c!"chore(a): b", c!"fix(a): b", c!"init(a): b", c!"feat(a): b", c!"revert(a): b", c!"tests(a): b", c!"parser(a): b",
      c!"lexer(a): b", c!"docs(a): b"].map fun s => ⟨s, c!"0", false⟩)).filter (fun l => startsWith l c!"#") =
      [c!"### Docs", c!"### Lexer", c!"### Parser", c!"### Tests", c!"### ↩️ Reverts", c!"### ✨ Features", c!"### 🎉 Initial Commit", c!"### 🐛 Bug Fixes",
        c!"### 🔧Chores", c!"### 🚜 Refactoring"] := by
  decide +kernel

end Smd.Release
