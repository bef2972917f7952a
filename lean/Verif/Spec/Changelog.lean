import Verif.Rust.Str

/-! Reading changelogs. Nothing here is taken from the code. -/

namespace Smd.Spec

/-- A line that ends a section: a heading of the next, or the comment at the end. -/
def endsSection (l : Str) : Bool := Rs.startsWith l c!"## " || Rs.startsWith l c!"<!-- "

/-- The lines of the section `## [title]` of a text, without its heading; none if there is no such section. -/
def sectionLines (title : Str) : List Str → List Str
  | [] => []
  | l :: ls => if Rs.startsWith l (c!"## [" ++ title ++ c!"]") then ls.takeWhile (fun l => !endsSection l) else sectionLines title ls

/-- The entries among lines. -/
def entries (ls : List Str) : List Str := ls.filter (fun l => Rs.startsWith l c!"- ")

/-- The entries behind the heading `### title`, up to the next heading. -/
def groupEntries (title : Str) : List Str → List Str
  | [] => []
  | l :: ls => if l = c!"### " ++ title then ls.takeWhile (fun l => Rs.startsWith l c!"- ") else groupEntries title ls

/-- A character of the type of a commit: no white space, parenthesis, exclamation mark or colon. -/
def TypeChar (c : Char) : Prop := Rs.isWs c = false ∧ c ∉ c!"()!:"

/-- A scope as it is written. -/
def scopeText : Option Str → Str
  | some x => '(' :: x ++ c!")"
  | none => []

/-- `s` is `type: description`, `type(scope): description` or one of these with `!` in front of the colon. -/
def Conventional (s : Str) (kind : Str) (scope : Option Str) (bang : Bool) (description : Str) : Prop :=
  kind ≠ [] ∧ (∀ c ∈ kind, TypeChar c) ∧ (∀ x, scope = some x → x ≠ [] ∧ ∀ c ∈ x, c ∉ c!"()") ∧
  (∃ d t, description = d :: t ∧ Rs.isWs d = false) ∧
  ∃ w : Str, (∀ c ∈ w, Rs.isWs c = true) ∧
    s = kind ++ scopeText scope ++ (if bang then c!"!" else []) ++ ':' :: w ++ description

/-- The title of a version: the tag without `v` in front. -/
def versionTitle (tag : Str) : Str := tag.dropWhile (· == 'v')

/-- A tag of a version: there is a `v` with a digit behind it. -/
def VersionTag (tag : Str) : Prop := ∃ (a : Str) (d : Char) (b : Str), tag = a ++ 'v' :: d :: b ∧ d.isDigit = true

/-- A text with a capital first letter. -/
def capital : Str → Str
  | [] => []
  | c :: cs => c.toUpper :: cs

/-- An entry with a scope, the mark of a breaking change, a description, the first seven digits of the identifier, and a link to a page of the commit
below `url`. -/
def EntryLine (scope : Option Str) (breaking : Bool) (description id url l : Str) : Prop :=
  l = c!"- " ++ (match scope with | some x => c!"*(" ++ x ++ c!")* " | none => []) ++ (if breaking then c!"[**breaking**] " else []) ++
    capital description ++ c!" - ([" ++ id.take 7 ++ c!"](" ++ url ++ c!"/commit/" ++ id ++ c!"))"

/-- The headings of sections. -/
def versionHeadings (ls : List Str) : List Str := ls.filter (fun l => Rs.startsWith l c!"## [")

/-- Versions with the one before each. -/
def ranges : Option Str → List Str → List (Option Str × Str)
  | _, [] => []
  | p, v :: vs => (p, v) :: ranges (some v) vs

/-- The heading of a version, with the changes since the version before, if there is one. -/
def versionHeading (url : Str) (date : Str → Str) (r : Option Str × Str) : Str :=
  c!"## [" ++ versionTitle r.2 ++ c!"]" ++ (match r.1 with | some p => c!"(" ++ url ++ c!"/compare/" ++ p ++ c!".." ++ r.2 ++ c!")" | none => []) ++ c!" - " ++
    date r.2

end Smd.Spec
