import Verif.Rust.Str

/-! Machines that read a part of JSON and a part of TOML, for the manifests. Each line is followed by a line break. -/

namespace Smd.Spec
open Smd.Rs

/-- The lines of a file as one text. -/
def fileText (ls : List Str) : Str := ls.flatMap fun l => l ++ ['\n']

/-! ### JSON: objects, arrays and strings without escapes -/

/-- What a reader of JSON expects. -/
inductive JMode where
  /-- A value. -/
  | value
  /-- A value or the end of an array. -/
  | first
  /-- The name of a member. -/
  | key
  /-- The name of a member or the end of an object. -/
  | firstKey
  /-- The colon behind a name. -/
  | colon
  /-- What is behind a value. -/
  | after
  /-- A character of a string; whether the string is the name of a member. -/
  | str (isKey : Bool)
deriving DecidableEq, Repr

/-- One character of JSON (RFC 8259). The objects (`true`) and arrays (`false`) around it are in the list, the innermost first. -/
def jsonStep : JMode × List Bool → Char → Option (JMode × List Bool)
  | (.str k, st), c =>
    if c = '"' then some (if k then .colon else .after, st)
    else if c = '\\' ∨ c.toNat < 32 then none
    else some (.str k, st)
  | (m, st), c =>
    if c = ' ' ∨ c = '\n' ∨ c = '\t' ∨ c = '\r' then some (m, st)
    else match m, st, c with
      | .value, st, '"' => some (.str false, st)
      | .value, st, '{' => some (.firstKey, true :: st)
      | .value, st, '[' => some (.first, false :: st)
      | .first, st, '"' => some (.str false, st)
      | .first, st, '{' => some (.firstKey, true :: st)
      | .first, st, '[' => some (.first, false :: st)
      | .first, false :: st, ']' => some (.after, st)
      | .key, st, '"' => some (.str true, st)
      | .firstKey, st, '"' => some (.str true, st)
      | .firstKey, true :: st, '}' => some (.after, st)
      | .colon, st, ':' => some (.value, st)
      | .after, true :: st, ',' => some (.key, true :: st)
      | .after, false :: st, ',' => some (.value, false :: st)
      | .after, true :: st, '}' => some (.after, st)
      | .after, false :: st, ']' => some (.after, st)
      | _, _, _ => none

/-- The file is JSON: one value, complete at the end. -/
def WellJson (ls : List Str) : Prop := (fileText ls).foldlM jsonStep (.value, []) = some (.after, [])

instance (ls : List Str) : Decidable (WellJson ls) := inferInstanceAs (Decidable (_ = _))

/-! ### TOML: tables, dotted names, strings without escapes, numbers, booleans, arrays and inline tables -/

/-- What a reader of TOML expects. -/
inductive TMode where
  /-- A line. -/
  | line
  /-- The end of a comment. -/
  | comment
  /-- What is behind the bracket at the beginning of a line. -/
  | opened
  /-- The name of a table, with two brackets or with one, and whether its last part has a character yet. -/
  | name (two nonempty : Bool)
  /-- The end of a quoted part of the name. -/
  | quoted (two : Bool)
  /-- What is behind a quoted part. -/
  | named (two : Bool)
  /-- The second of two closing brackets. -/
  | close
  /-- The name of a pair, and whether its last part has a character yet. -/
  | key (nonempty : Bool)
  /-- The equals sign. -/
  | equals
  /-- A value. -/
  | value
  /-- A value or the end of an array. -/
  | item
  /-- A character of a string. -/
  | str
  /-- The rest of a number or of a boolean. -/
  | word (w : Str)
  /-- What is behind a value. -/
  | after
  /-- What is behind the name of a table. -/
  | headed
deriving DecidableEq, Repr

/-- A character of a bare name. -/
def bareChar (c : Char) : Bool := c.isAlphanum || c == '_' || c == '-'

/-- What is behind a value: the arrays (`false`) and inline tables (`true`) around it are in the list, the innermost first. -/
def tomlAfter : List Bool → Char → Option (TMode × List Bool)
  | [], c => if c = ' ' then some (.after, []) else if c = '#' then some (.comment, []) else if c = '\n' then some (.line, []) else none
  | false :: st, c =>
    if c = ' ' ∨ c = '\n' then some (.after, false :: st) else if c = ',' then some (.item, false :: st) else if c = ']' then some (.after, st) else none
  | true :: st, c =>
    if c = ' ' then some (.after, true :: st) else if c = ',' then some (.key false, true :: st) else if c = '}' then some (.after, st) else none

/-- The beginning of a value. -/
def tomlValueStart (st : List Bool) (c : Char) : Option (TMode × List Bool) :=
  if c = '"' then some (.str, st)
  else if c = '[' then some (.item, false :: st)
  else if c = '{' then some (.key false, true :: st)
  else if c.isAlphanum then some (.word [c], st)
  else none

/-- One character of TOML (1.0.0). -/
def tomlStep : TMode × List Bool → Char → Option (TMode × List Bool)
  | (.line, st), c =>
    if c = ' ' ∨ c = '\n' then some (.line, st) else if c = '#' then some (.comment, st) else if c = '[' then some (.opened, st)
    else if bareChar c then some (.key true, st) else none
  | (.comment, st), c => if c = '\n' then some (.line, st) else if c.toNat < 32 then none else some (.comment, st)
  | (.opened, st), c => if c = '[' then some (.name true false, st) else if bareChar c then some (.name false true, st) else none
  | (.name two ne, st), c =>
    if bareChar c then some (.name two true, st)
    else if ne then
      if c = '.' then some (.name two false, st) else if c = ']' then some (if two then .close else .headed, st) else none
    else if c = '"' then some (.quoted two, st) else none
  | (.quoted two, st), c => if c = '"' then some (.named two, st) else if c = '\\' ∨ c.toNat < 32 then none else some (.quoted two, st)
  | (.named two, st), c => if c = '.' then some (.name two false, st) else if c = ']' then some (if two then .close else .headed, st) else none
  | (.close, st), c => if c = ']' then some (.headed, st) else none
  | (.headed, st), c => if c = ' ' then some (.headed, st) else if c = '#' then some (.comment, st) else if c = '\n' then some (.line, st) else none
  | (.key ne, st), c =>
    if bareChar c then some (.key true, st)
    else if ne then
      if c = '.' then some (.key false, st) else if c = ' ' then some (.equals, st) else if c = '=' then some (.value, st) else none
    else if c = ' ' then some (.key false, st) else none
  | (.equals, st), c => if c = ' ' then some (.equals, st) else if c = '=' then some (.value, st) else none
  | (.value, st), c => if c = ' ' then some (.value, st) else tomlValueStart st c
  | (.item, st), c =>
    if c = ' ' ∨ c = '\n' then some (.item, st)
    else match st, c with
      | false :: st, ']' => some (.after, st)
      | st, c => tomlValueStart st c
  | (.str, st), c => if c = '"' then some (.after, st) else if c = '\\' ∨ c.toNat < 32 then none else some (.str, st)
  | (.word w, st), c =>
    if c.isAlphanum then some (.word (w ++ [c]), st)
    else if w = c!"true" ∨ w = c!"false" ∨ (∀ d ∈ w, d.isDigit = true) then tomlAfter st c
    else none
  | (.after, st), c => tomlAfter st c

/-- The file is TOML: lines, the last one complete. -/
def WellToml (ls : List Str) : Prop := (fileText ls).foldlM tomlStep (.line, []) = some (.line, [])

instance (ls : List Str) : Decidable (WellToml ls) := inferInstanceAs (Decidable (_ = _))

end Smd.Spec
