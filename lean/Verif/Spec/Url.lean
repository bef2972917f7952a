import Verif.Rust.Str

/-! Which file a browser opens for a `file` URL, after the URL standard: tabs and newlines are removed; `?` and `#` end the
path; `/` and `\` separate its segments; `.` and `..` are resolved; `%` and two hexadecimal digits are a byte. A byte of 128 or
more, a part of a character, is written as U+FFFD here. -/

namespace Smd.Spec
open Smd

/-- The segments between the separators. -/
def segments : Str → List Str
  | [] => [[]]
  | c :: s =>
    if c = '/' ∨ c = '\\' then [] :: segments s
    else match segments s with
      | [] => [[c]]
      | a :: as => (c :: a) :: as

/-- The value of a hexadecimal digit. -/
def hexDigit (c : Char) : Option Nat :=
  if '0' ≤ c ∧ c ≤ '9' then some (c.toNat - 48)
  else if 'a' ≤ c ∧ c ≤ 'f' then some (c.toNat - 87)
  else if 'A' ≤ c ∧ c ≤ 'F' then some (c.toNat - 55)
  else none

/-- `%` and two hexadecimal digits as a character. -/
def percentChar (a b : Char) : Option Char :=
  match hexDigit a, hexDigit b with
  | some m, some n => some (if m * 16 + n < 128 then Char.ofNat (m * 16 + n) else Char.ofNat 65533)
  | _, _ => none

/-- Percent-decoding. -/
def urlDecode : Str → Str
  | [] => []
  | ['%'] => ['%']
  | ['%', a] => ['%', a]
  | '%' :: a :: b :: s =>
    match percentChar a b with
    | some c => c :: urlDecode s
    | none => '%' :: urlDecode (a :: b :: s)
  | c :: s => c :: urlDecode s
termination_by s => s.length

/-- Resolving `.` and `..` in a list of segments; empty segments mean nothing to the file system. -/
def resolveDots (l : List Str) : List Str :=
  l.foldl (fun acc c => if c = [] ∨ c = c!"." then acc else if c = c!".." then acc.dropLast else acc ++ [c]) []

/-- The file of the URL `file://…`. -/
def fileUrlPath (u : Str) : List Str :=
  let s := (u.drop 7).filter fun c => c ≠ '\t' ∧ c ≠ '\n' ∧ c ≠ '\r'
  let s := s.takeWhile fun c => c ≠ '?' ∧ c ≠ '#'
  resolveDots ((segments s).map urlDecode)

/-- A name without a meaning in a URL: no tab, line break, `?`, `#` or `\`, and no `%` with two hexadecimal digits. -/
def UrlPlain (c : Str) : Prop :=
  (∀ ch ∈ c, ch ∉ c!"\t\n\r?#\\") ∧ ∀ a b, ['%', a, b] <:+: c → a ∉ c!"0123456789abcdefABCDEF" ∨ b ∉ c!"0123456789abcdefABCDEF"

/-- The stem of a file name: the name without the last dot and what follows it. -/
inductive Stem : Str → Str → Prop
  | ext (s e : Str) (hs : s ≠ []) (he : '.' ∉ e) (hd : s ++ '.' :: e ≠ c!"..") : Stem (s ++ '.' :: e) s
  | plain (s : Str) (hs : '.' ∉ s) : Stem s s
  | hidden (s : Str) (hs : '.' ∉ s) : Stem ('.' :: s) ('.' :: s)
  | parent : Stem c!".." c!".."

end Smd.Spec
