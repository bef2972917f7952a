import Verif.Rust.Str

/-!
Independent specifications of the decoders a browser applies to the output: HTML character references and percent
decoding. Nothing here is taken from the code; the tables are HTML's.
-/

namespace Smd.Spec

/-- HTML character references for the characters that matter in Markdown and HTML. -/
def entityTable : List (Str × Char) :=
  [(c!"&amp;", '&'), (c!"&lt;", '<'), (c!"&gt;", '>'), (c!"&quot;", '"'), (c!"&apos;", '\''),
   (c!"&lbrack;", '['), (c!"&rbrack;", ']'), (c!"&lbrace;", '{'), (c!"&rbrace;", '}'), (c!"&mid;", '|'),
   (c!"&tilde;", '~'), (c!"&#41;", ')'), (c!"&#40;", '(')]

/-- Decode character references from left to right; the `Nat` counts the characters of a reference still to skip. -/
def decodeGo : Nat → Str → Str
  | _, [] => []
  | k + 1, _ :: cs => decodeGo k cs
  | 0, c :: cs =>
    match entityTable.find? (fun e => e.1.isPrefixOf (c :: cs)) with
    | some e => e.2 :: decodeGo (e.1.length - 1) cs
    | none => c :: decodeGo 0 cs

/-- The text a browser shows for an HTML text without tags. -/
def htmlDecode (s : Str) : Str := decodeGo 0 s

/-- The value of a hexadecimal digit. -/
def hexVal (c : Char) : Option Nat :=
  if '0' ≤ c ∧ c ≤ '9' then some (c.toNat - '0'.toNat)
  else if 'A' ≤ c ∧ c ≤ 'F' then some (c.toNat - 'A'.toNat + 10)
  else if 'a' ≤ c ∧ c ≤ 'f' then some (c.toNat - 'a'.toNat + 10)
  else none

/-- Percent decoding of an ASCII text: `%` followed by two hexadecimal digits is the character with that code. -/
def percentDecode : Str → Str
  | [] => []
  | '%' :: a :: b :: t =>
    match hexVal a, hexVal b with
    | some x, some y => Char.ofNat (16 * x + y) :: percentDecode t
    | _, _ => '%' :: percentDecode (a :: b :: t)
  | c :: t => c :: percentDecode t

/-- The scheme of a URL: what is before its first colon. -/
def urlScheme (u : Str) : Str := u.takeWhile (· != ':')

/-- What follows the scheme and the colon. -/
def urlRest (u : Str) : Str := (u.dropWhile (· != ':')).drop 1

/-- Equality up to ASCII letter case. -/
def eqIgnoreCase (a b : Str) : Prop := a.map Char.toLower = b.map Char.toLower

end Smd.Spec
