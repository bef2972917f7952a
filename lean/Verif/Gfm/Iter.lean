import Verif.Gfm.Lexer

/-!
Byte-level model of `gfm/src/iter.rs`: a string is its UTF-8 bytes, the iterator holds a byte index, and slices are
byte slices guarded by Rust's `is_char_boundary`.
-/

namespace Smd.Gfm.Iter

/-- A byte slice (`&str` seen as bytes). -/
abbrev Bytes := List UInt8

/-- The UTF-8 bytes of a string (`str::as_bytes`). `String.utf8EncodeChar` is Lean core's UTF-8 encoder. -/
def enc (s : Str) : Bytes := s.flatMap String.utf8EncodeChar

/-- `str::is_char_boundary` of the Rust standard library: index 0, the length, or a byte that is not `0b10xxxxxx`
(`(b as i8) >= -0x40`). -/
def isBoundary (b : Bytes) (i : Nat) : Bool :=
  if i = 0 then true
  else if i ≥ b.length then i == b.length
  else match b[i]? with
    | some x => decide (x.toNat < 128) || decide (x.toNat ≥ 192)
    | none => false

/-- `str::get(i..j)`. -/
def getRange (b : Bytes) (i j : Nat) : Option Bytes :=
  if i ≤ j ∧ isBoundary b i = true ∧ isBoundary b j = true then some ((b.drop i).take (j - i)) else none

/-- `struct MarkdownIter` (iter.rs 3-6). -/
structure MdIter where
  bytes : Bytes
  index : Nat
  deriving DecidableEq, Repr

/-- `MarkdownIter::new` (iter.rs 24-29). -/
def new (s : Str) : MdIter := ⟨enc s, 0⟩

/-- The `for i in 1..=4` search of `next` and `peek` (iter.rs 12-13, 36-37). -/
def stepLen (it : MdIter) : Option Nat := [1, 2, 3, 4].find? (fun i => isBoundary it.bytes (it.index + i))

/-- `MarkdownIter::next` (iter.rs 11-20). -/
def next (it : MdIter) : Option Bytes × MdIter :=
  match stepLen it with
  | some i => (getRange it.bytes it.index (it.index + i), { it with index := it.index + i })
  | none => (none, it)

/-- `MarkdownIter::peek` (iter.rs 35-42). -/
def peek (it : MdIter) : Option Bytes :=
  match stepLen it with
  | some i => getRange it.bytes it.index (it.index + i)
  | none => none

/-- `MarkdownIter::next_if_eq` (iter.rs 44-49). -/
def nextIfEq (e : Bytes) (it : MdIter) : Option Bytes × MdIter :=
  if peek it = some e then next it else (none, it)

/-- `while peek().is_some() && f(peek().unwrap()) { next() }` (iter.rs 56-58, 140-145). Fuel: the number of bytes. -/
def whileGo (f : Bytes → Bool) : Nat → MdIter → MdIter
  | 0, it => it
  | n + 1, it =>
    match peek it with
    | some c => if f c then whileGo f n (next it).2 else it
    | none => it

/-- `MarkdownIter::consume_while_case_holds` (iter.rs 51-60). -/
def consumeWhile (f : Bytes → Bool) (it : MdIter) : Option Bytes × MdIter :=
  let it' := whileGo f it.bytes.length it
  (getRange it.bytes it.index it'.index, it')

/-- `MarkdownIter::skip_while_true` (iter.rs 136-146). -/
def skipWhile (f : Bytes → Bool) (it : MdIter) : MdIter := whileGo f it.bytes.length it

/-- The loop of `consume_until_tail_is` (iter.rs 64-73). -/
def tailGo (tail : Bytes) (start : Nat) : Nat → MdIter → MdIter
  | 0, it => it
  | n + 1, it =>
    match peek it with
    | some _ =>
      if tail.isSuffixOf ((getRange it.bytes start it.index).getD tail) then it else tailGo tail start n (next it).2
    | none => it

/-- `MarkdownIter::consume_until_tail_is` (iter.rs 62-75). -/
def consumeUntilTail (tail : Bytes) (it : MdIter) : Option Bytes × MdIter :=
  let it' := tailGo tail it.index it.bytes.length it
  (getRange it.bytes it.index it'.index, it')

/-- `MarkdownIter::consume_until_end` (iter.rs 77-83). -/
def consumeUntilEnd (it : MdIter) : Option Bytes × MdIter := consumeWhile (fun _ => true) it

/-- `MarkdownIter::get_substring_from` (iter.rs 93-95). -/
def getSubstringFrom (start : Nat) (it : MdIter) : Option Bytes := getRange it.bytes start it.index

/-- `MarkdownIter::get_substring_ahead` (iter.rs 97-99). -/
def getSubstringAhead (n : Nat) (it : MdIter) : Option Bytes := getRange it.bytes it.index (it.index + n)

/-- `str::find` with a string pattern: byte offset of the first occurrence. -/
def findBytes (pat : Bytes) : Bytes → Option Nat
  | [] => if pat = [] then some 0 else none
  | b :: bs => if pat.isPrefixOf (b :: bs) then some 0 else (findBytes pat bs).map (· + 1)

/-- `MarkdownIter::find_next` (iter.rs 101-103); slicing at a non-boundary panics. -/
def findNext (pat : Bytes) (it : MdIter) : Outcome (Option Nat) :=
  if it.index ≤ it.bytes.length ∧ isBoundary it.bytes it.index = true then .ok (findBytes pat (it.bytes.drop it.index))
  else .panic

/-- `MarkdownIter::peek_line_ahead` (iter.rs 105-115). A range `a..=b` is `a..b+1`. -/
def peekLine (it : MdIter) : Outcome (Option Bytes) :=
  findNext [10] it >>= fun
    | some n => .ok (getRange it.bytes it.index (it.index + n + 1))
    | none =>
      if (peek it).isSome then .ok (getRange it.bytes it.index (it.bytes.length - 1 + 1)) else .ok none

/-- `MarkdownIter::consume_line_ahead` (iter.rs 117-133). -/
def consumeLine (it : MdIter) : Outcome (Option Bytes × MdIter) :=
  findNext [10] it >>= fun
    | some n =>
      .ok (getRange it.bytes it.index (it.index + n + 1), { it with index := it.index + n + 1 })
    | none =>
      if (peek it).isSome then
        .ok (getRange it.bytes it.index (it.bytes.length - 1 + 1), { it with index := it.bytes.length })
      else .ok (none, it)

end Smd.Gfm.Iter
