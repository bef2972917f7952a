/-
Model of the parts of Rust's `str`/`char`/`String` API that Flokkq/smd uses.

A Rust `&str`/`String` is modelled as the list of its Unicode scalar values (`List Char`; Lean's `Char`
is a Unicode scalar value, like Rust's `char`).  Byte offsets do not occur here; the byte-level iterator is in
`Verif.Gfm.Iter`.  These definitions model the documented behaviour of the Rust standard library (not code in /repo).
-/

deriving instance DecidableEq for Except

namespace Smd

/-- A Rust string. -/
abbrev Str := List Char

/-- `c!"abc"` is the literal list `['a', 'b', 'c']`. -/
macro:max "c!" s:str : term => do
  let xs : Array (Lean.TSyntax `term) :=
    s.getString.toList.toArray.map (fun c => (Lean.Syntax.mkCharLit c : Lean.TSyntax `term))
  `(([$xs,*] : List Char))

namespace Rs

/-- `char::is_whitespace`: the Unicode property White_Space. -/
def isWs (c : Char) : Bool :=
  let n := c.toNat
  (9 ≤ n && n ≤ 13) || n == 32 || n == 0x85 || n == 0xA0 || n == 0x1680 ||
  (0x2000 ≤ n && n ≤ 0x200A) || n == 0x2028 || n == 0x2029 || n == 0x202F || n == 0x205F || n == 0x3000

/-- `trim_start_matches` with a character predicate. -/
def trimStartP (p : Char → Bool) (s : Str) : Str := s.dropWhile p

/-- `trim_end_matches` with a character predicate. -/
def trimEndP (p : Char → Bool) (s : Str) : Str := (s.reverse.dropWhile p).reverse

/-- `str::trim_end`. -/
def trimEnd (s : Str) : Str := trimEndP isWs s

/-- `str::trim`. -/
def trim (s : Str) : Str := trimEndP isWs (trimStartP isWs s)

/-- `str::starts_with`. -/
def startsWith (s p : Str) : Bool := p.isPrefixOf s

/-- `str::ends_with`. -/
def endsWith (s p : Str) : Bool := p.isSuffixOf s

/-- `str::strip_prefix`. -/
def stripPrefix (p s : Str) : Option Str := if p.isPrefixOf s then some (s.drop p.length) else none

/-- `str::strip_suffix`. -/
def stripSuffix (p s : Str) : Option Str :=
  if p.isSuffixOf s then some (s.take (s.length - p.length)) else none

/-- `str::trim_end_matches` with a non-empty string pattern: repeatedly remove the suffix. The fuel is the length. -/
def trimEndStrGo (p : Str) : Nat → Str → Str
  | 0, s => s
  | n + 1, s => if p.isSuffixOf s then trimEndStrGo p n (s.take (s.length - p.length)) else s

def trimEndStr (p s : Str) : Str := trimEndStrGo p s.length s

/-- `str::contains` with a string pattern. -/
def contains (s p : Str) : Bool :=
  match s with
  | [] => p.isPrefixOf []
  | c :: cs => p.isPrefixOf (c :: cs) || contains cs p

/-- Helper for `splitStr`: put a character in front of the first piece. -/
def consHead (c : Char) : List Str → List Str
  | [] => [[c]]
  | h :: t => (c :: h) :: t

/-- `str::split` with a non-empty string pattern; the `Nat` counts characters of a match still to be skipped. -/
def splitGo (p : Str) : Nat → Str → List Str
  | _, [] => [[]]
  | k + 1, _ :: cs => splitGo p k cs
  | 0, c :: cs =>
    if p.isPrefixOf (c :: cs) then [] :: splitGo p (p.length - 1) cs else consHead c (splitGo p 0 cs)

def splitStr (p s : Str) : List Str := splitGo p 0 s

/-- `str::matches(p).count()` for a non-empty string pattern (non-overlapping, left to right). -/
def countGo (p : Str) : Nat → Str → Nat
  | _, [] => 0
  | k + 1, _ :: cs => countGo p k cs
  | 0, c :: cs => if p.isPrefixOf (c :: cs) then countGo p (p.length - 1) cs + 1 else countGo p 0 cs

def countStr (p s : Str) : Nat := countGo p 0 s

/-- `str::replace` with a non-empty string pattern. -/
def replaceGo (p r : Str) : Nat → Str → Str
  | _, [] => []
  | k + 1, _ :: cs => replaceGo p r k cs
  | 0, c :: cs => if p.isPrefixOf (c :: cs) then r ++ replaceGo p r (p.length - 1) cs else c :: replaceGo p r 0 cs

def replaceStr (p r s : Str) : Str := replaceGo p r 0 s

/-- `str::replace` with a character pattern. -/
def replaceC (c : Char) (r : Str) (s : Str) : Str := s.flatMap (fun x => if x = c then r else [x])

/-- `str::split_once(c)`. -/
def splitOnce (c : Char) (s : Str) : Option (Str × Str) :=
  if s.contains c then some (s.takeWhile (· != c), (s.dropWhile (· != c)).drop 1) else none

/-- `str::rsplit_once(c)`. -/
def rsplitOnce (c : Char) (s : Str) : Option (Str × Str) :=
  if s.contains c then
    some (((s.reverse.dropWhile (· != c)).drop 1).reverse, (s.reverse.takeWhile (· != c)).reverse)
  else none

/-- `str::split_at(rfind(c))` when there is an occurrence: the part from the last occurrence on. -/
def afterLast (c : Char) (s : Str) : Option Str :=
  if s.contains c then some (c :: (s.reverse.takeWhile (· != c)).reverse) else none

/-- `str::is_ascii`. -/
def isAscii (s : Str) : Bool := s.all (fun c => decide (c.toNat < 128))

/-- `str::to_lowercase` on ASCII text (the only use in /repo is after an `is_ascii` check). -/
def lower (s : Str) : Str := s.map Char.toLower

/-- Decimal rendering of an unsigned integer by `format!("{}")`. -/
def dec (n : Nat) : Str := Nat.toDigits 10 n

end Rs

/-- Result of running Rust code: a value, a panic, an infinite loop; `fuelOut` is an artefact of the fuel-indexed
model (the model stopped before the program did) and is proved unreachable from `render`. -/
inductive Outcome (α : Type) where
  | ok (a : α)
  | panic
  | hang
  | fuelOut
  deriving DecidableEq, Repr

namespace Outcome

def bind {α β : Type} : Outcome α → (α → Outcome β) → Outcome β
  | ok a, f => f a
  | panic, _ => panic
  | hang, _ => hang
  | fuelOut, _ => fuelOut

instance : Monad Outcome where
  pure := ok
  bind := bind

@[simp] theorem ok_bind {α β : Type} (a : α) (f : α → Outcome β) : (ok a >>= f) = f a := rfl
@[simp] theorem pure_eq {α : Type} (a : α) : (pure a : Outcome α) = ok a := rfl
@[simp] theorem panic_bind {α β : Type} (f : α → Outcome β) : ((panic : Outcome α) >>= f) = panic := rfl
@[simp] theorem hang_bind {α β : Type} (f : α → Outcome β) : ((hang : Outcome α) >>= f) = hang := rfl
@[simp] theorem fuelOut_bind {α β : Type} (f : α → Outcome β) : ((fuelOut : Outcome α) >>= f) = fuelOut := rfl

/-- The result, if there is one. -/
def toOption {α : Type} : Outcome α → Option α
  | ok a => some a
  | _ => none

end Outcome

end Smd
