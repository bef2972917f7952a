import Verif.App.Run

/-! The command lines that are accepted, written down without reference to the parser. -/

namespace Smd.Spec
open Smd Smd.App Smd.Core

/-- The ways to write `-v` `n` times in one argument. -/
inductive VerbSrc : Nat → Str → Prop
  | short (n : Nat) (h : 1 ≤ n) : VerbSrc n ('-' :: List.replicate n 'v')
  | long : VerbSrc 1 c!"--verbose"
  | debug : VerbSrc 1 c!"--debug"

/-- Arguments that are `-v` `n` times altogether. -/
inductive Verbs : Nat → List Str → Prop
  | nil : Verbs 0 []
  | cons {n m : Nat} {a : Str} {as : List Str} (h : VerbSrc n a) (hs : Verbs m as) : Verbs (n + m) (a :: as)

/-- The ways to give an option the value `v`. As an argument of its own the value may not start with a hyphen, unless it is
one. -/
inductive OptSrc (short : Char) (long v : Str) : List Str → Prop
  | shortNext (h : v.head? = some '-' → v = c!"-") : OptSrc short long v [['-', short], v]
  | longNext (h : v.head? = some '-' → v = c!"-") : OptSrc short long v [c!"--" ++ long, v]
  | joined (h : v ≠ []) (he : v.head? ≠ some '=') : OptSrc short long v ['-' :: short :: v]
  | shortEq : OptSrc short long v ['-' :: short :: '=' :: v]
  | longEq : OptSrc short long v [c!"--" ++ long ++ c!"=" ++ v]

/-- A path in which a leading `~` stands for the home directory. -/
def homePath (home : Option Str) (f : Str) : Str :=
  match home with
  | none => f
  | some h => if f = c!"~" then h else if c!"~/" <+: f then h ++ f.drop 1 else f

/-- The command lines that are accepted, the verbosity and the command they stand for. `canon` resolves a path if there is
such a file. -/
inductive CommandLine (canon : Str → Option Path) (home : Option Str) : List Str → Nat → Command → Prop
  | init {n : Nat} {vs tail : List Str} (hv : Verbs n vs) (ht : tail = [] ∨ tail = [c!"--"]) :
      CommandLine canon home (vs ++ c!"initialize" :: tail) (min n 255) .init
  | parse {n : Nat} {vs is tail : List Str} {f : Str} {p : Path} (hv : Verbs n vs) (hi : OptSrc 'i' c!"input" f is)
      (hp : canon (homePath home f) = some p) (ht : tail = [] ∨ tail = [c!"--"]) :
      CommandLine canon home (vs ++ c!"parse" :: (is ++ tail)) (min n 255) (.parse p .pdf)
  | parseTo {n : Nat} {vs is os opts tail : List Str} {f : Str} {p : Path} {o : Format} (hv : Verbs n vs) (hi : OptSrc 'i' c!"input" f is)
      (hp : canon (homePath home f) = some p) (ho : OptSrc 'o' c!"output" o.ending os) (h : opts = is ++ os ∨ opts = os ++ is)
      (ht : tail = [] ∨ tail = [c!"--"]) :
      CommandLine canon home (vs ++ c!"parse" :: (opts ++ tail)) (min n 255) (.parse p o)

/-- The ways to ask for help, or for the version, with `k` times `-v` in front of it in the same argument. What follows the
letter does not matter. -/
inductive HelpSrc : Nat → Str → Prop
  | help : HelpSrc 0 c!"--help"
  | version : HelpSrc 0 c!"--version"
  | short (k : Nat) (c : Char) (h : c = 'h' ∨ c = 'V') (s : Str) : HelpSrc k ('-' :: (List.replicate k 'v' ++ c :: s))

/-- Options of `parse`, each at most once and with a valid value. -/
inductive SomeOpts (canon : Str → Option Path) (home : Option Str) : List Str → Prop
  | none : SomeOpts canon home []
  | input {f : Str} {p : Path} {is : List Str} (hi : OptSrc 'i' c!"input" f is) (hp : canon (homePath home f) = some p) : SomeOpts canon home is
  | output {o : Format} {os : List Str} (ho : OptSrc 'o' c!"output" o.ending os) : SomeOpts canon home os
  | inOut {f : Str} {p : Path} {o : Format} {is os : List Str} (hi : OptSrc 'i' c!"input" f is) (hp : canon (homePath home f) = some p)
      (ho : OptSrc 'o' c!"output" o.ending os) : SomeOpts canon home (is ++ os)
  | outIn {f : Str} {p : Path} {o : Format} {is os : List Str} (hi : OptSrc 'i' c!"input" f is) (hp : canon (homePath home f) = some p)
      (ho : OptSrc 'o' c!"output" o.ending os) : SomeOpts canon home (os ++ is)

/-- The command lines that ask for help or the version, after arguments that are right. What follows does not matter. -/
inductive HelpLine (canon : Str → Option Path) (home : Option Str) : List Str → Prop
  | top {n k : Nat} {vs rest : List Str} {a : Str} (hv : Verbs n vs) (ha : HelpSrc k a) : HelpLine canon home (vs ++ a :: rest)
  | init {n : Nat} {vs rest : List Str} {a : Str} (hv : Verbs n vs) (ha : HelpSrc 0 a) :
      HelpLine canon home (vs ++ c!"initialize" :: a :: rest)
  | parse {n : Nat} {vs opts rest : List Str} {a : Str} (hv : Verbs n vs) (ho : SomeOpts canon home opts) (ha : HelpSrc 0 a) :
      HelpLine canon home (vs ++ c!"parse" :: (opts ++ a :: rest))

end Smd.Spec
