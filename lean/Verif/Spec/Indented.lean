import Verif.Rust.Str

/-! Texts that begin with indented lines, one of which looks like an indented heading. -/

namespace Smd.Spec
open Smd.Rs

/-- The text begins with lines that start with a blank, one of them with four spaces, and that one has a `#` in it. -/
inductive IndentedHash : Str → Prop
  | here {line rest : Str} (h1 : '\n' ∉ line) (h2 : '#' ∈ line) : IndentedHash (c!"    " ++ line ++ rest)
  | after {c : Char} {line rest : Str} (h1 : c = ' ' ∨ c = '\t') (h2 : '\n' ∉ line) (h3 : IndentedHash rest) :
      IndentedHash (c :: line ++ '\n' :: rest)

end Smd.Spec
