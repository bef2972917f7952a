import Verif.Rust.Str

/-! Lines of a text, used to state what the program says about the files it has written. -/

namespace Smd.Spec

/-- The text has this many lines: every line ends with a line feed, but the last one, if it is not empty, may do without. -/
inductive LinesOf : Str → Nat → Prop
  | none : LinesOf [] 0
  | last (t : Str) (h : t ≠ []) (hn : '\n' ∉ t) : LinesOf t 1
  | line (t s : Str) (n : Nat) (hn : '\n' ∉ t) (hs : LinesOf s n) : LinesOf (t ++ '\n' :: s) (n + 1)

example : LinesOf c!"a\n\nb" 3 := .line c!"a" c!"\nb" 2 (by decide) (.line [] c!"b" 1 (by decide) (.last c!"b" (by decide) (by decide)))

end Smd.Spec
