import Verif.Spec.Blocks

/-! Code in entries of lists. -/

namespace Smd.Spec

/-- Code, an entry of a list, or code and an entry of a list behind it. -/
inductive CodeNest where
  | code (t : Str)
  | entry (c : Char) (x : CodeNest)
  | both (t : Str) (c : Char) (x : CodeNest)

namespace CodeNest

def src : CodeNest → Str
  | code t => c!"`" ++ t ++ c!"`"
  | entry c x => c :: ' ' :: x.src
  | both t c x => c!"`" ++ t ++ c!"`" ++ (c :: ' ' :: x.src)

/-- Code of one line without backticks that does not start with a space. -/
def GoodCode (t : Str) : Prop := t ≠ [] ∧ '`' ∉ t ∧ '\n' ∉ t ∧ t.head? ≠ some ' '

def Good : CodeNest → Prop
  | code t => GoodCode t
  | entry c x => (c = '-' ∨ c = '+') ∧ x.Good
  | both t c x => GoodCode t ∧ (c = '-' ∨ c = '+') ∧ x.Good

/-- The HTML with `2 * m` spaces in front of code that is in no entry, and two more for every entry around it. -/
def html (m : Nat) : CodeNest → Str
  | code t => c!"<pre><code>" ++ times (2 * m) ' ' ++ escape t ++ c!"\n</code></pre>"
  | entry _ x => c!"<ul>\n<li>\n" ++ x.html (m + 1) ++ c!"</li>\n</ul>\n"
  | both t _ x => c!"<pre><code>" ++ times (2 * m) ' ' ++ escape t ++ c!"<ul>\n<li>\n" ++ x.html (m + 1) ++ c!"</li>\n</ul>\n</code></pre>"

end CodeNest

end Smd.Spec
