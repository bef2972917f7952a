import Verif.Gfm.Parser

/-! The recursive knot of `Parser::render`, `Parser::render_ignore` and `Parser::lex` (`gfm/src/lib.rs` 30-50). -/

namespace Smd.Gfm

/-- `Parser::lex` and `Parser::render(_ignore)` with at most `n` nested calls of themselves. -/
def recF : Nat → Rec
  | 0 => { lex := fun _ => .fuelOut, render := fun _ _ => .fuelOut }
  | n + 1 =>
    { lex := fun s => lexWith (recF n) [] s
      render := fun ignore s => (lexWith (recF n) ignore s) >>= fun ts => parseDoc (recF n) ts }

/-- Enough nested calls for any text (`C13_depth_is_linear` in `Verif.Props.Termination`). -/
def fuelFor (s : Str) : Nat := 9 * s.length + 2

/-- `Parser::render_ignore` (lib.rs 35-37). -/
@[irreducible] def renderIgnore (ignore : List Char) (s : Str) : Outcome Str := (recF (fuelFor s)).render ignore s

/-- `Parser::render` (lib.rs 30-33). -/
def render (s : Str) : Outcome Str := renderIgnore [] s

/-- `Parser::lex(source, &[])` (lib.rs 39-50). -/
@[irreducible] def lex (s : Str) : Outcome (List Token) := (recF (fuelFor s)).lex s

/-- The entry points as a `Rec`; they solve their own recursion equations (`render_unfold` in `Verif.Lemmas.Fuel`). -/
def self : Rec := { lex := lex, render := renderIgnore }

end Smd.Gfm
