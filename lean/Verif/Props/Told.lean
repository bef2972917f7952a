import Verif.Lemmas.Told
import Verif.Props.Effort

/-! C124: the log of the renderer is a tree. -/

namespace Smd.Gfm
open Smd.Rs Smd.Spec

/-- **C124** What is logged while a document is rendered is a complete tree of calls: every lexing and parsing says when it
starts and when it is done, in between it says each character at which it looks for a token and each token, followed by the
complete logs of the calls it makes for it; and every warning quotes the text that then is the token. -/
theorem C124_tree (d : Dbg) {s html : Str} (h : (renderL d s).out = .ok html) : Told d (.rendered s) (renderL d s).notes := by
  unfold renderL at h ⊢
  exact (recL_told d _).render s html h

/-- The document of the example: a heading, a list entry with a nested line, and a quote. -/
def nestedDoc : Str := c!"# *b*\n- c\n  d\n> e\n"

example : (renderL App.texts.dbg nestedDoc).out =
    .ok c!"<h1><em>b</em></h1>\n<ul>\n<li>\n<p>c</p>\n\n<p>d</p>\n\n</li>\n</ul>\n<p></p><blockquote>\n<p>e</p>\n</blockquote>\n" := by decide +kernel

/-- **C124, the numbers** As often as a lexing starts, a lexer is made, its end is reached and a lexing is completed; and there
are as many starts of parsing as completions. -/
theorem C124_balanced (d : Dbg) {s html : Str} (h : (renderL d s).out = .ok html) :
    linesLike c!"Lexing source" (renderL d s).notes = linesLike c!"Lexing completed" (renderL d s).notes ∧
    linesLike c!"Initializing Lexer" (renderL d s).notes = linesLike c!"Lexing completed" (renderL d s).notes ∧
    linesLike c!"End of input" (renderL d s).notes = linesLike c!"Lexing completed" (renderL d s).notes ∧
    linesLike c!"Parsing " (renderL d s).notes = 2 * linesLike c!"Parsing completed" (renderL d s).notes := by
  have key : ∀ {q : What} {a : List Note}, Told d q a → linesLike c!"Lexing source" a = linesLike c!"Lexing completed" a ∧
      linesLike c!"Initializing Lexer" a = linesLike c!"Lexing completed" a ∧
      linesLike c!"End of input" a = linesLike c!"Lexing completed" a ∧ linesLike c!"Parsing " a = 2 * linesLike c!"Parsing completed" a := by
    intro q a ht
    induction ht with
    | next c p s t ts a w b ha hw hb iha ihb =>
      simp only [linesLike_append, linesLike_cons, warned_like hw _ (x := 'L') (y := 'e') (by decide), warned_like hw _ (x := 'I') (y := 'n') (by decide),
        warned_like hw _ (x := 'E') (y := 'n') (by decide), warned_like hw _ (x := 'P') (y := 'a') (by decide)]
      simp [List.isPrefixOf]
      omega
    | parsed ts a ha ih =>
      simp only [linesLike_append, linesLike_cons, linesLike_nil, parsing_like]
      simp [List.isPrefixOf]
      omega
    | _ => simp [linesLike_append, linesLike_cons, linesLike_nil, List.isPrefixOf, *]; try omega
  exact key (C124_tree d h)

example : (linesLike c!"Lexing source" (renderL App.texts.dbg nestedDoc).notes, linesLike c!"Parsing " (renderL App.texts.dbg nestedDoc).notes) = (8, 14) := by
  decide +kernel

end Smd.Gfm
