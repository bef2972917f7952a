import Verif.Props.Blocks
import Verif.Props.Parts
import Verif.Props.Elements

/-! # References to footnotes in other elements, and the identifiers of endnotes -/

namespace Smd.Gfm
open Smd.Rs Smd.Spec

/-! ### C37 -/

set_option maxRecDepth 8000 in
/-- **C37 is false of the code** for all documents of `C37_partial` with two footnotes: two elements have the same identifier. -/
theorem C37_refuted_always (k : Nat) (bs : List (Block × Nat)) (defs more : List NoteDef) (a b : NoteDef) (hd : ∀ d ∈ a :: defs ++ b :: more, d.Good)
    (hgap : ∀ d ∈ (a :: defs ++ b :: more).dropLast, 1 ≤ d.ends) (h : DocGood (fun s x => render s = .ok x) bs)
    (hbetween : ∀ b, bs.getLast? = some b → 2 ≤ b.2) :
    ∃ x y z, render (times k '\n' ++ docSrc bs ++ (a :: defs ++ b :: more).flatMap NoteDef.src) =
      .ok (x ++ c!"<li id=\"fn:1\" role" ++ y ++ c!"<li id=\"fn:1\" role" ++ z) := by
  refine ⟨endLine (docHtml bs) ++ c!"<div class=\"footnotes\" role=\"doc-endnotes\">\n\t<ol>\n\t\t",
    c!"=\"doc-endnote\">\t\t\t<p>" ++ escape a.text ++ c!"<a href=\"#fnref:" ++ escape a.id ++
      c!"\" class=\"reversefootnote\" role=\"doc-backlink\">↩</a></p>\t\t</li>" ++ defs.flatMap NoteDef.html ++ c!"\t\t",
    c!"=\"doc-endnote\">\t\t\t<p>" ++ escape b.text ++ c!"<a href=\"#fnref:" ++ escape b.id ++
      c!"\" class=\"reversefootnote\" role=\"doc-backlink\">↩</a></p>\t\t</li>" ++ more.flatMap NoteDef.html ++ c!"\t</ol>\n</div>\n",
    (C37_partial k bs (a :: defs ++ b :: more) (by simp) hd hgap h hbetween).trans ?_⟩
  simp [NoteDef.html]

example : ∃ x y z, render c!"a[^n]b[^m]\n\n[^n]: x\n[^m]: y" = .ok (x ++ c!"<li id=\"fn:1\" role" ++ y ++ c!"<li id=\"fn:1\" role" ++ z) := by
  refine C37_refuted_always 0 [(.para [.word c!"a", .noteRef c!"n", .word c!"b", .noteRef c!"m"], 2)] [] [] ⟨c!"n", 1, c!"x", [], 1⟩ ⟨c!"m", 1, c!"y", [], 0⟩ ?_ ?_ ?_ ?_
  · intro d hd
    simp only [List.nil_append, List.cons_append, List.mem_cons, List.not_mem_nil, or_false] at hd
    rcases hd with rfl | rfl
    · exact ⟨⟨by decide, by decide⟩, by decide, by decide, ⟨_, _, rfl, by decide⟩, ⟨'x', [], by decide, by decide⟩⟩
    · exact ⟨⟨by decide, by decide⟩, by decide, by decide, ⟨_, _, rfl, by decide⟩, ⟨'y', [], by decide, by decide⟩⟩
  · decide
  · exact ⟨⟨word_check (by decide), ⟨⟨by decide, by decide⟩, by decide, by decide⟩, word_check (by decide), ⟨⟨by decide, by decide⟩, by decide, by decide⟩, trivial⟩,
      ⟨_, rfl, trivial⟩⟩
  · simp

/-! ### C189 -/

/-- **C189 is false of the code**: a reference in emphasised text, in a quote, in a cell and in a note. -/
theorem C189_refuted : ∀ d ∈ [c!"*a[^1]*\n\n[^1]: b", c!"> a[^1]", c!"|a|\n|-|\n|b[^1]|", c!"[^2]: a[^1]"], ∃ html, render d = .ok html ∧
    ∀ t ∈ htmlTags html, t.name ≠ c!"sup" := by
  intro d hd
  simp only [List.mem_cons, List.not_mem_nil, or_false] at hd
  rcases hd with rfl | rfl | rfl | rfl <;>
  exact render_check _ (fun html => ∀ t ∈ htmlTags html, t.name ≠ c!"sup") (by decide +kernel)

/-- **C189 is false of the code** in all emphasised and struck text, anywhere in running text: the reference is text. -/
theorem C189_refuted_emphasis (is js : List Inline) (m : Char) (a n b : Str) (i : Inline)
    (hi : i ∈ [.em m (a ++ c!"[^" ++ n ++ c!"]" ++ b), .strong m (a ++ c!"[^" ++ n ++ c!"]" ++ b), .strongEm m (a ++ c!"[^" ++ n ++ c!"]" ++ b),
      .strike (a ++ c!"[^" ++ n ++ c!"]" ++ b)])
    (h : InlineGood none (is ++ i :: js)) (hv : ∃ i', (is ++ i :: js).head? = some i' ∧ i'.Visible) :
    ∃ x y, '<' ∉ y ∧ render (inlineSrc (is ++ i :: js)) = .ok (elem c!"p" (inlineHtml is ++ x ++ inlineHtml js) ++ c!"\n") ∧
      y = escape a ++ c!"&lbrack;^" ++ escape n ++ c!"&rbrack;" ++ escape b ∧
      x ∈ [elem c!"em" y, elem c!"strong" y, elem c!"strong" (elem c!"em" y), elem c!"strike" y] := by
  have e : escape (a ++ c!"[^" ++ n ++ c!"]" ++ b) = escape a ++ c!"&lbrack;^" ++ escape n ++ c!"&rbrack;" ++ escape b := by
    simp only [escape_append]
    rfl
  refine ⟨i.html, _, ?_, (render_inlines h hv).trans ?_, rfl, ?_⟩
  · rw [← e, ← sanitize_eq_escape]
    exact C03_no_delimiters _ '<' (by decide)
  · simp [inlineHtml]
  · simp only [List.mem_cons, List.not_mem_nil, or_false] at hi
    rcases hi with rfl | rfl | rfl | rfl <;> simp only [Inline.html, e, List.mem_cons, true_or, or_true]

/-- **C189 is false of the code** in all quotes: whatever the text, there is no reference. -/
theorem C189_refuted_quote (n : Nat) (t x : Str) (hn : 1 ≤ n) (h255 : n ≤ 255) (hl : '\n' ∉ t) (hs : t.head? ≠ some ' ') (hx : render (escape t) = .ok x) :
    render (times n '>' ++ c!" " ++ t) = .ok (copies n c!"<blockquote>\n" ++ detab x ++ copies n c!"</blockquote>\n") ∧
    ∀ t ∈ htmlTags x, t.name ≠ c!"sup" := by
  have hx' := hx
  rw [← sanitize_eq_escape] at hx'
  have h1 : '[' ∉ sanitize t := san_open t
  refine ⟨?_, fun y hy e => ?_⟩
  · have := render_ending 0 (.quotes [(⟨n, 1, t, 0⟩, detab x)]) nofun nofun ⟨by simp, by simp, by
      intro l hm
      rw [List.mem_singleton] at hm
      subst hm
      exact ⟨⟨⟨hn, h255⟩, Nat.le_refl 1, hl, hs⟩, x, hx, rfl⟩⟩
    simpa [Ending.src, Ending.html, QuoteLine.src, quoteHtml, quoteEnd, quoteMove, times] using this
  · have hs := C172_signs _ x (.of_clean (C03_no_delimiters t '<' (by decide)) (san_bracket t)) hx' y hy
    rw [e] at hs
    generalize hg : c!"sup" = g at hs
    cases hs with
    | note _ _ h _ => exact h1 h
    | heading n hn _ | bullet n hn _ _ _ | number n hn _ _ _ _ | code n hn _ | emphasis n hn _ | details n hn _ | table n hn _ =>
      subst hg; revert hn; decide
    | _ => revert hg; decide

example : render c!"> see[^1] *b*" = .ok c!"<blockquote>\n<p>see&amp;lbrack;^1&amp;rbrack;<em>b</em></p>\n</blockquote>\n" := by
  have := (C189_refuted_quote 1 c!"see[^1] *b*" c!"<p>see&amp;lbrack;^1&amp;rbrack;<em>b</em></p>\n" (by decide) (by decide) (by decide) (by decide)
    (by decide +kernel)).1
  exact this

example : ∃ x y, '<' ∉ y ∧ render c!"a *b[^n]*" = .ok (elem c!"p" (c!"a" ++ x ++ []) ++ c!"\n") ∧
    y = escape c!"b" ++ c!"&lbrack;^" ++ escape c!"n" ++ c!"&rbrack;" ++ escape [] ∧
    x ∈ [elem c!"em" y, elem c!"strong" y, elem c!"strong" (elem c!"em" y), elem c!"strike" y] :=
  C189_refuted_emphasis [.word c!"a", .space 1] [] '*' c!"b" c!"n" [] (.em '*' c!"b[^n]") (by simp)
    ⟨word_check (by decide), ⟨by decide, by decide, by decide, by decide⟩, ⟨.inl rfl, ⟨_, _, rfl, by decide⟩, by decide, by decide⟩, trivial⟩
    ⟨_, rfl, trivial⟩

set_option maxRecDepth 8000 in
/-- **C189 is false of the code** in all notes: the text of a note is escaped, and no part of it is a reference. -/
theorem C189_refuted_note (d : NoteDef) (a n b : Str) (hd : d.Good) (ht : d.text = a ++ c!"[^" ++ n ++ c!"]" ++ b) :
    render d.src = .ok (c!"\n<div class=\"footnotes\" role=\"doc-endnotes\">\n\t<ol>\n\t\t<li id=\"fn:1\" role=\"doc-endnote\">\t\t\t<p>" ++
      (escape a ++ c!"&lbrack;^" ++ escape n ++ c!"&rbrack;" ++ escape b) ++ c!"<a href=\"#fnref:" ++ escape d.id ++
      c!"\" class=\"reversefootnote\" role=\"doc-backlink\">↩</a></p>\t\t</li>\t</ol>\n</div>\n") := by
  have e : escape (a ++ c!"[^" ++ n ++ c!"]" ++ b) = escape a ++ c!"&lbrack;^" ++ escape n ++ c!"&rbrack;" ++ escape b := by
    simp only [escape_append]
    rfl
  have := C37_partial 0 [] [d] (by simp) (by simpa using hd) (by simp) trivial (by simp)
  rw [List.flatMap_singleton, List.flatMap_singleton, NoteDef.html, ht, e] at this
  refine (show render d.src = _ from this).trans ?_
  rw [show endLine (docHtml []) = c!"\n" from rfl]
  simp only [List.append_assoc, List.cons_append, List.nil_append]

example : ∃ html, render c!"[^2]: see[^1]" = .ok html ∧ c!"see&lbrack;^1&rbrack;<a href=\"#fnref:2\"" <:+: html := by
  have := C189_refuted_note ⟨c!"2", 1, c!"see[^1]", [], 0⟩ c!"see" c!"1" [] ⟨⟨by decide, by decide⟩, by decide, by decide, ⟨_, _, rfl, by decide⟩,
    ⟨']', c!"see[^1", by decide, by decide⟩⟩ rfl
  exact ⟨_, this, by decide +kernel⟩

/-- **C189 is false of the code** in the entries of ordered lists. -/
theorem C189_refuted_ordered (c : Char) (a n b : Str) (hc : c ∈ c!"0123456789") (hl : '\n' ∉ a ++ c!"[^" ++ n ++ c!"]" ++ b) :
    render (c :: '.' :: ' ' :: (a ++ c!"[^" ++ n ++ c!"]" ++ b)) =
      .ok (c!"<ol>\n<li>\n" ++ (escape a ++ c!"&lbrack;^" ++ escape n ++ c!"&rbrack;" ++ escape b) ++ c!"</li>\n</ol>\n") := by
  have e : escape (a ++ c!"[^" ++ n ++ c!"]" ++ b) = escape a ++ c!"&lbrack;^" ++ escape n ++ c!"&rbrack;" ++ escape b := by
    simp only [escape_append]
    rfl
  rw [← e]
  generalize a ++ c!"[^" ++ n ++ c!"]" ++ b = t at *
  have := render_ending 0 (.ordered [(c, t, 0)]) nofun nofun ⟨by simp, by simp, by
    intro i hi
    rw [List.mem_singleton] at hi
    subst hi
    exact ⟨hc, hl⟩⟩
  simpa [Ending.src, Ending.html, times] using this

example : render c!"1. see[^x] *b*" = .ok c!"<ol>\n<li>\nsee&lbrack;^x&rbrack; *b*</li>\n</ol>\n" :=
  C189_refuted_ordered '1' c!"see" c!"x" c!" *b*" (by decide) (by decide)

/-- **C189, the part that holds** In a paragraph, in a heading and in an entry of a list a reference is one, with the text around it as it is elsewhere. -/
theorem C189_partial (is js : List Inline) (a : Str) (h : InlineGood none (is ++ .noteRef a :: js))
    (hv : ∃ i, (is ++ .noteRef a :: js).head? = some i ∧ i.Visible) (n : Nat) (hn : (Block.heading n (is ++ .noteRef a :: js)).Good fun s x => render s = .ok x)
    (m : Char) (hm : m = '-' ∨ m = '+' ∨ m = '*') (hb : ∀ x ∈ c!" xX", ¬ ['[', x, ']', ' '] <+: inlineSrc (is ++ .noteRef a :: js)) :
    ∃ x, x = inlineHtml is ++ (c!"<sup id=\"fnref:" ++ escape a ++ c!"\" role=\"doc-noteref\"><a href=\"#fn:" ++ escape a ++
        c!"\" class=\"footnote\" rel=\"footnote\">1</a></sup>") ++ inlineHtml js ∧
      render (inlineSrc (is ++ .noteRef a :: js)) = .ok (elem c!"p" x ++ c!"\n") ∧
      render (times n '#' ++ c!" " ++ inlineSrc (is ++ .noteRef a :: js)) = .ok (elem ('h' :: dec n) x ++ c!"\n") ∧
      render (m :: ' ' :: inlineSrc (is ++ .noteRef a :: js)) = .ok (c!"<ul>\n<li>\n" ++ elem c!"p" x ++ c!"\n</li>\n</ul>\n") := by
  have e : inlineHtml (is ++ .noteRef a :: js) = inlineHtml is ++ (c!"<sup id=\"fnref:" ++ escape a ++ c!"\" role=\"doc-noteref\"><a href=\"#fn:" ++ escape a ++
        c!"\" class=\"footnote\" rel=\"footnote\">1</a></sup>") ++ inlineHtml js := by
    simp only [inlineHtml, List.flatMap_append, List.flatMap_cons, Inline.html, List.append_assoc]
  refine ⟨_, e, render_inlines h hv, C27_heading n _ hn, ?_⟩
  have := render_ending 0 (.bullets [(m, is ++ .noteRef a :: js, 0)]) nofun nofun ⟨by simp, by simp, by
    intro i hi
    rw [List.mem_singleton] at hi
    subst hi
    exact ⟨hm, hn.2.2.1, hn.2.2.2.1, hv, hb⟩⟩
  simpa [Ending.src, Ending.html, times] using this

example : ∃ x, x = c!"a" ++ (c!"<sup id=\"fnref:1\" role=\"doc-noteref\"><a href=\"#fn:1\" class=\"footnote\" rel=\"footnote\">1</a></sup>") ++ c!"b" ∧
    render c!"a[^1] b" = .ok (elem c!"p" x ++ c!"\n") ∧ render c!"## a[^1] b" = .ok (elem c!"h2" x ++ c!"\n") ∧
    render c!"- a[^1] b" = .ok (c!"<ul>\n<li>\n" ++ elem c!"p" x ++ c!"\n</li>\n</ul>\n") :=
  C189_partial [.word c!"a"] [.space 1, .word c!"b"] c!"1"
    ⟨word_check (by decide), ⟨⟨by decide, by decide⟩, by decide, by decide⟩, ⟨by decide, by decide, by decide, by decide⟩, word_check (by decide), trivial⟩
    ⟨_, rfl, trivial⟩ 2
    ⟨by decide, by decide, ⟨word_check (by decide), ⟨⟨by decide, by decide⟩, by decide, by decide⟩, ⟨by decide, by decide, by decide, by decide⟩, word_check (by decide), trivial⟩,
      by decide, by decide, ⟨_, rfl, trivial⟩, ⟨_, rfl, trivial⟩⟩ '-' (.inl rfl) (by decide)

end Smd.Gfm
