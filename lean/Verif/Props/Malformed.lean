import Verif.Lemmas.Malformed
import Verif.Lemmas.Quoted
import Verif.Props.Forms

/-!
Quotes without a space (C183), fences that are not closed (C184), further lines of footnotes (C185), boxes without a text (C186).
-/

namespace Smd.Gfm
open Smd.Rs Smd.Spec

/-! ### C183 Quotes without a space -/

/-- **C183 is false of the code**: without a space there is no quote. -/
theorem C183_refuted : render c!">a" = .ok c!"<p>&gt;a</p>\n" := by
  decide +kernel

/-- **C183 is false of the code**: with neither space nor tab after the signs there never is a quote. -/
theorem C183_refuted_always (n : Nat) (js : List Inline) (hn : 1 ≤ n) (hj : InlineGood none js)
    (h : ∀ c, (inlineSrc js).head? = some c → c ≠ '>' ∧ c ≠ ' ' ∧ c ≠ '\t') :
    render (times n '>' ++ inlineSrc js) = .ok (elem c!"p" (copies n c!"&gt;" ++ inlineHtml js) ++ c!"\n") := by
  have ha : Inline.Good ((inlineSrc js).head?.or none) (.arrows n) := by
    rw [Option.or_none]
    exact ⟨hn, fun e => (h _ e).1 rfl, fun e => (h _ e).2.1 rfl, fun e => (h _ e).2.2 rfl⟩
  have := render_inlines (is := .arrows n :: js) ⟨ha, hj⟩ ⟨_, rfl, trivial⟩
  simpa [inlineSrc, inlineHtml, Inline.src, Inline.html, escape_copied (show escape ['>'] = c!"&gt;" by decide)] using this

example : render c!">>a *b*" = .ok c!"<p>&gt;&gt;a<em>b</em></p>\n" :=
  C183_refuted_always 2 [.word c!"a", .space 1, .em '*' c!"b"] (by decide)
    ⟨word_check (by decide), ⟨by decide, by decide, by decide, by decide⟩, ⟨.inl rfl, ⟨_, _, rfl, by decide⟩, by decide, by decide⟩, trivial⟩
    (by intro c hc; simp [inlineSrc, Inline.src] at hc; subst hc; decide)

/-- **C183 is false of the code** with a tab after the signs: the text of the quote is taken for code. -/
theorem C183_refuted_tab (n : Nat) (t : Str) (hn : 1 ≤ n) (h255 : n ≤ 255) (hne : t ≠ []) (hl : '\n' ∉ t) (hs : t.head? ≠ some ' ') (ht : '\t' ∉ t)
    (he : escape t = t) :
    render (times n '>' ++ '\t' :: t) =
      .ok (copies n c!"<blockquote>\n" ++ elem c!"pre" (elem c!"code" (t ++ c!"\n")) ++ copies n c!"</blockquote>\n") := by
  have hx := C73_partial_last [] c!"\t" t nofun ⟨.inl rfl, hne, hl, hs, fun e => ht (List.mem_of_mem_head? e), by simp⟩
  have hx' : self.render [] (escape ('\t' :: t)) = .ok (elem c!"pre" (elem c!"code" (t ++ c!"\n"))) := by
    have e1 : escape ('\t' :: t) = c!"\t" ++ t := by
      have : escape (c!"\t" ++ t) = escape c!"\t" ++ escape t := escape_append _ _
      rw [he] at this
      exact this
    have e2 : endLine t = t ++ c!"\n" := by
      unfold endLine
      rw [if_neg]
      exact fun h => hl (List.mem_of_getLast? h)
    rw [e1]
    simp only [List.flatMap_nil, List.nil_append, he, e2] at hx
    exact hx
  have htab : '\t' ∉ elem c!"pre" (elem c!"code" (t ++ c!"\n")) := by simp [elem, ht]
  have h2 := render_of (LexTo.cons (fun last => lex_quote_tab (r := self) (ig := []) hn hl last) LexTo.nil)
    (parseToks_one (parseTok_quote_tab (q := 0) [] hx'))
  rw [h2, Nat.mod_eq_of_lt (by omega), finish_inQ _ _ (.inr hn), detab_self htab]
  simp [quoteMove]

example : render c!">\ta b" = .ok c!"<blockquote>\n<pre><code>a b\n</code></pre></blockquote>\n" :=
  C183_refuted_tab 1 c!"a b" (by decide) (by decide) (by decide) (by decide) (by decide) (by decide) (by decide)

/-- **C183, the part that holds** With a space there is a quote. -/
theorem C183_partial (n : Nat) (is : List Inline) (hn : 1 ≤ n) (h255 : n ≤ 255) (hi : InlineGood none is) (hv : ∃ i, is.head? = some i ∧ i.Visible)
    (hl : '\n' ∉ inlineSrc is) (hs : (inlineSrc is).head? ≠ some ' ') (he : escape (inlineSrc is) = inlineSrc is) (ht : '\t' ∉ inlineHtml is) :
    render (times n '>' ++ c!" " ++ inlineSrc is) =
      .ok (copies n c!"<blockquote>\n" ++ (elem c!"p" (inlineHtml is) ++ c!"\n") ++ copies n c!"</blockquote>\n") :=
  C35_partial n _ _ hn h255 hl hs he (render_inlines hi hv) (by simp [elem, ht])

example : render c!">> a *b*" = .ok c!"<blockquote>\n<blockquote>\n<p>a<em>b</em></p>\n</blockquote>\n</blockquote>\n" :=
  C183_partial 2 [.word c!"a", .space 1, .em '*' c!"b"] (by decide) (by decide)
    ⟨word_check (by decide), ⟨by decide, by decide, by decide, by decide⟩, ⟨.inl rfl, ⟨_, _, rfl, by decide⟩, by decide, by decide⟩, trivial⟩
    ⟨_, rfl, trivial⟩ (by decide) (by decide) (by decide) (by decide)

/-! ### C184 Fences that are not closed -/

/-- **C184** A fence followed by a line end, any text and another number of backticks than three (or the end of the document) is shown as it is written,
between running texts. -/
theorem C184_fences (is js : List Inline) (lang body : Str) (k : Nat) (c : Char) (hi : InlineGood (some '`') is) (hj : InlineGood none js)
    (hv : is = [] ∨ ∃ i, is.head? = some i ∧ i.Visible) (h1 : '\n' ∉ lang) (h2 : lang.head? ≠ some '`') (h3 : '`' ∉ body) (hk : k ≠ 3)
    (hr : (inlineSrc js).head? ≠ some '`') (h0 : k = 0 → js = []) (hl : (body ++ times k '`').getLast? = some c) (hc : isWs c = false)
    (hb : ¬ c!"[^" <:+: c!"```" ++ lang ++ c!"\n" ++ body ++ times k '`' ∨ ']' ∉ lang ++ body) :
    render (inlineSrc is ++ (c!"```" ++ lang ++ c!"\n" ++ body ++ times k '`') ++ inlineSrc js) =
      .ok (elem c!"p" (inlineHtml is ++ escape (c!"```" ++ lang ++ c!"\n" ++ body ++ times k '`') ++ inlineHtml js) ++ c!"\n") := by
  refine render_between (by simpa using hi) hj hv
    (fun last => lex_fence h1 h2 h3 hk hr (fun e => by rw [h0 e]; rfl) last) (shows_text (c := c) ?_ hc (by simp) ?_)
  · rw [List.append_assoc, List.getLast?_append, hl]
    rfl
  · refine hb.imp id fun h => ?_
    simp only [List.mem_append, not_or] at h ⊢
    exact ⟨⟨⟨⟨by decide, h.1⟩, by decide⟩, h.2⟩, fun hm => absurd (List.mem_replicate.mp hm).2 (by decide)⟩

-- A fence that is closed by four backticks, and one that is not closed at all.
example : render c!"a\n```rs\n1 < *2*\n````*b*" = .ok c!"<p>a```rs\n1 &lt; *2*\n````<em>b</em></p>\n" :=
  C184_fences [.word c!"a", .eol] [.em '*' c!"b"] c!"rs" c!"1 < *2*\n" 4 '`'
    ⟨word_check (by decide), by simp [inlineSrc, Inline.Good], trivial⟩ ⟨⟨.inl rfl, ⟨_, _, rfl, by decide⟩, by decide, by decide⟩, trivial⟩
    (.inr ⟨_, rfl, trivial⟩) (by decide) (by decide) (by decide) (by decide) (by decide) (by decide) (by decide) (by decide) (.inr (by decide))

example : render c!"```\nx # y" = .ok c!"<p>```\nx # y</p>\n" :=
  C184_fences [] [] [] c!"x # y" 0 'y' trivial trivial (.inl rfl) (by decide) (by decide) (by decide) (by decide) (by decide) (fun _ => rfl)
    (by decide) (by decide) (.inr (by decide))

/-! ### C185 Further lines of footnotes -/

/-- **C185 is false of the code**: with three spaces in front of its second line a footnote is none, and its text is not escaped. -/
theorem C185_refuted : render c!"[^n]: <b onclick=x>\n   more" = .ok c!"<p>n]: <b onclick=x>more</p>\n" := by
  decide +kernel

/-- **C185 is false of the code** for every number of spaces but two and four, and all texts. -/
theorem C185_refuted_always (is js : List Inline) (id t : Str) (k : Nat) (hi : InlineGood (some '[') is) (hj : InlineGood none js)
    (hv : is = [] ∨ ∃ i, is.head? = some i ∧ i.Visible) (hb : ']' ∉ id) (h1 : '[' ∉ id ++ t) (hn : '\n' ∉ id ++ t)
    (he : (trimEnd (id ++ c!"]:" ++ t)).getLast? ≠ some ']') (hk : k ≠ 0 ∧ k ≠ 2 ∧ k ≠ 4) (hr : (inlineSrc js).head? ≠ some ' ') :
    render (inlineSrc is ++ (c!"[^" ++ id ++ c!"]:" ++ t ++ c!"\n" ++ times k ' ') ++ inlineSrc js) =
      .ok (elem c!"p" (inlineHtml is ++ (id ++ c!"]:" ++ t) ++ inlineHtml js) ++ c!"\n") :=
  render_between (by simpa using hi) hj hv (fun last => lex_note_indent hb (fun h => hn (by simp [h])) hk hr last)
    (shows_of_plainOut ⟨'[', by simp, by decide⟩ (plainOut_note_indent h1 hn he))

example : render c!"a[^n]: <b>\n *c*" = .ok c!"<p>an]: <b><em>c</em></p>\n" :=
  C185_refuted_always [.word c!"a"] [.em '*' c!"c"] c!"n" c!" <b>" 1 ⟨word_check (by decide), trivial⟩
    ⟨⟨.inl rfl, ⟨_, _, rfl, by decide⟩, by decide, by decide⟩, trivial⟩ (.inr ⟨_, rfl, trivial⟩) (by decide) (by decide) (by decide) (by decide)
    (by decide) (by decide)

/-- **C185, the part that holds** Lines behind two spaces, four spaces or a tab belong to the footnote. -/
theorem C185_partial (d : NoteDef) (h : d.Good) :
    render d.src = .ok (endLine [] ++ (c!"<div class=\"footnotes\" role=\"doc-endnotes\">\n\t<ol>\n" ++ d.html ++ c!"\t</ol>\n</div>\n")) := by
  have := C37_partial 0 [] [d] (by simp) (by simpa using h) (by simp) trivial (by simp)
  simpa [times, docSrc, docHtml] using this

example : render c!"[^n]: a\n  <b>\n\tc" = .ok (c!"\n<div class=\"footnotes\" role=\"doc-endnotes\">\n\t<ol>\n\t\t<li id=\"fn:1\" role=\"doc-endnote\">\t\t\t<p>a\n  &lt;b&gt;\n\tc" ++
    c!"<a href=\"#fnref:n\" class=\"reversefootnote\" role=\"doc-backlink\">↩</a></p>\t\t</li>\t</ol>\n</div>\n") :=
  C185_partial ⟨c!"n", 1, c!"a", [(c!"  ", c!"<b>"), (c!"\t", c!"c")], 0⟩
    ⟨⟨by decide, by decide⟩, by decide, by decide, ⟨'a', _, rfl, by decide⟩, ⟨'c', c!"a\n  <b>\n\t", rfl, by decide⟩⟩

/-! ### C186 Boxes without a text -/

/-- **C186** A box without a space behind it is the text of an ordinary entry. -/
theorem C186_boxes (c x : Char) (is : List Inline) (hc : c = '-' ∨ c = '+' ∨ c = '*') (hx : x ∈ c!" xX") (hg : InlineGood none (.brackets [x] :: is))
    (hn : '\n' ∉ inlineSrc is) (hs : (inlineSrc is).head? ≠ some ' ') :
    render (c :: c!" [" ++ x :: c!"]" ++ inlineSrc is) =
      .ok (elem c!"ul" (c!"\n" ++ elem c!"li" (c!"\n" ++ elem c!"p" (escape ['[', x, ']'] ++ inlineHtml is) ++ c!"\n") ++ c!"\n") ++ c!"\n") := by
  have e : inlineSrc (.brackets [x] :: is) = '[' :: x :: ']' :: inlineSrc is := by
    simp [inlineSrc, Inline.src]
  have hn' : '\n' ∉ inlineSrc (.brackets [x] :: is) := by
    rw [e]
    rcases (by simpa using hx : x = ' ' ∨ x = 'x' ∨ x = 'X') with rfl | rfl | rfl <;> simp [hn]
  have hno : ∀ y : Char, ¬ ['[', y, ']', ' '] <+: inlineSrc (.brackets [x] :: is) := by
    rintro y ⟨u, hu⟩
    rw [e] at hu
    simp only [List.cons_append, List.nil_append, List.cons.injEq] at hu
    exact hs (by rw [← hu.2.2.2]; rfl)
  have hv : ∃ i, (Inline.brackets [x] :: is).head? = some i ∧ i.Visible := ⟨_, rfl, trivial⟩
  have hl := LexTo.bullet (r := self) (ig := []) (n := 0) (rest := []) (ts := []) hc hn' (hno _) (hno _) (hno _) (.inr rfl)
    ⟨by simp, by simp⟩ LexTo.nil
  have h1 := parseTok_bullet (b := false) (c := c) self [] (by rw [e]; simp) (by rw [e]; simp) (renderIgnore_inlines [] hg hv) (para_noPre hg)
  rw [e] at hl h1
  have := render_of (by simpa [gapToks] using hl) (parseToks_one h1)
  rw [finish_ul] at this
  simpa [elem, ulOpen, inlineHtml, Inline.html] using this

example : render c!"- [x]" = .ok c!"<ul>\n<li>\n<p>&lbrack;x&rbrack;</p>\n</li>\n</ul>\n" :=
  C186_boxes '-' 'x' [] (.inl rfl) (by decide) ⟨⟨by decide, by decide, by decide, by decide, by decide⟩, trivial⟩ (by decide) (by decide)

example : render c!"+ [ ]done" = .ok c!"<ul>\n<li>\n<p>&lbrack; &rbrack;done</p>\n</li>\n</ul>\n" :=
  C186_boxes '+' ' ' [.word c!"done"] (.inr (.inl rfl)) (by decide)
    ⟨⟨by decide, by decide, by decide, by decide, by decide⟩, word_check (by decide), trivial⟩ (by decide) (by decide)

end Smd.Gfm
