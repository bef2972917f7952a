import Verif.Lemmas.Syntax
import Verif.Props.Parts
import Verif.Props.Inside

/-!
Forms of Markdown the code knows differently: empty headings (C27) and breaks with spaces (C96), markers in different paragraphs
(C161), escaped closing markers (C162), parentheses in targets (C163), bars in and around tables (C164, C165), numbers with
parentheses (C166), empty list entries (C167), lines of white space (C168), spaces of Unicode (C169), titles of images (C170), references with a colon after them (C171).
-/

namespace Smd.Gfm
open Smd.Rs Smd.Spec

/-! ### C27 Empty headings -/

/-- **C27** A line of one to six hashes is an empty heading, between running texts. -/
theorem C27_empty_line (n : Nat) (is js : List Inline) (h1 : 1 ≤ n) (h6 : n ≤ 6) (hi : InlineGood (some '\n') is)
    (hv : ∃ i, is.head? = some i ∧ i.Visible) (hj : InlineGood none js) (hw : ∃ j, js.head? = some j ∧ j.Visible) :
    render (inlineSrc is ++ c!"\n" ++ times n '#' ++ c!"\n" ++ inlineSrc js) =
      .ok (elem c!"p" (inlineHtml is) ++ c!"\n" ++ (elem ('h' :: dec n) [] ++ c!"\n") ++ (elem c!"p" (inlineHtml js) ++ c!"\n")) := by
  obtain ⟨t2, l2, _, o2⟩ := inlines_sem hj
  have l2 := l2 self [] [] [] hj LexTo.nil
  rw [List.append_nil, List.append_nil] at l2
  obtain ⟨⟨y, u, e, hy⟩, _⟩ := head_ends hj hw
  have hjn : (inlineSrc js).head? ≠ some '\n' := by rw [e]; simp only [List.head?_cons, ne_eq, Option.some.injEq]; rintro rfl; revert hy; decide
  have l3 : LexTo self [] (times n '#' ++ '\n' :: inlineSrc js) _ := LexTo.emptyHeading h1 h6 (LexTo.gaps (n := 1) hjn l2)
  obtain ⟨v, hu⟩ := times_head (c := '#') h1 ('\n' :: inlineSrc js)
  have hh : (times n '#' ++ '\n' :: inlineSrc js).head? ≠ some '\n' := by rw [hu]; simp
  have l4 : LexTo self [] ('\n' :: (times n '#' ++ '\n' :: inlineSrc js)) _ := LexTo.gaps (n := 1) hh l3
  have hp := parseToks_two (parseToks_gap1_inP self (n := 1) (c!"<p>" ++ inlineHtml is) (by decide)) (parseToks_cons (parseTok_header_inP self n [] (c!"<p>" ++ inlineHtml is))
    (parseToks_two (show parseToks self (gapToks 1) (clean _) = .ok (clean _) from parseToks_one (parseTok_blank self _ (by decide))) ((o2 hw).clean self _)))
  have := render_inlines_then (by simpa using hi) hv l4 hp
  rw [finish_inP] at this
  simpa [elem] using this

example : render c!"a\n##\nb" = .ok c!"<p>a</p>\n<h2></h2>\n<p>b</p>\n" :=
  C27_empty_line 2 [.word c!"a"] [.word c!"b"] (by decide) (by decide) ⟨word_check (by decide), trivial⟩ ⟨_, rfl, trivial⟩ ⟨word_check (by decide), trivial⟩
    ⟨_, rfl, trivial⟩

/-! ### C96 Breaks with spaces -/

/-- **C96, negated** Any number of hyphens or plus signs with spaces between them is a list in a list, as often as there are signs. -/
theorem C96_refuted_spaces_always (k : Nat) (c : Char) (hc : c = '-' ∨ c = '+') :
    render ((List.replicate k [c, ' ']).flatten ++ [c]) =
      .ok (copies (k + 1) c!"<ul>\n<li>\n" ++ c!"\n" ++ copies (k + 1) c!"</li>\n</ul>\n") := render_signs hc k

example : render c!"+ +" = .ok c!"<ul>\n<li>\n<ul>\n<li>\n\n</li>\n</ul>\n</li>\n</ul>\n" := C96_refuted_spaces_always 1 '+' (.inr rfl)

/-! ### C161 Markers in different paragraphs -/

/-- **C161, negated** Markers in different paragraphs make one paragraph of both. -/
theorem C161_refuted : render c!"a *b\n\nc* d" = .ok c!"<p>a<em>b\n\nc</em>d</p>\n" ∧ render c!"**a\n\nb**" = .ok c!"<p><strong>a\n\nb</strong></p>\n" ∧
    render c!"~~a\n\nb~~" = .ok c!"<p><strike>a\n\nb</strike></p>\n" ∧ render c!"`a\n\nb`" = .ok c!"<pre><code>a\n\nb\n</code></pre>" := by decide +kernel

/-- For every text around and between the markers. -/
theorem C161_refuted_always (m : Char) (hm : m = '*' ∨ m = '_') (a b : Str) (is js : List Inline) (h : Inline.EmText (a ++ c!"\n\n" ++ b))
    (hi : InlineGood (some m) is) (hj : InlineGood none js) (hv : is = [] ∨ ∃ i, is.head? = some i ∧ i.Visible) :
    render (inlineSrc is ++ (m :: a ++ c!"\n\n" ++ (b ++ [m])) ++ inlineSrc js) =
      .ok (elem c!"p" (inlineHtml is ++ elem c!"em" (escape (a ++ c!"\n\n" ++ b)) ++ inlineHtml js) ++ c!"\n") := by
  have := render_piece (i := .em m (a ++ c!"\n\n" ++ b)) (is := is) (js := js) (by simpa [Inline.src] using hi) ⟨hm, h⟩ hj hv trivial
  simpa [Inline.src, Inline.html] using this

example : render c!"a *b\n\nc* d" = .ok c!"<p>a<em>b\n\nc</em>d</p>\n" :=
  C161_refuted_always '*' (.inl rfl) c!"b" c!"c" [.word c!"a", .space 1] [.space 1, .word c!"d"] ⟨⟨_, _, rfl, by decide⟩, by decide, by decide⟩
    ⟨word_check (by decide), ⟨by decide, by decide, by decide, by decide⟩, trivial⟩ ⟨⟨by decide, by decide, by decide, by decide⟩, word_check (by decide), trivial⟩
    (.inr ⟨_, rfl, trivial⟩)

/-- Between tildes. -/
theorem C161_refuted_strike (a b : Str) (is js : List Inline) (h : '~' ∉ a ++ b) (hi : InlineGood (some '~') is) (hj : InlineGood none js)
    (hv : is = [] ∨ ∃ i, is.head? = some i ∧ i.Visible) (hn : (inlineSrc js).head? ≠ some '~') :
    render (inlineSrc is ++ (c!"~~" ++ a ++ c!"\n\n" ++ (b ++ c!"~~")) ++ inlineSrc js) =
      .ok (elem c!"p" (inlineHtml is ++ elem c!"strike" (escape (a ++ c!"\n\n" ++ b)) ++ inlineHtml js) ++ c!"\n") := by
  have := render_piece (i := .strike (a ++ c!"\n\n" ++ b)) (is := is) (js := js) (by simpa [Inline.src, List.replicate_succ] using hi)
    ⟨by simp, by simpa using h, hn⟩ hj hv trivial
  simpa [Inline.src, Inline.html, List.replicate_succ] using this

example : render c!"~~a\n\nb~~ c" = .ok c!"<p><strike>a\n\nb</strike>c</p>\n" :=
  C161_refuted_strike c!"a" c!"b" [] [.space 1, .word c!"c"] (by decide) trivial ⟨⟨by decide, by decide, by decide, by decide⟩, word_check (by decide), trivial⟩
    (.inl rfl) (by decide)

/-- **C161, the part that holds** Paragraphs whose markers are in pairs are separate. -/
theorem C161_partial (n : Nat) (m k : Char) (a b : Str) (is is' js js' : List Inline) (hn : 2 ≤ n)
    (hi : (Block.para (is ++ .em m a :: is')).Good fun s x => render s = .ok x) (hj : (Block.para (js ++ .em k b :: js')).Good fun s x => render s = .ok x) :
    render ((inlineSrc is ++ (m :: a ++ [m]) ++ inlineSrc is') ++ times n '\n' ++ (inlineSrc js ++ (k :: b ++ [k]) ++ inlineSrc js')) =
      .ok (elem c!"p" (inlineHtml is ++ elem c!"em" (escape a) ++ inlineHtml is') ++ c!"\n" ++
        (elem c!"p" (inlineHtml js ++ elem c!"em" (escape b) ++ inlineHtml js') ++ c!"\n")) := by
  have := C81_partial n _ _ hn hi hj
  simpa [inlineSrc, inlineHtml, Inline.src, Inline.html, elem] using this

example : render c!"*a*\n\nb _c_" = .ok c!"<p><em>a</em></p>\n<p>b<em>c</em></p>\n" :=
  C161_partial 2 '*' '_' c!"a" c!"c" [] [] [.word c!"b", .space 1] [] (by decide)
    ⟨⟨⟨.inl rfl, ⟨_, _, rfl, by decide⟩, by decide, by decide⟩, trivial⟩, ⟨_, rfl, trivial⟩⟩
    ⟨⟨word_check (by decide), ⟨by decide, by decide, by decide, by decide⟩, ⟨.inr rfl, ⟨_, _, rfl, by decide⟩, by decide, by decide⟩, trivial⟩, ⟨_, rfl, trivial⟩⟩

/-! ### C162 Escaped closing markers -/

/-- **C162, negated** An escaped marker ends what it should not. -/
theorem C162_refuted : render c!"*a\\*b c*" = .ok c!"<p><em>a</em>bc<em></em></p>\n" ∧ render c!"[a\\]b](c)" = .ok c!"<p>&lbrack;a&rbrack;b&rbrack;&#40;c&#41;</p>\n" ∧
    render c!"~~a\\~~b" = .ok c!"<p><strike>a</strike>b</p>\n" ∧ render c!"`a\\`" = .ok c!"<pre><code>a\n</code></pre>" := by decide +kernel

/-- Emphasis ends at every escaped marker, whatever running text is around it. -/
theorem C162_refuted_always (m : Char) (hm : m = '*' ∨ m = '_') (a : Str) (is js : List Inline) (h : Inline.EmText (a ++ c!"\\"))
    (hi : InlineGood (some m) is) (hj : InlineGood none js) (hv : is = [] ∨ ∃ i, is.head? = some i ∧ i.Visible) :
    render (inlineSrc is ++ (m :: a ++ ['\\', m]) ++ inlineSrc js) =
      .ok (elem c!"p" (inlineHtml is ++ elem c!"em" (escape (a ++ c!"\\")) ++ inlineHtml js) ++ c!"\n") := by
  have := render_piece (i := .em m (a ++ c!"\\")) (is := is) (js := js) (by simpa [Inline.src] using hi) ⟨hm, h⟩ hj hv trivial
  simpa [Inline.src, Inline.html] using this

example : render c!"a *b\\*c" = .ok c!"<p>a<em>b</em>c</p>\n" :=
  C162_refuted_always '*' (.inl rfl) c!"b" [.word c!"a", .space 1] [.word c!"c"] ⟨⟨_, _, rfl, by decide⟩, by decide, by decide⟩
    ⟨word_check (by decide), ⟨by decide, by decide, by decide, by decide⟩, trivial⟩ ⟨word_check (by decide), trivial⟩ (.inr ⟨_, rfl, trivial⟩)

/-- No link has an escaped bracket in its text. -/
theorem C162_refuted_link (a w x : Str) (is js : List Inline) (ha : ']' ∉ a) (hn : '\n' ∉ a) (hf : a.head? ≠ some '^') (hr : ¬ c!"[^" <:+: a)
    (hw : Word w) (hx : Word x) (hi : InlineGood (some '[') is) (hj : InlineGood none js) (hv : is = [] ∨ ∃ i, is.head? = some i ∧ i.Visible)
    (hp : w.head? ≠ some '(') :
    render (inlineSrc is ++ (c!"[" ++ a ++ c!"\\]" ++ w ++ c!"](" ++ x ++ c!")") ++ inlineSrc js) =
      .ok (elem c!"p" (inlineHtml is ++ escape (c!"[" ++ a ++ c!"]" ++ w ++ c!"](" ++ x ++ c!")") ++ inlineHtml js) ++ c!"\n") := by
  have hword : Word (w ++ c!"](" ++ x ++ c!")") := by
    refine ⟨by simp, fun c hc => ?_⟩
    simp only [List.mem_append] at hc
    rcases hc with ((hc | hc) | hc) | hc
    · exact hw.2 c hc
    · exact (by decide : ∀ c ∈ c!"](", c ∉ controlChars ∧ isWs c = false) c hc
    · exact hx.2 c hc
    · exact (by decide : ∀ c ∈ c!")", c ∉ controlChars ∧ isWs c = false) c hc
  have hh : (w ++ c!"](" ++ x ++ c!")" ++ inlineSrc js).head? ≠ some '(' := by
    cases hc : w with
    | nil => exact absurd hc hw.1
    | cons y u => rw [hc] at hp; simpa using hp
  have := render_piece (i := .brackets (a ++ c!"\\")) (is := is) (js := .word (w ++ c!"](" ++ x ++ c!")") :: js) (by simpa [Inline.src] using hi)
    ⟨by simpa using ha, by simpa using hn, by
      cases a with
      | nil => simp
      | cons y u => simpa using hf, fun hin => by
      rcases two_infix_append hin with h | ⟨h, h'⟩ | h
      · exact hr h
      · simp at h'
      · exact absurd (h.subset (by simp : '[' ∈ c!"[^")) (by decide), by simpa [inlineSrc, Inline.src] using hh⟩ ⟨hword, hj⟩ hv trivial
  have e : escape (c!"[" ++ (a ++ c!"\\") ++ c!"]") = escape (c!"[" ++ a ++ c!"]") := by
    simp only [escape_append]
    rw [show escape c!"\\" = [] by decide]
    simp
  simp only [Inline.src, Inline.html, inlineSrc, inlineHtml, List.flatMap_cons] at this ⊢
  rw [e] at this
  rw [escape_append, escape_append] at this
  simp only [escape_append] at this ⊢
  simpa using this

example : render c!"see [a\\]b](c)" = .ok c!"<p>see&lbrack;a&rbrack;b&rbrack;&#40;c&#41;</p>\n" :=
  C162_refuted_link c!"a" c!"b" c!"c" [.word c!"see", .space 1] [] (by decide) (by decide) (by decide) (by decide) (word_check (by decide)) (word_check (by decide))
    ⟨word_check (by decide), ⟨by decide, by decide, by decide, by decide⟩, trivial⟩ trivial (.inr ⟨_, rfl, trivial⟩) (by decide)

/-- **C162, the part that holds** Outside of emphasis an escaped marker is text. -/
theorem C162_partial (c : Char) (before after : List Inline) (hc : c ∈ c!"*_~`[]")
    (hb : InlineGood (some '\\') before) (ha : InlineGood none after) (hv : ∀ i, before.head? = some i → i.Visible) :
    render (inlineSrc before ++ ['\\', c] ++ inlineSrc after) =
      .ok (elem c!"p" (inlineHtml before ++ escape [c] ++ inlineHtml after) ++ c!"\n") :=
  C36_partial c before after ((by decide : ∀ c ∈ c!"*_~`[]", isWs c = false) c hc) ((by decide : ∀ c ∈ c!"*_~`[]", c ≠ '#') c hc)
    ((by decide : ∀ c ∈ c!"*_~`[]", c ≠ '\\') c hc) hb ha hv

example : render c!"a\\*b\\*" = .ok c!"<p>a*b*</p>\n" :=
  C162_partial '*' [.word c!"a"] [.word c!"b", .escaped '*'] (by decide) ⟨word_check (by decide), trivial⟩
    ⟨word_check (by decide), ⟨by decide, by decide, by decide⟩, trivial⟩ (by simp [Inline.Visible])

/-! ### C163 Parentheses in targets -/

/-- **C163, negated** A link ends at the first closing parenthesis. -/
theorem C163_refuted : render c!"[a](http:b_(c))" = .ok c!"<p><a href=\"http:b_%28c\">a</a>&#41;</p>\n" := by decide +kernel

/-- For every target with a pair of parentheses: what comes after the closing one is text. -/
theorem C163_refuted_always (text a b : Str) (js : List Inline) (u : ValidURL) (h1 : ']' ∉ text) (h2 : ')' ∉ a ++ b) (h3 : ' ' ∉ a ++ b)
    (hu : validateLink (a ++ '(' :: b) = .ok u) (hj : InlineGood none js) :
    render (c!"[" ++ text ++ c!"](" ++ (a ++ '(' :: b ++ c!")") ++ inlineSrc js) =
      .ok (elem c!"p" (c!"<a href=\"" ++ u.display ++ c!"\">" ++ escape text ++ c!"</a>" ++ inlineHtml js) ++ c!"\n") := by
  obtain ⟨t2, l2, a2, _⟩ := inlines_sem hj
  have l2 := l2 self [] [] [] hj LexTo.nil
  rw [List.append_nil, List.append_nil] at l2
  have hl := LexTo.linkTo (r := self) (ig := []) (target := a ++ '(' :: b) h1 (by simpa using h2) (by simpa using h3) hu l2
  have hp := parseToks_two ((shows_link u text).opens.clean self []) (a2 self _ false)
  have := render_of hl hp
  rw [finish_inP] at this
  simpa [elem] using this

example : render c!"[a](http:b_(c)d) e" = .ok c!"<p><a href=\"http:b_%28c\">a</a>d&#41;e</p>\n" :=
  C163_refuted_always c!"a" c!"http:b_" c!"c" [.word c!"d)", .space 1, .word c!"e"] { content := c!"b_(c", scheme := some (.http c!"http") } (by decide) (by decide) (by decide)
    (by decide) ⟨word_check (by decide), ⟨by decide, by decide, by decide, by decide⟩, word_check (by decide), trivial⟩

/-- **C163, the part that holds** A target without parentheses, whatever running text is behind the link. -/
theorem C163_partial (text target : Str) (js : List Inline) (u : ValidURL) (h1 : ']' ∉ text) (h2 : '(' ∉ target ∧ ')' ∉ target) (h3 : ' ' ∉ target)
    (hu : validateLink target = .ok u) (hj : InlineGood none js) :
    render (c!"[" ++ text ++ c!"](" ++ target ++ c!")" ++ inlineSrc js) =
      .ok (elem c!"p" (c!"<a href=\"" ++ u.display ++ c!"\">" ++ escape text ++ c!"</a>" ++ inlineHtml js) ++ c!"\n") := by
  obtain ⟨t2, l2, a2, _⟩ := inlines_sem hj
  have l2 := l2 self [] [] [] hj LexTo.nil
  rw [List.append_nil, List.append_nil] at l2
  have hl := LexTo.linkTo (r := self) (ig := []) h1 h2.2 h3 hu l2
  have hp := parseToks_two ((shows_link u text).opens.clean self []) (a2 self _ false)
  have := render_of hl hp
  rw [finish_inP] at this
  simpa [elem] using this

example : render c!"[a](http:b) (c)" = .ok c!"<p><a href=\"http:b\">a</a>&#40;c&#41;</p>\n" :=
  C163_partial c!"a" c!"http:b" [.space 1, .word c!"(c)"] { content := c!"b", scheme := some (.http c!"http") } (by decide) (by decide) (by decide) (by decide)
    ⟨⟨by decide, by decide, by decide, by decide⟩, word_check (by decide), trivial⟩

/-! ### C164 Tables without outer bars -/

/-- **C164, negated** A table whose lines do not begin with a bar is text. -/
theorem C164_refuted : render c!"a | b\n--|--\nc | d\n" = .ok c!"<p>a&mid; b--&mid;--c&mid; d</p>\n" ∧
    render c!"a | b\n---|---\nc | d\n" = .ok c!"<p>a&mid; b<hr />\n&mid;---c&mid; d</p>\n" := by decide +kernel

/-- For any number of lines of running text, a bar and anything. -/
theorem C164_refuted_always (x : List Inline × Str) (rows : List (List Inline × Str))
    (hg : ∀ y ∈ x :: rows, InlineGood (some '|') y.1 ∧ (∃ i, y.1.head? = some i ∧ i.Visible) ∧ (inlineSrc y.1).head? ≠ some '|' ∧ '\n' ∉ y.2 ∧ '[' ∉ y.2) :
    render ((x :: rows).flatMap fun y => inlineSrc y.1 ++ '|' :: y.2 ++ c!"\n") =
      .ok (elem c!"p" ((x :: rows).flatMap fun y => inlineHtml y.1 ++ escape ('|' :: y.2)) ++ c!"\n") := by
  obtain ⟨toks, hl, hp⟩ := bars_open hg
  rw [render_of hl (hp []), finish_inP, elem_p]
  simp

example : render c!"a | b\n--|--\nc | d\n" = .ok c!"<p>a&mid; b--&mid;--c&mid; d</p>\n" :=
  C164_refuted_always ([.word c!"a", .space 1], c!" b") [([.dashes '-' '-'], c!"--"), ([.word c!"c", .space 1], c!" d")] (by
    intro y hy
    simp only [List.mem_cons, List.not_mem_nil, or_false] at hy
    rcases hy with rfl | rfl | rfl
    · exact ⟨⟨word_check (by decide), ⟨by decide, by decide, by decide, by decide⟩, trivial⟩, ⟨_, rfl, trivial⟩, by decide, by decide, by decide⟩
    · exact ⟨⟨⟨.inl rfl, .inl rfl, by decide⟩, trivial⟩, ⟨_, rfl, trivial⟩, by decide, by decide, by decide⟩
    · exact ⟨⟨word_check (by decide), ⟨by decide, by decide, by decide, by decide⟩, trivial⟩, ⟨_, rfl, trivial⟩, by decide, by decide, by decide⟩)

/-- Three or more hyphens in the second line are a thematic break inside the paragraph. -/
theorem C164_refuted_rule (n : Nat) (x : List Inline × Str) (d : Str) (rows : List (List Inline × Str)) (hn : 3 ≤ n) (hd : '\n' ∉ d ∧ '[' ∉ d)
    (hg : ∀ y ∈ x :: rows, InlineGood (some '|') y.1 ∧ (∃ i, y.1.head? = some i ∧ i.Visible) ∧ (inlineSrc y.1).head? ≠ some '|' ∧ '\n' ∉ y.2 ∧ '[' ∉ y.2) :
    render ((inlineSrc x.1 ++ '|' :: x.2 ++ c!"\n") ++ (times n '-' ++ '|' :: d ++ c!"\n") ++ rows.flatMap fun y => inlineSrc y.1 ++ '|' :: y.2 ++ c!"\n") =
      .ok (elem c!"p" (inlineHtml x.1 ++ escape ('|' :: x.2) ++ c!"<hr />\n" ++ escape ('|' :: d) ++ rows.flatMap fun y => inlineHtml y.1 ++ escape ('|' :: y.2)) ++
        c!"\n") := by
  obtain ⟨toks, hl, hp⟩ := bars_sem fun y hy => hg y (List.mem_cons_of_mem x hy)
  obtain ⟨h1, h2, h3, h4, h5⟩ := hg x (by simp)
  have hh := bars_head fun y hy => hg y (List.mem_cons_of_mem x hy)
  obtain ⟨t1, l1, _, o1⟩ := inlines_sem h1
  obtain ⟨v, hv⟩ := times_head (c := '-') (by omega : 1 ≤ n) ('|' :: d ++ c!"\n" ++ rows.flatMap fun y => inlineSrc y.1 ++ '|' :: y.2 ++ c!"\n")
  have l3 := LexTo.ruleIn (n := n) (c := '-') (rest := '|' :: d ++ c!"\n" ++ rows.flatMap fun y => inlineSrc y.1 ++ '|' :: y.2 ++ c!"\n")
    (.inl ⟨.inl rfl, hn, by simp, by simp⟩) (LexTo.cons (fun last => pipe_then (r := self) (ig := []) hd.1 hh last) hl)
  have l4 := l1 self [] _ _ (by simpa using h1) (LexTo.cons (fun last => pipe_then (r := self) (ig := []) h4 (by rw [hv]; simp) last) l3)
  have := render_of (by simpa using l4) (parseToks_two ((o1 h2).clean self []) (parseToks_cons ((shows_bar h4 h5).1 self _ false)
    (parseToks_cons (parseTok_rule_inP self _) (parseToks_cons ((shows_bar hd.1 hd.2).1 self _ false) (hp _)))))
  rw [finish_inP] at this
  simpa [elem] using this

example : render c!"a | b\n---|---\nc | d\n" = .ok c!"<p>a&mid; b<hr />\n&mid;---c&mid; d</p>\n" :=
  C164_refuted_rule 3 ([.word c!"a", .space 1], c!" b") c!"---" [([.word c!"c", .space 1], c!" d")] (by decide) (by decide) (by
    intro y hy
    simp only [List.mem_cons, List.not_mem_nil, or_false] at hy
    rcases hy with rfl | rfl <;>
      exact ⟨⟨word_check (by decide), ⟨by decide, by decide, by decide, by decide⟩, trivial⟩, ⟨_, rfl, trivial⟩, by decide, by decide, by decide⟩)

/-! ### C165 Escaped bars -/

/-- **C165, negated** With an escaped bar in a cell a table is text. -/
theorem C165_refuted : render c!"| a \\| b |\n|---|\n| c |" = .ok c!"<p>&mid; a &mid; b &mid;\n&mid;---&mid;\n&mid; c &mid;</p>\n" := by decide +kernel

/-- Lines that begin with bars are text whenever they have different numbers of bars, with or without backslashes, or when there are fewer than three. -/
theorem C165_refuted_lines (l0 : Str) (ls : List Str) (hn : ∀ l ∈ l0 :: ls, '\n' ∉ l ∧ '[' ∉ l)
    (hc : ls.length < 2 ∨ ∃ l ∈ ls, l.count '|' ≠ l0.count '|') :
    render ('|' :: l0 ++ ls.flatMap fun l => '\n' :: '|' :: l) = .ok (elem c!"p" (escape ('|' :: l0 ++ ls.flatMap fun l => '\n' :: '|' :: l)) ++ c!"\n") := by
  have hl := LexTo.bars (r := self) (ig := []) (fun l h => (hn l h).1) hc
  have ht : plainTrim ('|' :: (l0 ++ ls.flatMap fun l => '\n' :: '|' :: l)) = '|' :: (l0 ++ ls.flatMap fun l => '\n' :: '|' :: l) := plainTrim_bars fun l h => (hn l h).1
  have hb : '[' ∉ '|' :: (l0 ++ ls.flatMap fun l => '\n' :: '|' :: l) := by
    simp only [List.mem_cons, List.mem_append, List.mem_flatMap, not_or, not_exists, not_and]
    exact ⟨by decide, (hn l0 (by simp)).2, fun l hl => ⟨by decide, by decide, (hn l (by simp [hl])).2⟩⟩
  have hs := shows_of_plainOut ⟨'|', by simp, by decide⟩ (plainOut_of_trim ht (.inl hb) (by simp))
  have := render_of hl (hs.opens.clean self [])
  rw [finish_inP] at this
  simpa [elem] using this

example : render c!"| a |\n| b |" = .ok c!"<p>&mid; a &mid;\n&mid; b &mid;</p>\n" := C165_refuted_lines c!" a |" [c!" b |"] (by decide) (.inl (by decide))

/-- One escaped bar in one cell of the first line, the numbers of the others right. -/
theorem C165_refuted_always (a b : Str) (ls : List Str) (hn : ∀ l ∈ (a ++ b) :: ls, '\n' ∉ l ∧ '[' ∉ l) (hne : ls ≠ [])
    (hc : ∀ l ∈ ls, l.count '|' = (a ++ b).count '|') :
    render ('|' :: (a ++ c!"\\|" ++ b) ++ ls.flatMap fun l => '\n' :: '|' :: l) =
      .ok (elem c!"p" (escape ('|' :: (a ++ c!"|" ++ b) ++ ls.flatMap fun l => '\n' :: '|' :: l)) ++ c!"\n") := by
  have h0 := hn (a ++ b) (by simp)
  simp only [List.mem_append, not_or] at h0
  have := C165_refuted_lines (a ++ c!"\\|" ++ b) ls (by
    intro l hl
    rcases List.mem_cons.mp hl with rfl | hl
    · simp [h0]
    · exact hn l (by simp [hl])) (.inr (by
      obtain ⟨l, hl⟩ := List.exists_mem_of_ne_nil ls hne
      refine ⟨l, hl, ?_⟩
      rw [hc l hl]
      simp [List.count_append]))
  rw [this]
  simp only [← List.cons_append, escape_append]
  rw [show escape c!"\\|" = escape c!"|" by decide]

example : render c!"| a \\| b |\n|---|\n| c |" = .ok c!"<p>&mid; a &mid; b &mid;\n&mid;---&mid;\n&mid; c &mid;</p>\n" :=
  C165_refuted_always c!" a " c!" b |" [c!"---|", c!" c |"] (by decide) (by decide) (by decide)

/-! ### C166 Numbers with parentheses -/

/-- **C166, negated** A number with a closing parenthesis is text. -/
theorem C166_refuted : render c!"1) a\n2) b" = .ok c!"<p>1&#41;a2&#41;b</p>\n" := by decide +kernel

/-- In every running text, at the start of it or of a line. -/
theorem C166_refuted_always (n : Nat) (c : Char) (is js : List Inline) (hc : c ∈ c!"0123456789") (hi : InlineGood (some c) is)
    (hv : is = [] ∨ ∃ i, is.head? = some i ∧ i.Visible) (hj : InlineGood none (.space n :: js)) :
    render (inlineSrc is ++ ([c, ')'] ++ times n ' ' ++ inlineSrc js)) = .ok (elem c!"p" (inlineHtml is ++ c :: escape c!")" ++ inlineHtml js) ++ c!"\n") := by
  have := render_piece (i := .digit c) (is := is) (js := .word c!")" :: .space n :: js) (by simpa [Inline.src] using hi)
    ⟨hc, by simp [inlineSrc, Inline.src]⟩ ⟨word_check (by decide), hj⟩ hv trivial
  simpa [inlineSrc, inlineHtml, Inline.src, Inline.html] using this

example : render c!"1) a\n2) b" = .ok c!"<p>1&#41;a2&#41;b</p>\n" :=
  C166_refuted_always 1 '2' [.digit '1', .word c!")", .space 1, .word c!"a", .eol] [.word c!"b"] (by decide)
    ⟨⟨by decide, by decide⟩, word_check (by decide), ⟨by decide, by decide, by decide, by decide⟩, word_check (by decide), (show _ ≠ some '\n' by decide), trivial⟩ (.inr ⟨_, rfl, trivial⟩)
    ⟨⟨by decide, by decide, by decide, by decide⟩, word_check (by decide), trivial⟩

/-- **C166, the part that holds** With a dot in place of the parenthesis the same lines are a list. -/
theorem C166_partial (k : Nat) (items : List (Char × Str × Nat)) (hne : items ≠ [])
    (hdigit : ∀ i ∈ items, i.1 ∈ c!"0123456789") (hline : ∀ i ∈ items, '\n' ∉ i.2.1) (hgap : ∀ i ∈ items.dropLast, 1 ≤ i.2.2) :
    render (times k '\n' ++ items.flatMap fun i => i.1 :: '.' :: ' ' :: i.2.1 ++ times i.2.2 '\n') =
      .ok (c!"<ol>\n" ++ (items.flatMap fun i => c!"<li>\n" ++ escape i.2.1 ++ c!"</li>\n") ++ c!"</ol>\n") :=
  C29_ordered k items hne hdigit hline hgap

example : render c!"1. a\n2. b)" = .ok c!"<ol>\n<li>\na</li>\n<li>\nb&#41;</li>\n</ol>\n" :=
  C166_partial 0 [('1', c!"a", 1), ('2', c!"b)", 0)] (by decide) (by decide) (by decide) (by decide)

/-! ### C167 Empty list entries -/

/-- **C167, negated** An asterisk alone is a break, a number alone is text. -/
theorem C167_refuted : render c!"*\n* a" = .ok c!"<hr />\n<ul>\n<li>\n<p>a</p>\n</li>\n</ul>\n" ∧
    render c!"1.\n2. a" = .ok c!"<p>1.<ol>\n<li>\na</li>\n</p>\n</ol>\n" := by decide +kernel

/-- An asterisk alone on its line before any list. -/
theorem C167_refuted_always (items : List (Char × Str × Nat × Str)) (hne : items ≠ [])
    (hmark : ∀ i ∈ items, i.1 = '-' ∨ i.1 = '+' ∨ i.1 = '*') (hline : ∀ i ∈ items, '\n' ∉ i.2.1)
    (hstart : ∀ i ∈ items, i.2.1.head? ≠ some ' ' ∧ i.2.1.head? ≠ some '\t' ∧ ∀ x ∈ c!" xX", ¬ ['[', x, ']', ' '] <+: i.2.1)
    (hgap : ∀ i ∈ items.dropLast, 1 ≤ i.2.2.1) (hrender : ∀ i ∈ items, render i.2.1 = .ok i.2.2.2)
    (hcode : ∀ i ∈ items, ¬ c!"<pre><code>" <:+: i.2.2.2) :
    render (c!"*\n" ++ items.flatMap fun i => i.1 :: ' ' :: i.2.1 ++ times i.2.2.1 '\n') =
      .ok (c!"<hr />\n" ++ (c!"<ul>\n" ++ (items.flatMap fun i => c!"<li>\n" ++ i.2.2.2 ++ c!"</li>\n") ++ c!"</ul>\n")) := by
  obtain ⟨ts, h1, h2⟩ := bullets_sem self [] items
    (fun i hi => ⟨⟨hmark i hi, hline i hi, (hstart i hi).1, (hstart i hi).2.1, (hstart i hi).2.2⟩, hrender i hi, hcode i hi⟩) hgap
  have hhead : (items.flatMap fun i => i.1 :: ' ' :: i.2.1 ++ times i.2.2.1 '\n').head? ≠ some '\n' := by
    cases items with
    | nil => exact absurd rfl hne
    | cons i is =>
      have := hmark i (by simp)
      rw [List.flatMap_cons]
      rcases this with e | e | e <;> simp [e]
  obtain ⟨toks, h3, h4⟩ := lead_sem 1 hhead h1
  have h3 := LexTo.stars (n := 1) (by decide) (by simpa [times] using h3)
  have := render_of h3 (parseToks_cons (parseTok_rule_clean self []) ((h4 _).trans (h2 hne _)))
  rw [finish_ul] at this
  simpa [times] using this

example : render c!"*\n* a" = .ok c!"<hr />\n<ul>\n<li>\n<p>a</p>\n</li>\n</ul>\n" :=
  C167_refuted_always [('*', c!"a", 0, c!"<p>a</p>\n")] (by decide) (by decide) (by decide) (by decide) (by decide) (by decide +kernel) (by simp; decide)

/-- A number and a dot alone on a line, in every running text. -/
theorem C167_refuted_number (c : Char) (is js : List Inline) (hc : c ∈ c!"0123456789") (hi : InlineGood (some c) is)
    (hv : is = [] ∨ ∃ i, is.head? = some i ∧ i.Visible) (hj : InlineGood none (.eol :: js)) :
    render (inlineSrc is ++ ([c, '.'] ++ c!"\n" ++ inlineSrc js)) = .ok (elem c!"p" (inlineHtml is ++ [c, '.'] ++ inlineHtml js) ++ c!"\n") := by
  have := render_piece (i := .digitDot c) (is := is) (js := .eol :: js) (by simpa [Inline.src] using hi)
    ⟨hc, by simp [inlineSrc, Inline.src]⟩ hj hv trivial
  simpa [inlineSrc, inlineHtml, Inline.src, Inline.html] using this

example : render c!"a\n1.\nb" = .ok c!"<p>a1.b</p>\n" :=
  C167_refuted_number '1' [.word c!"a", .eol] [.word c!"b"] (by decide) ⟨word_check (by decide), (show _ ≠ some '\n' by decide), trivial⟩ (.inr ⟨_, rfl, trivial⟩)
    ⟨(show _ ≠ some '\n' by decide), word_check (by decide), trivial⟩

/-- **C167, the part that holds** Any number of signs with a space behind each are empty entries of one list. -/
theorem C167_partial (items : List (Char × Nat)) (hne : items ≠ []) (hmark : ∀ i ∈ items, i.1 = '-' ∨ i.1 = '+' ∨ i.1 = '*')
    (hgap : ∀ i ∈ items.dropLast, 1 ≤ i.2) :
    render (items.flatMap fun i => i.1 :: ' ' :: times i.2 '\n') = .ok (c!"<ul>\n" ++ copies items.length c!"<li>\n\n</li>\n" ++ c!"</ul>\n") := by
  have all : ∀ i ∈ items.map fun i => (i.1, ([] : Str), i.2, c!"\n"), (∃ j ∈ items, i.1 = j.1) ∧ i.2.1 = [] ∧ i.2.2.2 = c!"\n" := by
    intro i hi
    obtain ⟨j, hj, rfl⟩ := List.mem_map.mp hi
    exact ⟨⟨j, hj, rfl⟩, rfl, rfl⟩
  have := C28_bullets 0 (items.map fun i => (i.1, ([] : Str), i.2, c!"\n")) (by simpa using hne)
    (fun i hi => by obtain ⟨⟨j, hj, e⟩, _⟩ := all i hi; rw [e]; exact hmark j hj) (fun i hi => by rw [(all i hi).2.1]; simp)
    (fun i hi => by rw [(all i hi).2.1]; decide)
    (fun i hi => by
      rw [← List.map_dropLast] at hi
      obtain ⟨j, hj, rfl⟩ := List.mem_map.mp hi
      exact hgap j hj)
    (fun i hi => by rw [(all i hi).2.1, (all i hi).2.2]; decide +kernel) (fun i hi => by rw [(all i hi).2.2]; decide)
  have e : ∀ l : List (Char × Nat), (l.flatMap fun _ => c!"<li>\n\n</li>\n") = copies l.length c!"<li>\n\n</li>\n" := by
    intro l
    induction l with
    | nil => rfl
    | cons a l ih => rw [List.flatMap_cons, ih]; simp [copies, List.replicate_succ]
  rw [← e]
  simpa [List.flatMap_map] using this

example : render c!"- \n* \n\n+ " = .ok c!"<ul>\n<li>\n\n</li>\n<li>\n\n</li>\n<li>\n\n</li>\n</ul>\n" :=
  C167_partial [('-', 1), ('*', 2), ('+', 0)] (by decide) (by decide) (by decide)

/-! ### C168 Lines of white space -/

/-- **C168, negated** A line of spaces does not separate paragraphs, a tab makes code of the second one. -/
theorem C168_refuted : render c!"a\n  \nb" = .ok c!"<p>ab</p>\n" ∧ render c!"a\n    \nb" = .ok c!"<p>ab</p>\n" ∧
    render c!"a\n\t\nb" = .ok c!"<p>a<pre><code>\nb</p>\n</code></pre>" := by decide +kernel

/-- For any number of spaces, between any running texts. -/
theorem C168_refuted_always (n : Nat) (is js : List Inline) (hn : 1 ≤ n) (hi : InlineGood (some '\n') is) (hj : InlineGood none js)
    (hv : ∃ i, is.head? = some i ∧ i.Visible) (hw : ∃ j, js.head? = some j ∧ j.Visible) :
    render (inlineSrc is ++ c!"\n" ++ times n ' ' ++ c!"\n" ++ inlineSrc js) = .ok (elem c!"p" (inlineHtml is ++ inlineHtml js) ++ c!"\n") := by
  obtain ⟨⟨y, u, e, hy⟩, _⟩ := head_ends hj hw
  have hjn : (inlineSrc js).head? ≠ some '\n' := by rw [e]; simp only [List.head?_cons, ne_eq, Option.some.injEq]; rintro rfl; revert hy; decide
  obtain ⟨v, hv'⟩ := times_head (c := ' ') hn ('\n' :: inlineSrc js)
  have := render_blank_between (s := c!"\n" ++ (times n ' ' ++ c!"\n")) (toks := [.plaintext c!"\n", breakTok n, .plaintext c!"\n"]) (js := js) (by simpa using hi) hj hv
    (adds_cons (fun r h c => parseTok_blank r _ (by decide)) (adds_cons (fun r h c => parseTok_break r n h c)
      (adds_cons (fun r h c => parseTok_blank r _ (by decide)) adds_nil))) (by
      intro ts hts
      have l1 := LexTo.break hn (LexTo.gap (n := 1) (by omega) hjn hts)
      have hh : (times n ' ' ++ '\n' :: inlineSrc js).head? ≠ some '\n' := by rw [hv']; simp
      have l2 := LexTo.gap (n := 1) (by omega) hh l1
      simpa [gapTok] using l2)
  simpa using this

example : render c!"a\n     \n*b*" = .ok c!"<p>a<em>b</em></p>\n" :=
  C168_refuted_always 5 [.word c!"a"] [.em '*' c!"b"] (by decide) ⟨word_check (by decide), trivial⟩
    ⟨⟨.inl rfl, ⟨_, _, rfl, by decide⟩, by decide, by decide⟩, trivial⟩ ⟨_, rfl, trivial⟩ ⟨_, rfl, trivial⟩

/-- A line of one or two tabs, or two spaces and a tab, opens a code element that is closed at the end of the document. -/
theorem C168_refuted_tabs (w : Str) (is js : List Inline) (hw : w = c!"\t" ∨ w = c!"\t\t" ∨ w = c!"  \t") (hi : InlineGood (some '\n') is)
    (hj : InlineGood none js) (hv : ∃ i, is.head? = some i ∧ i.Visible) :
    render (inlineSrc is ++ c!"\n" ++ w ++ c!"\n" ++ inlineSrc js) =
      .ok (c!"<p>" ++ inlineHtml is ++ c!"<pre><code>" ++ (if w = c!"\t\t" then c!"\t" else []) ++ c!"\n" ++ inlineHtml js ++ c!"</p>\n</code></pre>") := by
  obtain ⟨t2, l2, a2, _⟩ := inlines_sem hj
  have l2 := l2 self [] [] [] hj LexTo.nil
  rw [List.append_nil, List.append_nil] at l2
  have e : ∀ last, nextToken self [] last (w ++ '\n' :: inlineSrc js) =
      .ok (some (.code ((if w = c!"\t\t" then c!"\t" else []) ++ c!"\n"), inlineSrc js)) := tab_line hw
  have l3 := LexTo.cons e l2
  have hh : (w ++ '\n' :: inlineSrc js).head? ≠ some '\n' := by rcases hw with rfl | rfl | rfl <;> simp
  have l4 := LexTo.gap (n := 1) (by omega) hh l3
  have := render_inlines_then (s := '\n' :: (w ++ '\n' :: inlineSrc js)) hi hv l4
    (parseToks_cons (by exact parseTok_blank self _ (by decide)) (parseToks_cons (parseTok_code_inP self _ _) (a2 self _ true)))
  rw [finish_code_inP] at this
  have he : escape ((if w = c!"\t\t" then c!"\t" else []) ++ c!"\n") = (if w = c!"\t\t" then c!"\t" else []) ++ c!"\n" := by split <;> decide
  rw [he] at this
  simpa using this

example : render c!"a\n\t\t\nb" = .ok c!"<p>a<pre><code>\t\nb</p>\n</code></pre>" :=
  C168_refuted_tabs c!"\t\t" [.word c!"a"] [.word c!"b"] (.inr (.inl rfl)) ⟨word_check (by decide), trivial⟩ ⟨word_check (by decide), trivial⟩ ⟨_, rfl, trivial⟩

/-- **C168, the part that holds** A line of spaces next to an empty line changes nothing. -/
theorem C168_partial (n j k : Nat) (is js : List Inline) (hn : 1 ≤ n) (h1 : 1 ≤ j) (h2 : 1 ≤ k) (hjk : 2 ≤ j ∨ 2 ≤ k) (hi : InlineGood (some '\n') is)
    (hj : InlineGood none js) (hv : ∃ i, is.head? = some i ∧ i.Visible) (hw : ∃ j, js.head? = some j ∧ j.Visible) :
    render (inlineSrc is ++ times j '\n' ++ times n ' ' ++ times k '\n' ++ inlineSrc js) =
      .ok (elem c!"p" (inlineHtml is) ++ c!"\n" ++ (elem c!"p" (inlineHtml js) ++ c!"\n")) := by
  obtain ⟨t2, l2, _, o2⟩ := inlines_sem hj
  have l2 := l2 self [] [] [] hj LexTo.nil
  rw [List.append_nil, List.append_nil] at l2
  obtain ⟨⟨y, u, e, hy⟩, _⟩ := head_ends hj hw
  have hjn : (inlineSrc js).head? ≠ some '\n' := by rw [e]; simp only [List.head?_cons, ne_eq, Option.some.injEq]; rintro rfl; revert hy; decide
  obtain ⟨j, rfl⟩ : ∃ m, j = m + 1 := ⟨j - 1, by omega⟩
  obtain ⟨k, rfl⟩ : ∃ m, k = m + 1 := ⟨k - 1, by omega⟩
  have l3 := LexTo.gaps (n := k + 1) hjn l2
  obtain ⟨v, hv'⟩ := times_head (c := ' ') hn (times (k + 1) '\n' ++ inlineSrc js)
  have hh : (times n ' ' ++ (times (k + 1) '\n' ++ inlineSrc js)).head? ≠ some '\n' := by rw [hv']; simp
  have l4 : LexTo self [] (times n ' ' ++ (times (k + 1) '\n' ++ inlineSrc js)) _ := LexTo.break (rest := times k '\n' ++ inlineSrc js) hn l3
  have hp : parseToks self (gapToks (j + 1) ++ breakTok n :: (gapToks (k + 1) ++ t2)) (inP (c!"<p>" ++ inlineHtml is)) =
      .ok (inP (c!"<p>" ++ inlineHtml is ++ c!"</p>\n" ++ c!"<p>" ++ inlineHtml js)) := by
    by_cases h : 2 ≤ j + 1
    · exact parseToks_two (parseToks_gaps_inP self _ h) (parseToks_cons (parseTok_break_clean self n _)
        (parseToks_two (parseToks_gaps_clean self (k + 1) _) ((o2 hw).clean self _)))
    · exact parseToks_two (parseToks_gap1_inP self _ (by omega)) (parseToks_cons (parseTok_break self n _ false)
        (parseToks_two (parseToks_gaps_inP self _ (hjk.resolve_left h)) ((o2 hw).clean self _)))
  have := render_inlines_then (s := times (j + 1) '\n' ++ (times n ' ' ++ (times (k + 1) '\n' ++ inlineSrc js))) (by simpa [List.replicate_succ] using hi) hv
    (LexTo.gaps hh l4) hp
  rw [finish_inP] at this
  simpa [elem] using this

example : render c!"a\n  \n\nb" = .ok c!"<p>a</p>\n<p>b</p>\n" :=
  C168_partial 2 1 2 [.word c!"a"] [.word c!"b"] (by decide) (by decide) (by decide) (.inr (by decide)) ⟨word_check (by decide), trivial⟩
    ⟨word_check (by decide), trivial⟩ ⟨_, rfl, trivial⟩ ⟨_, rfl, trivial⟩

/-! ### C169 No-break and other spaces -/

/-- **C169, negated** A no-break space between words is not shown, nor is an ideographic one. -/
theorem C169_refuted : render c!"10\u00A0km" = .ok c!"<p>10km</p>\n" ∧ render c!"a\u3000b" = .ok c!"<p>ab</p>\n" := by decide +kernel

/-- No white space of Unicode is, between any running texts. -/
theorem C169_refuted_always (s : Str) (is js : List Inline) (hs : ∀ c ∈ s, isWs c = true ∧ c ∉ c!" \t\n") (hi : InlineGood (s ++ inlineSrc js).head? is)
    (hj : InlineGood none js) (hv : ∃ i, is.head? = some i ∧ i.Visible) :
    render (inlineSrc is ++ s ++ inlineSrc js) = .ok (elem c!"p" (inlineHtml is ++ inlineHtml js) ++ c!"\n") := by
  refine render_blank_between (toks := s.map fun c => .plaintext [c]) hi hj hv ?_ fun ts hts => LexTo.blanks hs hts
  clear hi
  induction s with
  | nil => exact adds_nil
  | cons c s ih =>
    have hc := hs c (by simp)
    exact adds_cons (fun r h b => parseTok_blank r _ (by simp [trim, trimStartP, trimEndP, hc.1])) (ih fun c h => hs c (by simp [h]))

example : render c!"*a*\u00A0\u202F*b*" = .ok c!"<p><em>a</em><em>b</em></p>\n" :=
  C169_refuted_always c!"\u00A0\u202F" [.em '*' c!"a"] [.em '*' c!"b"] (by decide) ⟨⟨.inl rfl, ⟨_, _, rfl, by decide⟩, by decide, by decide⟩, trivial⟩
    ⟨⟨.inl rfl, ⟨_, _, rfl, by decide⟩, by decide, by decide⟩, trivial⟩ ⟨_, rfl, trivial⟩

/-- **C169, the part that holds** Inside of emphasis and link texts they are shown. -/
theorem C169_partial (m : Char) (hm : m = '*' ∨ m = '_') (t text target : Str) (is js : List Inline) (h : Inline.EmText t) (h1 : (Inline.link text target).Good (inlineSrc js).head?)
    (hi : InlineGood (some m) is) (hj : InlineGood none js) (hv : is = [] ∨ ∃ i, is.head? = some i ∧ i.Visible) :
    render (inlineSrc is ++ (m :: t ++ [m]) ++ (c!"[" ++ text ++ c!"](" ++ target ++ c!")") ++ inlineSrc js) =
      .ok (elem c!"p" (inlineHtml is ++ elem c!"em" (escape t) ++ (c!"<a href=\"" ++ target ++ c!"\">" ++ escape text ++ c!"</a>") ++ inlineHtml js) ++ c!"\n") := by
  have := render_piece (i := .em m t) (is := is) (js := .link text target :: js) (by simpa [Inline.src] using hi) ⟨hm, h⟩ ⟨by simpa using h1, hj⟩ hv trivial
  simpa [inlineSrc, inlineHtml, Inline.src, Inline.html] using this

example : render c!"*a\u00A0b*[c\u00A0d](http:e)" = .ok c!"<p><em>a\u00A0b</em><a href=\"http:e\">c\u00A0d</a></p>\n" :=
  C169_partial '*' (.inl rfl) c!"a\u00A0b" c!"c\u00A0d" c!"http:e" [] [] ⟨⟨_, _, rfl, by decide⟩, by decide, by decide⟩
    ⟨by decide, target_check c!"http" c!"e" (by decide) (by decide)⟩ trivial trivial (.inl rfl)

/-! ### C170 Titles of images -/

/-- **C170, negated** The title of an image is not shown, nor is the text after the image. -/
theorem C170_refuted : render c!"![a](http:b \"t\") c" = .ok c!"<p><img src=\"b\" alt=\"a\" referrerpolicy=\"no-referrer\"></p>\n" := by decide +kernel

/-- The rest of the line is lost after every image with anything behind a space in its parentheses. -/
theorem C170_refuted_always (text target title rest : Str) (js : List Inline) (h : (Block.image text target).Good fun s x => render s = .ok x)
    (ht : ')' ∉ title) (hr : '\n' ∉ rest) (hj : InlineGood none js) (hw : ∃ j, js.head? = some j ∧ j.Visible) :
    render (c!"![" ++ text ++ c!"](" ++ target ++ c!" " ++ title ++ c!")" ++ rest ++ c!"\n" ++ inlineSrc js) =
      .ok (c!"<p><img src=\"" ++ afterColon target ++ c!"\" alt=\"" ++ escape text ++ c!"\" referrerpolicy=\"no-referrer\"></p><p>" ++ inlineHtml js ++ c!"</p>\n") := by
  obtain ⟨h1, h2, h3⟩ := h
  obtain ⟨u, hu, _, _, _, hc⟩ := plainTarget_ok h2
  obtain ⟨t2, l2, _, o2⟩ := inlines_sem hj
  have l2 := l2 self [] [] [] hj LexTo.nil
  rw [List.append_nil, List.append_nil] at l2
  have hl := LexTo.imageTitle (r := self) (ig := []) h1 (target_chars h2).1 (target_chars h2).2.1 ht hu hr l2
  have hp := parseToks_cons (parseTok_image_clean self u.content text []) ((o2 hw).clean self _)
  have := render_of hl hp
  rw [finish_inP, hc, image_html h2 h3] at this
  simpa [Block.html] using this

example : render c!"![a](http:b \"t\") lost\nc" = .ok c!"<p><img src=\"b\" alt=\"a\" referrerpolicy=\"no-referrer\"></p><p>c</p>\n" :=
  C170_refuted_always c!"a" c!"http:b" c!"\"t\"" c!" lost" [.word c!"c"] ⟨by decide, target_check c!"http" c!"b" (by decide) (by decide), by decide⟩
    (by decide) (by decide) ⟨word_check (by decide), trivial⟩ ⟨_, rfl, trivial⟩

/-- **C170, the part that holds** Without a title the text after an image is shown. -/
theorem C170_partial (text target : Str) (js : List Inline) (h : (Block.image text target).Good fun s x => render s = .ok x)
    (hj : InlineGood none js) (hw : ∃ j, js.head? = some j ∧ j.Visible) :
    render (c!"![" ++ text ++ c!"](" ++ target ++ c!")" ++ inlineSrc js) =
      .ok (c!"<p><img src=\"" ++ afterColon target ++ c!"\" alt=\"" ++ escape text ++ c!"\" referrerpolicy=\"no-referrer\"></p><p>" ++ inlineHtml js ++ c!"</p>\n") := by
  obtain ⟨h1, h2, h3⟩ := h
  obtain ⟨u, hu, _, _, _, hc⟩ := plainTarget_ok h2
  obtain ⟨t2, l2, _, o2⟩ := inlines_sem hj
  have l2 := l2 self [] [] [] hj LexTo.nil
  rw [List.append_nil, List.append_nil] at l2
  have hl := LexTo.image (r := self) (ig := []) h1 (target_chars h2).1 (target_chars h2).2.1 hu l2
  have hp := parseToks_cons (parseTok_image_clean self u.content text []) ((o2 hw).clean self _)
  have := render_of hl hp
  rw [finish_inP, hc, image_html h2 h3] at this
  simpa [Block.html] using this

example : render c!"![a](http:b)c" = .ok c!"<p><img src=\"b\" alt=\"a\" referrerpolicy=\"no-referrer\"></p><p>c</p>\n" :=
  C170_partial c!"a" c!"http:b" [.word c!"c"] ⟨by decide, target_check c!"http" c!"b" (by decide) (by decide), by decide⟩
    ⟨word_check (by decide), trivial⟩ ⟨_, rfl, trivial⟩

/-! ### C171 Footnote definitions begin a line -/

/-- **C171, negated** A reference with a colon after it is taken for a definition; after an exclamation mark a message of the program is
shown in its place. -/
theorem C171_refuted : (∃ html, render c!"see[^1]: more" = .ok (c!"<p>see</p>\n" ++ html)) ∧
    render c!"wow![^1]: more" = .ok c!"<p>wowNon link token returned from lex_links</p>\n" :=
  ⟨⟨notesHtml [⟨c!"1", 1, c!"more", [], 0⟩], by decide +kernel⟩, by decide +kernel⟩

/-- **C171, negated** This is so for every text. -/
theorem C171_refuted_always (is : List Inline) (d : NoteDef) (hd : d.Good) (he : d.ends ≤ 1) (hi : InlineGood (some '[') is)
    (hv : ∃ i, is.head? = some i ∧ i.Visible) :
    render (inlineSrc is ++ d.src) = .ok (elem c!"p" (inlineHtml is) ++ c!"\n" ++ notesHtml [d]) := by
  have hl := LexTo.note (r := self) (ig := []) (rest := []) (ts := []) hd (.inr rfl) .nil LexTo.nil
  rw [List.append_nil, show d.ends - 1 = 0 by omega] at hl
  have hs : d.src.head? = some '[' := by simp [NoteDef.src]
  rw [render_inlines_then (by rwa [hs]) hv hl (parseToks_one (parseTok_note self _ _ _ true []))]
  have := finish_note (ds := [d]) (elem c!"p" (inlineHtml is) ++ c!"\n") (by simp)
  rw [show endLine (elem c!"p" (inlineHtml is) ++ c!"\n") = elem c!"p" (inlineHtml is) ++ c!"\n" from if_pos (by rw [List.getLast?_append]; rfl)] at this
  rw [← this, elem_p]
  simp [finish]

example : render c!"wow[^a]: see b" = .ok (c!"<p>wow</p>\n" ++ notesHtml [⟨c!"a", 1, c!"see b", [], 0⟩]) :=
  C171_refuted_always [.word c!"wow"] ⟨c!"a", 1, c!"see b", [], 0⟩ ⟨⟨by decide, by decide⟩, by decide, by decide, ⟨_, _, rfl, by decide⟩, ⟨'b', c!"see ", rfl, by decide⟩⟩ (by decide)
    ⟨word_check (by decide), trivial⟩ ⟨_, rfl, trivial⟩

/-- **C171, negated** After an exclamation mark the note and its text are lost. -/
theorem C171_refuted_message (is : List Inline) (d : NoteDef) (hd : d.Good) (he : d.ends ≤ 1) (hi : InlineGood (some '!') is)
    (hv : is = [] ∨ ∃ i, is.head? = some i ∧ i.Visible) :
    render (inlineSrc is ++ '!' :: d.src) = .ok (elem c!"p" (inlineHtml is ++ c!"Non link token returned from lex_links") ++ c!"\n") :=
  render_inlines_token hi hv (nextToken_bang_note hd he)
    (shows_plain (t := c!"Non link token returned from lex_links") (shown_of_chars (c := 'N') (by decide) (by decide) (by decide) (.inl (by decide))))

example : render c!"*Wow*![^a]: see b" = .ok c!"<p><em>Wow</em>Non link token returned from lex_links</p>\n" :=
  C171_refuted_message [.em '*' c!"Wow"] ⟨c!"a", 1, c!"see b", [], 0⟩ ⟨⟨by decide, by decide⟩, by decide, by decide, ⟨_, _, rfl, by decide⟩, ⟨'b', c!"see ", rfl, by decide⟩⟩ (by decide)
    ⟨⟨.inl rfl, ⟨_, _, rfl, by decide⟩, by decide, by decide⟩, trivial⟩ (.inr ⟨_, rfl, trivial⟩)

/-- **C171, the part that holds** A reference is one if anything but a colon or a parenthesis follows. -/
theorem C171_partial (id : Str) (is js : List Inline) (hn : NoteId id) (hi : InlineGood (some '[') is) (hj : InlineGood none js)
    (hc : (inlineSrc js).head? ≠ some ':') (hp : (inlineSrc js).head? ≠ some '(') (hv : is = [] ∨ ∃ i, is.head? = some i ∧ i.Visible) :
    render (inlineSrc is ++ (c!"[^" ++ id ++ c!"]") ++ inlineSrc js) =
      .ok (elem c!"p" (inlineHtml is ++ (c!"<sup id=\"fnref:" ++ escape id ++ c!"\" role=\"doc-noteref\"><a href=\"#fn:" ++ escape id ++
        c!"\" class=\"footnote\" rel=\"footnote\">1</a></sup>") ++ inlineHtml js) ++ c!"\n") := by
  have hg : InlineGood none (is ++ .noteRef id :: js) := inlineGood_append (js := .noteRef id :: js) ⟨⟨hn, by simpa using hc, by simpa using hp⟩, hj⟩ (by simpa [inlineSrc, Inline.src] using hi)
  have := render_inlines hg (by rcases hv with rfl | ⟨i, h1, h2⟩
                                · exact ⟨_, rfl, trivial⟩
                                · exact ⟨i, by simp [h1], h2⟩)
  simpa [inlineSrc, inlineHtml, Inline.src, Inline.html] using this

example : render c!"a[^b] : c" = .ok c!"<p>a<sup id=\"fnref:b\" role=\"doc-noteref\"><a href=\"#fn:b\" class=\"footnote\" rel=\"footnote\">1</a></sup>:c</p>\n" :=
  C171_partial c!"b" [.word c!"a"] [.space 1, .word c!":", .space 1, .word c!"c"] ⟨by decide, by decide⟩ ⟨word_check (by decide), trivial⟩
    ⟨⟨by decide, by decide, by decide, by decide⟩, word_check (by decide), ⟨by decide, by decide, by decide, by decide⟩, word_check (by decide), trivial⟩
    (by decide) (by decide) (.inr ⟨_, rfl, trivial⟩)

end Smd.Gfm
