import Verif.Lemmas.Inside
import Verif.Lemmas.Quoted
import Verif.Props.Blocks

/-!
Markup inside a line and at its end: greater-than signs (C137), quotes after text (C138), white space after a heading
(C139), three backticks (C140) and asterisks (C96, C141).
-/

namespace Smd.Gfm
open Smd.Rs Smd.Spec

/-! ### C137 A greater-than sign inside a line -/

/-- Text and quoted lines directly behind it. -/
private theorem text_quotes {is : List Inline} {lines : List (QuoteLine × Str)} (hi : InlineGood (some '>') is)
    (hv : ∃ i, is.head? = some i ∧ i.Visible) (hg : (Ending.quotes lines).Good fun s x => render s = .ok x) :
    render (inlineSrc is ++ (Ending.quotes lines).src) =
      .ok (elem c!"p" (inlineHtml is) ++ quoteHtml 0 lines ++ copies (quoteEnd 0 lines) c!"</blockquote>\n") := by
  obtain ⟨hne, hgap, hok⟩ := hg
  obtain ⟨toks, h1, h2⟩ := quotes_inP lines hne hok hgap
  have hh : (lines.flatMap fun l => l.1.src).head? = some '>' := by
    cases lines with
    | nil => exact absurd rfl hne
    | cons a b => rw [List.flatMap_cons, quoteLine_head (hok a (by simp)).1]
  have hq1 : 1 ≤ quoteEnd 0 lines := by
    rcases List.eq_nil_or_concat lines with rfl | ⟨a, x, rfl⟩
    · exact absurd rfl hne
    · have := (hok x (by simp)).1.level.1
      simpa [quoteEnd] using this
  have ee : (Ending.quotes lines).src = lines.flatMap fun l => l.1.src := rfl
  rw [ee, render_inlines_then (by rw [hh]; exact hi) hv h1 (h2 _), finish_inQ _ _ (.inr hq1)]
  simp [elem]

/-- **C137, negated** A greater-than sign between spaces starts a quote in the middle of the line. -/
theorem C137_refuted : render c!"1 > 0" = .ok c!"<p>1</p><blockquote>\n<p>0</p>\n</blockquote>\n" := by
  decide +kernel

/-- It always does, whatever stands before it in the line, and with further quoted lines after it. -/
theorem C137_refuted_always (is : List Inline) (lines : List (QuoteLine × Str)) (hi : InlineGood (some '>') is)
    (hv : ∃ i, is.head? = some i ∧ i.Visible) (hg : (Ending.quotes lines).Good fun s x => render s = .ok x) :
    render (inlineSrc is ++ (Ending.quotes lines).src) =
      .ok (elem c!"p" (inlineHtml is) ++ quoteHtml 0 lines ++ copies (quoteEnd 0 lines) c!"</blockquote>\n") :=
  text_quotes hi hv hg

example : render c!"if a>> b then" = .ok c!"<p>ifa</p><blockquote>\n<blockquote>\n<p>bthen</p>\n</blockquote>\n</blockquote>\n" :=
  C137_refuted_always [.word c!"if", .space 1, .word c!"a"] [(⟨2, 1, c!"b then", 0⟩, c!"<p>bthen</p>\n")]
    ⟨word_check (by decide), ⟨by decide, by decide, by decide, by decide⟩, word_check (by decide), trivial⟩ ⟨_, rfl, trivial⟩
    ⟨by decide, by decide, fun l hl => by
      rw [List.mem_singleton] at hl
      subst hl
      exact ⟨⟨by decide, by decide, by decide, by decide⟩, c!"<p>bthen</p>\n", by decide +kernel, by decide⟩⟩

/-- **C137, the part that holds** Greater-than signs with neither a space nor a tab behind them are shown as they are. -/
theorem C137_partial (is js : List Inline) (n : Nat) (hn : 1 ≤ n) (hi : InlineGood (some '>') is) (hj : InlineGood none js)
    (hv : ∃ i, is.head? = some i ∧ i.Visible)
    (h : ∀ c, (inlineSrc js).head? = some c → c ≠ '>' ∧ c ≠ ' ' ∧ c ≠ '\t') :
    render (inlineSrc is ++ times n '>' ++ inlineSrc js) =
      .ok (elem c!"p" (inlineHtml is ++ copies n c!"&gt;" ++ inlineHtml js) ++ c!"\n") := by
  obtain ⟨u, hu⟩ := times_head (c := '>') hn (inlineSrc js)
  have ha : Inline.Good ((inlineSrc js).head?.or none) (.arrows n) := by
    rw [Option.or_none]
    exact ⟨hn, fun e => (h _ e).1 rfl, fun e => (h _ e).2.1 rfl, fun e => (h _ e).2.2 rfl⟩
  have hs : InlineGood none (is ++ .arrows n :: js) := by
    refine inlineGood_append (js := .arrows n :: js) ⟨ha, hj⟩ ?_
    rw [Option.or_none, show inlineSrc (.arrows n :: js) = times n '>' ++ inlineSrc js from by simp [inlineSrc, Inline.src], hu]
    exact hi
  have hv2 : ∃ i, (is ++ .arrows n :: js).head? = some i ∧ i.Visible := by
    obtain ⟨i, h1, h2⟩ := hv
    exact ⟨i, by simp [List.head?_append, h1], h2⟩
  have : render _ = _ := renderIgnore_inlines [] hs hv2
  have e : inlineSrc (is ++ .arrows n :: js) = inlineSrc is ++ times n '>' ++ inlineSrc js := by simp [inlineSrc, Inline.src]
  have e2 : inlineHtml (is ++ .arrows n :: js) = inlineHtml is ++ copies n c!"&gt;" ++ inlineHtml js := by
    have := escape_copied (c := '>') (y := c!"&gt;") (by decide) n
    simp [inlineHtml, Inline.html, this]
  rw [e, e2] at this
  simpa [elem] using this

example : render c!"see a>b" = .ok c!"<p>seea&gt;b</p>\n" :=
  C137_partial [.word c!"see", .space 1, .word c!"a"] [.word c!"b"] 1 (by decide)
    ⟨word_check (by decide), ⟨by decide, by decide, by decide, by decide⟩, word_check (by decide), trivial⟩
    ⟨word_check (by decide), trivial⟩ ⟨_, rfl, trivial⟩ (by decide)

/-! ### C138 Quotes directly after text -/

/-- **C138** A quote needs no blank line before it: it ends the paragraph, and is rendered as it is by itself. -/
theorem C138_quotes (is : List Inline) (lines : List (QuoteLine × Str)) (hi : InlineGood (some '\n') is)
    (hv : ∃ i, is.head? = some i ∧ i.Visible) (hg : (Ending.quotes lines).Good fun s x => render s = .ok x) :
    ∃ q, render (Ending.quotes lines).src = .ok q ∧
      render (inlineSrc is ++ c!"\n" ++ (Ending.quotes lines).src) = .ok (elem c!"p" (inlineHtml is) ++ q) := by
  have hs : InlineGood (some '>') (is ++ [.eol]) := by
    refine inlineGood_append (js := [.eol]) ⟨?_, trivial⟩ hi
    show (some '>' : Option Char) ≠ some '\n'
    decide
  have hv2 : ∃ i, (is ++ [Inline.eol]).head? = some i ∧ i.Visible := by
    obtain ⟨i, h1, h2⟩ := hv
    exact ⟨i, by simp [List.head?_append, h1], h2⟩
  have h2 := text_quotes hs hv2 hg
  have e : inlineSrc (is ++ [Inline.eol]) = inlineSrc is ++ c!"\n" := by simp [inlineSrc, Inline.src]
  have e2 : inlineHtml (is ++ [Inline.eol]) = inlineHtml is := by simp [inlineHtml, Inline.html]
  rw [e, e2] at h2
  refine ⟨_, render_ending 0 (.quotes lines) nofun nofun hg, ?_⟩
  rw [h2]
  simp [Ending.html]

example : ∃ q, render c!"> b *c*\n>> d" = .ok q ∧ render c!"a\n> b *c*\n>> d" = .ok (c!"<p>a</p>" ++ q) :=
  C138_quotes [.word c!"a"] [(⟨1, 1, c!"b *c*", 1⟩, c!"<p>b<em>c</em></p>\n"), (⟨2, 1, c!"d", 0⟩, c!"<p>d</p>\n")]
    ⟨word_check (by decide), trivial⟩ ⟨_, rfl, trivial⟩
    ⟨by decide, by decide, by
      intro l hl
      simp only [List.mem_cons, List.not_mem_nil, or_false] at hl
      rcases hl with rfl | rfl
      · exact ⟨⟨by decide, by decide, by decide, by decide⟩, c!"<p>b<em>c</em></p>\n", by decide +kernel, by decide⟩
      · exact ⟨⟨by decide, by decide, by decide, by decide⟩, c!"<p>d</p>\n", by decide +kernel, by decide⟩⟩

/-- For example. -/
example : render c!"a\n> b" = .ok c!"<p>a</p><blockquote>\n<p>b</p>\n</blockquote>\n" := by decide +kernel

/-! ### C139 White space at the end of a heading -/

/-- **C139, negated** A space at the end of a heading makes hashes text. -/
theorem C139_refuted : render c!"# #" = .ok c!"<h1></h1>\n" ∧ render c!"# # " = .ok c!"<h1>#</h1>\n" := by
  decide +kernel

/-- After a label a space stops the program. -/
theorem C139_refuted_label : (∃ x, render c!"# a {#b}" = .ok x) ∧ render c!"# a {#b} " = .panic :=
  ⟨⟨c!"<h1>b</h1>\n", by decide +kernel⟩, by decide +kernel⟩

/-- **C139, the part that holds** Spaces and tabs at the end of a heading that is not made of hashes only, and has no label,
change nothing in the whole document. -/
theorem C139_partial (n : Nat) (sep : Char) (t ws rest : Str) (h1 : 1 ≤ n) (h6 : n ≤ 6) (hs : sep = ' ' ∨ sep = '\t') (hn : '\n' ∉ t)
    (hh : ∃ c ∈ t, c ≠ '#') (hl : ¬ c!"{#" <:+: t ∨ '}' ∉ t) (hw : ∀ c ∈ ws, c = ' ' ∨ c = '\t')
    (hr : rest = [] ∨ rest.head? = some '\n') :
    render (times n '#' ++ sep :: (t ++ ws ++ rest)) = render (times n '#' ++ sep :: (t ++ rest)) := by
  refine render_first ?_
  have hr : AtEol rest := hr.imp_right fun h => by
    cases rest with
    | nil => simp at h
    | cons c u => exact ⟨u, by simp at h; rw [h]⟩
  have e := lexHeading_blank (r := self) h6 hs hn hw hr hl hh
  obtain ⟨m, rfl⟩ : ∃ m, n = m + 1 := ⟨n - 1, by omega⟩
  simp only [times, List.replicate_succ, List.cons_append] at e ⊢
  rw [nextToken_hash rfl, nextToken_hash rfl, e]

example : render c!"# a *b* #\t \n- c\n\n# d" = render c!"# a *b* #\n- c\n\n# d" :=
  C139_partial 1 ' ' c!"a *b* #" c!"\t " c!"\n- c\n\n# d" (by decide) (by decide) (.inl rfl) (by decide) (by decide) (.inr (by decide))
    (by decide) (.inr rfl)

/-! ### C140 Three backticks within a line -/

/-- **C140, negated** Between three backticks there is no code. -/
theorem C140_refuted : render c!"```a```" = .ok c!"<p>```a```</p>\n" := by
  decide +kernel

/-- There never is, at the end of a document: the backticks are shown. -/
theorem C140_refuted_always (is : List Inline) (t u : Str) (hi : InlineGood (some '`') is)
    (hv : is = [] ∨ ∃ i, is.head? = some i ∧ i.Visible) (ht : t ≠ []) (hn : '\n' ∉ t ++ u) (hb : '`' ∉ t ++ u) (hs : '[' ∉ t ++ u) :
    render (inlineSrc is ++ (c!"```" ++ t ++ c!"```" ++ u)) =
      .ok (elem c!"p" (inlineHtml is ++ (c!"```" ++ escape t ++ c!"```" ++ escape u)) ++ c!"\n") := by
  simp only [List.mem_append, not_or] at hn hb hs
  have h := render_inlines_token (s := c!"```" ++ t ++ c!"```" ++ u) (by simpa using hi) hv
    (fun last => inline_fence (r := self) (ig := []) ht hn.1 hb.1 hb.2 last)
    (shows_plain (shown_of_chars (c := '`') (by simp) (by decide) (by simp [hn]) (.inl (by simp [hs]))))
  rw [h]
  have e : escape c!"```" = c!"```" := by decide
  rw [escape_append, escape_append, escape_append, e]

example : render c!"see ```a<b``` and *c*" = .ok c!"<p>see```a&lt;b``` and *c*</p>\n" :=
  C140_refuted_always [.word c!"see", .space 1] c!"a<b" c!" and *c*"
    ⟨word_check (by decide), ⟨by decide, by decide, by decide, by decide⟩, trivial⟩ (.inr ⟨_, rfl, trivial⟩)
    (by decide) (by decide) (by decide) (by decide)

/-- When three backticks follow in a later line, everything up to them is missing from the result. -/
theorem C140_refuted_lost (is js : List Inline) (t u v : Str) (hi : InlineGood (some '`') is) (hj : InlineGood none js)
    (hv : is = [] ∨ ∃ i, is.head? = some i ∧ i.Visible) (hvj : ∃ i, js.head? = some i ∧ i.Visible) (ht : t ≠ [])
    (hn : '\n' ∉ t ++ u) (hb : '`' ∉ t ++ v) (he : (inlineSrc js).head? ≠ some '`') :
    render (inlineSrc is ++ (c!"```" ++ t ++ c!"```" ++ u ++ '\n' :: (v ++ (c!"```" ++ inlineSrc js)))) =
      .ok ((if is = [] then [] else elem c!"p" (inlineHtml is) ++ c!"\n") ++ elem c!"p" (inlineHtml js) ++ c!"\n") := by
  simp only [List.mem_append, not_or] at hb
  obtain ⟨t2, hl2, _, ho2⟩ := inlines_sem hj
  have l2 := hl2 self [] [] [] hj LexTo.nil
  rw [List.append_nil, List.append_nil] at l2
  have l1 : LexTo self [] (c!"```" ++ t ++ c!"```" ++ u ++ '\n' :: (v ++ (c!"```" ++ inlineSrc js))) _ :=
    LexTo.cons (fun last => inline_fence_lost (r := self) (ig := []) ht hn hb.1 hb.2 he last) l2
  by_cases h0 : is = []
  · subst h0
    have hp := parseToks_cons (parseTok_fence_clean self (t ++ c!"```" ++ u) v []) ((ho2 hvj).clean self _)
    rw [show inlineSrc [] = [] from rfl, List.nil_append, render_of l1 hp, finish_inP]
    simp [elem]
  · have hp := parseToks_cons (parseTok_fence_inP self (t ++ c!"```" ++ u) v (c!"<p>" ++ inlineHtml is)) ((ho2 hvj).clean self _)
    rw [render_inlines_then (by simpa using hi) (hv.resolve_left h0) l1 hp, finish_inP, if_neg h0]
    simp [elem]

example : render c!"a ```b``` c\nd ```e" = .ok c!"<p>a</p>\n<p>e</p>\n" :=
  C140_refuted_lost [.word c!"a", .space 1] [.word c!"e"] c!"b" c!" c" c!"d "
    ⟨word_check (by decide), ⟨by decide, by decide, by decide, by decide⟩, trivial⟩ ⟨word_check (by decide), trivial⟩
    (.inr ⟨_, rfl, trivial⟩) ⟨_, rfl, trivial⟩ (by decide) (by decide) (by decide) (by decide)

/-- **C140, the part that holds** Between any other number of backticks there is code, at the beginning of a document. -/
theorem C140_partial (n : Nat) (t : Str) (h1 : 1 ≤ n) (h3 : n ≠ 3) (ht : CodeText n t) :
    render (times n '`' ++ t ++ times n '`') = .ok (elem c!"pre" (elem c!"code" (endLine (escape (codeShown t))))) :=
  C32_code n t h1 h3 ht

example : render c!"``a`b``" = .ok c!"<pre><code>a`b\n</code></pre>" :=
  C140_partial 2 c!"a`b" (by decide) (by decide) (codeText_check (by decide) (by decide))

/-! ### C141 Asterisks at the end of a line -/

/-- **C141, negated** An asterisk at the end of a line is a thematic break inside the paragraph. -/
theorem C141_refuted : render c!"a *\nb" = .ok c!"<p>a<hr />\nb</p>\n" := by
  decide +kernel

/-- So is any number of them after any text. -/
theorem C141_refuted_always (is js : List Inline) (n : Nat) (hn : 1 ≤ n) (hi : InlineGood (some '*') is) (hj : InlineGood none js)
    (hv : ∃ i, is.head? = some i ∧ i.Visible) (he : (inlineSrc js).head? ≠ some '\n') :
    render (inlineSrc is ++ (times n '*' ++ '\n' :: inlineSrc js)) =
      .ok (elem c!"p" (inlineHtml is ++ c!"<hr />\n" ++ inlineHtml js) ++ c!"\n") := by
  obtain ⟨t2, hl2, ha2, _⟩ := inlines_sem hj
  have l2 := hl2 self [] [] [] hj LexTo.nil
  rw [List.append_nil, List.append_nil] at l2
  have l1 : LexTo self [] (times n '*' ++ '\n' :: inlineSrc js) _ := LexTo.stars hn (LexTo.gaps (n := 1) he l2)
  obtain ⟨u, hu⟩ := times_head (c := '*') hn ('\n' :: inlineSrc js)
  have hp := parseToks_cons (parseTok_rule_inP self (c!"<p>" ++ inlineHtml is))
    (parseToks_two (parseToks_gap1_inP self (n := 1) _ (by decide)) (ha2 self _ false))
  rw [render_inlines_then (by rw [hu]; exact hi) hv l1 hp, finish_inP]
  simp [elem]

example : render c!"2 ***\n*b*" = .ok c!"<p>2<hr />\n<em>b</em></p>\n" :=
  C141_refuted_always [.digit '2', .space 1] [.em '*' c!"b"] 3 (by decide)
    ⟨⟨by decide, by decide⟩, ⟨by decide, by decide, by decide, by decide⟩, trivial⟩
    ⟨⟨.inl rfl, ⟨_, _, rfl, by decide⟩, by decide, by decide⟩, trivial⟩ ⟨_, rfl, trivial⟩ (by decide)

/-- **C141, the part that holds** Two or three asterisks or underscores at the end of a document are text. -/
theorem C141_partial (is : List Inline) (n : Nat) (m : Char) (hm : m = '*' ∨ m = '_') (hn : n = 2 ∨ n = 3) (hi : InlineGood (some m) is)
    (hv : is = [] ∨ ∃ i, is.head? = some i ∧ i.Visible) :
    render (inlineSrc is ++ times n m) = .ok (elem c!"p" (inlineHtml is ++ times n m) ++ c!"\n") := by
  have hh : (times n m).head? = some m := by rcases hn with rfl | rfl <;> rfl
  have hsh : Shown (times n m) := by
    rcases hn with rfl | rfl <;> rcases hm with rfl | rfl <;>
      exact shown_of_chars (List.mem_cons_self ..) (by decide) (by decide) (.inl (by decide))
  have := render_inlines_token (by rw [hh]; exact hi) hv (last_markers hm hn) (shows_plain hsh)
  rwa [escape_times (by rcases hm with rfl | rfl <;> decide)] at this

example : render c!"see note **" = .ok c!"<p>seenote**</p>\n" :=
  C141_partial [.word c!"see", .space 1, .word c!"note", .space 1] 2 '*' (.inl rfl) (.inl rfl)
    ⟨word_check (by decide), ⟨by decide, by decide, by decide, by decide⟩, word_check (by decide), ⟨by decide, by decide, by decide, by decide⟩, trivial⟩
    (.inr ⟨_, rfl, trivial⟩)

/-! ### C96 Lines of asterisks -/

/-- **C96, the part that holds** A line of three asterisks is a thematic break when a line follows it. One or two asterisks
are as well. -/
theorem C96_partial_stars (n k m : Nat) (is js : List Inline) (hn : 2 ≤ n) (hk : 1 ≤ k) (hm : 1 ≤ m)
    (hi : (Block.para is).Good fun s x => render s = .ok x) (hj : (Block.para js).Good fun s x => render s = .ok x) :
    render (inlineSrc is ++ times n '\n' ++ times k '*' ++ times m '\n' ++ inlineSrc js) =
      .ok (c!"<p>" ++ inlineHtml is ++ c!"</p>\n<hr />\n<p>" ++ inlineHtml js ++ c!"</p>\n") := by
  obtain ⟨hgi, hvi⟩ := hi
  obtain ⟨hgj, hvj⟩ := hj
  have hgj' := inlineGood_none hgj
  obtain ⟨t2, hl2, _, ho2⟩ := inlines_sem hgj'
  have l2 := hl2 self [] [] [] hgj' LexTo.nil
  rw [List.append_nil, List.append_nil] at l2
  have hnl : (inlineSrc js).head? ≠ some '\n' := by
    obtain ⟨⟨a, u, e, ha⟩, _⟩ := head_ends hgj hvj
    rw [e]
    simp
    rintro rfl
    revert ha; decide
  obtain ⟨m', rfl⟩ : ∃ m', m = m' + 1 := ⟨m - 1, by omega⟩
  have lg := LexTo.gaps (n := m' + 1) hnl l2
  rw [times, List.replicate_succ, List.cons_append] at lg
  have l1 := LexTo.stars hk lg
  obtain ⟨u, hu⟩ := times_head (c := '*') hk ('\n' :: (List.replicate m' '\n' ++ inlineSrc js))
  have l0 := LexTo.gaps (n := n) (by rw [hu]; simp) l1
  obtain ⟨n', rfl⟩ : ∃ n', n = n' + 1 := ⟨n - 1, by omega⟩
  have hp := parseToks_two (parseToks_gaps_inP self (c!"<p>" ++ inlineHtml is) hn) (parseToks_cons (parseTok_rule_clean self _)
    (parseToks_two (parseToks_gaps_clean self (m' + 1) _) ((ho2 hvj).clean self _)))
  have h := render_inlines_then (is := is) (by simpa [List.replicate_succ] using hgi) hvi l0 hp
  have e : inlineSrc is ++ times (n' + 1) '\n' ++ times k '*' ++ times (m' + 1) '\n' ++ inlineSrc js =
      inlineSrc is ++ (times (n' + 1) '\n' ++ (times k '*' ++ '\n' :: (List.replicate m' '\n' ++ inlineSrc js))) := by
    simp [List.replicate_succ]
  rw [e, h, finish_inP]
  simp

example : render c!"a\n\n***\nb" = .ok c!"<p>a</p>\n<hr />\n<p>b</p>\n" :=
  C96_partial_stars 2 3 1 [.word c!"a"] [.word c!"b"] (by decide) (by decide) (by decide)
    ⟨⟨word_check (by decide), trivial⟩, ⟨_, rfl, trivial⟩⟩ ⟨⟨word_check (by decide), trivial⟩, ⟨_, rfl, trivial⟩⟩

end Smd.Gfm
