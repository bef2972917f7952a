import Verif.Lemmas.Forms
import Verif.Props.Blocks

/-!
Blocks inside and directly after running text, other line ends, and markup that is not recognised (C78-C96).
-/

namespace Smd.Gfm
open Smd.Rs Smd.Spec

/-! ### C78 A paragraph ends before a list -/

/-- **C78, negated** A list directly after a line of text is opened inside the paragraph and closed outside. -/
theorem C78_refuted : render c!"a\n- b" = .ok c!"<p>a<ul>\n<li>\n<p>b</p>\n</li>\n</p>\n</ul>\n" := by
  decide +kernel

/-- So is every bullet entry after running text, on the next line or on the same one. -/
theorem C78_refuted_bullet (c : Char) (is js : List Inline) (hc : c = '-' ∨ c = '+' ∨ c = '*') (hi : InlineGood (some c) is)
    (hv : ∃ i, is.head? = some i ∧ i.Visible) (hj : InlineGood none js) (hn : '\n' ∉ inlineSrc js) (hvj : ∃ i, js.head? = some i ∧ i.Visible)
    (hb : ∀ x ∈ c!" xX", ¬ ['[', x, ']', ' '] <+: inlineSrc js) :
    render (inlineSrc is ++ c :: ' ' :: inlineSrc js) =
      .ok (c!"<p>" ++ inlineHtml is ++ c!"<ul>\n<li>\n" ++ (elem c!"p" (inlineHtml js) ++ c!"\n") ++ c!"</li>\n</p>\n</ul>\n") := by
  obtain ⟨⟨a, u, ea, ha⟩, _⟩ := head_ends hj hvj
  have h1 : (inlineSrc js).head? ≠ some ' ' := by rw [ea]; simp; rintro rfl; revert ha; decide
  have h2 : (inlineSrc js).head? ≠ some '\t' := by rw [ea]; simp; rintro rfl; revert ha; decide
  have hl := LexTo.bullet (r := self) (ig := []) (rest := []) (n := 0) hc hn (hb ' ' (by decide)) (hb 'x' (by decide)) (hb 'X' (by decide))
    (.inr rfl) NextLine.nil LexTo.nil
  have hp := parseTok_bullet_inP self (c := c) (c!"<p>" ++ inlineHtml is) h1 h2 (renderIgnore_inlines [] hj hvj) (para_noPre hj)
  have := render_inlines_then (s := c :: ' ' :: inlineSrc js) hi hv (by simpa [gapToks] using hl) (parseToks_one hp)
  rw [this, finish_ul_inP]
  simp [elem]

example : render c!"2 * 3" = .ok c!"<p>2<ul>\n<li>\n<p>3</p>\n</li>\n</p>\n</ul>\n" :=
  C78_refuted_bullet '*' [.digit '2', .space 1] [.digit '3'] (.inr (.inr rfl))
    ⟨⟨by decide, by decide⟩, ⟨by decide, by decide, by decide, by decide⟩, trivial⟩ ⟨_, rfl, trivial⟩ ⟨⟨by decide, by decide⟩, trivial⟩ (by decide)
    ⟨_, rfl, trivial⟩ (by decide)

/-- So is every ordered entry. -/
theorem C78_refuted_ordered (d : Char) (is : List Inline) (t : Str) (hd : d ∈ c!"0123456789") (hi : InlineGood (some d) is)
    (hv : ∃ i, is.head? = some i ∧ i.Visible) (hn : '\n' ∉ t) :
    render (inlineSrc is ++ d :: '.' :: ' ' :: t) =
      .ok (c!"<p>" ++ inlineHtml is ++ c!"<ol>\n<li>\n" ++ escape t ++ c!"</li>\n</p>\n</ol>\n") := by
  have hl := LexTo.ordered (r := self) (ig := []) (rest := []) (n := 0) hd hn (.inr rfl) (by simp) LexTo.nil
  have := render_inlines_then (s := d :: '.' :: ' ' :: t) hi hv (by simpa [gapToks] using hl) (parseToks_one (parseTok_ordered_inP self t _))
  rw [this, finish_ol_inP]
  simp

example : render c!"see chapter 2. It" = .ok c!"<p>seechapter<ol>\n<li>\nIt</li>\n</p>\n</ol>\n" :=
  C78_refuted_ordered '2' [.word c!"see", .space 1, .word c!"chapter", .space 1] c!"It" (by decide)
    ⟨word_check (by decide), ⟨by decide, by decide, by decide, by decide⟩, word_check (by decide), ⟨by decide, by decide, by decide, by decide⟩, trivial⟩
    ⟨_, rfl, trivial⟩ (by decide)

/-- So is every task. -/
theorem C78_refuted_task (c x : Char) (is : List Inline) (t : Str) (hc : c = '-' ∨ c = '+') (hx : x ∈ c!" xX") (hi : InlineGood (some c) is)
    (hv : ∃ i, is.head? = some i ∧ i.Visible) (hn : '\n' ∉ t) :
    render (inlineSrc is ++ c :: ' ' :: '[' :: x :: ']' :: ' ' :: t) =
      .ok (c!"<p>" ++ inlineHtml is ++ c!"<ul class=\"contains-task-list\">" ++ taskHtml (decide (x ≠ ' ')) t ++ c!"</p>\n</ul>\n") := by
  have hl := LexTo.task (r := self) (ig := []) (rest := []) (n := 0) hc (boxOf_some hx) hn (.inr rfl) NextLine.nil LexTo.nil
  have := render_inlines_then (s := c :: ' ' :: '[' :: x :: ']' :: ' ' :: t) hi hv (by simpa [gapToks] using hl)
    (parseToks_one (parseTok_task_inP self _ t _))
  rw [this, finish_task_inP]
  simp only [List.mem_cons, List.not_mem_nil, or_false] at hx
  rcases hx with rfl | rfl | rfl <;> simp

example : render c!"todo:\n- [x] a" = .ok (c!"<p>todo:<ul class=\"contains-task-list\"><li class=\"task-list-item\"><input type=\"checkbox\" " ++
    c!"class=\"task-list-item-checkbox\" checked=\"\">a</li></p>\n</ul>\n") :=
  C78_refuted_task '-' 'x' [.word c!"todo:", .eol] c!"a" (.inl rfl) (by decide)
    ⟨word_check (by decide), (by show _ ≠ _; decide), trivial⟩ ⟨_, rfl, trivial⟩ (by decide)

/-- **C78, the part that holds** After a blank line the list is outside the paragraph. -/
theorem C78_partial (n : Nat) (is : List Inline) (e : Ending) (hn : 2 ≤ n) (hi : (Block.para is).Good fun s x => render s = .ok x)
    (he : e.Good fun s x => render s = .ok x) (hk : (∃ l, e = .bullets l) ∨ (∃ l, e = .ordered l) ∨ ∃ l, e = .tasks l) :
    render (inlineSrc is ++ times n '\n' ++ e.src) = .ok (elem c!"p" (inlineHtml is) ++ c!"\n" ++ e.html) := by
  have := C60_documents { before := 0, blocks := [(.para is, n)], ending := e } ⟨hi, he, .inr fun b hb => by
    have : b = (.para is, n) := by simpa using hb.symm
    subst this
    exact hn⟩
  rcases hk with ⟨l, rfl⟩ | ⟨l, rfl⟩ | ⟨l, rfl⟩ <;>
    simpa [Doc.src, Doc.html, docSrc, docHtml, Block.src, Block.html] using this

example : render c!"a\n\n1. b\n2. c" = .ok c!"<p>a</p>\n<ol>\n<li>\nb</li>\n<li>\nc</li>\n</ol>\n" :=
  C78_partial 2 [.word c!"a"] (.ordered [('1', c!"b", 1), ('2', c!"c", 0)]) (by decide) ⟨⟨word_check (by decide), trivial⟩, ⟨_, rfl, trivial⟩⟩
    ⟨by decide, by decide, by decide⟩ (.inr (.inl ⟨_, rfl⟩))

/-! ### C79 List numbers of several digits -/

/-- **C79, negated** The first digit is text, the second starts a list inside the paragraph. -/
theorem C79_refuted : render c!"10. a" = .ok c!"<p>1<ol>\n<li>\na</li>\n</p>\n</ol>\n" := by
  decide +kernel

/-- So it is with every number of two digits or more. -/
theorem C79_refuted_always (ds : Str) (d : Char) (t : Str) (hne : ds ≠ []) (hds : ∀ x ∈ d :: ds, x ∈ c!"0123456789") (hn : '\n' ∉ t) :
    render (ds ++ d :: '.' :: ' ' :: t) = .ok (c!"<p>" ++ ds ++ c!"<ol>\n<li>\n" ++ escape t ++ c!"</li>\n</p>\n</ol>\n") := by
  have e1 : ∀ ds : Str, inlineSrc (ds.map Inline.digit) = ds := by
    intro ds; induction ds with
    | nil => rfl
    | cons a ds ih => simpa [inlineSrc, Inline.src] using ih
  have e2 : ∀ ds : Str, inlineHtml (ds.map Inline.digit) = ds := by
    intro ds; induction ds with
    | nil => rfl
    | cons a ds ih => simpa [inlineHtml, Inline.html] using ih
  have hdot : ∀ x ∈ c!"0123456789", x ≠ '.' := by decide
  have hg : ∀ ds : Str, (∀ x ∈ d :: ds, x ∈ c!"0123456789") → InlineGood (some d) (ds.map Inline.digit) := by
    intro ds; induction ds with
    | nil => intro _; trivial
    | cons a ds ih =>
      intro h
      refine ⟨⟨h a (by simp), ?_⟩, ih fun x hx => h x (by rcases List.mem_cons.mp hx with rfl | hx <;> simp_all)⟩
      rw [e1]
      cases ds with
      | nil => simpa using hdot d (h d (by simp))
      | cons b ds => simpa using hdot b (h b (by simp))
  obtain ⟨a, ds', rfl⟩ : ∃ a ds', ds = a :: ds' := by cases ds with | nil => exact absurd rfl hne | cons a b => exact ⟨a, b, rfl⟩
  have := C78_refuted_ordered d ((a :: ds').map Inline.digit) t (hds d (by simp)) (hg _ hds) ⟨_, rfl, trivial⟩ hn
  rwa [e1, e2] at this

example : render c!"2024. A year" = .ok c!"<p>202<ol>\n<li>\nA year</li>\n</p>\n</ol>\n" :=
  C79_refuted_always c!"202" '4' c!"A year" (by decide) (by decide) (by decide)

/-! ### C80 Images in paragraphs -/

/-- **C80, negated** An image in a paragraph has a paragraph of its own inside it. -/
theorem C80_refuted : render c!"a ![b](http:c)" =
    .ok c!"<p>a<p><img src=\"c\" alt=\"b\" referrerpolicy=\"no-referrer\"></p></p>\n" := by
  decide +kernel

/-- So it is with every image between running text. -/
theorem C80_refuted_always (is js : List Inline) (text target : Str) (hi : InlineGood (some '!') is) (hv : ∃ i, is.head? = some i ∧ i.Visible)
    (hj : InlineGood none js) (h : (Block.image text target).Good fun s x => render s = .ok x) :
    render (inlineSrc is ++ ((Block.image text target).src ++ inlineSrc js)) =
      .ok (elem c!"p" (inlineHtml is ++ (Block.image text target).html ++ inlineHtml js) ++ c!"\n") := by
  obtain ⟨h1, h2, h3⟩ := h
  obtain ⟨u, hu, _, _, _, hc⟩ := plainTarget_ok h2
  obtain ⟨t2, hl2, ha2, _⟩ := inlines_sem hj
  have l2 := hl2 self [] [] [] hj LexTo.nil
  rw [List.append_nil, List.append_nil] at l2
  have hl := LexTo.image h1 (target_chars h2).1 (target_chars h2).2.1 hu l2
  have hp := parseToks_two (parseToks_one (parseTok_image_inP self u.content text (c!"<p>" ++ inlineHtml is))) (ha2 self _ false)
  have := render_inlines_then (s := (Block.image text target).src ++ inlineSrc js) (by simpa [Block.src] using hi) hv hl hp
  rw [this, finish_inP, hc, image_html h2 h3]
  simp [elem]

example : render c!"a ![b](http:c) d" = .ok c!"<p>a<p><img src=\"c\" alt=\"b\" referrerpolicy=\"no-referrer\"></p>d</p>\n" :=
  C80_refuted_always [.word c!"a", .space 1] [.space 1, .word c!"d"] c!"b" c!"http:c"
    ⟨word_check (by decide), ⟨by decide, by decide, by decide, by decide⟩, trivial⟩ ⟨_, rfl, trivial⟩
    ⟨⟨by decide, by decide, by decide, by decide⟩, word_check (by decide), trivial⟩
    ⟨by decide, target_check c!"http" c!"c" (by decide) (by decide), by decide⟩

/-! ### C81 Carriage returns -/

/-- **C81, negated** Blank lines that end with carriage return and line feed do not separate paragraphs. -/
theorem C81_refuted : render c!"a\r\n\r\nb" = .ok c!"<p>ab</p>\n" := by
  decide +kernel

/-- However many there are, and whatever running text stands around them. -/
theorem C81_refuted_always (k : Nat) (is js : List Inline) (hk : 1 ≤ k) (hi : InlineGood (some '\r') is) (hj : InlineGood none js)
    (hv : ∃ i, is.head? = some i ∧ i.Visible) (hnl : (inlineSrc js).head? ≠ some '\n') :
    render (inlineSrc is ++ (List.replicate k c!"\r\n").flatten ++ inlineSrc js) =
      .ok (elem c!"p" (inlineHtml is ++ inlineHtml js) ++ c!"\n") := by
  refine render_blank_between (s := (List.replicate k c!"\r\n").flatten) ?_ hj hv (adds_crlf k) fun ts hts => LexTo.crlf k hnl hts
  obtain ⟨m, rfl⟩ : ∃ m, k = m + 1 := ⟨k - 1, by omega⟩
  exact hi

example : render c!"one\r\n\r\n\r\n*two*" = .ok c!"<p>one<em>two</em></p>\n" :=
  C81_refuted_always 3 [.word c!"one"] [.em '*' c!"two"] (by decide) ⟨word_check (by decide), trivial⟩
    ⟨⟨.inl rfl, ⟨_, _, rfl, by decide⟩, by decide, by decide⟩, trivial⟩ ⟨_, rfl, trivial⟩ (by decide)

/-! ### C82 Underlined headings -/

/-- **C82, negated** A line of hyphens under a text is a thematic break inside the paragraph. -/
theorem C82_refuted : render c!"Title\n---" = .ok c!"<p>Title<hr />\n</p>\n" := by
  decide +kernel

/-- So it is under all running text. -/
theorem C82_refuted_always (n : Nat) (is : List Inline) (hn : 3 ≤ n) (hi : InlineGood (some '\n') is) (hv : ∃ i, is.head? = some i ∧ i.Visible) :
    render (inlineSrc is ++ '\n' :: times n '-') = .ok (elem c!"p" (inlineHtml is ++ c!"<hr />\n") ++ c!"\n") := by
  have h0 : (times n '-').head? ≠ some '\n' := by
    obtain ⟨u, hu⟩ := times_head (c := '-') (n := n) (by omega) []
    rw [List.append_nil] at hu
    rw [hu]; simp
  have hl : LexTo self [] (times n '-') [.horizontalRule] := by
    have := LexTo.rule (r := self) (ig := []) (rest := []) (n := n) (c := '-') (.inl ⟨.inl rfl, hn⟩) (.inl rfl) LexTo.nil
    rwa [List.append_nil] at this
  have := render_inlines_then (s := '\n' :: times n '-') hi hv (LexTo.gap (n := 1) (by omega) h0 hl)
    (parseToks_cons (parseTok_blank self _ (by decide)) (parseToks_one (parseTok_rule_inP self _)))
  rw [this, finish_inP]
  simp [elem]

example : render c!"*a* b\n-----" = .ok c!"<p><em>a</em>b<hr />\n</p>\n" :=
  C82_refuted_always 5 [.em '*' c!"a", .space 1, .word c!"b"] (by decide)
    ⟨⟨.inl rfl, ⟨_, _, rfl, by decide⟩, by decide, by decide⟩, ⟨by decide, by decide, by decide, by decide⟩, word_check (by decide), trivial⟩ ⟨_, rfl, trivial⟩

/-- A line of equal signs under a text is shown as text. -/
theorem C82_refuted_equals (n : Nat) (is : List Inline) (hn : 1 ≤ n) (hi : InlineGood (some '\n') is) (hv : ∃ i, is.head? = some i ∧ i.Visible) :
    render (inlineSrc is ++ '\n' :: times n '=') = .ok (elem c!"p" (inlineHtml is ++ times n '=') ++ c!"\n") := by
  have hw : Word (times n '=') := ⟨by
    obtain ⟨u, hu⟩ := times_head (c := '=') hn []
    rw [List.append_nil] at hu
    simp [hu], fun c hc => by rw [List.eq_of_mem_replicate hc]; decide⟩
  have h0 : (times n '=').head? = some '=' := by
    obtain ⟨u, hu⟩ := times_head (c := '=') hn []
    rw [List.append_nil] at hu
    rw [hu]; rfl
  have := render_blank_between (is := is) (js := [.word (times n '=')]) (s := c!"\n") (toks := [.plaintext c!"\n"]) hi ⟨hw, trivial⟩ hv
    (adds_cons (fun r h c => parseTok_blank r _ (by decide)) adds_nil) (by
      intro ts hts
      have h1 : inlineSrc [.word (times n '=')] = times n '=' := by simp [inlineSrc, Inline.src]
      have := LexTo.gap (n := 1) (by omega) (by rw [h1, h0]; decide) hts
      simpa [gapTok] using this)
  have h1 : inlineSrc [.word (times n '=')] = times n '=' := by simp [inlineSrc, Inline.src]
  have h2 : inlineHtml [.word (times n '=')] = times n '=' := by simpa [inlineHtml, Inline.html] using escape_times (c := '=') (by decide)
  rw [h1, h2] at this
  simpa using this

example : render c!"a\n===" = .ok c!"<p>a===</p>\n" :=
  C82_refuted_equals 3 [.word c!"a"] (by decide) ⟨word_check (by decide), trivial⟩ ⟨_, rfl, trivial⟩

/-! ### C83 A tab between words -/

/-- **C83, negated** What follows a tab in a line is code, which ends after the paragraph does. -/
theorem C83_refuted : render c!"a\tb" = .ok c!"<p>a<pre><code>b</p>\n</code></pre>" := by
  decide +kernel

/-- So it is after all running text. -/
theorem C83_refuted_always (is : List Inline) (t : Str) (hi : InlineGood (some '\t') is) (hv : ∃ i, is.head? = some i ∧ i.Visible)
    (hn : '\n' ∉ t) (h1 : t.head? ≠ some ' ') (h2 : t.head? ≠ some '\t') :
    render (inlineSrc is ++ '\t' :: t) = .ok (c!"<p>" ++ inlineHtml is ++ c!"<pre><code>" ++ escape t ++ c!"</p>\n</code></pre>") := by
  have hu := untilTail_none (p := c!"\n") (s := t) (by simp) (fun h => hn (infix_single h))
  have hl : LexTo self [] (c!"\t" ++ t) [.code t] := by
    have := LexTo.indented (r := self) (ig := []) (ts := []) (p := c!"\t") (show _ ∨ _ ∨ _ from .inl rfl) h1 h2 (fun e => hn (List.mem_of_mem_head? e)) (by
      intro e; cases e) (by rw [hu]; exact LexTo.nil)
    rwa [hu] at this
  have := render_inlines_then (s := '\t' :: t) hi hv hl (parseToks_one (parseTok_code_inP self t _))
  rw [this, finish_code_inP]

example : render c!"key\tvalue *x*" = .ok c!"<p>key<pre><code>value *x*</p>\n</code></pre>" :=
  C83_refuted_always [.word c!"key"] c!"value *x*" ⟨word_check (by decide), trivial⟩ ⟨_, rfl, trivial⟩ (by decide) (by decide) (by decide)

/-! ### C84 Markup after a vertical bar -/

/-- **C84, negated** In a line with a vertical bar, what follows the bar is not interpreted. -/
theorem C84_refuted : render c!"a | *b*" = .ok c!"<p>a&mid; *b*</p>\n" := by
  decide +kernel

/-- Nothing in the rest of the line is interpreted; on the other hand nothing is lost. -/
theorem C84_refuted_always (is : List Inline) (t : Str) (hi : InlineGood (some '|') is) (hv : is = [] ∨ ∃ i, is.head? = some i ∧ i.Visible)
    (hn : '\n' ∉ t) (hb : '[' ∉ t) :
    render (inlineSrc is ++ '|' :: t) = .ok (elem c!"p" (inlineHtml is ++ escape ('|' :: t)) ++ c!"\n") :=
  render_inlines_token hi hv (fun last => pipe_line hn last)
    (shows_plain (shown_of_chars (c := '|') (by simp) (by decide) (by simp [hn]) (.inl (by simp [hb]))))

example : render c!"true || **false** `x`" = .ok c!"<p>true&mid;&mid; **false** `x`</p>\n" :=
  C84_refuted_always [.word c!"true", .space 1] c!"| **false** `x`" ⟨word_check (by decide), ⟨by decide, by decide, by decide, by decide⟩, trivial⟩
    (.inr ⟨_, rfl, trivial⟩) (by decide) (by decide)

/-! ### C85 Tables with an empty cell -/

/-- **C85, negated** A table is lost if its first row has an empty cell. -/
theorem C85_refuted : render c!"|a|b|\n|-|-|\n||c|" = .ok c!"\n" := by
  decide +kernel

/-- Every table with one row is lost if a cell of the row is empty. -/
theorem C85_refuted_always (head delims cells : List Str) (hh : ∀ x ∈ head ++ delims, x ≠ [] ∧ '|' ∉ x ∧ '\n' ∉ x)
    (hc : ∀ x ∈ cells, x = [] ∨ ∃ c : Cell, c.Good ∧ x = c.src) (he : [] ∈ cells)
    (h1 : delims.length = head.length) (h2 : cells.length = head.length) :
    render (rowSrc head ++ c!"\n" ++ rowSrc delims ++ c!"\n" ++ rowSrc cells) = .ok c!"\n" := by
  obtain ⟨tok, h3, h4⟩ := table_empty hh hc he h1 h2
  have h := render_of (LexTo.cons (s' := []) (fun last => h3 last) LexTo.nil) (parseToks_one (h4 []))
  rw [h]
  rfl

example : render c!"|a|b|\n|:-|-|\n|*x*||" = .ok c!"\n" :=
  C85_refuted_always [c!"a", c!"b"] [c!":-", c!"-"] [c!"*x*", []] (by decide) (fun x hx => by
    simp only [List.mem_cons, List.not_mem_nil, or_false] at hx
    rcases hx with rfl | rfl
    · exact .inr ⟨⟨0, [.em '*' c!"x"], 0⟩, ⟨by decide, by decide, ⟨⟨.inl rfl, ⟨_, _, rfl, by decide⟩, by decide, by decide⟩, trivial⟩, by simp [Inline.isLink],
        .inr ⟨⟨_, rfl, trivial⟩, ⟨_, rfl, trivial⟩⟩⟩, rfl⟩
    · exact .inl rfl) (by decide) rfl rfl

/-! ### C86 Code and links in cells -/

/-- **C86, negated** Text in front of a link in a cell is shown twice. -/
theorem C86_refuted : ∃ html, render c!"|a|\n|-|\n|Jo [d](http:e)|" = .ok html ∧ c!">Jo <p>Jo<a href=\"http:e\">d</a></p>\n</td>" <:+: html :=
  render_check _ (fun html => c!">Jo <p>Jo<a href=\"http:e\">d</a></p>\n</td>" <:+: html) (by decide +kernel)

/-- Text next to code in a cell is shown twice, once of them as code. -/
theorem C86_refuted_code : ∃ html, render c!"|a|\n|-|\n|`x` y|" = .ok html ∧ c!"><pre><code>x<p>y</p>\n</code></pre> y</td>" <:+: html :=
  render_check _ (fun html => c!"><pre><code>x<p>y</p>\n</code></pre> y</td>" <:+: html) (by decide +kernel)

/-! ### C87 Footnotes are numbered -/

/-- A reference to the footnote `id` with a number. -/
def refHtml (number id : Str) : Str :=
  c!"<sup id=\"fnref:" ++ escape id ++ c!"\" role=\"doc-noteref\"><a href=\"#fn:" ++ escape id ++
    c!"\" class=\"footnote\" rel=\"footnote\">" ++ number ++ c!"</a></sup>"

/-- **C87, negated** All references have the number 1, wherever they stand and whatever their names. -/
theorem C87_refuted_always (is js ks : List Inline) (a b : Str) (h : InlineGood none (is ++ .noteRef a :: (js ++ .noteRef b :: ks)))
    (hv : ∃ i, (is ++ .noteRef a :: (js ++ .noteRef b :: ks)).head? = some i ∧ i.Visible) :
    render (inlineSrc (is ++ .noteRef a :: (js ++ .noteRef b :: ks))) =
      .ok (elem c!"p" (inlineHtml is ++ refHtml c!"1" a ++ inlineHtml js ++ refHtml c!"1" b ++ inlineHtml ks) ++ c!"\n") := by
  have e : ∀ x, (Inline.noteRef x).html = refHtml c!"1" x := fun x => by
    simp only [Inline.html, refHtml, List.append_assoc, List.cons_append, List.nil_append]
  rw [render_inlines h hv]
  simp [inlineHtml, e, elem]

theorem C87_refuted : render c!"x[^a]y[^b]" = .ok (c!"<p>x<sup id=\"fnref:a\" role=\"doc-noteref\"><a href=\"#fn:a\" class=\"footnote\" " ++
    c!"rel=\"footnote\">1</a></sup>y<sup id=\"fnref:b\" role=\"doc-noteref\"><a href=\"#fn:b\" class=\"footnote\" rel=\"footnote\">1</a></sup></p>\n") :=
  C87_refuted_always [.word c!"x"] [.word c!"y"] [] c!"a" c!"b"
    ⟨word_check (by decide), ⟨⟨by decide, by decide⟩, by decide, by decide⟩, word_check (by decide), ⟨⟨by decide, by decide⟩, by decide, by decide⟩, trivial⟩
    ⟨_, rfl, trivial⟩

/-! ### C88 A quote ends before a heading -/

/-- **C88, negated** A heading after a quote and a blank line is inside the quote. -/
theorem C88_refuted : render c!"> a\n\n# b" = .ok c!"<blockquote>\n<p>a</p>\n<h1>b</h1>\n</blockquote>\n" := by
  decide +kernel

/-- So is every heading after every quote. -/
theorem C88_refuted_always (lines : List (QuoteLine × Str)) (n : Nat) (is : List Inline) (hne : lines ≠ []) (hends : ∀ l ∈ lines, 1 ≤ l.1.ends)
    (hok : ∀ l ∈ lines, l.1.Good ∧ ∃ x, render (escape l.1.text) = .ok x ∧ l.2 = detab x)
    (h : (Block.heading n is).Good fun s x => render s = .ok x) :
    render ((lines.flatMap fun l => l.1.src) ++ (times n '#' ++ ' ' :: inlineSrc is)) =
      .ok (quoteHtml 0 lines ++ (elem ('h' :: dec n) (inlineHtml is) ++ c!"\n") ++ copies (quoteEnd 0 lines) c!"</blockquote>\n") := by
  obtain ⟨h1, h6, hg, hn, hh, hvj, hlast⟩ := h
  have he := head_ends hg hvj
  have hl := last_ends hg hlast
  have hd := LexTo.heading (r := self) h1 h6 hn hh ⟨he.1, hl.1⟩ ⟨he.2, hl.2⟩ (rest := []) (.inl rfl)
    (renderIgnore_inlines ['#'] (inlineGood_none hg) hvj) LexTo.nil
  rw [List.append_nil] at hd
  obtain ⟨toks, h7, h8⟩ := quotes_sem (r := self) lines 0 hok fun l hl => hends l (List.mem_of_mem_dropLast hl)
  have hhead : (times n '#' ++ ' ' :: inlineSrc is).head? ≠ some '\n' := by
    obtain ⟨u, hu⟩ := times_head (c := '#') h1 (' ' :: inlineSrc is)
    rw [hu]; simp
  have hq : 1 ≤ quoteEnd 0 lines := by
    rcases List.eq_nil_or_concat lines with rfl | ⟨a, x, rfl⟩
    · exact absurd rfl hne
    · have := (hok x (by simp)).1.level.1
      simpa [quoteEnd] using this
  have hp := parseToks_two (h8 []) (parseToks_one (parseTok_header_inQ self n (inlineHtml is) _ _))
  rw [render_of (h7 [] _ _ hhead (.inr hends) hd) hp, finish_inQ _ _ (.inr hq)]
  simp

example : render c!"> a\n>> b\n\n## *c*" =
    .ok c!"<blockquote>\n<p>a</p>\n<blockquote>\n<p>b</p>\n<h2><em>c</em></h2>\n</blockquote>\n</blockquote>\n" :=
  C88_refuted_always [(⟨1, 1, c!"a", 1⟩, c!"<p>a</p>\n"), (⟨2, 1, c!"b", 2⟩, c!"<p>b</p>\n")] 2 [.em '*' c!"c"] (by decide) (by decide) (by
    intro l hl
    simp only [List.mem_cons, List.not_mem_nil, or_false] at hl
    rcases hl with rfl | rfl
    · exact ⟨⟨by decide, by decide, by decide, by decide⟩, c!"<p>a</p>\n", by decide +kernel, by decide⟩
    · exact ⟨⟨by decide, by decide, by decide, by decide⟩, c!"<p>b</p>\n", by decide +kernel, by decide⟩)
    ⟨by decide, by decide, ⟨⟨.inl rfl, ⟨_, _, rfl, by decide⟩, by decide, by decide⟩, trivial⟩, by decide, by decide, ⟨_, rfl, trivial⟩, ⟨_, rfl, trivial⟩⟩

/-! ### C89 Markup in ordered and task lists -/

/-- **C89, negated** Emphasis in an entry of an ordered list is shown with its markers. -/
theorem C89_refuted : render c!"1. *a*" = .ok c!"<ol>\n<li>\n*a*</li>\n</ol>\n" := by
  decide +kernel

/-- The text of an entry is never interpreted, and the number is lost. -/
theorem C89_refuted_always (d : Char) (t : Str) (hd : d ∈ c!"0123456789") (ht : '\n' ∉ t) :
    render (d :: '.' :: ' ' :: t) = .ok (c!"<ol>\n<li>\n" ++ escape t ++ c!"</li>\n</ol>\n") := by
  have := C29_ordered 0 [(d, t, 0)] (by simp) (by simpa using hd) (by simpa using ht) (by simp)
  simpa using this

example : render c!"7. [a](http:b)" = .ok c!"<ol>\n<li>\n&lbrack;a&rbrack;&#40;http:b&#41;</li>\n</ol>\n" :=
  C89_refuted_always '7' c!"[a](http:b)" (by decide) (by decide)

/-- Nor is the text of a task. -/
theorem C89_refuted_task (c x : Char) (t : Str) (hc : c = '-' ∨ c = '+') (hx : x ∈ c!" xX") (ht : '\n' ∉ t) :
    render (c :: ' ' :: '[' :: x :: ']' :: ' ' :: t) = .ok (c!"<ul class=\"contains-task-list\">" ++ taskHtml (decide (x ≠ ' ')) t ++ c!"</ul>\n") := by
  have := C30_tasks 0 [(c, x, t, 0)] (by simp) (by simpa using hc) (by simpa using hx) (by simpa using ht) (by simp)
  simpa using this

example : render c!"- [ ] *a*" =
    .ok c!"<ul class=\"contains-task-list\"><li class=\"task-list-item\"><input type=\"checkbox\" class=\"task-list-item-checkbox\">*a*</li></ul>\n" :=
  C89_refuted_task '-' ' ' c!"*a*" (.inl rfl) (by decide) (by decide)

/-! ### C90 The first number of an ordered list -/

/-- **C90, negated** Lists that start with different numbers look the same. -/
theorem C90_refuted_always (d e : Char) (t : Str) (hd : d ∈ c!"0123456789") (he : e ∈ c!"0123456789") (ht : '\n' ∉ t) :
    render (d :: '.' :: ' ' :: t) = render (e :: '.' :: ' ' :: t) := by
  rw [C89_refuted_always d t hd ht, C89_refuted_always e t he ht]

theorem C90_refuted : render c!"1. a" = render c!"5. a" := C90_refuted_always _ _ _ (by decide) (by decide) (by decide)

/-! ### C91 Character references -/

/-- **C91, negated** A character reference is shown as it is written. -/
theorem C91_refuted : render c!"&copy;" = .ok c!"<p>&amp;copy;</p>\n" := by
  decide +kernel

/-- So it is with every name. -/
theorem C91_refuted_always (name : Str) (h : ∀ c ∈ name, c.isAlpha = true) :
    render ('&' :: name ++ c!";") = .ok (c!"<p>&amp;" ++ name ++ c!";</p>\n") := by
  have hc : ∀ c ∈ name, c ∉ controlChars ∧ isWs c = false ∧ c ∉ escSpecial := fun c hc => alpha_plain (h c hc)
  have hw : Word ('&' :: name ++ c!";") := ⟨by simp, by
    intro c hm
    simp only [List.cons_append, List.mem_cons, List.mem_append, List.not_mem_nil, or_false] at hm
    rcases hm with rfl | hm | rfl
    · decide
    · exact ⟨(hc c hm).1, (hc c hm).2.1⟩
    · decide⟩
  rw [C24_word _ hw, escape_append, escape_cons, escape_other fun c hm => (hc c hm).2.2]
  simp [elem, show escape ['&'] = c!"&amp;" from rfl, show escape [';'] = c!";" from rfl]

example : render c!"&nbsp;" = .ok c!"<p>&amp;nbsp;</p>\n" := C91_refuted_always c!"nbsp" (by decide)

/-! ### C92 Lists of different kinds -/

/-- **C92, negated** Of two lists of different kinds the second is inside the first, and the first is closed first. -/
theorem C92_refuted : render c!"- a\n\n1. b" = .ok c!"<ul>\n<li>\n<p>a</p>\n</li>\n<ol>\n<li>\nb</li>\n</ul></ol>\n" := by
  decide +kernel

/-- So it is for all lists. -/
theorem C92_refuted_always (items : List (Char × Str × Nat × Str)) (nums : List (Char × Str × Nat)) (hne : items ≠ []) (hne' : nums ≠ [])
    (hmark : ∀ i ∈ items, i.1 = '-' ∨ i.1 = '+' ∨ i.1 = '*') (hline : ∀ i ∈ items, '\n' ∉ i.2.1)
    (hstart : ∀ i ∈ items, i.2.1.head? ≠ some ' ' ∧ i.2.1.head? ≠ some '\t' ∧ ∀ x ∈ c!" xX", ¬ ['[', x, ']', ' '] <+: i.2.1)
    (hgap : ∀ i ∈ items, 1 ≤ i.2.2.1) (hrender : ∀ i ∈ items, render i.2.1 = .ok i.2.2.2)
    (hcode : ∀ i ∈ items, ¬ c!"<pre><code>" <:+: i.2.2.2)
    (hnums : ∀ i ∈ nums, i.1 ∈ c!"0123456789" ∧ '\n' ∉ i.2.1) (hgap' : ∀ i ∈ nums.dropLast, 1 ≤ i.2.2) :
    render ((items.flatMap fun i => i.1 :: ' ' :: i.2.1 ++ times i.2.2.1 '\n') ++
        nums.flatMap fun i => i.1 :: '.' :: ' ' :: i.2.1 ++ times i.2.2 '\n') =
      .ok (c!"<ul>\n" ++ (items.flatMap fun i => c!"<li>\n" ++ i.2.2.2 ++ c!"</li>\n") ++ c!"<ol>\n" ++
        (nums.flatMap fun i => c!"<li>\n" ++ escape i.2.1 ++ c!"</li>\n") ++ c!"</ul></ol>\n") := by
  obtain ⟨tsR, h1, h2⟩ := ordered_inUl self [] nums hnums hgap'
  have hR : NextLine (nums.flatMap fun i => i.1 :: '.' :: ' ' :: i.2.1 ++ times i.2.2 '\n') := by
    cases nums with
    | nil => exact absurd rfl hne'
    | cons i is =>
      have := (hnums i (by simp)).1
      rw [List.flatMap_cons]
      refine ⟨?_, ?_, ?_⟩ <;>
        · intro e
          simp at e
          rw [e] at this
          revert this; decide
  obtain ⟨_, toks, h3, _, h4⟩ := bullets_then self [] hR h1 items
    (fun i hi => ⟨⟨hmark i hi, hline i hi, (hstart i hi).1, (hstart i hi).2.1, (hstart i hi).2.2⟩, hrender i hi, hcode i hi⟩) hgap
  rw [render_of h3 (parseToks_two (h4 hne []) (h2 hne' _)), finish_ul_ol]
  simp

example : render c!"- a\n* b\n\n1. c\n2. d" =
    .ok c!"<ul>\n<li>\n<p>a</p>\n</li>\n<li>\n<p>b</p>\n</li>\n<ol>\n<li>\nc</li>\n<li>\nd</li>\n</ul></ol>\n" :=
  C92_refuted_always [('-', c!"a", 1, c!"<p>a</p>\n"), ('*', c!"b", 2, c!"<p>b</p>\n")] [('1', c!"c", 1), ('2', c!"d", 0)]
    (by decide) (by decide) (by decide) (by decide) (by decide) (by decide)
    (by
      intro i hi
      simp only [List.mem_cons, List.not_mem_nil, or_false] at hi
      rcases hi with rfl | rfl <;> decide +kernel)
    (by decide) (by decide) (by decide)

/-! ### C93 Bare addresses -/

/-- **C93, negated** An address in the text is not a link. -/
theorem C93_refuted : render c!"http://example.org" = .ok c!"<p>http://example.org</p>\n" := by
  decide +kernel

/-- Nor is any other. -/
theorem C93_refuted_always (rest : Str) (h : Word (c!"http://" ++ rest)) :
    render (c!"http://" ++ rest) = .ok (c!"<p>http://" ++ escape rest ++ c!"</p>\n") := by
  rw [C24_word _ h, escape_append, show escape c!"http://" = c!"http://" from escape_other (by decide)]
  simp [elem]

example : render c!"http://a.org/b?c=d&e" = .ok c!"<p>http://a.org/b?c=d&amp;e</p>\n" :=
  C93_refuted_always c!"a.org/b?c=d&e" (word_check (by decide))

/-! ### C94 Backslashes in code -/

/-- **C94, negated** A backslash in code is lost. -/
theorem C94_refuted : render c!"`a\\n`" = .ok c!"<pre><code>an\n</code></pre>" := by
  decide +kernel

/-- All backslashes are. -/
theorem C94_refuted_always (t : Str) (hne : ∃ c ∈ t, c ≠ '\\') (ht : '`' ∉ t) (hs : t.head? ≠ some ' ') (hs' : (t.filter (· ≠ '\\')).head? ≠ some ' ')
    (hn : '\n' ∉ t) : render (c!"`" ++ t ++ c!"`") = render (c!"`" ++ t.filter (· ≠ '\\') ++ c!"`") := by
  obtain ⟨c, hc, hb⟩ := hne
  rw [C32_single t (List.ne_nil_of_mem hc) ht (.inl hs) hn, C32_single _ (List.ne_nil_of_mem (a := c) (by simp [hc, hb])) (by simp [ht])
    (.inl hs') (by simp [hn])]
  simp [escape]

example : render c!"`\\d+\\\\s`" = render c!"`d+s`" :=
  C94_refuted_always c!"\\d+\\\\s" ⟨'d', by decide, by decide⟩ (by decide) (by decide) (by decide) (by decide)

/-! ### C95 Markers inside words and without a partner -/

/-- **C95, negated** Underscores inside a word emphasise. -/
theorem C95_refuted : render c!"snake_case_name" = .ok c!"<p>snake<em>case</em>name</p>\n" := by
  decide +kernel

/-- They do in all words. -/
theorem C95_refuted_always (m : Char) (u v w : Str) (hm : m = '*' ∨ m = '_') (hu : Word u) (hv : Word v) (hw : Word w) :
    render (u ++ m :: v ++ m :: w) = .ok (elem c!"p" (escape u ++ elem c!"em" (escape v) ++ escape w) ++ c!"\n") := by
  have hv' : Inline.EmText v := by
    obtain ⟨hne, hv⟩ := hv
    refine ⟨?_, fun h => (hv _ h).1 (by decide), fun h => (hv _ h).1 (by decide)⟩
    cases v with
    | nil => exact absurd rfl hne
    | cons c v =>
      refine ⟨c, v, rfl, fun h => (hv c (by simp)).1 ?_⟩
      simp only [List.mem_cons, List.not_mem_nil, or_false] at h
      rcases h with rfl | rfl | rfl <;> decide
  have := render_inlines (is := [.word u, .em m v, .word w]) ⟨hu, ⟨hm, hv'⟩, hw, trivial⟩ ⟨_, rfl, trivial⟩
  simpa [inlineSrc, inlineHtml, Inline.src, Inline.html] using this

example : render c!"a*b*c" = .ok c!"<p>a<em>b</em>c</p>\n" :=
  C95_refuted_always '*' c!"a" c!"b" c!"c" (.inl rfl) (word_check (by decide)) (word_check (by decide)) (word_check (by decide))

/-- A single marker without a partner emphasises everything after it. -/
theorem C95_refuted_open (m : Char) (is : List Inline) (t : Str) (hm : m = '*' ∨ m = '_') (hi : InlineGood (some m) is)
    (hv : is = [] ∨ ∃ i, is.head? = some i ∧ i.Visible) (ht : Inline.EmText t) :
    render (inlineSrc is ++ m :: t) = .ok (elem c!"p" (inlineHtml is ++ elem c!"em" (escape t)) ++ c!"\n") :=
  render_inlines_token hi hv (fun last => open_marker hm ht last) (shows_italic t)

example : render c!"5 *a b" = .ok c!"<p>5<em>a b</em></p>\n" :=
  C95_refuted_open '*' [.digit '5', .space 1] c!"a b" (.inl rfl) ⟨⟨by decide, by decide⟩, ⟨by decide, by decide, by decide, by decide⟩, trivial⟩
    (.inr ⟨_, rfl, trivial⟩) ⟨⟨_, _, rfl, by decide⟩, by decide, by decide⟩

/-! ### C96 Three asterisks -/

/-- **C96, negated** A line of three asterisks is text. -/
theorem C96_refuted : render c!"***" = .ok c!"<p>***</p>\n" := by
  decide +kernel

/-- Three underscores are, before all running text. -/
theorem C96_refuted_underscores : render c!"___" = .ok c!"<p>___</p>\n" := by
  decide +kernel

/-- Hyphens with spaces between them are nested lists. -/
theorem C96_refuted_spaces : render c!"- - -" =
    .ok c!"<ul>\n<li>\n<ul>\n<li>\n<ul>\n<li>\n\n</li>\n</ul>\n</li>\n</ul>\n</li>\n</ul>\n" := by
  decide +kernel

end Smd.Gfm
