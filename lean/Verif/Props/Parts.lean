import Verif.Lemmas.Parts
import Verif.Props.Contexts
import Verif.Props.Forms
import Verif.Props.Escape
import Verif.Props.Safety

/-!
What holds of properties that are false in general, and further negations (C67-C72, C79-C96).
-/

namespace Smd.Gfm
open Smd.Rs Smd.Spec

/-! ### C67 Text after inline code is not code -/

/-- **C67, the part that holds** A paragraph after a quote is outside the code in the quote, if the code has no characters
that are escaped. -/
theorem C67_partial (t : Str) (m : Nat) (is : List Inline) (hne : t ≠ []) (hc : ∀ c ∈ t, c ∉ c!"&<>\"'[]{}|\\~)(") (hb : '`' ∉ t)
    (hn : '\n' ∉ t) (ht : '\t' ∉ t) (hs : t.head? ≠ some ' ' ∨ t.getLast? ≠ some ' ') (hm : 1 ≤ m)
    (hi : (Block.para is).Good fun s x => render s = .ok x) :
    render (c!"> `" ++ t ++ c!"`" ++ times m '\n' ++ inlineSrc is) =
      .ok (c!"<blockquote>\n<pre><code>" ++ t ++ c!"\n</code></pre></blockquote><p>" ++ inlineHtml is ++ c!"</p>\n") := by
  have he : escape (c!"`" ++ t ++ c!"`") = c!"`" ++ t ++ c!"`" :=
    escape_other fun c h => by
      simp only [List.mem_append, List.mem_singleton] at h
      rcases h with (rfl | h) | rfl
      · decide
      · exact hc c h
      · decide
  have hr := C32_single t hne hb hs hn
  rw [escape_other hc] at hr
  have hd : '\t' ∉ elem c!"pre" (elem c!"code" (t ++ c!"\n")) := by
    simp [elem, ht]
  have := render_blocks [(.quoted [({ level := 1, spaces := 1, text := c!"`" ++ t ++ c!"`", ends := m },
        elem c!"pre" (elem c!"code" (t ++ c!"\n")))] is, 0)]
    ⟨⟨by simp, by simp, fun l hl => by
        rw [List.mem_singleton] at hl
        subst hl
        exact ⟨⟨⟨Nat.le_refl 1, Nat.le_of_ble_eq_true rfl⟩, Nat.le_refl 1, by simp [hn], by simp⟩, _, by rw [he]; exact hr, (detab_self hd).symm⟩⟩,
      fun l hl => by rw [List.mem_singleton] at hl; subst hl; exact hm, hi⟩ (by simp [docHtml, Block.html, ← List.append_assoc])
  simpa [docSrc, docHtml, Block.src, Block.html, Ending.src, QuoteLine.src, quoteHtml, quoteMove, quoteEnd, copies, elem] using this

example : render c!"> `ls -a`\n\nNow" = .ok c!"<blockquote>\n<pre><code>ls -a\n</code></pre></blockquote><p>Now</p>\n" :=
  C67_partial c!"ls -a" 2 [.word c!"Now"] (by decide) (by decide) (by decide) (by decide) (by decide) (.inl (by decide)) (by decide)
    ⟨⟨word_check (by decide), trivial⟩, ⟨_, rfl, trivial⟩⟩

/-! ### C68 Only a delimiter row is taken for one -/

/-- **C68, the part that holds** All lines of a table but the second are shown, whatever the second is. -/
theorem C68_partial (t : Table) (h : t.Good) : ∃ html, render t.src = .ok html ∧
    (∀ c ∈ t.head, c!">" ++ escape (trimmed c) ++ c!"</th>" <:+: html) ∧ ∀ r ∈ t.rows, ∀ c ∈ r, c!">" ++ c.html ++ c!"</td>" <:+: html := by
  refine ⟨_, C56_table t h, fun c hc => ?_, fun r hr c hc => ?_⟩
  · obtain ⟨d, hd⟩ := mem_zip_right h.same.1 c hc
    have hx : c!">" ++ escape (trimmed c) ++ c!"</th>" <:+:
        (t.delims.zip t.head).flatMap fun c => c!"\t\t<th style=\"text-align: " ++ alignOf c.1 ++ c!"\">" ++ escape (trimmed c.2) ++ c!"</th>" :=
      infix_flatMap hd ⟨c!"\t\t<th style=\"text-align: " ++ alignOf d ++ c!"\"", [], by simp⟩
    refine hx.trans ?_
    generalize List.flatMap _ (t.delims.zip t.head) = y
    exact ((((List.suffix_append _ y).isInfix.trans (List.prefix_append _ _).isInfix).trans (List.prefix_append _ _).isInfix).trans
      (List.prefix_append _ _).isInfix)
  · obtain ⟨d, hd⟩ := mem_zip_right (h.same.1.trans (h.same.2 r hr).symm) c hc
    have hx : c!">" ++ c.html ++ c!"</td>" <:+:
        (t.delims.zip r).flatMap fun c => c!"\n\t\t<td style=\"text-align: " ++ alignOf c.1 ++ c!"\">" ++ c.2.html ++ c!"</td>" :=
      infix_flatMap hd ⟨c!"\n\t\t<td style=\"text-align: " ++ alignOf d ++ c!"\"", [], by simp⟩
    have hy := infix_flatMap (f := fun r => c!"\n\t<tr>" ++
         ((t.delims.zip r).flatMap fun c => c!"\n\t\t<td style=\"text-align: " ++ alignOf c.1 ++ c!"\">" ++ c.2.html ++ c!"</td>") ++
         c!"\n\t</tr>") hr (hx.trans (infix_mid _ _ _))
    exact hy.trans (infix_mid _ _ _)

example : ∃ html, render sampleTable.src = .ok html ∧ c!">x y</td>" <:+: html ∧ c!">&lt;b&gt;</th>" <:+: html := by
  obtain ⟨html, e, h1, h2⟩ := C68_partial sampleTable sampleTable_good
  refine ⟨html, e, ?_, ?_⟩
  · exact h2 _ (List.mem_cons_self ..) ⟨1, [.word c!"x", .space 1, .word c!"y"], 1⟩ (by simp)
  · exact h1 c!" <b> " (by simp [sampleTable])

/-! ### C69 A hyphen inside a word is text -/

/-- **C69, the part that holds** A hyphen or plus sign with a backslash before it, and two of them without, are shown. -/
theorem C69_partial (a b : Char) (is js : List Inline) (ha : a = '-' ∨ a = '+')
    (hv : ∀ i, is.head? = some i → i.Visible) :
    (InlineGood (some '\\') is → InlineGood none js →
      render (inlineSrc is ++ ['\\', a] ++ inlineSrc js) = .ok (elem c!"p" (inlineHtml is ++ [a] ++ inlineHtml js) ++ c!"\n")) ∧
    (InlineGood none (is ++ .dashes a b :: js) →
      render (inlineSrc is ++ [a, b] ++ inlineSrc js) = .ok (elem c!"p" (inlineHtml is ++ [a, b] ++ inlineHtml js) ++ c!"\n")) := by
  constructor
  · intro hi hj
    have := C36_partial a is js (by rcases ha with rfl | rfl <;> decide) (by rcases ha with rfl | rfl <;> decide)
      (by rcases ha with rfl | rfl <;> decide) hi hj hv
    rwa [show escape [a] = [a] by rcases ha with rfl | rfl <;> rfl] at this
  · intro hi
    have := render_inlines (is := is ++ .dashes a b :: js) hi (by
      cases is with
      | nil => exact ⟨_, rfl, trivial⟩
      | cons i is => exact ⟨i, rfl, hv i rfl⟩)
    simpa [inlineSrc, inlineHtml, Inline.src, Inline.html] using this

example : render c!"well\\-known" = .ok c!"<p>well-known</p>\n" :=
  (C69_partial '-' '-' [.word c!"well"] [.word c!"known"] (.inl rfl) (fun _ h => by cases h; trivial)).1
    ⟨word_check (by decide), trivial⟩ ⟨word_check (by decide), trivial⟩

example : render c!"see --x" = .ok c!"<p>see--x</p>\n" :=
  (C69_partial '-' '-' [.word c!"see", .space 1] [.word c!"x"] (.inl rfl) (fun _ h => by cases h; trivial)).2
    ⟨word_check (by decide), ⟨by decide, by decide, by decide, by decide⟩, ⟨.inl rfl, .inl rfl, by decide, by decide⟩, word_check (by decide), trivial⟩

/-! ### C70 Text after a list is outside of it -/

/-- Every paragraph that starts with two letters after every list is put into the list, which is closed after the first
letter, inside the paragraph. -/
theorem C70_refuted_always (l : Ending) (a b : Char) (is : List Inline) (h : (Block.listed l a b is).Good fun s x => render s = .ok x) :
    render (l.src ++ a :: b :: inlineSrc is) =
      .ok (l.opened ++ c!"<p>" ++ escape [a] ++ l.close ++ escape [b] ++ inlineHtml is ++ c!"</p>\n") := by
  have := render_blocks [(.listed l a b is, 0)] h (by simp [docHtml, Block.html, ← List.append_assoc])
  simpa [docSrc, docHtml, Block.src, Block.html, elem] using this

example : render c!"1. a\n\n\nDo *it*" = .ok c!"<ol>\n<li>\na</li>\n<p>D</ol>\no<em>it</em></p>\n" :=
  C70_refuted_always (.ordered [('1', c!"a", 3)]) 'D' 'o' [.space 1, .em '*' c!"it"]
    ⟨⟨by decide, by decide, by decide⟩, by intro i hi; rw [List.mem_singleton] at hi; subst hi; decide, word_check (by decide),
      ⟨by decide, by decide, by decide, by decide⟩, ⟨.inl rfl, ⟨_, _, rfl, by decide⟩, by decide, by decide⟩, trivial⟩

/-- **C70, the part that holds** A heading or a thematic break after a list comes after the closed list; it is wrapped in a
paragraph. -/
theorem C70_partial (l : Ending) (n : Nat) (c : Char) (is : List Inline) :
    ((Block.listedHeading l n is).Good (fun s x => render s = .ok x) → render (l.src ++ (times n '#' ++ c!" " ++ inlineSrc is)) =
      .ok (l.opened ++ l.close ++ c!"<p>" ++ elem ('h' :: dec n) (inlineHtml is) ++ c!"\n</p>\n")) ∧
    ((Block.listedRule l n c).Good (fun s x => render s = .ok x) → render (l.src ++ times n c) =
      .ok (l.opened ++ l.close ++ c!"<p><hr />\n</p>\n")) := by
  constructor
  · intro h
    have := render_blocks [(.listedHeading l n is, 0)] h (by simp [docHtml, Block.html, ← List.append_assoc])
    simpa [docSrc, docHtml, Block.src, Block.html, elem] using this
  · intro h
    have := render_blocks [(.listedRule l n c, 0)] h (by simp [docHtml, Block.html, ← List.append_assoc])
    simpa [docSrc, docHtml, Block.src, Block.html, elem] using this

example : render c!"1. a\n2. b\n----" = .ok c!"<ol>\n<li>\na</li>\n<li>\nb</li>\n</ol>\n<p><hr />\n</p>\n" :=
  (C70_partial (.ordered [('1', c!"a", 1), ('2', c!"b", 1)]) 4 '-' []).2
    ⟨⟨by decide, by decide, by decide⟩, by
      intro i hi
      simp only [List.mem_cons, List.not_mem_nil, or_false] at hi
      rcases hi with rfl | rfl <;> decide, .inl ⟨.inl rfl, by decide⟩⟩

/-! ### C80 Images in paragraphs -/

/-- **C80, the part that holds** An image between blank lines is a paragraph of its own; the text around it is in others. -/
theorem C80_partial (text target : Str) (is js : List Inline) (n m : Nat) (hn : 2 ≤ n) (hm : 1 ≤ m)
    (hi : (Block.para is).Good fun s x => render s = .ok x) (hj : (Block.para js).Good fun s x => render s = .ok x)
    (h : (Block.image text target).Good fun s x => render s = .ok x) :
    render (inlineSrc is ++ times n '\n' ++ c!"![" ++ text ++ c!"](" ++ target ++ c!")" ++ times m '\n' ++ inlineSrc js) =
      .ok (c!"<p>" ++ inlineHtml is ++ c!"</p>\n<p><img src=\"" ++ afterColon target ++ c!"\" alt=\"" ++ escape text ++
        c!"\" referrerpolicy=\"no-referrer\"></p><p>" ++ inlineHtml js ++ c!"</p>\n") := by
  have := render_blocks [(.para is, n), (.image text target, m), (.para js, 0)] ⟨hi, hn, h, hm, hj⟩
    (by simp [docHtml, Block.html, ← List.append_assoc, List.getLast?_cons])
  simpa [docSrc, docHtml, Block.src, Block.html, elem] using this

example : render c!"a\n\n![b](http:c)\n\nd" =
    .ok c!"<p>a</p>\n<p><img src=\"c\" alt=\"b\" referrerpolicy=\"no-referrer\"></p><p>d</p>\n" :=
  C80_partial c!"b" c!"http:c" [.word c!"a"] [.word c!"d"] 2 2 (by decide) (by decide) ⟨⟨word_check (by decide), trivial⟩, ⟨_, rfl, trivial⟩⟩
    ⟨⟨word_check (by decide), trivial⟩, ⟨_, rfl, trivial⟩⟩
    ⟨by decide, target_check c!"http" c!"c" (by decide) (by decide), by decide⟩

/-! ### C81 Carriage returns -/

/-- **C81, the part that holds** Two line feeds or more separate paragraphs. -/
theorem C81_partial (n : Nat) (is js : List Inline) (hn : 2 ≤ n) (hi : (Block.para is).Good fun s x => render s = .ok x)
    (hj : (Block.para js).Good fun s x => render s = .ok x) :
    render (inlineSrc is ++ times n '\n' ++ inlineSrc js) = .ok (c!"<p>" ++ inlineHtml is ++ c!"</p>\n<p>" ++ inlineHtml js ++ c!"</p>\n") := by
  have := render_blocks [(.para is, n), (.para js, 0)] ⟨hi, hn, hj⟩ (by simp [docHtml, Block.html, ← List.append_assoc])
  simpa [docSrc, docHtml, Block.src, Block.html, elem] using this

example : render c!"a\n\n*b*" = .ok c!"<p>a</p>\n<p><em>b</em></p>\n" :=
  C81_partial 2 [.word c!"a"] [.em '*' c!"b"] (by decide) ⟨⟨word_check (by decide), trivial⟩, ⟨_, rfl, trivial⟩⟩
    ⟨⟨⟨.inl rfl, ⟨_, _, rfl, by decide⟩, by decide, by decide⟩, trivial⟩, ⟨_, rfl, trivial⟩⟩

/-! ### C84 Markup after a vertical bar -/

/-- **C84, the part that holds** It is if the bar has a backslash before it. -/
theorem C84_partial (is js : List Inline) (hi : InlineGood (some '\\') is) (hj : InlineGood none js) (hv : ∀ i, is.head? = some i → i.Visible) :
    render (inlineSrc is ++ c!"\\|" ++ inlineSrc js) = .ok (elem c!"p" (inlineHtml is ++ c!"&mid;" ++ inlineHtml js) ++ c!"\n") :=
  C36_partial '|' is js (by decide) (by decide) (by decide) hi hj hv

example : render c!"a \\| *b*" = .ok c!"<p>a&mid;<em>b</em></p>\n" :=
  C84_partial [.word c!"a", .space 1] [.space 1, .em '*' c!"b"]
    ⟨word_check (by decide), ⟨by decide, by decide, by decide, by decide⟩, trivial⟩
    ⟨⟨by decide, by decide, by decide, by decide⟩, ⟨.inl rfl, ⟨_, _, rfl, by decide⟩, by decide, by decide⟩, trivial⟩ (fun _ h => by cases h; trivial)

/-! ### C88 A quote ends before a heading -/

/-- **C88, the part that holds** A quote ends before a paragraph, even without a blank line. -/
theorem C88_partial (lines : List (QuoteLine × Str)) (is : List Inline) (hne : lines ≠ []) (hends : ∀ l ∈ lines, 1 ≤ l.1.ends)
    (hok : ∀ l ∈ lines, l.1.Good ∧ ∃ x, render (escape l.1.text) = .ok x ∧ l.2 = detab x)
    (h : (Block.para is).Good fun s x => render s = .ok x) :
    render ((lines.flatMap fun l => l.1.src) ++ inlineSrc is) =
      .ok (quoteHtml 0 lines ++ copies (quoteEnd 0 lines) c!"</blockquote>" ++ c!"<p>" ++ inlineHtml is ++ c!"</p>\n") := by
  have := render_blocks [(.quoted lines is, 0)] ⟨⟨hne, fun l hl => hends l (List.dropLast_subset _ hl), hok⟩, hends, h⟩
    (by simp [docHtml, Block.html, ← List.append_assoc])
  simpa [docSrc, docHtml, Block.src, Block.html, Ending.src, elem] using this

example : render c!"> a\n>> b\n\nc" =
    .ok c!"<blockquote>\n<p>a</p>\n<blockquote>\n<p>b</p>\n</blockquote></blockquote><p>c</p>\n" :=
  C88_partial [({ level := 1, spaces := 1, text := c!"a", ends := 1 }, c!"<p>a</p>\n"), ({ level := 2, spaces := 1, text := c!"b", ends := 2 }, c!"<p>b</p>\n")]
    [.word c!"c"] (by decide) (by decide) (by
      intro l hl
      simp only [List.mem_cons, List.not_mem_nil, or_false] at hl
      rcases hl with rfl | rfl
      · exact ⟨⟨by decide, by decide, by decide, by decide⟩, c!"<p>a</p>\n", by decide +kernel, by decide⟩
      · exact ⟨⟨by decide, by decide, by decide, by decide⟩, c!"<p>b</p>\n", by decide +kernel, by decide⟩)
    ⟨⟨word_check (by decide), trivial⟩, ⟨_, rfl, trivial⟩⟩

/-! ### C92 Lists of different kinds -/

/-- **C92, the part that holds** Two lists of any kinds with a heading between them are two lists. -/
theorem C92_partial (l e : Ending) (n m : Nat) (is : List Inline) (hm : 2 ≤ m)
    (h : (Block.listedHeading l n is).Good fun s x => render s = .ok x) (he : e.Good fun s x => render s = .ok x)
    (hk : (∃ i, e = .bullets i) ∨ (∃ i, e = .ordered i) ∨ ∃ i, e = .tasks i) :
    render (l.src ++ (times n '#' ++ c!" " ++ inlineSrc is) ++ times m '\n' ++ e.src) =
      .ok (l.opened ++ l.close ++ c!"<p>" ++ elem ('h' :: dec n) (inlineHtml is) ++ c!"\n</p>\n" ++ e.html) := by
  have := render_blocks_list [(.listedHeading l n is, m)] e h he hk fun b hb => by
    cases hb
    exact hm
  simpa [docSrc, docHtml, Block.src, Block.html, elem] using this

example : render c!"- [ ] a\n# b\n\n1. c" = .ok (c!"<ul class=\"contains-task-list\"><li class=\"task-list-item\"><input type=\"checkbox\" " ++
    c!"class=\"task-list-item-checkbox\">a</li></ul>\n<p><h1>b</h1>\n</p>\n<ol>\n<li>\nc</li>\n</ol>\n") :=
  C92_partial (.tasks [('-', ' ', c!"a", 1)]) (.ordered [('1', c!"c", 0)]) 1 2 [.word c!"b"] (by decide)
    ⟨⟨by decide, by decide, by decide⟩, by intro i hi; rw [List.mem_singleton] at hi; subst hi; decide,
      by decide, by decide, ⟨word_check (by decide), trivial⟩, by decide, by decide, ⟨_, rfl, trivial⟩, ⟨_, rfl, trivial⟩⟩
    ⟨by decide, by decide, by decide⟩ (.inr (.inl ⟨_, rfl⟩))

/-! ### C93 Bare addresses -/

/-- **C93, the part that holds** An address between angle brackets becomes a link, anywhere in running text. -/
theorem C93_partial (target : Str) (is js : List Inline) (hi : InlineGood none (is ++ .autolink target :: js))
    (hv : ∀ i, is.head? = some i → i.Visible) :
    render (inlineSrc is ++ c!"<" ++ target ++ c!">" ++ inlineSrc js) =
      .ok (elem c!"p" (inlineHtml is ++ c!"<a href=\"" ++ target ++ c!"\">" ++ target ++ c!"</a>" ++ inlineHtml js) ++ c!"\n") := by
  have := render_inlines (is := is ++ .autolink target :: js) hi (by
    cases is with
    | nil => exact ⟨_, rfl, trivial⟩
    | cons i is => exact ⟨i, rfl, hv i rfl⟩)
  simpa [inlineSrc, inlineHtml, Inline.src, Inline.html] using this

example : render c!"see <http://a.org/b>." = .ok c!"<p>see<a href=\"http://a.org/b\">http://a.org/b</a>.</p>\n" :=
  C93_partial c!"http://a.org/b" [.word c!"see", .space 1] [.word c!"."]
    ⟨word_check (by decide), ⟨by decide, by decide, by decide, by decide⟩, target_check c!"http" c!"//a.org/b" (by decide) (by decide),
      word_check (by decide), trivial⟩ (fun _ h => by cases h; trivial)

/-! ### C94 Backslashes in code -/

/-- **C94, the part that holds** Code without backslashes is shown as it is. -/
theorem C94_partial (t : Str) (hne : t ≠ []) (ht : '`' ∉ t) (hs : t.head? ≠ some ' ' ∨ t.getLast? ≠ some ' ') (hn : '\n' ∉ t) (hb : '\\' ∉ t) :
    ∃ x, render (c!"`" ++ t ++ c!"`") = .ok (c!"<pre><code>" ++ x ++ c!"\n</code></pre>") ∧ htmlDecode x = t := by
  refine ⟨escape t, by rw [C32_single t hne ht hs hn]; simp [elem], ?_⟩
  rw [← sanitize_eq_escape, C04_display_roundtrip, List.filter_eq_self]
  intro a ha
  simp only [ne_eq, decide_eq_true_eq]
  rintro rfl
  exact hb ha

example : ∃ x, render c!"`a < \"b\"`" = .ok (c!"<pre><code>" ++ x ++ c!"\n</code></pre>") ∧ htmlDecode x = c!"a < \"b\"" :=
  C94_partial c!"a < \"b\"" (by decide) (by decide) (.inl (by decide)) (by decide) (by decide)

/-! ### C95 Markers inside words and without a partner -/

/-- **C95, the part that holds** Two or three markers with another number of markers after them are text, behind any running
text. -/
theorem C95_partial (m : Char) (is : List Inline) (t : Str) (n k : Nat) (hm : m = '*' ∨ m = '_') (hi : InlineGood (some m) is)
    (hv : is = [] ∨ ∃ i, is.head? = some i ∧ i.Visible) (ht : Inline.EmText t) (hn : n = 2 ∨ n = 3) (hk : k ≠ n) (hnl : '\n' ∉ t) (hb : '[' ∉ t) :
    render (inlineSrc is ++ (times n m ++ t ++ times k m)) =
      .ok (elem c!"p" (inlineHtml is ++ (times n m ++ escape t ++ times k m)) ++ c!"\n") := by
  have hes : ∀ n, escape (times n m) = times n m := fun n => escape_other fun c hc => by
    rw [(List.mem_replicate.mp hc).2]
    rcases hm with rfl | rfl <;> decide
  obtain ⟨u, hu⟩ := times_head (c := m) (n := n) (by omega) (t ++ times k m)
  have hno : ∀ n, '\n' ∉ times n m ∧ '[' ∉ times n m := by
    intro n
    constructor <;> intro h <;> rcases hm with rfl | rfl <;> exact absurd (List.mem_replicate.mp h).2 (by decide)
  have := render_inlines_token (s := times n m ++ t ++ times k m) (is := is) (by rw [List.append_assoc, hu]; exact hi) hv
    (fun last => au_unmatched hm ht hn hk last)
    (shows_plain (shown_of_chars (c := m) (by rw [List.append_assoc, hu]; simp) (au_ws hm) (by simp [hno, hnl]) (.inl (by simp [hno, hb]))))
  rw [this, escape_append, escape_append, hes, hes]

example : render c!"see **a & b*" = .ok c!"<p>see**a &amp; b*</p>\n" :=
  C95_partial '*' [.word c!"see", .space 1] c!"a & b" 2 1 (.inl rfl)
    ⟨word_check (by decide), ⟨by decide, by decide, by decide, by decide⟩, trivial⟩ (.inr ⟨_, rfl, trivial⟩) ⟨⟨_, _, rfl, by decide⟩, by decide, by decide⟩
    (.inl rfl) (by decide) (by decide) (by decide)

/-! ### C96 Thematic breaks of three characters -/

/-- **C96, the part that holds** Three hyphens or more, and four asterisks or underscores or more, are a thematic break
between paragraphs. -/
theorem C96_partial (n k m : Nat) (c : Char) (is js : List Inline) (hn : 2 ≤ n) (hm : 1 ≤ m) (hk : c = '-' ∧ 3 ≤ k ∨ (c = '*' ∨ c = '_') ∧ 4 ≤ k)
    (hi : (Block.para is).Good fun s x => render s = .ok x) (hj : (Block.para js).Good fun s x => render s = .ok x) :
    render (inlineSrc is ++ times n '\n' ++ times k c ++ times m '\n' ++ inlineSrc js) =
      .ok (c!"<p>" ++ inlineHtml is ++ c!"</p>\n<hr />\n<p>" ++ inlineHtml js ++ c!"</p>\n") := by
  have := render_blocks [(.para is, n), (.rule k c, m), (.para js, 0)] ⟨hi, hn, hk.imp (fun h => ⟨.inl h.1, h.2⟩) id, hm, hj⟩
    (by simp [docHtml, Block.html, ← List.append_assoc, List.getLast?_cons])
  simpa [docSrc, docHtml, Block.src, Block.html, elem] using this

example : render c!"a\n\n****\nb" = .ok c!"<p>a</p>\n<hr />\n<p>b</p>\n" :=
  C96_partial 2 4 1 '*' [.word c!"a"] [.word c!"b"] (by decide) (by decide) (.inr ⟨.inl rfl, by decide⟩)
    ⟨⟨word_check (by decide), trivial⟩, ⟨_, rfl, trivial⟩⟩ ⟨⟨word_check (by decide), trivial⟩, ⟨_, rfl, trivial⟩⟩

/-! ### C79, C90 Numbers of ordered lists -/

/-- The number of one digit. -/
theorem dec_digit {i : Nat} (h : i ≤ 9) : ∃ c, dec i = [c] ∧ c ∈ c!"0123456789" := by
  have : ∀ i, i ≤ 9 → (dec i).length = 1 ∧ ∀ c ∈ dec i, c ∈ c!"0123456789" := by decide
  obtain ⟨h1, h2⟩ := this i h
  match hd : dec i, h1 with
  | [c], _ => exact ⟨c, rfl, h2 c (by simp [hd])⟩

theorem numbered : ∀ (ts : List Str) (k : Nat), k + ts.length ≤ 10 → ∃ items : List (Char × Str × Nat),
    (∀ i ∈ items, i.1 ∈ c!"0123456789") ∧ items.map (·.2.1) = ts ∧ (∀ i ∈ items, i.2.2 = 1) ∧
    (items.flatMap fun i => i.1 :: '.' :: ' ' :: i.2.1 ++ times i.2.2 '\n') =
      (ts.zipIdx k).flatMap fun t => dec t.2 ++ c!". " ++ t.1 ++ c!"\n"
  | [], _, _ => ⟨[], by simp, rfl, by simp, rfl⟩
  | t :: ts, k, h => by
    simp only [List.length_cons] at h
    obtain ⟨items, h1, h2, h3, h4⟩ := numbered ts (k + 1) (by omega)
    obtain ⟨c, e, hc⟩ := dec_digit (i := k) (by omega)
    refine ⟨(c, t, 1) :: items, ?_, by simp [h2], ?_, by rw [List.flatMap_cons, h4, List.zipIdx_cons, List.flatMap_cons, e]; simp⟩
    · intro i hi
      rcases List.mem_cons.mp hi with rfl | hi
      · exact hc
      · exact h1 i hi
    · intro i hi
      rcases List.mem_cons.mp hi with rfl | hi
      · rfl
      · exact h3 i hi

/-- **C79, C90, the part that holds** A list of up to nine lines, numbered from 1: one list, one entry per line, in order. -/
theorem C79_partial (ts : List Str) (hne : ts ≠ []) (hn : ts.length ≤ 9) (hl : ∀ t ∈ ts, '\n' ∉ t) :
    render ((ts.zipIdx 1).flatMap fun t => dec t.2 ++ c!". " ++ t.1 ++ c!"\n") =
      .ok (elem c!"ol" (c!"\n" ++ ts.flatMap fun t => elem c!"li" (c!"\n" ++ escape t) ++ c!"\n") ++ c!"\n") := by
  obtain ⟨items, h1, h2, h3, h4⟩ := numbered ts 1 (by omega)
  have := C29_ordered 0 items (by rintro rfl; exact hne h2.symm) h1
    (fun i hi => hl _ (h2 ▸ List.mem_map_of_mem hi)) (fun i hi => by rw [h3 i (List.mem_of_mem_dropLast hi)])
  rw [h4] at this
  have hf : (items.flatMap fun i => c!"<li>\n" ++ escape i.2.1 ++ c!"</li>\n") = ts.flatMap fun t => elem c!"li" (c!"\n" ++ escape t) ++ c!"\n" := by
    rw [← h2, List.flatMap_map]
    simp [elem]
  rw [hf] at this
  refine this.trans ?_
  simp [elem]

/-- **C90, the part that holds** A list numbered from 1 is shown with these numbers: an ordered list that does not say where
it starts. -/
theorem C90_partial (ts : List Str) (hne : ts ≠ []) (hn : ts.length ≤ 9) (hl : ∀ t ∈ ts, '\n' ∉ t) :
    render ((ts.zipIdx 1).flatMap fun t => dec t.2 ++ c!". " ++ t.1 ++ c!"\n") =
      .ok (elem c!"ol" (c!"\n" ++ ts.flatMap fun t => elem c!"li" (c!"\n" ++ escape t) ++ c!"\n") ++ c!"\n") :=
  C79_partial ts hne hn hl

example : render c!"1. a\n2. b & c\n3. d\n" = .ok c!"<ol>\n<li>\na</li>\n<li>\nb &amp; c</li>\n<li>\nd</li>\n</ol>\n" :=
  C79_partial [c!"a", c!"b & c", c!"d"] (by decide) (by decide) (by decide)

/-! ### C83 Tabs between words -/

/-- **C83, the part that holds** After a space, a tab is kept, with the rest of the line as it is. -/
theorem C83_partial (is : List Inline) (t : Str) (x : Char) (hi : InlineGood (some ' ') is) (hv : is = [] ∨ ∃ i, is.head? = some i ∧ i.Visible)
    (hx : isWs x = false) (hn : '\n' ∉ x :: t) (hb : '[' ∉ x :: t) :
    render (inlineSrc is ++ c!" \t" ++ x :: t) = .ok (elem c!"p" (inlineHtml is ++ (c!" \t" ++ escape (x :: t))) ++ c!"\n") := by
  have := render_inlines_token (s := c!" \t" ++ x :: t) (is := is) hi hv (fun last => space_tab hx hn last)
    (shows_plain (shown_of_chars (c := x) (by simp) hx (by simpa using hn) (.inl (by simpa using hb))))
  rw [escape_append, show escape c!" \t" = c!" \t" from by decide] at this
  rw [List.append_assoc]
  exact this

example : render c!"key \tvalue & *x*" = .ok c!"<p>key \tvalue &amp; *x*</p>\n" :=
  C83_partial [.word c!"key"] c!"alue & *x*" 'v' ⟨word_check (by decide), trivial⟩ (.inr ⟨_, rfl, trivial⟩) (by decide) (by decide) (by decide)

/-! ### C85, C86 Cells of tables -/

/-- **C85, the part that holds** A cell of spaces is shown as an empty cell, and all other cells of the table are shown. -/
theorem C85_partial (t : Table) (h : t.Good) (r : List Cell) (n : Nat) (hr : r ∈ t.rows) (hc : ⟨n + 1, [], 0⟩ ∈ r) :
    ∃ html, render t.src = .ok html ∧ c!"\"></td>" <:+: html ∧ ∀ r ∈ t.rows, ∀ c ∈ r, c!">" ++ c.html ++ c!"</td>" <:+: html := by
  obtain ⟨html, e, _, h2⟩ := C68_partial t h
  refine ⟨html, e, ?_, h2⟩
  have e' := e
  rw [C56_table t h] at e'
  injection e' with e'
  subst e'
  obtain ⟨d, hd⟩ := mem_zip_right (h.same.1.trans (h.same.2 r hr).symm) _ hc
  have hx : c!"\"></td>" <:+:
      (t.delims.zip r).flatMap fun c => c!"\n\t\t<td style=\"text-align: " ++ alignOf c.1 ++ c!"\">" ++ c.2.html ++ c!"</td>" :=
    infix_flatMap hd ⟨c!"\n\t\t<td style=\"text-align: " ++ alignOf d, [], by simp [Cell.html]⟩
  have hy := infix_flatMap (f := fun r => c!"\n\t<tr>" ++
       ((t.delims.zip r).flatMap fun c => c!"\n\t\t<td style=\"text-align: " ++ alignOf c.1 ++ c!"\">" ++ c.2.html ++ c!"</td>") ++
       c!"\n\t</tr>") hr (hx.trans (infix_mid _ _ _))
  exact hy.trans (infix_mid _ _ _)

example : ∃ html, render sampleTable.src = .ok html ∧ c!"\"></td>" <:+: html ∧ ∀ r ∈ sampleTable.rows, ∀ c ∈ r, c!">" ++ c.html ++ c!"</td>" <:+: html :=
  C85_partial sampleTable sampleTable_good _ 1 (List.mem_cons_of_mem _ (List.mem_cons_self ..)) (by simp)

/-- **C86, negated** In every table, text in front of a link and text after it are shown twice in every cell: around the
paragraph that holds the link, and in it. -/
theorem C86_refuted_always (t : Table) (h : t.Good) (r : List Cell) (c : Cell) (hr : r ∈ t.rows) (hc : c ∈ r) (u v a b : Str)
    (hcell : c.text = [.word u, .link a b, .word v]) : ∃ html, render t.src = .ok html ∧
      c!">" ++ escape u ++ elem c!"p" (escape u ++ (Inline.link a b).html ++ escape v) ++ c!"\n" ++ escape v ++ c!"</td>" <:+: html := by
  obtain ⟨html, e, _, h2⟩ := C68_partial t h
  refine ⟨html, e, ?_⟩
  have := h2 r hr c hc
  rw [Cell.html, hcell] at this
  simpa [Inline.cellHtml, inlineHtml, Inline.html] using this

/-- **C86, the part that holds** A cell that consists of a link shows the link, once. -/
theorem C86_partial (t : Table) (h : t.Good) (r : List Cell) (c : Cell) (i : Inline) (hr : r ∈ t.rows) (hc : c ∈ r)
    (hcell : c.text = [i]) (hi : i.isLink = true) : ∃ html, render t.src = .ok html ∧
      c!">" ++ elem c!"p" i.html ++ c!"\n</td>" <:+: html := by
  obtain ⟨html, e, _, h2⟩ := C68_partial t h
  refine ⟨html, e, ?_⟩
  have := h2 r hr c hc
  rw [Cell.html, hcell] at this
  cases i with
  | link a b => simpa [Inline.cellHtml, inlineHtml] using this
  | autolink a => simpa [Inline.cellHtml, inlineHtml] using this
  | _ => cases hi

/-- A table with links. -/
def linkTable : Table :=
  { head := [c!"a", c!"b"], delims := [c!"-", c!"-:"],
    rows := [[⟨1, [.word c!"x", .link c!"d" c!"http:e", .word c!"y"], 0⟩, ⟨0, [.link c!"d" c!"http:e"], 1⟩]] }

theorem linkTable_good : linkTable.Good :=
  ⟨by decide, by decide, by decide, by
    intro r hr c hc
    simp only [linkTable, List.mem_cons, List.not_mem_nil, or_false] at hr
    subst hr
    simp only [List.mem_cons, List.not_mem_nil, or_false] at hc
    rcases hc with rfl | rfl
    · exact ⟨by decide, by decide, ⟨word_check (by decide), ⟨by decide, target_check c!"http" c!"e" (by decide) (by decide)⟩,
        word_check (by decide), trivial⟩, by simp [Inline.isStrike], .inr ⟨⟨_, rfl, trivial⟩, ⟨_, rfl, trivial⟩⟩⟩
    · exact ⟨by decide, by decide, ⟨⟨by decide, target_check c!"http" c!"e" (by decide) (by decide)⟩, trivial⟩,
        by simp [Inline.isStrike], .inr ⟨⟨_, rfl, trivial⟩, ⟨_, rfl, trivial⟩⟩⟩, by decide⟩

example : ∃ html, render c!"|a|b|\n|-|-:|\n| x[d](http:e)y|[d](http:e) |" = .ok html ∧
    c!">x<p>x<a href=\"http:e\">d</a>y</p>\ny</td>" <:+: html :=
  C86_refuted_always linkTable linkTable_good _ _ (List.mem_cons_self ..) (List.mem_cons_self ..) c!"x" c!"y" c!"d" c!"http:e" rfl

example : ∃ html, render c!"|a|b|\n|-|-:|\n| x[d](http:e)y|[d](http:e) |" = .ok html ∧
    c!"><p><a href=\"http:e\">d</a></p>\n</td>" <:+: html :=
  C86_partial linkTable linkTable_good _ ⟨0, [.link c!"d" c!"http:e"], 1⟩ (.link c!"d" c!"http:e") (List.mem_cons_self ..)
    (by simp) rfl rfl

/-! ### C87 Footnotes are numbered -/

/-- **C87, the part that holds** The only reference of a paragraph has the number 1. -/
theorem C87_partial (is js : List Inline) (a : Str) (h : InlineGood none (is ++ .noteRef a :: js))
    (hv : ∃ i, (is ++ .noteRef a :: js).head? = some i ∧ i.Visible) :
    render (inlineSrc (is ++ .noteRef a :: js)) = .ok (elem c!"p" (inlineHtml is ++ refHtml c!"1" a ++ inlineHtml js) ++ c!"\n") := by
  rw [render_inlines h hv]
  simp [inlineHtml, Inline.html, refHtml, elem]

example : render c!"so[^a]!" = .ok (c!"<p>so<sup id=\"fnref:a\" role=\"doc-noteref\"><a href=\"#fn:a\" class=\"footnote\" " ++
    c!"rel=\"footnote\">1</a></sup>!</p>\n") :=
  C87_partial [.word c!"so"] [.bang] c!"a" ⟨word_check (by decide), ⟨⟨by decide, by decide⟩, by decide, by decide⟩, (by show _ ≠ _; decide), trivial⟩
    ⟨_, rfl, trivial⟩

/-! ### C89 Markup in lists -/

/-- **C89, the part that holds** Markup in the entries of a list of bullets is interpreted as in a paragraph. -/
theorem C89_partial (items : List (Char × List Inline)) (hne : items ≠ []) (hm : ∀ i ∈ items, i.1 = '-' ∨ i.1 = '+' ∨ i.1 = '*')
    (hg : ∀ i ∈ items, InlineGood none i.2 ∧ ∃ j, i.2.head? = some j ∧ j.Visible) (hn : ∀ i ∈ items, '\n' ∉ inlineSrc i.2)
    (hb : ∀ i ∈ items, ∀ x ∈ c!" xX", ¬ ['[', x, ']', ' '] <+: inlineSrc i.2)
    (hc : ∀ i ∈ items, ¬ c!"<pre><code>" <:+: elem c!"p" (inlineHtml i.2) ++ c!"\n") :
    render (items.flatMap fun i => i.1 :: ' ' :: inlineSrc i.2 ++ c!"\n") =
      .ok (elem c!"ul" (c!"\n" ++ items.flatMap fun i => elem c!"li" (c!"\n" ++ elem c!"p" (inlineHtml i.2) ++ c!"\n") ++ c!"\n") ++ c!"\n") := by
  have := C28_bullets 0 (items.map fun i => (i.1, inlineSrc i.2, 1, elem c!"p" (inlineHtml i.2) ++ c!"\n")) (by simpa using hne)
    (by rintro _ hi; obtain ⟨j, hj, rfl⟩ := List.mem_map.mp hi; exact hm j hj)
    (by rintro _ hi; obtain ⟨j, hj, rfl⟩ := List.mem_map.mp hi; exact hn j hj) (by
      intro i hi
      obtain ⟨j, hj, rfl⟩ := List.mem_map.mp hi
      obtain ⟨⟨y, u, e, hy⟩, _⟩ := head_ends (hg j hj).1 (hg j hj).2
      refine ⟨?_, ?_, hb j hj⟩
      all_goals
        show (inlineSrc j.2).head? ≠ _
        rw [e]
        simp only [List.head?_cons, ne_eq, Option.some.injEq]
        rintro rfl
        revert hy
        decide) (by
      intro i hi
      obtain ⟨j, _, rfl⟩ := List.mem_map.mp (List.mem_of_mem_dropLast hi)
      exact Nat.le_refl 1) (by
      intro i hi
      obtain ⟨j, hj, rfl⟩ := List.mem_map.mp hi
      exact render_inlines (hg j hj).1 (hg j hj).2) (by rintro _ hi; obtain ⟨j, hj, rfl⟩ := List.mem_map.mp hi; exact hc j hj)
  rw [List.flatMap_map, List.flatMap_map] at this
  simpa [elem] using this

example : render c!"- *a*b\n* c\n" = .ok c!"<ul>\n<li>\n<p><em>a</em>b</p>\n</li>\n<li>\n<p>c</p>\n</li>\n</ul>\n" :=
  C89_partial [('-', [.em '*' c!"a", .word c!"b"]), ('*', [.word c!"c"])] (by decide) (by decide) (by
    intro i hi
    simp only [List.mem_cons, List.not_mem_nil, or_false] at hi
    rcases hi with rfl | rfl
    · exact ⟨⟨⟨.inl rfl, ⟨_, _, rfl, by decide⟩, by decide, by decide⟩, word_check (by decide), trivial⟩, ⟨_, rfl, trivial⟩⟩
    · exact ⟨⟨word_check (by decide), trivial⟩, ⟨_, rfl, trivial⟩⟩) (by decide) (by decide) (by decide)

/-! ### C91 Character references -/

/-- **C91, the part that holds** Every other ampersand, like every other character of a word, stands for itself. -/
theorem C91_partial (w : Str) (h : Word w) (hb : '\\' ∉ w) : ∃ x, render w = .ok (elem c!"p" x ++ c!"\n") ∧ htmlDecode x = w := by
  refine ⟨escape w, C24_word w h, ?_⟩
  rw [← sanitize_eq_escape, C04_display_roundtrip, List.filter_eq_self]
  intro a ha
  simp only [ne_eq, decide_eq_true_eq]
  rintro rfl
  exact hb ha

example : ∃ x, render c!"R&D" = .ok (elem c!"p" x ++ c!"\n") ∧ htmlDecode x = c!"R&D" := C91_partial _ (word_check (by decide)) (by decide)

end Smd.Gfm
