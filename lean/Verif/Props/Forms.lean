import Verif.Lemmas.Forms
import Verif.Props.Markdown

/-!
Further forms of Markdown: other ways to write headings (C27), and forms that the renderer gets wrong (C71-C77).
-/

namespace Smd.Gfm
open Smd.Rs Smd.Spec

/-! ### C27 Other ways to write a heading -/

/-- **C27** The hashes may be followed by a tab instead of a space, and the text by spaces and closing hashes. -/
theorem C27_forms (n : Nat) (sep : Char) (is : List Inline) (j k m : Nat) (h : (Block.heading n is).Good fun s x => render s = .ok x)
    (hs : sep = ' ' ∨ sep = '\t') (hjk : 1 ≤ j ∨ k = 0) :
    render (times n '#' ++ sep :: (inlineSrc is ++ times j ' ' ++ times k '#' ++ times m ' ')) =
      .ok (elem ('h' :: dec n) (inlineHtml is) ++ c!"\n") := by
  obtain ⟨h1, h6, hg, hn, hh, hv, hlast⟩ := h
  have he := head_ends hg hv
  have hl := last_ends hg hlast
  refine render_header h1 ?_
  have e := lexHeading_trim (r := self) (n := n) (rest := []) (line0 := inlineSrc is ++ times j ' ' ++ times k '#' ++ times m ' ')
    h6 hs (by simp [hn, List.mem_replicate]) (.inl rfl) (heading_closed_label hh m hjk) ?_
    (heading_closed ⟨he.1, hl.1⟩ hh m hjk) (renderIgnore_inlines ['#'] (inlineGood_none hg) hv) (headingPost_p ⟨he.2, hl.2⟩)
  · rwa [List.append_nil] at e
  · obtain ⟨a, u, ea, _⟩ := he.1
    exact ⟨a, by simp [ea], fun e => hh (by simp [ea, e])⟩

example : render c!"##\tA *b*  ### " = .ok c!"<h2>A<em>b</em></h2>\n" :=
  C27_forms 2 '\t' [.word c!"A", .space 1, .em '*' c!"b"] 2 3 1 ⟨by decide, by decide,
    ⟨word_check (by decide), ⟨by decide, by decide, by decide, by decide⟩, ⟨.inl rfl, ⟨_, _, rfl, by decide⟩, by decide, by decide⟩, trivial⟩,
    by decide, by decide, ⟨_, rfl, trivial⟩, ⟨_, rfl, trivial⟩⟩ (.inr rfl) (.inl (by decide))

/-- **C27** A heading without text, with or without closing hashes, is an empty heading. -/
theorem C27_empty (n k : Nat) (sep : Char) (h1 : 1 ≤ n) (h6 : n ≤ 6) (hs : sep = ' ' ∨ sep = '\t') :
    render (times n '#' ++ sep :: times k '#') = .ok (elem ('h' :: dec n) [] ++ c!"\n") := by
  refine render_header h1 ?_
  have hn : '\n' ∉ times k '#' := by simp [List.mem_replicate]
  have hl : headingLabel (times k '#') = .ok (times k '#') := headingLabel_none (.inr (by simp [List.mem_replicate]))
  have e := lexHeading_line self n sep (times k '#') [] h6 hs hn (.inl rfl)
  rw [List.append_nil, hl] at e
  simp only [Outcome.ok_bind] at e
  rw [e, if_pos (by simp)]

example : render c!"### ##" = .ok c!"<h3></h3>\n" := C27_empty 3 2 ' ' (by decide) (by decide) (.inl rfl)

/-- **C27** Hashes inside the text of a heading are text. -/
theorem C27_hashes (n k : Nat) (is js : List Inline) (h1 : 1 ≤ n) (h6 : n ≤ 6) (hk : 1 ≤ k)
    (hi : InlineGood (some '#') is) (hj : InlineGood none js) (hnl : '\n' ∉ inlineSrc is ++ inlineSrc js)
    (hb : '{' ∉ inlineSrc is ++ inlineSrc js) (hh : '#' ∉ inlineSrc is ++ inlineSrc js)
    (hv : ∃ i, is.head? = some i ∧ i.Visible) (hlast : ∃ i, js.getLast? = some i ∧ i.Visible) :
    render (times n '#' ++ ' ' :: (inlineSrc is ++ times k '#' ++ inlineSrc js)) =
      .ok (elem ('h' :: dec n) (inlineHtml is ++ times k '#' ++ inlineHtml js) ++ c!"\n") := by
  obtain ⟨⟨a, u, ea, ha⟩, ⟨b, v, eb, hb'⟩⟩ := head_ends hi hv
  obtain ⟨⟨c, w, ec, hc⟩, ⟨d, x, ed, hd⟩⟩ := last_ends hj hlast
  simp only [List.mem_append, not_or] at hnl hb hh
  have hch : c ≠ '#' := fun e => hh.2 (by simp [ec, e])
  have hcs : c ≠ ' ' := by rintro rfl; revert hc; decide
  have hct : c ≠ '\t' := by rintro rfl; revert hc; decide
  refine render_header h1 ?_
  have e := lexHeading_trim (r := self) (n := n) (rest := []) (line0 := inlineSrc is ++ times k '#' ++ inlineSrc js)
    (line := inlineSrc is ++ times k '#' ++ inlineSrc js)
    h6 (.inl rfl) (by simp [hnl, List.mem_replicate]) (.inl rfl) (headingLabel_none (.inl fun hi => by
      have := hi.subset (by simp : '{' ∈ c!"{#")
      simp [hb, List.mem_replicate] at this))
    ⟨a, by simp [ea], fun e => hh.1 (by simp [ea, e])⟩ (by
      rw [headingTrim_last (a := c) (u := inlineSrc is ++ times k '#' ++ w) (by rw [ec]; simp) hc hch]
      exact trimEnd_id (a := c) (u := inlineSrc is ++ times k '#' ++ w) (by rw [ec]; simp) (by simp [hcs, hct]))
    (renderIgnore_hashes hi hj hk hv)
    (headingPost_p ⟨⟨b, v ++ times k '#' ++ inlineHtml js, by rw [eb]; simp, hb'⟩, ⟨d, inlineHtml is ++ times k '#' ++ x, by rw [ed]; simp, hd⟩⟩)
  rwa [List.append_nil] at e

example : render c!"# a ## b c" = .ok c!"<h1>a##bc</h1>\n" :=
  C27_hashes 1 2 [.word c!"a", .space 1] [.space 1, .word c!"b", .space 1, .word c!"c"] (by decide) (by decide) (by decide)
    ⟨word_check (by decide), ⟨by decide, by decide, by decide, by decide⟩, trivial⟩
    ⟨⟨by decide, by decide, by decide, by decide⟩, word_check (by decide), ⟨by decide, by decide, by decide, by decide⟩, word_check (by decide), trivial⟩
    (by decide) (by decide) (by decide) ⟨_, rfl, trivial⟩ ⟨_, rfl, trivial⟩

/-! ### C71 The text of a heading is shown -/

/-- **C71, negated** A numbered heading is shown empty. -/
theorem C71_refuted : render c!"# 1. Introduction" = .ok c!"<h1></h1>\n" := by
  decide +kernel

/-- Every heading that begins with a digit, a dot and a space is shown empty, whatever its text. -/
theorem C71_refuted_numbered (n : Nat) (d : Char) (t : Str) (h1 : 1 ≤ n) (h6 : n ≤ 6) (hd : d ∈ c!"0123456789") (hnl : '\n' ∉ t)
    (hh : '#' ∉ t) (he : Ends t) : render (times n '#' ++ ' ' :: d :: '.' :: ' ' :: t) = .ok (elem ('h' :: dec n) [] ++ c!"\n") := by
  obtain ⟨_, a, u, e, ha⟩ := he
  have hline : d :: '.' :: ' ' :: t = (d :: '.' :: ' ' :: u) ++ [a] := by rw [e]; rfl
  have hdh : d ≠ '#' := by rintro rfl; revert hd; decide
  have hdn : d ≠ '\n' := by rintro rfl; revert hd; decide
  have hmem : '#' ∉ d :: '.' :: ' ' :: t := by simp [hh, hdh.symm]
  have hl : LexTo self ['#'] (d :: '.' :: ' ' :: t) [.orderedListEntry t] := by
    have := LexTo.ordered (r := self) (ig := ['#']) (rest := []) (n := 0) hd hnl (.inr rfl) (by simp) LexTo.nil
    simpa [gapToks] using this
  have hp := parseTok_ordered self false t []
  have hr : self.render ['#'] (d :: '.' :: ' ' :: t) = .ok (c!"<ol>\n<li>\n" ++ escape t ++ c!"</li>\n</ol>\n") := by
    show renderIgnore _ _ = _
    rw [renderIgnore_of hl (parseToks_one hp), finish_ol]
    simp
  have hs : a ≠ ' ' := by rintro rfl; revert ha; decide
  have ht : a ≠ '\t' := by rintro rfl; revert ha; decide
  refine render_header h1 ?_
  have e2 := lexHeading_trim (r := self) (n := n) (rest := []) (line0 := d :: '.' :: ' ' :: t) (line := d :: '.' :: ' ' :: t)
    h6 (.inl rfl) (by simp [hnl, hdn.symm]) (.inl rfl) (headingLabel_none (.inl fun hi => hmem (hi.subset (by simp))))
    ⟨d, by simp, hdh⟩ (by
      rw [headingTrim_id hline ha hmem]
      exact trimEnd_id hline (by simp [hs, ht])) hr (headingPost_open (by simp))
  rwa [List.append_nil] at e2

example : render c!"## 2. How it works" = .ok c!"<h2></h2>\n" :=
  C71_refuted_numbered 2 '2' c!"How it works" (by decide) (by decide) (by decide) (by decide) (by decide)
    ⟨⟨_, _, rfl, by decide⟩, ⟨'s', c!"How it work", rfl, by decide⟩⟩

/-- Every heading that ends with inline code is shown empty. -/
theorem C71_refuted_code (n k : Nat) (is : List Inline) (t : Str) (h1 : 1 ≤ n) (h6 : n ≤ 6) (hk : 1 ≤ k) (hk3 : k ≠ 3) (ht : CodeText k t)
    (hi : InlineGood (some '`') is) (hnl : '\n' ∉ inlineSrc is ++ t) (hh : '#' ∉ inlineSrc is ++ t)
    (hv : ∃ i, is.head? = some i ∧ i.Visible) :
    render (times n '#' ++ ' ' :: (inlineSrc is ++ (times k '`' ++ t ++ times k '`'))) = .ok (elem ('h' :: dec n) [] ++ c!"\n") := by
  obtain ⟨⟨a, u, ea, ha⟩, _⟩ := head_ends hi hv
  simp only [List.mem_append, not_or] at hnl hh
  obtain ⟨w, ew⟩ := times_last hk '`' (inlineSrc is ++ (times k '`' ++ t))
  have eline : inlineSrc is ++ (times k '`' ++ t ++ times k '`') = w ++ ['`'] := by rw [← ew]; simp
  have hmem : '#' ∉ inlineSrc is ++ (times k '`' ++ t ++ times k '`') := by simp [hh, List.mem_replicate]
  obtain ⟨t1, hl1, _, ho1⟩ := inlines_sem hi
  have hl := hl1 self ['#'] (times k '`' ++ t ++ times k '`' ++ []) _ (by
    obtain ⟨u, hu⟩ := times_head (c := '`') hk (t ++ (times k '`' ++ []))
    rw [List.append_assoc, List.append_assoc, hu]; exact hi) (LexTo.code hk hk3 ht LexTo.nil)
  rw [List.append_nil] at hl
  have hp := parseToks_two ((ho1 hv).clean self []) (parseToks_one (parseTok_code_inP self (codeShown t) _))
  have hr : self.render ['#'] (inlineSrc is ++ (times k '`' ++ t ++ times k '`')) =
      .ok (c!"<p>" ++ inlineHtml is ++ c!"<pre><code>" ++ escape (codeShown t) ++ c!"</p>\n</code></pre>") := by
    show renderIgnore _ _ = _
    rw [renderIgnore_of hl hp, finish_code_inP]
    simp
  refine render_header h1 ?_
  have e2 := lexHeading_trim (r := self) (n := n) (rest := []) (line0 := inlineSrc is ++ (times k '`' ++ t ++ times k '`'))
    (line := inlineSrc is ++ (times k '`' ++ t ++ times k '`'))
    h6 (.inl rfl) (by simp [hnl, List.mem_replicate]) (.inl rfl) (headingLabel_none (.inl fun hi => hmem (hi.subset (by simp))))
    ⟨a, by simp [ea], fun e => hh.1 (by simp [ea, e])⟩ (by
      rw [headingTrim_id eline (by decide) hmem]
      exact trimEnd_id eline (by decide)) hr (headingPost_close (by
        rintro ⟨q, hq⟩
        have := congrArg List.getLast? hq
        rw [List.getLast?_append, List.getLast?_append] at this
        simp at this))
  rwa [List.append_nil] at e2

example : render c!"# The `main` function" = .ok c!"<h1></h1>\n" := by decide +kernel
example : render c!"# Using `main`" = .ok c!"<h1></h1>\n" :=
  C71_refuted_code 1 1 [.word c!"Using", .space 1] c!"main" (by decide) (by decide) (by decide) (by decide) ⟨by decide, by decide, by decide, by decide⟩
    ⟨word_check (by decide), ⟨by decide, by decide, by decide, by decide⟩, trivial⟩ (by decide) (by decide) ⟨_, rfl, trivial⟩

/-- **C71, the part that holds** Running text, wherever it stands in the heading, is shown. -/
theorem C71_partial (n : Nat) (is : List Inline) (i : Inline) (hi : i ∈ is) (h : (Block.heading n is).Good fun s x => render s = .ok x) :
    ∃ a b, render (times n '#' ++ c!" " ++ inlineSrc is) = .ok (a ++ i.html ++ b) := by
  rw [C27_heading n is h]
  obtain ⟨s, t, rfl⟩ := List.append_of_mem hi
  exact ⟨'<' :: 'h' :: dec n ++ c!">" ++ inlineHtml s, inlineHtml t ++ (c!"</h" ++ dec n ++ c!">\n"), by simp [elem, inlineHtml]⟩

/-! ### C72 Hard line breaks -/

/-- **C72, negated** Two spaces at the end of a line do not break it. -/
theorem C72_refuted : render c!"a  \nb" = .ok c!"<p>ab</p>\n" := by
  decide +kernel

/-- Nor do more spaces, anywhere in running text. -/
theorem C72_refuted_always (n : Nat) (is js : List Inline) (hn : 2 ≤ n) (hi : InlineGood (some ' ') is) (hj : InlineGood none js)
    (hv : ∃ i, is.head? = some i ∧ i.Visible) (hnl : (inlineSrc js).head? ≠ some '\n') :
    render (inlineSrc is ++ (times n ' ' ++ c!"\n") ++ inlineSrc js) = .ok (elem c!"p" (inlineHtml is ++ inlineHtml js) ++ c!"\n") := by
  refine render_blank_between (toks := [breakTok n, .plaintext c!"\n"]) ?_ hj hv
    (adds_cons (fun r h c => parseTok_break r n h c) (adds_cons (fun r h c => parseTok_blank r _ (by decide)) adds_nil)) ?_
  · obtain ⟨u, hu⟩ := times_head (c := ' ') (n := n) (by omega) (c!"\n" ++ inlineSrc js)
    rw [List.append_assoc, hu]
    exact hi
  · intro ts hts
    have := LexTo.break (n := n) (by omega) (LexTo.gap (n := 1) (by omega) hnl hts)
    simpa [gapTok] using this

example : render c!"one    \ntwo" = .ok c!"<p>onetwo</p>\n" :=
  C72_refuted_always 4 [.word c!"one"] [.word c!"two"] (by decide) ⟨word_check (by decide), trivial⟩ ⟨word_check (by decide), trivial⟩
    ⟨_, rfl, trivial⟩ (by decide)

/-- A backslash at the end of a line does not break it either. -/
theorem C72_refuted_backslash (is js : List Inline) (hi : InlineGood (some '\\') is) (hj : InlineGood none js)
    (hv : ∃ i, is.head? = some i ∧ i.Visible) :
    render (inlineSrc is ++ c!"\\\n" ++ inlineSrc js) = .ok (elem c!"p" (inlineHtml is ++ inlineHtml js) ++ c!"\n") := by
  refine render_blank_between (toks := [.plaintext c!"\n"]) hi hj hv (adds_cons (fun r h c => parseTok_blank r _ (by decide)) adds_nil) ?_
  intro ts hts
  refine LexTo.cons (fun last => ?_) hts
  simp [nextToken, lexDispatch, lexEscaped, resToken]

example : render c!"one\\\ntwo" = .ok c!"<p>onetwo</p>\n" :=
  C72_refuted_backslash [.word c!"one"] [.word c!"two"] ⟨word_check (by decide), trivial⟩ ⟨word_check (by decide), trivial⟩ ⟨_, rfl, trivial⟩

/-! ### C73 Indented code -/

/-- **C73, the part that holds** Lines indented by a tab, by four spaces or by two spaces and a tab are code, shown without
the indentation. -/
theorem C73_partial (ls : List (Str × Str)) (hne : ls ≠ []) (hl : ∀ l ∈ ls, CodeLine l) :
    render (ls.flatMap fun l => l.1 ++ l.2 ++ c!"\n") =
      .ok (elem c!"pre" (elem c!"code" (ls.flatMap fun l => escape l.2 ++ c!"\n"))) := by
  have h := LexTo.codeLines (r := self) (ig := []) (rest := []) hl LexTo.nil
  rw [List.append_nil, List.append_nil] at h
  have e : (ls.map fun l => l.2 ++ c!"\n").flatMap escape = ls.flatMap fun l => escape l.2 ++ c!"\n" := by
    rw [List.flatMap_map]
    simp [escape_append, show escape c!"\n" = c!"\n" from rfl]
  have e2 : endLine (ls.flatMap fun l => escape l.2 ++ c!"\n") = ls.flatMap fun l => escape l.2 ++ c!"\n" := by
    rcases List.eq_nil_or_concat ls with rfl | ⟨a, x, rfl⟩
    · exact absurd rfl hne
    · exact if_pos (by simp)
  have := render_codes (ys := ls.map fun l => l.2 ++ c!"\n") (by simpa using hne) (by rw [List.map_map]; exact h)
  rw [this, e, e2]
  simp [elem]

/-- **C73, the part that holds** The last line need not end with a line end. -/
theorem C73_partial_last (ls : List (Str × Str)) (p t : Str) (hl : ∀ l ∈ ls, CodeLine l) (h : CodeLine (p, t)) :
    render (ls.flatMap (fun l => l.1 ++ l.2 ++ c!"\n") ++ (p ++ t)) =
      .ok (elem c!"pre" (elem c!"code" (endLine (ls.flatMap (fun l => escape l.2 ++ c!"\n") ++ escape t)))) := by
  obtain ⟨h1, h2, h3, h4, h5, h6⟩ := h
  have hu := untilTail_none (p := c!"\n") (s := t) (by simp) (fun h => h3 (infix_single h))
  have hlast : LexTo self [] (p ++ t) [.code t] := by
    have := LexTo.indented (r := self) (ig := []) (ts := []) h1 h4 h5 (fun e => h3 (List.mem_of_mem_head? e)) (by rw [hu]; exact h6)
      (by rw [hu]; exact LexTo.nil)
    rwa [hu] at this
  have hlex := LexTo.codeLines hl hlast
  have e : (ls.map fun l => l.2 ++ c!"\n").flatMap escape = ls.flatMap fun l => escape l.2 ++ c!"\n" := by
    rw [List.flatMap_map]
    simp [escape_append, show escape c!"\n" = c!"\n" from rfl]
  have := render_codes (ys := (ls.map fun l => l.2 ++ c!"\n") ++ [t]) (by simp) (by rw [List.map_append, List.map_map]; exact hlex)
  rw [this, List.flatMap_append, e]
  simp [elem]

theorem codeLine_check {l : Str × Str} (h : (l.1 = c!"\t" ∨ l.1 = c!"    " ∨ l.1 = c!"  \t") ∧ l.2 ≠ [] ∧ '\n' ∉ l.2 ∧ l.2.head? ≠ some ' ' ∧
    l.2.head? ≠ some '\t' ∧ '#' ∉ l.2) : CodeLine l := ⟨h.1, h.2.1, h.2.2.1, h.2.2.2.1, h.2.2.2.2.1, fun _ => h.2.2.2.2.2⟩

example : render c!"\tint *p;\n    *p = a<b;" = .ok c!"<pre><code>int *p;\n*p = a&lt;b;\n</code></pre>" :=
  C73_partial_last [(c!"\t", c!"int *p;")] c!"    " c!"*p = a<b;" (fun l hl => by
    rw [List.mem_singleton] at hl; subst hl; exact codeLine_check (by decide)) (codeLine_check (by decide))
example : render c!"  \tx\n" = .ok c!"<pre><code>x\n</code></pre>" :=
  C73_partial [(c!"  \t", c!"x")] (by decide) (fun l hl => by
    rw [List.mem_singleton] at hl; subst hl; exact codeLine_check (by decide))

/-- **C73, negated** A line indented by four spaces is not code if there is a hash in it and text before it. -/
theorem C73_refuted : render c!"a\n\n    # b" = .ok c!"<p>a</p>\n<p># b</p>\n" := by
  decide +kernel

/-- A line indented by five or more spaces is never code. -/
theorem C73_refuted_deep (n : Nat) (t : Str) (hn : 5 ≤ n) (ht : '\n' ∉ t) (hb : ¬ c!"[^" <:+: t) (he : ∃ a u, t = a :: u ∧ isWs a = false) :
    render (times n ' ' ++ t) = .ok (elem c!"p" (times n ' ' ++ escape t) ++ c!"\n") := by
  obtain ⟨a, u, e, ha⟩ := he
  have hs : a ≠ ' ' := by rintro rfl; revert ha; decide
  have htab : a ≠ '\t' := by rintro rfl; revert ha; decide
  have hsh : Shown (times n ' ' ++ t) := ⟨trim_ne_nil (c := a) (by rw [e]; simp) ha, by simp [ht, List.mem_replicate], .inl fun hi => by
    rcases two_infix_append hi with h | ⟨h, _⟩ | h
    · exact absurd (h.subset (by simp : '[' ∈ c!"[^")) (by simp [List.mem_replicate])
    · have := List.mem_of_getLast? h
      simp [List.mem_replicate] at this
    · exact hb h⟩
  have := render_token (fun last => deep_indent hn ht (by rw [e]; simpa using hs) (by rw [e]; simpa using htab) (by rw [e]; simp) last) (shows_plain hsh)
  rw [this, escape_append, escape_times (by decide)]

example : render c!"     int main() {" = .ok c!"<p>     int main&#40;&#41; &lbrace;</p>\n" :=
  C73_refuted_deep 5 c!"int main() {" (by decide) (by decide) (by decide) ⟨_, _, rfl, by decide⟩

/-- Of two such lines the first is lost. -/
theorem C73_refuted_lost : render c!"      a\n      b" = .ok c!"<p>      b</p>\n" := by
  decide +kernel

/-! ### C74 Unfinished markup is text -/

/-- **C74, the part that holds** An opening square bracket without a closing one is text, with all that follows. -/
theorem C74_partial (is : List Inline) (t : Str) (hi : InlineGood (some '[') is) (hv : is = [] ∨ ∃ i, is.head? = some i ∧ i.Visible)
    (hb : ']' ∉ t) (hn : '\n' ∉ t) : render (inlineSrc is ++ '[' :: t) = .ok (elem c!"p" (inlineHtml is ++ escape ('[' :: t)) ++ c!"\n") :=
  render_inlines_token hi hv (fun last => open_bracket hb last)
    (shows_plain (shown_of_chars (c := '[') (by simp) (by decide) (by simp [hn]) (.inr (by simp [hb]))))

example : render c!"see [a *b*" = .ok c!"<p>see&lbrack;a *b*</p>\n" :=
  C74_partial [.word c!"see", .space 1] c!"a *b*" ⟨word_check (by decide), ⟨by decide, by decide, by decide, by decide⟩, trivial⟩
    (.inr ⟨_, rfl, trivial⟩) (by decide) (by decide)

/-- **C74, the part that holds** Backticks without closing ones are text, with all that follows. -/
theorem C74_partial_code (is : List Inline) (n : Nat) (t : Str) (hi : InlineGood (some '`') is)
    (hv : is = [] ∨ ∃ i, is.head? = some i ∧ i.Visible) (h1 : 1 ≤ n) (ht : '`' ∉ t) (hn : '\n' ∉ t) (hb : '[' ∉ t) :
    render (inlineSrc is ++ (times n '`' ++ t)) = .ok (elem c!"p" (inlineHtml is ++ (times n '`' ++ escape t)) ++ c!"\n") := by
  obtain ⟨u, hu⟩ := times_head (c := '`') h1 t
  have := render_inlines_token (s := times n '`' ++ t) (by rw [hu]; exact hi) hv (fun last => open_ticks h1 ht last)
    (shows_plain (shown_of_chars (c := '`') (by rw [hu]; simp) (by decide) (by simp [hn, List.mem_replicate])
      (.inl (by simp [hb, List.mem_replicate]))))
  rwa [escape_append, escape_times (by decide)] at this

example : render c!"a ``b *c*" = .ok c!"<p>a``b *c*</p>\n" :=
  C74_partial_code [.word c!"a", .space 1] 2 c!"b *c*" ⟨word_check (by decide), ⟨by decide, by decide, by decide, by decide⟩, trivial⟩
    (.inr ⟨_, rfl, trivial⟩) (by decide) (by decide) (by decide) (by decide)

/-- **C74, negated** The less-than sign is lost. -/
theorem C74_refuted : render c!"a <b" = .ok c!"<p>ab</p>\n" := by
  decide +kernel

/-- It is lost wherever no greater-than sign follows. -/
theorem C74_refuted_always (is : List Inline) (t : Str) (hi : InlineGood (some '<') is) (hv : is = [] ∨ ∃ i, is.head? = some i ∧ i.Visible)
    (ht : '>' ∉ t) (hn : '\n' ∉ t) (hb : '[' ∉ t) (hs : ∃ c ∈ t, isWs c = false) :
    render (inlineSrc is ++ '<' :: t) = .ok (elem c!"p" (inlineHtml is ++ escape t) ++ c!"\n") := by
  obtain ⟨c, hc, hw⟩ := hs
  exact render_inlines_token hi hv (fun last => open_angle ht last) (shows_plain (shown_of_chars hc hw hn (.inl hb)))

example : render c!"if a < b and b < c" = .ok c!"<p>ifa b and b &lt; c</p>\n" :=
  C74_refuted_always [.word c!"if", .space 1, .word c!"a", .space 1] c!" b and b < c"
    ⟨word_check (by decide), ⟨by decide, by decide, by decide, by decide⟩, word_check (by decide), ⟨by decide, by decide, by decide, by decide⟩, trivial⟩
    (.inr ⟨_, rfl, trivial⟩) (by decide) (by decide) (by decide) ⟨'b', by decide, by decide⟩

/-! ### C75 A hash inside a line is text -/

/-- **C75, negated** A hash and a space inside a line start a heading. -/
theorem C75_refuted : render c!"We are # 1" = .ok c!"<p>Weare</p>\n<h1>1</h1>\n" := by
  decide +kernel

/-- They always do. -/
theorem C75_refuted_always (n : Nat) (is js : List Inline) (hi : InlineGood (some '#') is) (hv : ∃ i, is.head? = some i ∧ i.Visible)
    (h : (Block.heading n js).Good fun s x => render s = .ok x) :
    render (inlineSrc is ++ (times n '#' ++ ' ' :: inlineSrc js)) =
      .ok (elem c!"p" (inlineHtml is) ++ c!"\n" ++ (elem ('h' :: dec n) (inlineHtml js) ++ c!"\n")) := by
  obtain ⟨h1, h6, hg, hn, hh, hvj, hlast⟩ := h
  have he := head_ends hg hvj
  have hl := last_ends hg hlast
  obtain ⟨t1, hl1, _, ho1⟩ := inlines_sem hi
  have hd := LexTo.heading (r := self) h1 h6 hn hh ⟨he.1, hl.1⟩ ⟨he.2, hl.2⟩ (rest := []) (.inl rfl) (renderIgnore_inlines ['#'] (inlineGood_none hg) hvj)
    (LexTo.nil)
  rw [List.append_nil] at hd
  have hlex := hl1 self [] (times n '#' ++ ' ' :: inlineSrc js) _ (by
    obtain ⟨u, hu⟩ := times_head (c := '#') h1 (' ' :: inlineSrc js)
    rw [hu]; exact hi) hd
  have hp := parseToks_two ((ho1 hv).clean self []) (parseToks_one (parseTok_header_inP self n (inlineHtml js) _))
  rw [render_of hlex hp, finish_clean ⟨c!"<p>" ++ inlineHtml is ++ c!"</p>\n" ++ elem ('h' :: dec n) (inlineHtml js), by simp⟩, elem_p]
  simp

example : render c!"C ## now" = .ok c!"<p>C</p>\n<h2>now</h2>\n" :=
  C75_refuted_always 2 [.word c!"C", .space 1] [.word c!"now"] ⟨word_check (by decide), ⟨by decide, by decide, by decide, by decide⟩, trivial⟩
    ⟨_, rfl, trivial⟩ ⟨by decide, by decide, ⟨word_check (by decide), trivial⟩, by decide, by decide, ⟨_, rfl, trivial⟩, ⟨_, rfl, trivial⟩⟩

/-- **C75, the part that holds** Hashes that are not followed by white space, or more than six of them, are text. -/
theorem C75_partial (n : Nat) (is js : List Inline) (hn : 1 ≤ n) (hi : InlineGood (some '#') is) (hj : InlineGood none js)
    (hv : ∃ i, is.head? = some i ∧ i.Visible) (hh : (inlineSrc js).head? ≠ some '#')
    (h : 7 ≤ n ∨ ∀ c ∈ c!" \t\n", (inlineSrc js).head? ≠ some c) :
    render (inlineSrc is ++ (times n '#' ++ inlineSrc js)) = .ok (elem c!"p" (inlineHtml is ++ (times n '#' ++ inlineHtml js)) ++ c!"\n") := by
  obtain ⟨t1, hl1, _, ho1⟩ := inlines_sem hi
  obtain ⟨t2, hl2, ha2, _⟩ := inlines_sem hj
  have l2 := hl2 self [] [] [] hj LexTo.nil
  rw [List.append_nil, List.append_nil] at l2
  have l1 := hl1 self [] (times n '#' ++ inlineSrc js) _ (by
    obtain ⟨u, hu⟩ := times_head (c := '#') hn (inlineSrc js)
    rw [hu]; exact hi) (LexTo.cons (fun last => hashes_text hn hh h last) l2)
  have hs := shows_plain (shown_times (c := '#') hn (by decide) (by decide))
  rw [escape_times (by decide)] at hs
  have hp := parseToks_two ((ho1 hv).clean self []) (parseToks_cons (hs.1 self _ false) (ha2 self _ false))
  rw [render_of l1 hp, finish_inP, elem_p]
  simp

example : render c!"issue #12 in C#" = .ok c!"<p>issue#12inC#</p>\n" := by decide +kernel
example : render c!"issue #x" = .ok c!"<p>issue#x</p>\n" :=
  C75_partial 1 [.word c!"issue", .space 1] [.word c!"x"] (by decide) ⟨word_check (by decide), ⟨by decide, by decide, by decide, by decide⟩, trivial⟩
    ⟨word_check (by decide), trivial⟩ ⟨_, rfl, trivial⟩ (by decide) (.inr (by decide))

/-! ### C76 List entries with several paragraphs -/

/-- **C76** Paragraphs indented by a tab after a blank line belong to the list entry before them. -/
theorem C76_partial (c : Char) (is : List Inline) (ps : List (List Inline)) (hc : c = '-' ∨ c = '+')
    (hb : ∀ x ∈ c!" xX", ¬ ['[', x, ']', ' '] <+: inlineSrc is)
    (h : ∀ p ∈ is :: ps, InlineGood none p ∧ '\n' ∉ inlineSrc p ∧ ∃ i, p.head? = some i ∧ i.Visible) :
    render (c :: ' ' :: inlineSrc is ++ ps.flatMap fun p => c!"\n\n\t" ++ inlineSrc p) =
      .ok (c!"<ul>\n<li>\n" ++ ((is :: ps).flatMap fun p => elem c!"p" (inlineHtml p) ++ c!"\n") ++ c!"</li>\n</ul>\n") := by
  have hps : ∀ q ∈ ps.map inlineSrc, '\n' ∉ q := by
    intro q hq
    obtain ⟨p, hp, rfl⟩ := List.mem_map.mp hq
    exact (h p (by simp [hp])).2.1
  have e : (ps.flatMap fun p => c!"\n\n\t" ++ inlineSrc p) = (ps.map inlineSrc).flatMap fun p => c!"\n\n\t" ++ p := by
    rw [List.flatMap_map]
  have hlex : LexTo self [] (c :: ' ' :: inlineSrc is ++ ps.flatMap fun p => c!"\n\n\t" ++ inlineSrc p)
      [.unorderedListEntry (((' ' :: inlineSrc is) :: ps.map inlineSrc).map Token.plaintext)] := by
    refine LexTo.cons (s' := []) (fun last => ?_) LexTo.nil
    have := lexPlusMinus_paras self hc (h is (by simp)).2.1 hps hb
    rw [e]
    rw [List.cons_append] at this ⊢
    rw [nextToken_bullet hc, this]
    rfl
  have hx : ∀ p ∈ is :: ps, (inlineSrc p).head? ≠ some ' ' ∧ (inlineSrc p).head? ≠ some '\t' ∧
      self.render [] (inlineSrc p) = .ok (c!"<p>" ++ inlineHtml p ++ c!"</p>\n") ∧ ¬ c!"<pre><code>" <:+: c!"<p>" ++ inlineHtml p ++ c!"</p>\n" := by
    intro p hp
    obtain ⟨hg, _, hv⟩ := h p hp
    obtain ⟨⟨a, u, ea, ha⟩, _⟩ := head_ends hg hv
    have hs : a ≠ ' ' := by rintro rfl; revert ha; decide
    have ht : a ≠ '\t' := by rintro rfl; revert ha; decide
    rw [ea]
    refine ⟨by simpa using hs, by simpa using ht, ?_, para_noPre hg⟩
    rw [← ea]
    exact renderIgnore_inlines [] hg hv
  have hout : entryOut self (((' ' :: inlineSrc is) :: ps.map inlineSrc).map Token.plaintext) =
      .ok ((is :: ps).flatMap fun p => c!"<p>" ++ inlineHtml p ++ c!"</p>\n") := by
    obtain ⟨h1, h2, h3, h4⟩ := hx is (by simp)
    have hbt := bulletText_arg (c := '-') h1 h2
    rw [show bulletText '-' (inlineSrc is) = ' ' :: inlineSrc is from rfl] at hbt
    have hrest := entryOut_paras self (ps.map fun p => (inlineSrc p, c!"<p>" ++ inlineHtml p ++ c!"</p>\n")) (by
      intro q hq
      obtain ⟨p, hp, rfl⟩ := List.mem_map.mp hq
      exact hx p (by simp [hp]))
    have e3 : (ps.map fun p => (inlineSrc p, c!"<p>" ++ inlineHtml p ++ c!"</p>\n")).map (fun p => Token.plaintext p.1) =
        (ps.map inlineSrc).map Token.plaintext := by simp
    have e4 : (ps.map fun p => (inlineSrc p, c!"<p>" ++ inlineHtml p ++ c!"</p>\n")).flatMap Prod.snd =
        ps.flatMap fun p => c!"<p>" ++ inlineHtml p ++ c!"</p>\n" := by rw [List.flatMap_map]
    rw [e3, e4] at hrest
    rw [List.map_cons]
    simp only [entryOut, hbt, h3, Outcome.ok_bind, replaceStr_none h4, hrest, List.flatMap_cons]
  have hp := parseTok_entry self [] false (by simp [isPlaintext]) hout
  rw [render_of hlex (parseToks_one hp), finish_ul]
  simp [ulOpen, elem]

example : render c!"- a *b*\n\n\tc\n\n\td!" = .ok c!"<ul>\n<li>\n<p>a<em>b</em></p>\n<p>c</p>\n<p>d!</p>\n</li>\n</ul>\n" :=
  C76_partial '-' [.word c!"a", .space 1, .em '*' c!"b"] [[.word c!"c"], [.word c!"d", .bang]] (.inl rfl) (by decide) (by
    intro p hp
    simp only [List.mem_cons, List.not_mem_nil, or_false] at hp
    rcases hp with rfl | rfl | rfl
    · exact ⟨⟨word_check (by decide), ⟨by decide, by decide, by decide, by decide⟩, ⟨.inl rfl, ⟨_, _, rfl, by decide⟩, by decide, by decide⟩, trivial⟩,
        by decide, ⟨_, rfl, trivial⟩⟩
    · exact ⟨⟨word_check (by decide), trivial⟩, by decide, ⟨_, rfl, trivial⟩⟩
    · exact ⟨⟨word_check (by decide), (by show _ ≠ _; decide), trivial⟩, by decide, ⟨_, rfl, trivial⟩⟩)

/-! ### C77 Lists in lists -/

/-- **C77, negated** The entry of an inner list is lost. -/
theorem C77_refuted : render c!"- a\n  - b" = .ok c!"<ul>\n<li><p>a</p>\n\n</li>\n</ul>\n" := by
  decide +kernel

/-- It is lost whatever it is. -/
theorem C77_refuted_always (c d : Char) (is : List Inline) (t : Str) (hc : c = '-' ∨ c = '+') (hd : d = '-' ∨ d = '+')
    (hg : InlineGood none is) (hn : '\n' ∉ inlineSrc is) (hv : ∃ i, is.head? = some i ∧ i.Visible)
    (hb : ∀ x ∈ c!" xX", ¬ ['[', x, ']', ' '] <+: inlineSrc is) (ht : '\n' ∉ t) (hbt : ∀ x ∈ c!" xX", ¬ ['[', x, ']', ' '] <+: t) :
    render (c :: ' ' :: inlineSrc is ++ '\n' :: (c!"  " ++ (d :: ' ' :: t))) =
      .ok (c!"<ul>\n<li>" ++ (elem c!"p" (inlineHtml is) ++ c!"\n") ++ c!"\n</li>\n</ul>\n") := by
  have hdn : '\n' ∉ d :: ' ' :: t := by rcases hd with rfl | rfl <;> simp [ht]
  have hlex : LexTo self [] (c :: ' ' :: inlineSrc is ++ '\n' :: (c!"  " ++ (d :: ' ' :: t)))
      [.unorderedListEntry [.plaintext (' ' :: inlineSrc is), .plaintext c!"  ", .unorderedListEntry [.plaintext (' ' :: t)]]] := by
    refine LexTo.cons (s' := []) (fun last => ?_) LexTo.nil
    have := lexPlusMinus_nested (r := self) hc hn hdn hb (lex_nested hd ht hbt)
    rw [List.cons_append] at this ⊢
    rw [nextToken_bullet hc, this]
    rfl
  obtain ⟨⟨a, u, ea, ha⟩, _⟩ := head_ends hg hv
  have hs : (inlineSrc is).head? ≠ some ' ' := by rw [ea]; simp; rintro rfl; revert ha; decide
  have htab : (inlineSrc is).head? ≠ some '\t' := by rw [ea]; simp; rintro rfl; revert ha; decide
  have hbt := bulletText_arg (c := '-') hs htab
  rw [show bulletText '-' (inlineSrc is) = ' ' :: inlineSrc is from rfl] at hbt
  have hx : self.render [] (inlineSrc is) = .ok (c!"<p>" ++ inlineHtml is ++ c!"</p>\n") := renderIgnore_inlines [] hg hv
  have hnil : self.render [] [] = .ok c!"\n" := render_nil
  have hout : entryOut self [.plaintext (' ' :: inlineSrc is), .plaintext c!"  ", .unorderedListEntry [.plaintext (' ' :: t)]] =
      .ok (c!"<p>" ++ inlineHtml is ++ c!"</p>\n" ++ c!"\n") := by
    have e2 : (if startsWith c!"  " c!"\t\t" then trimStartP (· == ' ') (c!"  ".drop 1) else trimStartP (· == ' ') c!"  ") = [] := by decide
    simp only [entryOut, hbt, hx, Outcome.ok_bind, replaceStr_none (para_noPre hg), e2, hnil]
    rfl
  have hp := parseTok_entry_mixed self [] false (by simp [isPlaintext]) hout
  rw [render_of hlex (parseToks_one hp), finish_ul]
  simp [ulOpen, elem]

example : render c!"- fruit\n  + [apple](http:x) *b*" = .ok c!"<ul>\n<li><p>fruit</p>\n\n</li>\n</ul>\n" :=
  C77_refuted_always '-' '+' [.word c!"fruit"] c!"[apple](http:x) *b*" (.inl rfl) (.inr rfl) ⟨word_check (by decide), trivial⟩ (by decide)
    ⟨_, rfl, trivial⟩ (by decide) (by decide) (by decide)

end Smd.Gfm
