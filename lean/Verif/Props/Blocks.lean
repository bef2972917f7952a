import Verif.Props.Markdown
import Verif.Lemmas.Front

/-!
Functional correctness of rendering: code, block quotes, footnotes, collapsible sections and tables (C32, C33, C35, C37,
C41, C56, C67-C70). The expected HTML is written in `Verif.Spec.Blocks`.
-/

namespace Smd.Gfm
open Smd.Rs Smd.Spec

theorem render_ending (k : Nat) (e : Ending) (hne : e ≠ .none) (he : ∀ ds, e ≠ .notes ds) (h : e.Good RendersTo) :
    render (times k '\n' ++ e.src) = .ok e.html := by
  have := render_doc (d := { before := k, blocks := [], ending := e }) ⟨trivial, h, .inr (by simp)⟩
  cases e with
  | none => exact absurd rfl hne
  | notes ds => exact absurd rfl (he ds)
  | _ => simpa [Doc.src, Doc.html, docHtml, docSrc] using this

/-! ### C32, C33, C67 Code -/

theorem codeText_check {n : Nat} {t : Str} (h : t ≠ [] ∧ t.head? ≠ some '`' ∧ t.getLast? ≠ some '`')
    (hi : ∀ i ≤ t.length, ¬ times n '`' <+: t.drop i) : CodeText n t :=
  ⟨h.1, h.2.1, h.2.2, fun ⟨a, b, e⟩ => hi a.length (by rw [← e]; simp) ⟨b, by rw [← e]; simp⟩⟩

/-- **C32** Text between backticks, any number of them but three, is shown escaped and otherwise as it is: nothing in it
is interpreted. Spaces on both sides are not part of it; a line end is added if there is none. -/
theorem C32_code (n : Nat) (t : Str) (h1 : 1 ≤ n) (h3 : n ≠ 3) (ht : CodeText n t) :
    render (times n '`' ++ t ++ times n '`') = .ok (elem c!"pre" (elem c!"code" (endLine (escape (codeShown t))))) := by
  have := render_ending 0 (.code n t) nofun nofun ⟨h1, h3, ht⟩
  simpa [Ending.src, Ending.html, elem] using this

/-- **C32** in particular: single backticks around a text without backticks and line ends. -/
theorem C32_single (t : Str) (hne : t ≠ []) (ht : '`' ∉ t) (hs : t.head? ≠ some ' ' ∨ t.getLast? ≠ some ' ') (hn : '\n' ∉ t) :
    render (c!"`" ++ t ++ c!"`") = .ok (elem c!"pre" (elem c!"code" (escape t ++ c!"\n"))) := by
  have h := C32_code 1 t (by decide) (by decide) ⟨hne, fun h => ht (List.mem_of_mem_head? h), fun h => ht (List.mem_of_getLast? h),
    fun ⟨a, b, e⟩ => ht (by rw [← e]; simp)⟩
  have e1 : codeShown t = t := if_neg fun ⟨h1, h2⟩ => hs.elim (· h1) (· h2)
  have e2 : endLine (escape t) = escape t ++ c!"\n" := by
    refine if_neg fun h => hn ?_
    obtain ⟨c, hc, hx⟩ := List.mem_flatMap.mp (List.mem_of_getLast? h)
    have hc := (List.mem_filter.mp hc).1
    have ht : ∀ e ∈ entityTable, '\n' ∉ e.1 := by decide
    split at hx
    · next e he => exact absurd hx (ht e (List.mem_of_find?_eq_some he))
    · rw [List.mem_singleton] at hx
      rw [hx]; exact hc
  rw [e1, e2] at h
  exact h

example : render c!"`*a* & <b>`" = .ok c!"<pre><code>*a* &amp; &lt;b&gt;\n</code></pre>" :=
  C32_single c!"*a* & <b>" (by decide) (by decide) (.inl (by decide)) (by decide)

example : render c!"`` a`b\n ``" = .ok c!"<pre><code>a`b\n</code></pre>" :=
  C32_code 2 c!" a`b\n " (by decide) (by decide) (codeText_check (by decide) (by decide))

/-- **C32** Code after running text. -/
theorem C32_after_text (n : Nat) (t : Str) (is : List Inline) (h1 : 1 ≤ n) (h3 : n ≠ 3) (ht : CodeText n t)
    (hg : InlineGood (some '`') is) (hv : ∃ i, is.head? = some i ∧ i.Visible) :
    render (inlineSrc is ++ (times n '`' ++ t ++ times n '`')) =
      .ok (c!"<p>" ++ inlineHtml is ++ c!"<pre><code>" ++ escape (codeShown t) ++ c!"</p>\n</code></pre>") := by
  obtain ⟨t1, hl1, _, ho1⟩ := inlines_sem hg
  obtain ⟨u, hu⟩ := times_head (c := '`') h1 (t ++ times n '`')
  have hl := hl1 self [] (times n '`' ++ t ++ times n '`') [.code (codeShown t)] (by
    rw [List.append_assoc, hu]; exact hg) (by simpa using LexTo.code (r := self) (ig := []) h1 h3 ht LexTo.nil)
  rw [render_of hl (parseToks_two ((ho1 hv).clean self []) (parseToks_one (parseTok_code_inP self _ _))), finish_code_inP]
  simp

example : render c!"see `a<b`" = .ok c!"<p>see<pre><code>a&lt;b</p>\n</code></pre>" :=
  C32_after_text 1 c!"a<b" [.word c!"see", .space 1] (by decide) (by decide) (codeText_check (by decide) (by decide))
    ⟨word_check (by decide), ⟨by decide, by decide, by decide, by decide⟩, trivial⟩ ⟨_, rfl, trivial⟩

/-- **C67, negated** Everything after the code is code as well, and the elements are not closed in order. -/
theorem C67_refuted : render c!"run `ls` now" = .ok c!"<p>run<pre><code>lsnow</p>\n</code></pre>" := by
  decide +kernel

/-- This holds for all running text after code: it is inside the code element, and not separated from the code. -/
theorem C67_refuted_always (n : Nat) (t : Str) (is js : List Inline) (h1 : 1 ≤ n) (h3 : n ≠ 3) (ht : CodeText n t)
    (hg : InlineGood (some '`') is) (hv : ∃ i, is.head? = some i ∧ i.Visible) (hj : InlineGood none js) :
    render (inlineSrc is ++ (times n '`' ++ t ++ times n '`') ++ inlineSrc js) =
      .ok (c!"<p>" ++ inlineHtml is ++ c!"<pre><code>" ++ escape (codeShown t) ++ inlineHtml js ++ c!"</p>\n</code></pre>") := by
  obtain ⟨t1, hl1, _, ho1⟩ := inlines_sem hg
  obtain ⟨t2, hl2, ha2, _⟩ := inlines_sem hj
  obtain ⟨u, hu⟩ := times_head (c := '`') h1 (t ++ times n '`' ++ inlineSrc js)
  have h2 := hl2 self [] [] [] hj LexTo.nil
  rw [List.append_nil, List.append_nil] at h2
  have hl := hl1 self [] (times n '`' ++ t ++ times n '`' ++ inlineSrc js) (.code (codeShown t) :: t2) (by
    rw [List.append_assoc, List.append_assoc, ← List.append_assoc t, hu]; exact hg) (LexTo.code (r := self) (ig := []) h1 h3 ht h2)
  rw [List.append_assoc, render_of hl (parseToks_two ((ho1 hv).clean self []) (parseToks_cons (parseTok_code_inP self _ _) (ha2 self _ true))),
    finish_code_inP]
  simp

example : render c!"run ``a`b`` *now*!" = .ok c!"<p>run<pre><code>a`b<em>now</em>!</p>\n</code></pre>" :=
  C67_refuted_always 2 c!"a`b" [.word c!"run", .space 1] [.space 1, .em '*' c!"now", .bang] (by decide) (by decide)
    (codeText_check (by decide) (by decide)) ⟨word_check (by decide), ⟨by decide, by decide, by decide, by decide⟩, trivial⟩ ⟨_, rfl, trivial⟩
    ⟨⟨by decide, by decide, by decide, by decide⟩, ⟨.inl rfl, ⟨_, _, rfl, by decide⟩, by decide, by decide⟩, (by show _ ≠ _; decide), trivial⟩

/-- **C33, negated** A fenced code block leaves nothing in the output. -/
theorem C33_refuted : render c!"```rust\nfn main() {}\n```\n" = .ok c!"\n" := by
  decide +kernel

/-- Not only there: whatever its language and its lines, the rest of the document is rendered as if the block were not
there. -/
theorem C33_refuted_always (lang body rest : Str) (h1 : '\n' ∉ lang) (h2 : '`' ∉ lang) (h3 : '`' ∉ body) (h4 : rest.head? ≠ some '`') :
    render (c!"```" ++ lang ++ '\n' :: (body ++ (c!"```" ++ rest))) = render rest := by
  refine renderIgnore_front (t := .codeBlock body lang) (fun last => ?_) rfl rfl (fun r => ?_)
  · have e := lexBackticks_fence h1 h2 h3 h4
    have e' : c!"```" ++ lang ++ '\n' :: (body ++ (c!"```" ++ rest)) = '`' :: (c!"``" ++ lang ++ '\n' :: (body ++ (c!"```" ++ rest))) := by simp
    rw [e'] at e ⊢
    rw [nextToken_tick, e]
    rfl
  · rfl

example : render c!"```\na\n```\n\nb" = render c!"\n\nb" :=
  C33_refuted_always [] c!"a\n" c!"\n\nb" (by decide) (by decide) (by decide) (by decide)

/-- Also between other blocks: nothing of the code is shown, and the blocks before and after it are as they would be. -/
theorem C33_refuted_within (bs bs' : List (Block × Nat)) (lang body : Str) (n : Nat)
    (h : DocGood (fun s x => render s = .ok x) (bs ++ (.fenced lang body, n) :: bs')) :
    render (docSrc bs ++ (c!"```" ++ lang ++ '\n' :: (body ++ c!"```")) ++ times n '\n' ++ docSrc bs') =
      .ok (endLine (docHtml bs ++ docHtml bs')) := by
  have := (C26_blocks 0 _ h).2
  simpa [docSrc, docHtml, Block.src, Block.html] using this

/-- A fence in the line after a paragraph ends the paragraph. -/
example : render c!"a\n```c\nx\n```\nb" = .ok c!"<p>a</p>\n<p>b</p>\n" :=
  C33_refuted_within [(.para [.word c!"a"], 1)] [(.para [.word c!"b"], 0)] c!"c" c!"x\n" 1
    ⟨⟨⟨word_check (by decide), trivial⟩, ⟨_, rfl, trivial⟩⟩, by decide, ⟨by decide, by decide, by decide⟩, by decide,
      ⟨⟨word_check (by decide), trivial⟩, ⟨_, rfl, trivial⟩⟩⟩

/-- **C33, the part that holds** With four backticks or more everything between them is shown, including the language
written on the first line. -/
theorem C33_partial (n : Nat) (t : Str) (hn : 4 ≤ n) (ht : CodeText n t) :
    render (times n '`' ++ t ++ times n '`') = .ok (elem c!"pre" (elem c!"code" (endLine (escape (codeShown t))))) :=
  C32_code n t (by omega) (by omega) ht

example : render c!"````\n# a\n````" = .ok c!"<pre><code>\n# a\n</code></pre>" :=
  C33_partial 4 c!"\n# a\n" (by decide) (codeText_check (by decide) (by decide))

/-! ### C35 Block quotes -/

/-- **C35, negated** The text is escaped before it is rendered, and then once more. -/
theorem C35_refuted : render c!"> a&b" = .ok c!"<blockquote>\n<p>a&amp;amp;b</p>\n</blockquote>\n" := by
  decide +kernel

/-- The level is counted in one byte: at level 256 there is no block quote at all. -/
theorem C35_refuted_deep : render (times 256 '>' ++ c!" a") = .ok c!"<p>a</p>\n" := by
  decide +kernel

/-- **C35, the part that holds** Up to level 255, text that escaping does not change and whose rendering has no tabs is
rendered inside that many block quotes. -/
theorem C35_partial (n : Nat) (t x : Str) (hn : 1 ≤ n) (h255 : n ≤ 255) (hl : '\n' ∉ t) (hs : t.head? ≠ some ' ') (he : escape t = t)
    (hx : render t = .ok x) (htab : '\t' ∉ x) :
    render (times n '>' ++ c!" " ++ t) = .ok (copies n c!"<blockquote>\n" ++ x ++ copies n c!"</blockquote>\n") := by
  have := render_ending 0 (.quotes [(⟨n, 1, t, 0⟩, x)]) nofun nofun ⟨by simp, by simp, by
    intro l hm
    rw [List.mem_singleton] at hm
    subst hm
    exact ⟨⟨⟨hn, h255⟩, Nat.le_refl 1, hl, hs⟩, x, by simpa [he] using hx, (detab_self htab).symm⟩⟩
  simpa [Ending.src, Ending.html, QuoteLine.src, quoteHtml, quoteEnd, quoteMove, times] using this

example : render c!">>> a *b*" =
    .ok c!"<blockquote>\n<blockquote>\n<blockquote>\n<p>a<em>b</em></p>\n</blockquote>\n</blockquote>\n</blockquote>\n" :=
  C35_partial 3 c!"a *b*" c!"<p>a<em>b</em></p>\n" (by decide) (by decide) (by decide) (by decide) (by decide) (by decide +kernel) (by decide)

/-- **C35** Any number of quoted lines at any levels: block quotes are opened and closed as the level changes, and all
are closed at the end. -/
theorem C35_lines (k : Nat) (lines : List (QuoteLine × Str)) (hne : lines ≠ []) (hgood : ∀ l ∈ lines, l.1.Good)
    (hgap : ∀ l ∈ lines.dropLast, 1 ≤ l.1.ends) (hr : ∀ l ∈ lines, ∃ x, render (escape l.1.text) = .ok x ∧ l.2 = detab x) :
    render (times k '\n' ++ lines.flatMap fun l => l.1.src) =
      .ok (quoteHtml 0 lines ++ copies (quoteEnd 0 lines) c!"</blockquote>\n") :=
  render_ending k (.quotes lines) nofun nofun ⟨hne, hgap, fun l hl => ⟨hgood l hl, hr l hl⟩⟩

example : render c!"> a\n>> b\n\n>  c" =
    .ok c!"<blockquote>\n<p>a</p>\n<blockquote>\n<p>b</p>\n</blockquote><p>c</p>\n</blockquote>\n" :=
  C35_lines 0 [(⟨1, 1, c!"a", 1⟩, c!"<p>a</p>\n"), (⟨2, 1, c!"b", 2⟩, c!"<p>b</p>\n"), (⟨1, 2, c!"c", 0⟩, c!"<p>c</p>\n")]
    (by simp) (by
      intro l hl
      simp only [List.mem_cons, List.not_mem_nil, or_false] at hl
      rcases hl with rfl | rfl | rfl <;> constructor <;> decide) (by decide) (by
      intro l hl
      simp only [List.mem_cons, List.not_mem_nil, or_false] at hl
      rcases hl with rfl | rfl | rfl
      · exact ⟨c!"<p>a</p>\n", by decide +kernel, rfl⟩
      · exact ⟨c!"<p>b</p>\n", by decide +kernel, rfl⟩
      · exact ⟨c!"<p>c</p>\n", by decide +kernel, rfl⟩)

/-! ### C37 Footnotes -/

/-- **C37, negated** The reference points to `fn:n`; no element has this identifier. -/
theorem C37_refuted : ∃ html, render c!"a[^n]\n\n[^n]: x" = .ok html ∧ c!"href=\"#fn:n\"" <:+: html ∧ ¬ c!"id=\"fn:n\"" <:+: html := by
  exact render_check _ (fun html => c!"href=\"#fn:n\"" <:+: html ∧ ¬ c!"id=\"fn:n\"" <:+: html) (by decide +kernel)

/-- **C37, the part that holds** Any number of footnotes behind any document of C60: one endnote for each, in order, with
its text escaped and a link back to its reference. What is missing: all endnotes have the same identifier. -/
theorem C37_partial (k : Nat) (bs : List (Block × Nat)) (defs : List NoteDef) (hne : defs ≠ []) (hd : ∀ d ∈ defs, d.Good)
    (hgap : ∀ d ∈ defs.dropLast, 1 ≤ d.ends) (h : DocGood (fun s x => render s = .ok x) bs)
    (hbetween : ∀ b, bs.getLast? = some b → 2 ≤ b.2) :
    render (times k '\n' ++ docSrc bs ++ defs.flatMap NoteDef.src) =
      .ok (endLine (docHtml bs) ++ (c!"<div class=\"footnotes\" role=\"doc-endnotes\">\n\t<ol>\n" ++ defs.flatMap NoteDef.html ++
        c!"\t</ol>\n</div>\n")) := by
  have := render_doc (d := { before := k, blocks := bs, ending := .notes defs }) ⟨h, ⟨hne, hgap, hd⟩, .inr fun b hb => by
    have := hbetween b hb
    split <;> omega⟩
  simpa [Doc.src, Doc.html, Ending.src, notesHtml] using this

example : render c!"a[^n]\n\n[^n]: x *y*\n  z\n[^2]:w" = .ok (c!"<p>a" ++ (Inline.noteRef c!"n").html ++ c!"</p>\n" ++
    (c!"<div class=\"footnotes\" role=\"doc-endnotes\">\n\t<ol>\n" ++ (NoteDef.html ⟨c!"n", 1, c!"x *y*", [(c!"  ", c!"z")], 1⟩ ++
      NoteDef.html ⟨c!"2", 0, c!"w", [], 0⟩) ++ c!"\t</ol>\n</div>\n")) := by
  exact C37_partial 0 [(.para [.word c!"a", .noteRef c!"n"], 2)] [⟨c!"n", 1, c!"x *y*", [(c!"  ", c!"z")], 1⟩, ⟨c!"2", 0, c!"w", [], 0⟩]
    (by simp) (by
      intro d hd
      simp only [List.mem_cons, List.not_mem_nil, or_false] at hd
      rcases hd with rfl | rfl
      · exact ⟨⟨by decide, by decide⟩, by decide, by decide, ⟨_, _, rfl, by decide⟩, ⟨'z', c!"x *y*\n  ", by decide, by decide⟩⟩
      · exact ⟨⟨by decide, by decide⟩, by decide, by decide, ⟨_, _, rfl, by decide⟩, ⟨'w', [], by decide, by decide⟩⟩)
    (by decide) ⟨⟨word_check (by decide), ⟨⟨by decide, by decide⟩, by decide, by decide⟩, trivial⟩, ⟨_, rfl, trivial⟩⟩ (by simp)

/-- **C37, more of what holds** The link back from an endnote has a target: the reference, if there is one. -/
theorem C37_partial_back (pre post : List Inline) (d : NoteDef) (hd : d.Good) (h : (Block.para (pre ++ .noteRef d.id :: post)).Good fun s x => render s = .ok x) :
    ∃ html, render (inlineSrc (pre ++ .noteRef d.id :: post) ++ c!"\n\n" ++ d.src) = .ok html ∧
      c!"href=\"#fnref:" ++ escape d.id ++ c!"\"" <:+: html ∧ c!"id=\"fnref:" ++ escape d.id ++ c!"\"" <:+: html := by
  have := C37_partial 0 [(.para (pre ++ .noteRef d.id :: post), 2)] [d] (by simp) (by simpa using hd) (by simp) h (by simp)
  refine ⟨_, by simpa [docSrc, Block.src, times] using this, ?_, ?_⟩
  · refine ⟨endLine (docHtml [(.para (pre ++ .noteRef d.id :: post), 2)]) ++ c!"<div class=\"footnotes\" role=\"doc-endnotes\">\n\t<ol>\n" ++
      c!"\t\t<li id=\"fn:1\" role=\"doc-endnote\">\t\t\t<p>" ++ escape d.text ++ c!"<a ",
      c!" class=\"reversefootnote\" role=\"doc-backlink\">↩</a></p>\t\t</li>" ++ c!"\t</ol>\n</div>\n", ?_⟩
    simp [NoteDef.html]
  · refine List.IsInfix.trans ?_ (List.prefix_append _ _).isInfix
    have e : endLine (docHtml [(.para (pre ++ .noteRef d.id :: post), 2)]) = (Block.para (pre ++ .noteRef d.id :: post)).html := by
      rw [docHtml, List.flatMap_singleton]
      exact if_pos (by simp [Block.html])
    rw [e]
    exact ⟨c!"<p>" ++ inlineHtml pre ++ c!"<sup ", c!" role=\"doc-noteref\"><a href=\"#fn:" ++ escape d.id ++
      c!"\" class=\"footnote\" rel=\"footnote\">1</a></sup>" ++ inlineHtml post ++ c!"</p>\n", by
        simp [Block.html, inlineHtml, Inline.html, elem]⟩

/-! ### C41 Collapsible sections -/

theorem sections_check {inner : Str} (h : occ c!"<details>" inner = occ c!"</details>" inner)
    (hi : ∀ i ≤ inner.length, c!"</details>" <+: inner.drop i → occ c!"<details>" (inner.take i) = occ c!"</details>" (inner.take i) + 1) :
    Sections inner :=
  ⟨fun a b e => by
    have := hi a.length (by rw [e]; simp) ⟨b, by rw [e]; simp⟩
    rwa [e, List.append_assoc, List.take_left' rfl] at this, h⟩

/-- **C41, negated** The content of a section that is not closed is lost. -/
theorem C41_refuted : render c!"<details>\n<summary>a</summary>\nlost" =
    .ok c!"<details>\n<summary>a</summary>\n\n\\\n\t\t\t\t\t\t\t n</details>\n" := by
  decide +kernel

/-- A section inside a section inside a section ends the outer two, and its content is lost. -/
theorem C41_refuted_nested :
    render c!"<details>\n<summary>a</summary>\n<details>\n<summary>b</summary>\n<details>\n<summary>c</summary>\nx\n</details>\ny\n</details>\nz\n</details>" =
    .ok c!"<details>\n<summary>a</summary>\n<details>\n<summary>b</summary>\n\n\\\n\t\t\t\t\t\t\t n</details>\n\\\n\t\t\t\t\t\t\t n</details><p>y&lt;/details&gt;z&lt;/details&gt;</p>\n" := by
  decide +kernel

/-- **C41, the part that holds** A section whose content has only complete sections in it, none inside another, renders
as a section with its escaped summary and what its content renders to. What is missing: stray characters follow the
content. -/
theorem C41_partial (summary inner shown : Str) (h1 : '\n' ∉ summary) (h2 : '\r' ∉ summary) (hs : Sections inner)
    (hr : render ('\n' :: inner) = .ok shown) :
    render (c!"<details>\n<summary>" ++ summary ++ c!"</summary>\n" ++ inner ++ c!"</details>") =
      .ok (c!"<details>\n<summary>" ++ escape summary ++ c!"</summary>\n" ++ shown ++ c!"\\\n\t\t\t\t\t\t\t n</details>\n") := by
  have := (C26_blocks 0 [(.details summary inner shown, 0)] ⟨h1, h2, hs, hr⟩).1 (.details summary inner shown, 0) (by simp)
  rw [endLine, if_neg (by rw [Block.html, List.getLast?_append]; simp)] at this
  simpa [Block.src, Block.html] using this

example : render c!"<details>\n<summary>a & b</summary>\n- x\n- *y*\n</details>" =
    .ok c!"<details>\n<summary>a &amp; b</summary>\n<ul>\n<li>\n<p>x</p>\n</li>\n<li>\n<p><em>y</em></p>\n</li>\n</ul>\n\\\n\t\t\t\t\t\t\t n</details>\n" :=
  C41_partial c!"a & b" c!"- x\n- *y*\n" _ (by decide) (by decide) (sections_check (by decide) (by decide))
    (show render _ = .ok c!"<ul>\n<li>\n<p>x</p>\n</li>\n<li>\n<p><em>y</em></p>\n</li>\n</ul>\n" by decide +kernel)

/-- Two sections inside a section. -/
example : ∃ shown, render c!"<details>\n<summary>a</summary>\n<details>\n<summary>b</summary>\nx\n</details>\n\n<details>\n<summary>c</summary>\ny\n</details>\n</details>" =
    .ok (c!"<details>\n<summary>a</summary>\n" ++ shown ++ c!"\\\n\t\t\t\t\t\t\t n</details>\n") := by
  obtain ⟨shown, h, _⟩ := render_check c!"\n<details>\n<summary>b</summary>\nx\n</details>\n\n<details>\n<summary>c</summary>\ny\n</details>\n"
    (fun _ => True) (by decide +kernel)
  exact ⟨shown, C41_partial c!"a" c!"<details>\n<summary>b</summary>\nx\n</details>\n\n<details>\n<summary>c</summary>\ny\n</details>\n" shown
    (by decide) (by decide) (sections_check (by decide) (by decide +kernel)) h⟩

/-! ### C56, C68 Tables -/

/-- **C56** A table with any number of columns and rows: one heading per column with its text escaped, one row per line,
one cell per column with the alignment of the column and its running text, all in order. -/
theorem C56_table (t : Table) (h : t.Good) :
    render t.src = .ok
      (c!"<table class=\"table table-bordered\">\n\t<thead>\n\t<tr>\n" ++
       ((t.delims.zip t.head).flatMap fun c => c!"\t\t<th style=\"text-align: " ++ alignOf c.1 ++ c!"\">" ++ escape (trimmed c.2) ++ c!"</th>") ++
       c!"\t</tr>\n\t</thead>\n\t<tbody>" ++
       (t.rows.flatMap fun r => c!"\n\t<tr>" ++
         ((t.delims.zip r).flatMap fun c => c!"\n\t\t<td style=\"text-align: " ++ alignOf c.1 ++ c!"\">" ++ c.2.html ++ c!"</td>") ++
         c!"\n\t</tr>") ++
       c!"\n\t</tbody>\n</table>\n") := by
  have := (C26_blocks 0 [(.table t, 0)] h).1 (.table t, 0) (by simp)
  rw [endLine, if_neg (by rw [Block.html, Table.html, List.getLast?_append]; simp)] at this
  simpa [Block.src, Block.html, Table.html] using this

def sampleTable : Table :=
  { head := [c!" a ", c!" <b> "], delims := [c!"---", c!":-:"],
    rows := [[⟨1, [.word c!"x", .space 1, .word c!"y"], 1⟩, ⟨1, [.em '*' c!"z"], 1⟩], [⟨0, [.digit '1'], 0⟩, ⟨2, [], 0⟩]] }

theorem sampleTable_good : sampleTable.Good :=
    ⟨by decide, by decide, by decide, by
      intro r hr c hc
      simp only [sampleTable, List.mem_cons, List.not_mem_nil, or_false] at hr
      rcases hr with rfl | rfl
      all_goals
        simp only [List.mem_cons, List.not_mem_nil, or_false] at hc
        rcases hc with rfl | rfl
      · exact ⟨by decide, by decide, ⟨word_check (by decide), ⟨by decide, by decide, by decide, by decide⟩, word_check (by decide), trivial⟩, by simp [Inline.isLink], .inr ⟨⟨_, rfl, trivial⟩, ⟨_, rfl, trivial⟩⟩⟩
      · exact ⟨by decide, by decide, ⟨⟨.inl rfl, ⟨_, _, rfl, by decide⟩, by decide, by decide⟩, trivial⟩, by simp [Inline.isLink], .inr ⟨⟨_, rfl, trivial⟩, ⟨_, rfl, trivial⟩⟩⟩
      · exact ⟨by decide, by decide, ⟨⟨by decide, by decide⟩, trivial⟩, by simp [Inline.isLink], .inr ⟨⟨_, rfl, trivial⟩, ⟨_, rfl, trivial⟩⟩⟩
      · exact ⟨by decide, by decide, trivial, by simp, .inl rfl⟩, by decide⟩

example : render c!"| a | <b> |\n|---|:-:|\n| x y | *z* |\n|1|  |" = .ok
    (c!"<table class=\"table table-bordered\">\n\t<thead>\n\t<tr>\n" ++
     c!"\t\t<th style=\"text-align: left\">a</th>\t\t<th style=\"text-align: center\">&lt;b&gt;</th>\t</tr>\n\t</thead>\n\t<tbody>" ++
     c!"\n\t<tr>\n\t\t<td style=\"text-align: left\">x y</td>\n\t\t<td style=\"text-align: center\"><em>z</em></td>\n\t</tr>" ++
     c!"\n\t<tr>\n\t\t<td style=\"text-align: left\">1</td>\n\t\t<td style=\"text-align: center\"></td>\n\t</tr>" ++
     c!"\n\t</tbody>\n</table>\n") := by
  rw [show c!"| a | <b> |\n|---|:-:|\n| x y | *z* |\n|1|  |" = sampleTable.src by decide +kernel, C56_table sampleTable sampleTable_good]
  decide +kernel

example : trimmed [Char.ofNat 0x85, ' ', 'a', ' ', 'b', Char.ofNat 0x3000] = c!"a b" := by decide +kernel

/-- **C68, negated** The second line of a table is taken for a delimiter row whatever is in it, and not shown. -/
theorem C68_refuted : ∃ html, render c!"|a|\n|lost|\n|b|" = .ok html ∧ c!"<table" <:+: html ∧ ¬ c!"lost" <:+: html :=
  render_check _ (fun html => c!"<table" <:+: html ∧ ¬ c!"lost" <:+: html) (by decide +kernel)

/-- In every table the second line matters only by the colons at the ends of its cells. -/
theorem C68_refuted_always (t : Table) (delims : List Str) (h : t.Good) (h' : Table.Good { t with delims := delims })
    (ha : delims.map alignOf = t.delims.map alignOf) : render { t with delims := delims }.src = render t.src := by
  have hz : ∀ (α : Type) (f : Str × α → Str) (g : Str → α → Str) (l : List α), (∀ c, f c = g (alignOf c.1) c.2) →
      (delims.zip l).flatMap f = (t.delims.zip l).flatMap f := by
    intro α f g l hf
    have key : ∀ ds : List Str, (ds.zip l).flatMap f = ((ds.map alignOf).zip l).flatMap fun c => g c.1 c.2 := by
      intro ds
      rw [List.zip_map_left, List.flatMap_map]
      exact List.flatMap_congr fun c _ => hf c
    rw [key, key, ha]
  rw [C56_table _ h, C56_table _ h']
  simp only
  rw [hz Str _ (fun a c => c!"\t\t<th style=\"text-align: " ++ a ++ c!"\">" ++ escape (trimmed c) ++ c!"</th>") t.head (fun _ => rfl)]
  congr 4
  funext r
  rw [hz Cell _ (fun a c => c!"\n\t\t<td style=\"text-align: " ++ a ++ c!"\">" ++ c.html ++ c!"</td>") r (fun _ => rfl)]

theorem table_b {d : Str} (hd : d ≠ [] ∧ '|' ∉ d ∧ '\n' ∉ d) :
    Table.Good { head := [c!"a"], delims := [d], rows := [[⟨0, [.word c!"b"], 0⟩]] } :=
  ⟨by simp, by simp, by simpa using hd, by
    intro r hr c hc
    rw [List.mem_singleton] at hr
    subst hr
    rw [List.mem_singleton] at hc
    subst hc
    exact ⟨by decide, by decide, ⟨word_check (by decide), trivial⟩, by simp [Inline.isLink], .inr ⟨⟨_, rfl, trivial⟩, ⟨_, rfl, trivial⟩⟩⟩, by simp⟩

example : render c!"|a|\n|lost|\n|b|" = render c!"|a|\n|---|\n|b|" :=
  C68_refuted_always { head := [c!"a"], delims := [c!"---"], rows := [[⟨0, [.word c!"b"], 0⟩]] } [c!"lost"]
    (table_b (by decide)) (table_b (by decide)) (by decide)

/-! ### C69, C70 Hyphens and what follows a list -/

/-- **C69, negated** A hyphen inside a word starts a list. -/
theorem C69_refuted : render c!"well-known" = .ok c!"<p>well<ul>\n<li>\n<p>known</p>\n</li>\n</p>\n</ul>\n" := by
  decide +kernel

/-- In every line with a hyphen between pieces of running text: what follows the hyphen is a list entry inside the
paragraph. -/
theorem C69_refuted_always (is js : List Inline) (hi : InlineGood (some '-') is) (hj : InlineGood none js) (hnl : '\n' ∉ inlineSrc js)
    (hvi : ∃ i, is.head? = some i ∧ i.Visible) (hvj : ∃ i, js.head? = some i ∧ i.Visible)
    (h1 : (inlineSrc js).head? ≠ some '-') (h2 : (inlineSrc js).head? ≠ some '+') :
    render (inlineSrc is ++ '-' :: inlineSrc js) = .ok (c!"<p>" ++ inlineHtml is ++ c!"<ul>\n<li>\n" ++
      (elem c!"p" (inlineHtml js) ++ c!"\n") ++ c!"</li>\n</p>\n</ul>\n") := by
  obtain ⟨t1, hl1, _, ho1⟩ := inlines_sem hi
  obtain ⟨⟨a, w, ea, hwa⟩, _⟩ := head_ends hj hvj
  have hw : (inlineSrc js).head? = some a := by rw [ea]; rfl
  have hsp : (inlineSrc js).head? ≠ some ' ' ∧ (inlineSrc js).head? ≠ some '\t' := by
    rw [hw]
    constructor <;> (intro e; injection e with e; rw [e] at hwa; revert hwa; decide)
  have hl := hl1 self [] ('-' :: inlineSrc js) [.unorderedListEntry [.plaintext (inlineSrc js)]] hi
    (LexTo.cons (s' := []) (fun last => by
      rw [nextToken_bullet (.inl rfl), lexPlusMinus_hyphen self (.inl rfl) hnl h1 h2 hsp.1]
      rfl) LexTo.nil)
  have hp : parseToks self (t1 ++ [.unorderedListEntry [.plaintext (inlineSrc js)]]) (clean []) =
      .ok { html := c!"<p>" ++ inlineHtml is ++ c!"<ul>\n<li>\n" ++ (c!"<p>" ++ inlineHtml js ++ c!"</p>\n") ++ c!"</li>\n", inPara := true, inUl := true } := by
    refine parseToks_two ((ho1 hvi).clean self []) (parseToks_one ?_)
    have e : entryOut self [.plaintext (inlineSrc js)] = .ok (c!"<p>" ++ inlineHtml js ++ c!"</p>\n") := by
      have hb := bulletText_arg (c := '*') hsp.1 hsp.2
      rw [show bulletText '*' (inlineSrc js) = inlineSrc js from rfl] at hb
      have hx : self.render [] (inlineSrc js) = .ok (c!"<p>" ++ inlineHtml js ++ c!"</p>\n") := renderIgnore_inlines [] hj hvj
      simp only [entryOut, hb, hx, Outcome.ok_bind, replaceStr_none (para_noPre hj), List.append_nil]
    simp [parseTok, step1, step2, isBlankPlain, isTab, staysInList, staysInTask, opensPara, closesPara, staysInQuote, isCode, e,
      isPlaintext, PState.push]
  have hf : ∀ h : Str, finish { html := h, inPara := true, inUl := true } = h ++ c!"</p>\n</ul>\n" := by
    intro h
    simp [finish, rep, endNl]
  rw [render_of hl hp, hf]
  simp [elem]

example : render c!"The well-known *b*" = .ok c!"<p>Thewell<ul>\n<li>\n<p>known<em>b</em></p>\n</li>\n</p>\n</ul>\n" :=
  C69_refuted_always [.word c!"The", .space 1, .word c!"well"] [.word c!"known", .space 1, .em '*' c!"b"]
    ⟨word_check (by decide), ⟨by decide, by decide, by decide, by decide⟩, word_check (by decide), trivial⟩
    ⟨word_check (by decide), ⟨by decide, by decide, by decide, by decide⟩, ⟨.inl rfl, ⟨_, _, rfl, by decide⟩, by decide, by decide⟩, trivial⟩
    (by decide) ⟨_, rfl, trivial⟩ ⟨_, rfl, trivial⟩ (by decide) (by decide)

/-- **C70, negated** The paragraph after a list is opened inside the list and closed outside, after its first letter. -/
theorem C70_refuted : render c!"- a\n\nbc" = .ok c!"<ul>\n<li>\n<p>a</p>\n</li>\n<p>b</ul>\nc</p>\n" := by
  decide +kernel

/-- A heading after a list is put into a paragraph. -/
theorem C70_refuted_heading : render c!"- a\n\n# bc" = .ok c!"<ul>\n<li>\n<p>a</p>\n</li>\n</ul>\n<p><h1>bc</h1>\n</p>\n" := by
  decide +kernel

end Smd.Gfm
