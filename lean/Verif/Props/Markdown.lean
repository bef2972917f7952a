import Verif.Lemmas.Corollaries
import Verif.Lemmas.Nesting
import Verif.Props.Safety

/-!
Functional correctness of rendering: what words, paragraphs, headings, emphasis, lists, thematic breaks and links render
to (C24-C31, C34, C36, C38-C40, C57, C60). The expected HTML is written in `Verif.Spec.Markdown` and `Verif.Spec.Blocks`.
-/

namespace Smd.Gfm
open Smd.Rs Smd.Spec

/-! ### C60 Documents -/

/-- **C60** Every document made of paragraphs, headings, thematic breaks, tables, images, collapsible sections, fenced code
(of which nothing is shown), block quotes followed by a paragraph and lists followed by a paragraph, a heading or a thematic break, with enough line ends between
them, and a list, block quotes, code or footnotes at the end if wanted, renders to the concatenation of what its blocks
render to. The content of sections and quotes is any text that renders. -/
theorem C60_documents (d : Doc) (h : d.Good fun s x => render s = .ok x) : render d.src = .ok d.html := render_doc h

/-- A document with every kind of block and most kinds of running text. -/
def sample : Doc where
  before := 1
  blocks := [
    (.heading 2 [.word c!"Über", .space 1, .em '*' c!"a < b"], 1),
    (.para [.word c!"See", .space 1, .link c!"the site" c!"https://example.org/a?b=c", .bang, .eol, .strong '_' c!"Now"], 1),
    (.heading 1 [.digit '1', .word c!")", .space 2, .strike c!"x"], 3),
    (.rule 3 '-', 2),
    (.para [.escaped '*', .word c!"(a)", .tildes 3, .space 1, .autolink c!"irc:x"], 2),
    (.table { head := [c!" a ", c!"<b>"], delims := [c!":-:", c!" -- "],
              rows := [[⟨1, [.word c!"x", .space 1, .em '*' c!"y"], 2⟩, ⟨1, [], 0⟩]] }, 1),
    (.image c!"a \"b\"" c!"https://x.org/c.png", 1),
    (.details c!"more" c!"*x*\n\ny\n" c!"<p><em>x</em></p>\n<p>y</p>\n", 1)]
  ending := .bullets [('-', [.word c!"one"], 1), ('*', [.word c!"two", .digit '2'], 2), ('+', [.em '_' c!"3"], 0)]

theorem word_check {w : Str} (h : (w ≠ [] ∧ w.all (fun c => !controlChars.contains c && !isWs c) = true)) : Word w := by
  refine ⟨h.1, fun c hc => ?_⟩
  have := List.all_eq_true.mp h.2 c hc
  simpa using this

theorem target_check {t : Str} (s u : Str) (h : t = s ++ ':' :: u ∧ 2 ≤ s.length ∧ s.length ≤ 32 ∧ (s.all Char.isAlpha = true) ∧
    s.map Char.toLower ≠ c!"javascript" ∧ s.map Char.toLower ≠ c!"data" ∧ s ≠ c!"mailto")
    (hc : t.all (fun c => decide (c.toNat < 128) && !isWs c && !c!"%#[]!$'()*\\&@<>\"".contains c) = true) : PlainTarget t := by
  obtain ⟨h1, h2, h3, h4, h5⟩ := h
  refine ⟨⟨s, u, h1, h2, h3, fun c hc => List.all_eq_true.mp h4 c hc, h5⟩, fun c hx => ?_⟩
  have := List.all_eq_true.mp hc c hx
  simp only [Bool.and_eq_true, decide_eq_true_eq, Bool.not_eq_true', List.contains_eq_mem, decide_eq_false_iff_not] at this
  exact ⟨this.1.1, this.1.2, this.2⟩

theorem sample_good {R : Str → Str → Prop} (hR : R c!"\n*x*\n\ny\n" c!"<p><em>x</em></p>\n<p>y</p>\n") : sample.Good R where
  blocks := by
    refine ⟨⟨by decide, by decide, ⟨word_check (by decide), ⟨by decide, by decide, by decide, by decide⟩,
        ⟨.inl rfl, ⟨_, _, rfl, by decide⟩, by decide, by decide⟩, trivial⟩, by decide, by decide, ⟨_, rfl, trivial⟩, ⟨_, rfl, trivial⟩⟩,
      by decide, ⟨⟨word_check (by decide), ⟨by decide, by decide, by decide, by decide⟩,
        ⟨by decide, target_check c!"https" c!"//example.org/a?b=c" (by decide) (by decide)⟩, (by show _ ≠ _; decide), (by show _ ≠ _; decide),
        ⟨.inr rfl, ⟨⟨_, _, rfl, by decide⟩, by decide, by decide⟩, by decide, by decide⟩, trivial⟩, ⟨_, rfl, trivial⟩⟩,
      by decide, ⟨by decide, by decide, ⟨⟨by decide, by decide⟩, word_check (by decide), ⟨by decide, by decide, by decide, by decide⟩,
        ⟨by decide, by decide, by decide⟩, trivial⟩, by decide, by decide, ⟨_, rfl, trivial⟩, ⟨_, rfl, trivial⟩⟩,
      by decide, .inl ⟨.inl rfl, by decide⟩,
      by decide, ⟨⟨⟨by decide, by decide, by decide⟩, word_check (by decide), ⟨by decide, by decide, by decide⟩,
        ⟨by decide, by decide, by decide, by decide⟩, target_check c!"irc" c!"x" (by decide) (by decide), trivial⟩, ⟨_, rfl, trivial⟩⟩,
      by decide, ⟨by decide, by decide, by decide, ?_, by decide⟩,
      by decide, ⟨by decide, target_check c!"https" c!"//x.org/c.png" (by decide) (by decide), by decide⟩,
      by decide, by decide, by decide, ⟨?_, by decide⟩, hR⟩
    · intro r hr c hc
      rw [List.mem_singleton] at hr
      subst hr
      simp only [List.mem_cons, List.not_mem_nil, or_false] at hc
      rcases hc with rfl | rfl
      · exact ⟨by decide, by decide, ⟨word_check (by decide), ⟨by decide, by decide, by decide, by decide⟩,
          ⟨.inl rfl, ⟨_, _, rfl, by decide⟩, by decide, by decide⟩, trivial⟩, by
          intro i hi
          simp only [List.mem_cons, List.not_mem_nil, or_false] at hi
          rcases hi with rfl | rfl | rfl <;> trivial, .inr ⟨⟨_, rfl, trivial⟩, ⟨_, rfl, trivial⟩⟩⟩
      · exact ⟨by decide, by decide, trivial, by simp, .inl rfl⟩
    · intro a b e
      have h : '<' ∈ c!"*x*\n\ny\n" := by rw [e]; simp
      exact absurd h (by decide)
  ending := by
    refine ⟨by decide, by decide, ?_⟩
    intro i hi
    simp only [List.mem_cons, List.not_mem_nil, or_false] at hi
    rcases hi with rfl | rfl | rfl
    · exact ⟨.inl rfl, ⟨word_check (by decide), trivial⟩, by decide, ⟨_, rfl, trivial⟩, by decide⟩
    · exact ⟨.inr (.inr rfl), ⟨word_check (by decide), ⟨by decide, by decide⟩, trivial⟩, by decide, ⟨_, rfl, trivial⟩, by decide⟩
    · exact ⟨.inr (.inl rfl), ⟨⟨.inr rfl, ⟨_, _, rfl, by decide⟩, by decide, by decide⟩, trivial⟩, by decide, ⟨_, rfl, trivial⟩, by decide⟩
  between := .inr (by simp [sample, Block.isPara])

example : render sample.src = .ok sample.html := C60_documents sample (sample_good (by decide +kernel))

example : sample.src =
    c!"\n## Über *a < b*\nSee [the site](https://example.org/a?b=c)!\n__Now__\n# 1)  ~~x~~\n\n\n---\n\n\\*(a)~~~ <irc:x>\n\n| a |<b>|\n|:-:| -- |\n| x *y*  | |\n![a \"b\"](https://x.org/c.png)\n<details>\n<summary>more</summary>\n*x*\n\ny\n</details>\n- one\n* two2\n\n+ _3_" := by
  decide +kernel

/-- A document with quotes and lists between other blocks. -/
def sample2 : Doc where
  before := 0
  blocks := [
    (.quoted [(⟨1, 1, c!"to be", 1⟩, c!"<p>tobe</p>\n"), (⟨2, 2, c!"*or*", 2⟩, c!"<p><em>or</em></p>\n")] [.strong '*' c!"not"], 2),
    (.listed (.bullets [('-', [.word c!"one"], 1), ('+', [.em '_' c!"2"], 1)]) 'A' '"' [.space 1, .word c!"dog"], 1),
    (.heading 3 [.word c!"next"], 1),
    (.listedHeading (.ordered [('1', c!"a < b", 2)]) 1 [.word c!"Head"], 3),
    (.listedRule (.tasks [('-', 'x', c!"done", 1)]) 4 '*', 2),
    (.para [.word c!"end"], 1),
    (.fenced c!"c" c!"x = 1;\n", 1)]
  ending := .none

theorem sample2_good {R : Str → Str → Prop} (h1 : R c!"to be" c!"<p>tobe</p>\n") (h2 : R c!"*or*" c!"<p><em>or</em></p>\n") : sample2.Good R where
  blocks := by
    refine ⟨⟨⟨by decide, by decide, ?_⟩, by decide, ⟨⟨.inl rfl, ⟨⟨_, _, rfl, by decide⟩, by decide, by decide⟩, by decide, by decide⟩, trivial⟩, ⟨_, rfl, trivial⟩⟩, by decide,
      ⟨⟨by decide, by decide, ?_⟩, (by show ∀ i ∈ _, _; decide), word_check (by decide), ⟨by decide, by decide, by decide, by decide⟩, word_check (by decide), trivial⟩, by decide,
      ⟨by decide, by decide, ⟨word_check (by decide), trivial⟩, by decide, by decide, ⟨_, rfl, trivial⟩, ⟨_, rfl, trivial⟩⟩, by decide,
      ⟨⟨by decide, by decide, by decide⟩, (by show ∀ i ∈ _, _; decide), by decide, by decide, ⟨word_check (by decide), trivial⟩, by decide, by decide, ⟨_, rfl, trivial⟩, ⟨_, rfl, trivial⟩⟩, by decide,
      ⟨⟨by decide, by decide, by decide⟩, (by show ∀ i ∈ _, _; decide), .inr ⟨.inl rfl, by decide⟩⟩, by decide,
      ⟨⟨word_check (by decide), trivial⟩, ⟨_, rfl, trivial⟩⟩, by decide, by decide, by decide, by decide⟩
    · intro l hl
      simp only [List.mem_cons, List.not_mem_nil, or_false] at hl
      rcases hl with rfl | rfl
      · exact ⟨⟨by decide, by decide, by decide, by decide⟩, _, h1, by decide⟩
      · exact ⟨⟨by decide, by decide, by decide, by decide⟩, _, h2, by decide⟩
    · intro i hi
      simp only [List.mem_cons, List.not_mem_nil, or_false] at hi
      rcases hi with rfl | rfl
      · exact ⟨.inl rfl, ⟨word_check (by decide), trivial⟩, by decide, ⟨_, rfl, trivial⟩, by decide⟩
      · exact ⟨.inr (.inl rfl), ⟨⟨.inr rfl, ⟨_, _, rfl, by decide⟩, by decide, by decide⟩, trivial⟩, by decide, ⟨_, rfl, trivial⟩, by decide⟩
  ending := trivial
  between := .inl rfl

example : render sample2.src = .ok sample2.html := C60_documents sample2 (sample2_good (by decide +kernel) (by decide +kernel))

example : sample2.src = c!"> to be\n>>  *or*\n\n**not**\n\n- one\n+ _2_\nA\" dog\n### next\n1. a < b\n\n# Head\n\n\n- [x] done\n****\n\nend\n```c\nx = 1;\n```\n" ∧
    sample2.html = c!"<blockquote>\n<p>tobe</p>\n<blockquote>\n<p><em>or</em></p>\n</blockquote></blockquote><p><strong>not</strong></p>\n<ul>\n<li>\n<p>one</p>\n</li>\n<li>\n<p><em>2</em></p>\n</li>\n<p>A</ul>\n&quot;dog</p>\n<h3>next</h3>\n<ol>\n<li>\na &lt; b</li>\n</ol>\n<p><h1>Head</h1>\n</p>\n<ul class=\"contains-task-list\"><li class=\"task-list-item\"><input type=\"checkbox\" class=\"task-list-item-checkbox\" checked=\"\">done</li></ul>\n<p><hr />\n</p>\n<p>end</p>\n" := by
  decide +kernel

/-! ### C24 Words -/

/-- **C24** An ordinary word renders as one paragraph with the word escaped. -/
theorem C24_word (w : Str) (h : Word w) : render w = .ok (elem c!"p" (escape w) ++ c!"\n") :=
  render_inline (i := .word w) h trivial

example : render c!"naïve,"  = .ok c!"<p>naïve,</p>\n" := C24_word _ (word_check (by decide))
example : render c!"a&b\"}" = .ok c!"<p>a&amp;b&quot;&rbrace;</p>\n" := C24_word _ (word_check (by decide))

/-! ### C25 Words stay separated -/

/-- **C25, negated** The space between two words is lost. -/
theorem C25_refuted : render c!"foo bar" = .ok c!"<p>foobar</p>\n" := by
  decide +kernel

/-- Not only there: every paragraph of ordinary words, however many, loses all its spaces and line ends. -/
theorem C25_refuted_always (p l : Str) (h : Paragraph p l) : render p = .ok (elem c!"p" (escape l) ++ c!"\n") := by
  obtain ⟨is, h1, h2, h3, h4, _⟩ := paragraph_inlines h
  rw [← h1, ← h2]
  exact render_inlines (inlineGood_none h3) h4

example : render c!"one two\nthree" = .ok c!"<p>onetwothree</p>\n" :=
  C25_refuted_always _ c!"onetwothree" (.more c!"one" _ _ ' ' (word_check (by decide)) (.inl rfl)
    (.more c!"two" _ _ '\n' (word_check (by decide)) (.inr rfl) (.one c!"three" (word_check (by decide)))))

/-- **C25, the part that holds** Inside emphasis, strikethrough and link texts the spaces are kept. -/
theorem C25_partial (m : Char) (u v : Str) (hm : m = '*' ∨ m = '_') (hu : Word u) (hv : Word v) :
    render (times 1 m ++ (u ++ ' ' :: v) ++ times 1 m) = .ok (elem c!"p" (elem c!"em" (escape u ++ ' ' :: escape v)) ++ c!"\n") := by
  have hw : ∀ {w : Str}, Word w → '*' ∉ w ∧ '_' ∉ w := fun h =>
    ⟨fun hm => (h.2 _ hm).1 (by decide), fun hm => (h.2 _ hm).1 (by decide)⟩
  have he : escape (u ++ ' ' :: v) = escape u ++ ' ' :: escape v := by
    rw [escape_append, escape_cons ' ' v]
    rfl
  rw [← he]
  refine render_inline (i := .em m (u ++ ' ' :: v)) ⟨hm, ?_, ?_, ?_⟩ trivial
  · obtain ⟨_, _, ⟨a, t, e, ha⟩, _⟩ := word_ends hu
    refine ⟨a, t ++ ' ' :: v, by rw [e]; rfl, ?_⟩
    intro h
    have : ∀ c ∈ c!" \t\n", isWs c = true := by decide
    rw [this a h] at ha
    cases ha
  · simp [(hw hu).1, (hw hv).1]
  · simp [(hw hu).2, (hw hv).2]

example : render c!"_foo bar_" = .ok c!"<p><em>foo bar</em></p>\n" :=
  C25_partial '_' c!"foo" c!"bar" (.inr rfl) (word_check (by decide)) (word_check (by decide))

/-! ### C26 Blank lines -/

/-- **C26** Blocks with blank lines between them render to the concatenation of their own renderings, in order (a line
end is added where there is none). -/
theorem C26_blocks (k : Nat) (bs : List (Block × Nat)) (h : DocGood (fun s x => render s = .ok x) bs) :
    (∀ b ∈ bs, render b.1.src = .ok (endLine b.1.html)) ∧
    render (times k '\n' ++ docSrc bs) = .ok (endLine (bs.flatMap fun b => b.1.html)) := by
  refine ⟨?_, ?_⟩
  · have hall : ∀ bs, DocGood RendersTo bs → ∀ b ∈ bs, b.1.Good RendersTo := by
      intro bs
      induction bs with
      | nil => intro _ b hb; cases hb
      | cons c cs ih =>
        intro h b hb
        rcases List.mem_cons.mp hb with rfl | hb
        · exact docGood_head h
        · exact ih (docGood_tail h) b hb
    intro b hb
    have := render_doc (d := { before := 0, blocks := [(b.1, 0)], ending := .none }) ⟨hall bs h b hb, trivial, .inl rfl⟩
    simpa [Doc.src, Doc.html, docSrc, docHtml, Ending.src] using this
  · have := render_doc (d := { before := k, blocks := bs, ending := .none }) ⟨h, trivial, .inl rfl⟩
    simpa [Doc.src, Doc.html, docHtml, Ending.src] using this

/-- **C26** in particular: paragraphs of ordinary words, any number of them, with any number of blank lines. -/
theorem C26_paragraphs (k : Nat) (ps : List (Str × Nat)) (hne : ps ≠ []) (hp : ∀ p ∈ ps, ∃ l, Paragraph p.1 l)
    (hgap : ∀ p ∈ ps.dropLast, 2 ≤ p.2) :
    ∃ hs : List Str, (ps.map fun p => render p.1) = hs.map .ok ∧
      render (times k '\n' ++ ps.flatMap fun p => p.1 ++ times p.2 '\n') = .ok hs.flatten := by
  have hex : ∃ bs : List (Block × Nat), (bs.map fun b => (b.1.src, b.2)) = ps ∧ DocGood RendersTo bs ∧ ∀ b ∈ bs, ∃ is, b.1 = .para is := by
    clear hne
    induction ps with
    | nil => exact ⟨[], rfl, trivial, by simp⟩
    | cons p ps ih =>
      obtain ⟨l, hl⟩ := hp p (by simp)
      obtain ⟨is, h1, h2, h3, h4, _⟩ := paragraph_inlines hl
      obtain ⟨bs, e, hg, hpara⟩ := ih (fun q hq => hp q (by simp [hq])) (fun q hq => hgap q (by
        cases ps with
        | nil => simp at hq
        | cons a as => simp [List.dropLast_cons_cons] at hq ⊢; exact .inr hq))
      refine ⟨(.para is, p.2) :: bs, by rw [List.map_cons, e]; show (inlineSrc is, p.2) :: ps = _; rw [h1], ?_, ?_⟩
      · cases bs with
        | nil => exact ⟨h3, h4⟩
        | cons b bs =>
          refine ⟨⟨h3, h4⟩, ?_, hg⟩
          have h2 : 2 ≤ p.2 := hgap p (by
            cases ps with
            | nil => cases e
            | cons a as => rw [List.dropLast_cons_cons]; exact List.mem_cons_self)
          obtain ⟨js, hj⟩ := hpara b (by simp)
          show Block.gap (.para is) b.1 ≤ p.2
          rw [hj]
          exact h2
      · intro b hb
        rcases List.mem_cons.mp hb with rfl | hb
        · exact ⟨is, rfl⟩
        · exact hpara b hb
  obtain ⟨bs, rfl, hg, hpara⟩ := hex
  obtain ⟨h1, h2⟩ := C26_blocks k bs hg
  have hnl : ∀ b ∈ bs, endLine b.1.html = b.1.html := by
    intro b hb
    obtain ⟨is, e⟩ := hpara b hb
    rw [e]
    exact if_pos (by simp [Block.html])
  have hall : endLine (bs.flatMap fun b => b.1.html) = bs.flatMap fun b => b.1.html := by
    have hbs : bs ≠ [] := by rintro rfl; exact hne rfl
    obtain ⟨bs', b, rfl⟩ := (List.eq_nil_or_concat bs).resolve_left hbs
    obtain ⟨is, e⟩ := hpara b (by simp)
    refine if_pos ?_
    rw [List.concat_eq_append, List.flatMap_append, List.flatMap_singleton, e]
    simp [Block.html]
  refine ⟨bs.map fun b => b.1.html, ?_, ?_⟩
  · rw [List.map_map, List.map_map]
    exact List.map_congr_left fun b hb => by rw [Function.comp_apply, h1 b hb, hnl b hb]; rfl
  · rw [List.flatMap_map]
    rw [hall] at h2
    simpa [docSrc, List.flatMap] using h2

example : render c!"\none two\n\n\n\nthree\n" = .ok c!"<p>onetwo</p>\n<p>three</p>\n" := by
  obtain ⟨hs, h1, h2⟩ := C26_paragraphs 1 [(c!"one two", 4), (c!"three", 1)] (by simp) (by
    intro p hp
    simp only [List.mem_cons, List.not_mem_nil, or_false] at hp
    rcases hp with rfl | rfl
    · exact ⟨_, .more c!"one" c!"two" _ ' ' (word_check (by decide)) (.inl rfl) (.one _ (word_check (by decide)))⟩
    · exact ⟨_, .one _ (word_check (by decide))⟩) (by simp)
  have h1 : [render c!"one two", render c!"three"] = hs.map .ok := h1
  rw [show render c!"one two" = .ok c!"<p>onetwo</p>\n" by decide +kernel,
    show render c!"three" = .ok c!"<p>three</p>\n" by decide +kernel] at h1
  match hs with
  | [a, b] => simp at h1; rw [← h1.1, ← h1.2] at h2; exact h2
  | [] => simp at h1
  | [_] => simp at h1
  | _ :: _ :: _ :: _ => simp at h1

/-! ### C27 Headings -/

/-- **C27** One to six hashes, a space and running text on one line render as a heading of that level. -/
theorem C27_heading (n : Nat) (is : List Inline) (h : (Block.heading n is).Good fun s x => render s = .ok x) :
    render (times n '#' ++ c!" " ++ inlineSrc is) = .ok (elem ('h' :: dec n) (inlineHtml is) ++ c!"\n") := by
  have := (C26_blocks 0 [(.heading n is, 0)] h).1 (.heading n is, 0) (by simp)
  rwa [endLine, if_pos (by simp [Block.html])] at this

/-- **C27** in particular with ordinary words. -/
theorem C27_words (n : Nat) (p l : Str) (h1 : 1 ≤ n) (h6 : n ≤ 6) (h : Paragraph p l) (hnl : '\n' ∉ p) :
    render (times n '#' ++ c!" " ++ p) = .ok (elem ('h' :: dec n) (escape l) ++ c!"\n") := by
  have hh : '#' ∉ p := by
    clear hnl
    induction h with
    | one w hw => exact fun hm => (hw.2 _ hm).1 (by decide)
    | more w p l sep hw hs hp ih =>
      intro hm
      rcases List.mem_append.mp hm with hm | hm
      · exact (hw.2 _ hm).1 (by decide)
      · rcases List.mem_cons.mp hm with rfl | hm
        · rcases hs with hs | hs <;> cases hs
        · exact ih hm
  obtain ⟨is, e1, e2, h3, h4, h5⟩ := paragraph_inlines h
  rw [← e1, ← e2]
  exact C27_heading n is ⟨h1, h6, h3, e1 ▸ hnl, e1 ▸ hh, h4, h5⟩

example : render c!"### A (b)" = .ok c!"<h3>A&#40;b&#41;</h3>\n" :=
  C27_words 3 c!"A (b)" c!"A(b)" (by decide) (by decide)
    (.more c!"A" _ _ ' ' (word_check (by decide)) (.inl rfl) (.one _ (word_check (by decide)))) (by decide)

/-- **C27** Seven or more hashes, or hashes without white space after them, are text: no heading. -/
theorem C27_not_heading (n : Nat) (is : List Inline) (hn : 1 ≤ n) (hg : InlineGood none is) (hh : (inlineSrc is).head? ≠ some '#')
    (h : 7 ≤ n ∨ ∀ c ∈ c!" \t\n", (inlineSrc is).head? ≠ some c) :
    render (times n '#' ++ inlineSrc is) = .ok (elem c!"p" (times n '#' ++ inlineHtml is) ++ c!"\n") := by
  have hs := shows_plain (shown_times (c := '#') hn (by decide) (by decide))
  have he : escape (times n '#') = times n '#' := by
    clear hn h hs
    induction n with
    | zero => rfl
    | succ n ih =>
      rw [show times (n + 1) '#' = '#' :: times n '#' from List.replicate_succ, escape_cons, ih]
      rfl
  rw [he] at hs
  exact render_token_inlines hg (fun last => hashes_text hn hh h last) hs

example : render c!"####### a" = .ok c!"<p>#######a</p>\n" :=
  C27_not_heading 7 [.space 1, .word c!"a"] (by decide)
    ⟨⟨by decide, by decide, by decide, by decide⟩, word_check (by decide), trivial⟩ (by decide) (.inl (by decide))

example : render c!"#a" = .ok c!"<p>#a</p>\n" :=
  C27_not_heading 1 [.word c!"a"] (by decide) ⟨word_check (by decide), trivial⟩ (by decide) (.inr (by decide))

/-! ### C28-C30 Lists -/

/-- **C28** Lines `- item`, any number of them, with one or more line ends between them: one list, one entry per line, in
order, with the item's own rendering inside. An item is any line that renders, does not start with white space or a task
box, and whose rendering has no code block. -/
theorem C28_bullets (k : Nat) (items : List (Char × Str × Nat × Str)) (hne : items ≠ [])
    (hmark : ∀ i ∈ items, i.1 = '-' ∨ i.1 = '+' ∨ i.1 = '*') (hline : ∀ i ∈ items, '\n' ∉ i.2.1)
    (hstart : ∀ i ∈ items, i.2.1.head? ≠ some ' ' ∧ i.2.1.head? ≠ some '\t' ∧ ∀ x ∈ c!" xX", ¬ ['[', x, ']', ' '] <+: i.2.1)
    (hgap : ∀ i ∈ items.dropLast, 1 ≤ i.2.2.1) (hrender : ∀ i ∈ items, render i.2.1 = .ok i.2.2.2)
    (hcode : ∀ i ∈ items, ¬ c!"<pre><code>" <:+: i.2.2.2) :
    render (times k '\n' ++ items.flatMap fun i => i.1 :: ' ' :: i.2.1 ++ times i.2.2.1 '\n') =
      .ok (c!"<ul>\n" ++ (items.flatMap fun i => c!"<li>\n" ++ i.2.2.2 ++ c!"</li>\n") ++ c!"</ul>\n") := by
  obtain ⟨ts, h1, h2⟩ := bullets_sem self [] items
    (fun i hi => ⟨⟨hmark i hi, hline i hi, (hstart i hi).1, (hstart i hi).2.1, (hstart i hi).2.2⟩, hrender i hi, hcode i hi⟩) hgap
  have hhead : (items.flatMap fun i => i.1 :: ' ' :: i.2.1 ++ times i.2.2.1 '\n').head? ≠ some '\n' := by
    cases items with
    | nil => exact absurd rfl hne
    | cons i is =>
      have := hmark i (by simp)
      rw [List.flatMap_cons]
      rcases this with e | e | e <;> simp [e]
  obtain ⟨toks, h3, h4⟩ := lead_sem k hhead h1
  rw [render_of h3 ((h4 []).trans (h2 hne [])), finish_ul]
  simp

example : render c!"- a *b*\n\n+ # c\n* d" =
    .ok c!"<ul>\n<li>\n<p>a<em>b</em></p>\n</li>\n<li>\n<h1>c</h1>\n</li>\n<li>\n<p>d</p>\n</li>\n</ul>\n" :=
  C28_bullets 0 [('-', c!"a *b*", 2, c!"<p>a<em>b</em></p>\n"), ('+', c!"# c", 1, c!"<h1>c</h1>\n"), ('*', c!"d", 0, c!"<p>d</p>\n")]
    (by decide) (by decide) (by decide) (by decide) (by decide) (by decide +kernel)
    (by intro i hi; simp only [List.mem_cons, List.not_mem_nil, or_false] at hi; rcases hi with rfl | rfl | rfl <;> decide)

/-- **C29** Lines `d. item`, any number of them: one list, one entry per line, in order, with the text escaped. -/
theorem C29_ordered (k : Nat) (items : List (Char × Str × Nat)) (hne : items ≠ [])
    (hdigit : ∀ i ∈ items, i.1 ∈ c!"0123456789") (hline : ∀ i ∈ items, '\n' ∉ i.2.1) (hgap : ∀ i ∈ items.dropLast, 1 ≤ i.2.2) :
    render (times k '\n' ++ items.flatMap fun i => i.1 :: '.' :: ' ' :: i.2.1 ++ times i.2.2 '\n') =
      .ok (c!"<ol>\n" ++ (items.flatMap fun i => c!"<li>\n" ++ escape i.2.1 ++ c!"</li>\n") ++ c!"</ol>\n") := by
  have := render_doc (d := { before := k, blocks := [], ending := .ordered items })
    ⟨trivial, ⟨hne, hgap, fun i hi => ⟨hdigit i hi, hline i hi⟩⟩, .inr (by simp)⟩
  simpa [Doc.src, Doc.html, docHtml, docSrc, Ending.src, Ending.html] using this

example : render c!"1. a & b\n2. *c*\n\n\n3. " =
    .ok c!"<ol>\n<li>\na &amp; b</li>\n<li>\n*c*</li>\n<li>\n</li>\n</ol>\n" :=
  C29_ordered 0 [('1', c!"a & b", 1), ('2', c!"*c*", 3), ('3', [], 0)] (by decide) (by decide) (by decide) (by decide)

/-- **C30** Lines `- [ ] text`, `- [x] text` and `- [X] text`: one task list, one item per line in order, checked exactly
for `x` and `X`, with the text escaped. -/
theorem C30_tasks (k : Nat) (items : List (Char × Char × Str × Nat)) (hne : items ≠ [])
    (hmark : ∀ i ∈ items, i.1 = '-' ∨ i.1 = '+') (hbox : ∀ i ∈ items, i.2.1 ∈ c!" xX") (hline : ∀ i ∈ items, '\n' ∉ i.2.2.1)
    (hgap : ∀ i ∈ items.dropLast, 1 ≤ i.2.2.2) :
    render (times k '\n' ++
        items.flatMap fun i => i.1 :: ' ' :: '[' :: i.2.1 :: ']' :: ' ' :: i.2.2.1 ++ times i.2.2.2 '\n') =
      .ok (c!"<ul class=\"contains-task-list\">" ++
        (items.flatMap fun i => taskHtml (decide (i.2.1 ≠ ' ')) i.2.2.1) ++ c!"</ul>\n") := by
  have := render_doc (d := { before := k, blocks := [], ending := .tasks items })
    ⟨trivial, ⟨hne, hgap, fun i hi => ⟨hmark i hi, hbox i hi, hline i hi⟩⟩, .inr (by simp)⟩
  simpa [Doc.src, Doc.html, docHtml, docSrc, Ending.src, Ending.html] using this

example : render c!"- [ ] a\n- [X] b<c" =
    .ok (c!"<ul class=\"contains-task-list\">" ++ taskHtml false c!"a" ++ taskHtml true c!"b<c" ++ c!"</ul>\n") :=
  C30_tasks 0 [('-', ' ', c!"a", 1), ('-', 'X', c!"b<c", 0)] (by decide) (by decide) (by decide) (by decide) (by decide)

/-! ### C31 Emphasis -/

/-- **C31** Text between matching markers. -/
theorem C31_emphasis (m : Char) (t : Str) (hm : m = '*' ∨ m = '_') (ht : Inline.EmText t) :
    render (times 1 m ++ t ++ times 1 m) = .ok (elem c!"p" (elem c!"em" (escape t)) ++ c!"\n") ∧
    render (times 2 m ++ t ++ times 2 m) = .ok (elem c!"p" (elem c!"strong" (escape t)) ++ c!"\n") ∧
    render (times 3 m ++ t ++ times 3 m) = .ok (elem c!"p" (elem c!"strong" (elem c!"em" (escape t))) ++ c!"\n") :=
  ⟨render_inline (i := .em m t) ⟨hm, ht⟩ trivial, render_inline (i := .strong m t) ⟨hm, ht, by simp, by simp⟩ trivial,
    render_inline (i := .strongEm m t) ⟨hm, ht, by simp, by simp⟩ trivial⟩

example : render c!"**a [b] <c>**" = .ok c!"<p><strong>a &lbrack;b&rbrack; &lt;c&gt;</strong></p>\n" :=
  (C31_emphasis '*' c!"a [b] <c>" (.inl rfl) ⟨⟨_, _, rfl, by decide⟩, by decide, by decide⟩).2.1

/-- **C31** Two or three markers without a matching run are shown literally. The text must be one line and not look like
a footnote reference. -/
theorem C31_unmatched (m : Char) (t : Str) (n k : Nat) (hm : m = '*' ∨ m = '_') (ht : Inline.EmText t) (hn : n = 2 ∨ n = 3) (hk : k ≠ n)
    (hnl : '\n' ∉ t) (hb : '[' ∉ t ∨ ']' ∉ t) :
    render (times n m ++ t ++ times k m) = .ok (elem c!"p" (escape (times n m ++ t ++ times k m)) ++ c!"\n") := by
  refine render_token (fun last => au_unmatched hm ht hn hk last) (shows_plain (shown_of_chars (c := m) ?_ (au_ws hm) ?_ ?_))
  · have : m ∈ times n m := by rw [List.mem_replicate]; exact ⟨by omega, rfl⟩
    simp only [List.mem_append]; exact .inl (.inl this)
  · have : ∀ n, '\n' ∉ times n m := by
      intro n h
      rw [List.mem_replicate] at h
      rcases hm with rfl | rfl <;> exact absurd h.2 (by decide)
    simp only [List.mem_append, not_or]
    exact ⟨⟨this n, hnl⟩, this k⟩
  · have h1 : ∀ n, '[' ∉ times n m := by
      intro n h
      rw [List.mem_replicate] at h
      rcases hm with rfl | rfl <;> exact absurd h.2 (by decide)
    have h2 : ∀ n, ']' ∉ times n m := by
      intro n h
      rw [List.mem_replicate] at h
      rcases hm with rfl | rfl <;> exact absurd h.2 (by decide)
    simp only [List.mem_append, not_or]
    rcases hb with hb | hb
    · exact .inl ⟨⟨h1 n, hb⟩, h1 k⟩
    · exact .inr ⟨⟨h2 n, hb⟩, h2 k⟩

example : render c!"**a b*" = .ok c!"<p>**a b*</p>\n" :=
  C31_unmatched '*' c!"a b" 2 1 (.inl rfl) ⟨⟨_, _, rfl, by decide⟩, by decide, by decide⟩ (.inl rfl) (by decide) (by decide) (.inl (by decide))

example : render c!"___a" = .ok c!"<p>___a</p>\n" :=
  C31_unmatched '_' c!"a" 3 0 (.inr rfl) ⟨⟨_, _, rfl, by decide⟩, by decide, by decide⟩ (.inr rfl) (by decide) (by decide) (.inl (by decide))

/-! ### C34 Thematic breaks -/

/-- **C34** Three or more dashes (or plusses) and four or more asterisks or underscores. -/
theorem C34_rules (n : Nat) (c : Char) (h : (c = '-' ∨ c = '+') ∧ 3 ≤ n ∨ (c = '*' ∨ c = '_') ∧ 4 ≤ n) :
    render (times n c) = .ok c!"<hr />\n" :=
  (C26_blocks 0 [(.rule n c, 0)] h).1 (.rule n c, 0) (by simp)

/-- **C34** Two dashes are text, whatever running text follows. -/
theorem C34_two (is : List Inline) (hg : InlineGood none is) (h1 : (inlineSrc is).head? ≠ some '-') (h2 : (inlineSrc is).head? ≠ some '+') :
    render (c!"--" ++ inlineSrc is) = .ok (elem c!"p" (c!"--" ++ inlineHtml is) ++ c!"\n") := by
  have hs : ShowsTok (.plaintext c!"--") c!"--" := shows_plain (shown_times (n := 2) (c := '-') (by decide) (by decide) (by decide))
  exact render_token_inlines hg (fun last => dashes_text (.inl rfl) (.inl rfl) h1 h2 last) hs

example : render c!"-----" = .ok c!"<hr />\n" := C34_rules 5 '-' (.inl ⟨.inl rfl, by decide⟩)
example : render c!"____" = .ok c!"<hr />\n" := C34_rules 4 '_' (.inr ⟨.inr rfl, by decide⟩)
example : render c!"--" = .ok c!"<p>--</p>\n" := C34_two [] trivial (by decide) (by decide)
example : render c!"--help" = .ok c!"<p>--help</p>\n" := C34_two [.word c!"help"] ⟨word_check (by decide), trivial⟩ (by decide) (by decide)

/-! ### C36 Backslash escapes -/

/-- **C36, negated** A backslash at the end of the document adds the letters EOF to the output. -/
theorem C36_refuted : render c!"a\\" = .ok c!"<p>aEOF</p>\n" := by decide +kernel

/-- A backslash before a backslash shows nothing at all. -/
theorem C36_refuted_backslash : render c!"a\\\\b" = .ok c!"<p>ab</p>\n" := by decide +kernel

/-- **C36, the part that holds** Before any other visible character, a backslash makes that character text, in the middle
of any running text. -/
theorem C36_partial (c : Char) (before after : List Inline) (hc : isWs c = false) (h1 : c ≠ '#') (h2 : c ≠ '\\')
    (hb : InlineGood (some '\\') before) (ha : InlineGood none after) (hv : ∀ i, before.head? = some i → i.Visible) :
    render (inlineSrc before ++ ['\\', c] ++ inlineSrc after) =
      .ok (elem c!"p" (inlineHtml before ++ escape [c] ++ inlineHtml after) ++ c!"\n") := by
  have hg : ∀ is, InlineGood (some '\\') is → InlineGood none (is ++ .escaped c :: after) := by
    intro is
    induction is with
    | nil => intro _; exact ⟨⟨hc, h1, h2⟩, ha⟩
    | cons i is ih =>
      intro h
      refine ⟨?_, ih h.2⟩
      have e : inlineSrc (is ++ .escaped c :: after) = inlineSrc is ++ '\\' :: c :: inlineSrc after := by
        simp [inlineSrc, Inline.src]
      have h1 := h.1
      show Inline.Good ((inlineSrc (is ++ .escaped c :: after)).head?.or none) i
      rw [e, head_append_or]
      cases hs : (inlineSrc is).head? with
      | none => rw [hs] at h1; exact h1
      | some d => rw [hs] at h1; exact h1
  have := render_inlines (is := before ++ .escaped c :: after) (hg before hb) (by
    cases before with
    | nil => exact ⟨_, rfl, trivial⟩
    | cons i is => exact ⟨i, rfl, hv i rfl⟩)
  simpa [inlineSrc, inlineHtml, Inline.src, Inline.html] using this

example : render c!"a\\*b\\`" = .ok c!"<p>a*b`</p>\n" :=
  C36_partial '*' [.word c!"a"] [.word c!"b", .escaped '`'] (by decide) (by decide) (by decide) ⟨word_check (by decide), trivial⟩
    ⟨word_check (by decide), ⟨by decide, by decide, by decide⟩, trivial⟩ (by rintro i ⟨⟩; trivial)

/-! ### C38 Strikethrough -/

/-- **C38** Text between double tildes. -/
theorem C38_strike (t : Str) (hne : t ≠ []) (ht : '~' ∉ t) :
    render (times 2 '~' ++ t ++ times 2 '~') = .ok (elem c!"p" (elem c!"strike" (escape t)) ++ c!"\n") :=
  render_inline (i := .strike t) ⟨hne, ht, by simp⟩ trivial

/-- **C38** Runs of any other number of tildes are text. -/
theorem C38_other_runs (n : Nat) (is : List Inline) (hn : 1 ≤ n) (h2 : n ≠ 2) (hg : InlineGood none is)
    (ht : (inlineSrc is).head? ≠ some '~') :
    render (times n '~' ++ inlineSrc is) = .ok (elem c!"p" (escape (times n '~') ++ inlineHtml is) ++ c!"\n") := by
  have := render_inlines (is := .tildes n :: is) ⟨⟨hn, h2, by simpa using ht⟩, hg⟩ ⟨_, rfl, trivial⟩
  simpa [inlineSrc, inlineHtml, Inline.src, Inline.html] using this

/-- **C38** Double tildes without matching double tildes are text. The text between must be one line and not look like a
footnote reference. -/
theorem C38_unmatched (t : Str) (k : Nat) (hne : t ≠ []) (ht : '~' ∉ t) (hk : k ≠ 2) (hnl : '\n' ∉ t) (hb : '[' ∉ t ∨ ']' ∉ t) :
    render (times 2 '~' ++ t ++ times k '~') = .ok (elem c!"p" (escape (times 2 '~' ++ t ++ times k '~')) ++ c!"\n") := by
  refine render_token (fun last => tilde_unmatched hne ht hk last) (shows_plain (shown_of_chars (c := '~') (by simp) (by decide) ?_ ?_))
  · simp [hnl, List.mem_replicate]
  · rcases hb with hb | hb
    · exact .inl (by simp [hb, List.mem_replicate])
    · exact .inr (by simp [hb, List.mem_replicate])

example : render c!"~~a *b*~~" = .ok c!"<p><strike>a *b*</strike></p>\n" := C38_strike c!"a *b*" (by decide) (by decide)
example : render c!"~a" = .ok c!"<p>&tilde;a</p>\n" :=
  C38_other_runs 1 [.word c!"a"] (by decide) (by decide) ⟨word_check (by decide), trivial⟩ (by decide)
example : render c!"~~a b~" = .ok c!"<p>&tilde;&tilde;a b&tilde;</p>\n" :=
  C38_unmatched c!"a b" 1 (by decide) (by decide) (by decide) (by decide) (.inl (by decide))

/-! ### C39, C40 Links -/

/-- **C39, negated** With a title, the target is not in the `href` attribute: the attribute is empty. -/
theorem C39_refuted : render c!"[a](http:b \"t\")" = .ok c!"<p><a href=>\"http:b\" title=\" \"t\"\">a</a></p>\n" := by
  decide +kernel

/-- What follows a link with a title on the same line is lost. -/
theorem C39_refuted_rest : render c!"[a](http:b \"t\") after" = render c!"[a](http:b \"t\")" := by
  decide +kernel

/-- **C39, the part that holds** Without a title, any accepted target renders as an anchor to its URL, with the text
escaped. -/
theorem C39_partial (text target : Str) (u : ValidURL) (h1 : ']' ∉ text) (h2 : ')' ∉ target) (h3 : ' ' ∉ target)
    (hu : validateLink target = .ok u) :
    render (c!"[" ++ text ++ c!"](" ++ target ++ c!")") =
      .ok (elem c!"p" (c!"<a href=\"" ++ u.display ++ c!"\">" ++ escape text ++ c!"</a>") ++ c!"\n") := by
  have hl := LexTo.linkTo (r := self) (ig := []) h1 h2 h3 hu LexTo.nil
  rw [List.append_nil] at hl
  have hp := (shows_link u text).opens.clean self []
  rw [render_of hl hp, finish_inP, elem_p]
  simp

/-- **C39** A target that needs no encoding is the `href` unchanged. -/
theorem C39_plain_target (text target : Str) (h1 : ']' ∉ text) (ht : PlainTarget target) :
    render (c!"[" ++ text ++ c!"](" ++ target ++ c!")") =
      .ok (elem c!"p" (c!"<a href=\"" ++ target ++ c!"\">" ++ escape text ++ c!"</a>") ++ c!"\n") :=
  render_inline (i := .link text target) ⟨h1, ht⟩ trivial

example : render c!"[a <b>](https://x.org/?q=1)" = .ok c!"<p><a href=\"https://x.org/?q=1\">a &lt;b&gt;</a></p>\n" :=
  C39_plain_target c!"a <b>" c!"https://x.org/?q=1" (by decide) (target_check c!"https" c!"//x.org/?q=1" (by decide) (by decide))

example : render c!"[a](x.org/#b)" = .ok c!"<p><a href=\"http:x.org/%23b\">a</a></p>\n" :=
  C39_partial c!"a" c!"x.org/#b" { content := c!"x.org/#b", scheme := none } (by decide) (by decide) (by decide) (by decide)

/-- **C40, negated** A rejected target that looks like a footnote reference does produce an anchor. -/
theorem C40_refuted : ∃ html, render c!"[a](javascript:[^b])" = .ok html ∧ c!"<a href=" <:+: html :=
  render_check _ _ (by decide +kernel)

/-- **C40, the part that holds** A rejected target on one line that does not look like a footnote reference is shown as
escaped text, and nothing else is. -/
theorem C40_partial (text target e : Str) (h1 : ']' ∉ text) (h2 : ')' ∉ target) (h3 : ' ' ∉ target)
    (he : validateLink target = .error e) (hvis : ∃ c ∈ target, isWs c = false) (hnl : '\n' ∉ target)
    (hb : '[' ∉ target ∨ ']' ∉ target) :
    render (c!"[" ++ text ++ c!"](" ++ target ++ c!")") = .ok (elem c!"p" (escape target) ++ c!"\n") := by
  have e1 : e = target := by
    unfold validateLink at he
    simp only at he
    repeat' split at he
    all_goals first | exact (Except.error.inj he).symm | cases he
  subst e1
  obtain ⟨c, hc, hw⟩ := hvis
  refine render_token (t := .plaintext e) (fun last => ?_) (shows_plain (shown_of_chars hc hw hnl hb))
  have hl := lexLinks_inline (rest := []) h1 h2 h3
  rw [he, List.append_nil] at hl
  have e' : c!"[" ++ text ++ c!"](" ++ e ++ c!")" = '[' :: (text ++ c!"](" ++ e ++ c!")") := by simp
  rw [e'] at hl ⊢
  rw [nextToken_bracket, hl]
  rfl

example : render c!"[click](JavaScript:alert)" = .ok c!"<p>JavaScript:alert</p>\n" :=
  C40_partial c!"click" c!"JavaScript:alert" c!"JavaScript:alert" (by decide) (by decide) (by decide) (by decide)
    ⟨'J', by decide, by decide⟩ (by decide) (.inl (by decide))

/-! ### C57 Heading labels -/

/-- **C57, negated** The label replaces the text, and no id is written. -/
theorem C57_refuted : render c!"# Title {#label}" = .ok c!"<h1>label</h1>\n" := by decide +kernel

/-- **C57, the part that holds** The heading has its level and shows the label as running text. What is missing: the text
in front of the label is never shown, whatever it is, and there is no id. -/
theorem C57_partial (n : Nat) (text : Str) (label : List Inline) (hg : (Block.heading n label).Good fun s x => render s = .ok x) (ht : '{' ∉ text) (hn : '\n' ∉ text) :
    render (times n '#' ++ c!" " ++ text ++ c!"{#" ++ inlineSrc label ++ c!"}") =
      .ok (elem ('h' :: dec n) (inlineHtml label) ++ c!"\n") := by
  obtain ⟨h1, h6, hg, hnl, hh, hv, hlast⟩ := hg
  have he := head_ends hg hv
  have hl := last_ends hg hlast
  have e := lexHeading_label (r := self) (rest := []) (line0 := text ++ c!"{#" ++ inlineSrc label ++ c!"}") h6
    (by simp [hn, hnl]) (headingLabel_good ht) hh ⟨he.1, hl.1⟩ ⟨he.2, hl.2⟩ (.inl rfl)
    (renderIgnore_inlines ['#'] (inlineGood_none hg) hv)
  have ht : ∀ last, nextToken self [] last (times n '#' ++ ' ' :: (text ++ c!"{#" ++ inlineSrc label ++ c!"}" ++ [])) =
      .ok (some (.header n (inlineHtml label) none, [])) := by
    intro last
    obtain ⟨k, rfl⟩ : ∃ k, n = k + 1 := ⟨n - 1, by omega⟩
    rw [times_succ_append] at e ⊢
    rw [nextToken_hash rfl, e]
    rfl
  have := render_of (LexTo.cons ht LexTo.nil) (parseToks_one (parseTok_header_clean self n (inlineHtml label) []))
  rw [finish_clean ⟨elem ('h' :: dec n) (inlineHtml label), by simp⟩] at this
  simpa using this

example : render c!"## Any *text* {#the-label}" = render c!"## Another {#the-label}" := by decide +kernel

example : render c!"## Any *text* {#lab}" = .ok c!"<h2>lab</h2>\n" :=
  C57_partial 2 c!"Any *text* " [.word c!"lab"] ⟨by decide, by decide, ⟨word_check (by decide), trivial⟩, by decide, by decide,
    ⟨_, rfl, trivial⟩, ⟨_, rfl, trivial⟩⟩ (by decide) (by decide)

/-! ### C59 Nesting -/

/-- **C59, the part that holds** The output for the documents of C60 is properly nested, if that of the texts in their
sections and quotes is and no list has a paragraph after it. What is missing: documents with something after code, other
blocks than headings and thematic breaks after a list, lists and code inside running text, links with titles. -/
theorem C59_partial (d : Doc) (h : d.Good fun s x => render s = .ok x ∧ Nested x) (hl : ∀ b ∈ d.blocks, ∀ l x y is, b.1 ≠ .listed l x y is) :
    ∃ html, render d.src = .ok html ∧ Nested html := by
  refine ⟨_, render_doc (h.mono fun s x h => h.1), doc_nested (fun s x h => h.2) h hl⟩

example : ∃ html, render sample.src = .ok html ∧ Nested html := C59_partial sample (sample_good ⟨by decide +kernel, by
  have := nested_inlines (is := [.em '*' c!"x"]) (next := none) ⟨⟨.inl rfl, ⟨_, _, rfl, by decide⟩, by decide, by decide⟩, trivial⟩
  exact .append _ _ (.append _ _ (nested_elem (n := c!"p") (by decide) (by decide) this) nested_nl)
    (.append _ _ (nested_elem (n := c!"p") (by decide) (by decide) (.text c!"y" (by decide) (by decide))) nested_nl)⟩) (by simp [sample])

end Smd.Gfm
