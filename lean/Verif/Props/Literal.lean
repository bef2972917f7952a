import Verif.Lemmas.Literal
import Verif.Props.Contexts
import Verif.Props.Inside
import Verif.Props.Quoted
import Verif.Lemmas.Parts

/-!
Markup that is shown as it is written: signs between spaces (C145), markers inside emphasised text (C146) and link texts
(C147), link references (C148), lines after quotes and empty quoted lines (C149, C150), comments (C151) and images as
links (C152).
-/

namespace Smd.Gfm
open Smd.Rs Smd.Spec

/-! ### C145 Lists begin at the beginning of a line -/

/-- **C145, negated** A sign between spaces starts a list in the middle of the line. -/
theorem C145_refuted : render c!"2 * 3" = .ok c!"<p>2<ul>\n<li>\n<p>3</p>\n</li>\n</p>\n</ul>\n" := by decide +kernel

/-- It always does, also an underscore, which is the sign of no list. -/
theorem C145_refuted_always (c : Char) (is js : List Inline) (hc : c = '-' ∨ c = '+' ∨ c = '*' ∨ c = '_') (hi : InlineGood (some c) is)
    (hv : ∃ i, is.head? = some i ∧ i.Visible) (hj : InlineGood none js) (hn : '\n' ∉ inlineSrc js) (hvj : ∃ i, js.head? = some i ∧ i.Visible)
    (hb : ∀ x ∈ c!" xX", ¬ ['[', x, ']', ' '] <+: inlineSrc js) :
    render (inlineSrc is ++ c :: ' ' :: inlineSrc js) =
      .ok (c!"<p>" ++ inlineHtml is ++ c!"<ul>\n<li>\n" ++ (elem c!"p" (inlineHtml js) ++ c!"\n") ++ c!"</li>\n</p>\n</ul>\n") := by
  by_cases hcu : c = '_'
  · obtain ⟨⟨a, u, ea, ha⟩, _⟩ := head_ends hj hvj
    have h1 : (inlineSrc js).head? ≠ some ' ' := by rw [ea]; simp; rintro rfl; revert ha; decide
    have h2 : (inlineSrc js).head? ≠ some '\t' := by rw [ea]; simp; rintro rfl; revert ha; decide
    have hl := LexTo.lastAu (r := self) (ig := []) (m := c) (.inr hcu) hn
    have hp := parseTok_bullet_inP self (c := '*') (c!"<p>" ++ inlineHtml is) h1 h2 (renderIgnore_inlines [] hj hvj) (para_noPre hj)
    have := render_inlines_then (s := c :: ' ' :: inlineSrc js) hi hv hl (parseToks_one hp)
    rw [this, finish_ul_inP, elem_p]
    simp
  · exact C78_refuted_bullet c is js (by tauto) hi hv hj hn hvj hb

example : render c!"a _ b" = .ok c!"<p>a<ul>\n<li>\n<p>b</p>\n</li>\n</p>\n</ul>\n" :=
  C145_refuted_always '_' [.word c!"a", .space 1] [.word c!"b"] (by decide)
    ⟨word_check (by decide), ⟨by decide, by decide, by decide, by decide⟩, trivial⟩ ⟨_, rfl, trivial⟩ ⟨word_check (by decide), trivial⟩ (by decide)
    ⟨_, rfl, trivial⟩ (by decide)

/-- So does a digit with a dot and a space after it, for example at the end of a sentence. -/
theorem C145_refuted_number (d : Char) (is : List Inline) (t : Str) (hd : d ∈ c!"0123456789") (hi : InlineGood (some d) is)
    (hv : ∃ i, is.head? = some i ∧ i.Visible) (hl : '\n' ∉ inlineSrc is) (hn : '\n' ∉ t) :
    ∃ html, render (inlineSrc is ++ d :: '.' :: ' ' :: t) = .ok html ∧ c!"<ol>\n<li>\n" <:+: html ∧ '\n' ∉ inlineSrc is ++ d :: '.' :: ' ' :: t := by
  refine ⟨_, C78_refuted_ordered d is t hd hi hv hn, ⟨c!"<p>" ++ inlineHtml is, escape t ++ c!"</li>\n</p>\n</ol>\n", by simp⟩, ?_⟩
  simp only [List.mem_append, List.mem_cons, not_or]
  refine ⟨hl, ?_, by decide, by decide, hn⟩
  rintro rfl
  revert hd
  decide

example : ∃ html, render c!"in 2020. Then" = .ok html ∧ c!"<ol>\n<li>\n" <:+: html ∧ '\n' ∉ c!"in 2020. Then" :=
  C145_refuted_number '0' [.word c!"in", .space 1, .digit '2', .digit '0', .digit '2'] c!"Then" (by decide)
    ⟨word_check (by decide), ⟨by decide, by decide, by decide, by decide⟩, ⟨by decide, by decide⟩, ⟨by decide, by decide⟩,
      ⟨by decide, by decide⟩, trivial⟩ ⟨_, rfl, trivial⟩ (by decide) (by decide)

/-- **C145, the part that holds** A sign after a backslash is text, and so is a digit with a dot and no space after it. -/
theorem C145_partial (c d : Char) (is js : List Inline) (hc : c ∈ c!"-+*_") (hd : d ∈ c!"0123456789")
    (hv : ∃ i, is.head? = some i ∧ i.Visible) (hj : InlineGood none js) :
    (InlineGood (some '\\') is →
      render (inlineSrc is ++ c!"\\" ++ c :: inlineSrc js) = .ok (elem c!"p" (inlineHtml is ++ c :: inlineHtml js) ++ c!"\n")) ∧
    (InlineGood (some d) is → (inlineSrc js).head? ≠ some ' ' →
      render (inlineSrc is ++ d :: '.' :: inlineSrc js) = .ok (elem c!"p" (inlineHtml is ++ d :: '.' :: inlineHtml js) ++ c!"\n")) := by
  obtain ⟨i, hi0, hiv⟩ := hv
  have hv' : ∀ k : Inline, ∃ i, (is ++ k :: js).head? = some i ∧ i.Visible := by
    intro k
    cases is with
    | nil => simp at hi0
    | cons a b => exact ⟨i, by simpa using hi0, hiv⟩
  constructor
  · intro hi
    have hg : InlineGood none (is ++ .escaped c :: js) :=
      inlineGood_append (js := .escaped c :: js) ⟨by
        have : ∀ c ∈ c!"-+*_", isWs c = false ∧ c ≠ '#' ∧ c ≠ '\\' := by decide
        exact this c hc, hj⟩ (by simpa [inlineSrc, Inline.src] using hi)
    have he : escape [c] = [c] := by
      have : ∀ c ∈ c!"-+*_", escape [c] = [c] := by decide
      exact this c hc
    have := render_inlines hg (hv' _)
    simpa [inlineSrc, inlineHtml, Inline.src, Inline.html, he] using this
  · intro hi hn
    have hg : InlineGood none (is ++ .digitDot d :: js) :=
      inlineGood_append (js := .digitDot d :: js) ⟨⟨hd, by simpa using hn⟩, hj⟩ (by simpa [inlineSrc, Inline.src] using hi)
    have := render_inlines hg (hv' _)
    simpa [inlineSrc, inlineHtml, Inline.src, Inline.html] using this

example : render c!"2 \\* 3" = .ok c!"<p>2*3</p>\n" :=
  (C145_partial '*' '2' [.digit '2', .space 1] [.space 1, .digit '3'] (by decide) (by decide) ⟨_, rfl, trivial⟩
    ⟨⟨by decide, by decide, by decide, by decide⟩, ⟨by decide, by decide⟩, trivial⟩).1
    ⟨⟨by decide, by decide⟩, ⟨by decide, by decide, by decide, by decide⟩, trivial⟩

/-! ### C146 Markup inside emphasised text -/

/-- **C146, negated** Emphasis inside emphasis is not understood: the markers are shown, and one begins a list. -/
theorem C146_refuted : render c!"**a *b* c**" = .ok c!"<p>**a *b<ul>\n<li>\n<p>c**</p>\n</li>\n</p>\n</ul>\n" := by decide +kernel

/-- Strong text that begins with `t` and whose rest is emphasised is never strong: all markers are shown. -/
theorem C146_refuted_always (m : Char) (t : Str) (is : List Inline) (hm : m = '*' ∨ m = '_') (ht : Inline.EmText t) (hl : '\n' ∉ t)
    (hb : '[' ∉ t ∨ ']' ∉ t) (hi : InlineGood (some m) is) (hv : ∃ i, is.head? = some i ∧ i.Visible)
    (h1 : (inlineSrc is).head? ≠ some '*') (h2 : (inlineSrc is).head? ≠ some '_') :
    render ([m, m] ++ t ++ [m] ++ inlineSrc is ++ [m, m, m]) =
      .ok (elem c!"p" ([m, m] ++ escape t ++ [m] ++ inlineHtml is ++ [m, m, m]) ++ c!"\n") := by
  obtain ⟨c, u, hc, hcw⟩ := (head_ends hi hv).1
  have hne : inlineSrc is ≠ [] := by rw [hc]; simp
  have hh : ∀ x, (inlineSrc is ++ [m, m, m]).head? = some x → (inlineSrc is).head? = some x := by
    intro x; rw [hc]; simp
  have hmw : isWs m = false ∧ escape [m] = [m] := by rcases hm with rfl | rfl <;> decide
  have s1 : ShowsTok (.plaintext (times 2 m ++ t ++ times 1 m)) (escape (times 2 m ++ t ++ times 1 m)) :=
    shows_plain (shown_of_chars (c := m) (by simp [List.replicate]) hmw.1 (by
      rcases hm with rfl | rfl <;> simp [List.replicate, hl]) (by
      rcases hm with rfl | rfl <;> simpa [List.replicate] using hb))
  have s2 : ShowsTok (.plaintext (times 3 m)) (escape (times 3 m)) :=
    shows_plain (shown_of_chars (c := m) (by simp [List.replicate]) hmw.1 (by
      rcases hm with rfl | rfl <;> decide) (by rcases hm with rfl | rfl <;> decide))
  obtain ⟨t1, hl1, ha1, _⟩ := inlines_sem hi
  have hl2 : LexTo self [] (inlineSrc is ++ times 3 m) (t1 ++ [.plaintext (times 3 m)]) :=
    hl1 self [] _ _ (by simpa [List.replicate] using hi) (LexTo.cons (fun last => last_markers hm (.inr rfl) last) LexTo.nil)
  have hl3 : LexTo self [] (times 2 m ++ t ++ times 1 m ++ (inlineSrc is ++ times 3 m)) (.plaintext (times 2 m ++ t ++ times 1 m) :: (t1 ++ [.plaintext (times 3 m)])) :=
    LexTo.cons (fun last => au_unmatched_then hm ht (.inl rfl) (by decide) (by decide) (fun h => h1 (hh _ h)) (fun h => h2 (hh _ h)) last) hl2
  have hp := parseToks_two (s1.opens.clean self []) (parseToks_two (ha1 self _ _) (s2.adds self _ _))
  have e : escape (times 2 m ++ t ++ times 1 m) = [m, m] ++ escape t ++ [m] ∧ escape (times 3 m) = [m, m, m] := by
    rcases hm with rfl | rfl <;> exact ⟨by simp [escape_append]; rfl, rfl⟩
  have := render_of hl3 hp
  rw [finish_inP, e.1, e.2] at this
  rw [elem_p]
  simpa [List.replicate] using this

example : render c!"**a *b***" = .ok c!"<p>**a *b***</p>\n" :=
  C146_refuted_always '*' c!"a " [.word c!"b"] (.inl rfl) ⟨⟨'a', c!" ", rfl, by decide⟩, by decide, by decide⟩ (by decide) (by decide)
    ⟨word_check (by decide), trivial⟩ ⟨_, rfl, trivial⟩ (by decide) (by decide)

/-- If the emphasis is in the middle, the marker that ends it begins a list. -/
theorem C146_refuted_middle (m : Char) (t : Str) (is js : List Inline) (hm : m = '*' ∨ m = '_') (ht : Inline.EmText t) (hl : '\n' ∉ t)
    (hb : '[' ∉ t ∨ ']' ∉ t) (hi : InlineGood (some m) is) (hv : ∃ i, is.head? = some i ∧ i.Visible)
    (h1 : (inlineSrc is).head? ≠ some '*') (h2 : (inlineSrc is).head? ≠ some '_') (hj : InlineGood (some m) js)
    (hvj : ∃ i, js.head? = some i ∧ i.Visible) (hnj : '\n' ∉ inlineSrc js) :
    render ([m, m] ++ t ++ [m] ++ inlineSrc is ++ [m, ' '] ++ inlineSrc js ++ [m, m]) =
      .ok (c!"<p>" ++ ([m, m] ++ escape t ++ [m] ++ inlineHtml is) ++ c!"<ul>\n<li>\n" ++
        (elem c!"p" (inlineHtml js ++ [m, m]) ++ c!"\n") ++ c!"</li>\n</p>\n</ul>\n") := by
  obtain ⟨c, u, hc, hcw⟩ := (head_ends hi hv).1
  obtain ⟨a, v, ea, haw⟩ := (head_ends hj hvj).1
  have hmw : isWs m = false ∧ escape [m] = [m] := by rcases hm with rfl | rfl <;> decide
  have s1 : ShowsTok (.plaintext (times 2 m ++ t ++ times 1 m)) (escape (times 2 m ++ t ++ times 1 m)) :=
    shows_plain (shown_of_chars (c := m) (by simp [List.replicate]) hmw.1 (by
      rcases hm with rfl | rfl <;> simp [List.replicate, hl]) (by
      rcases hm with rfl | rfl <;> simpa [List.replicate] using hb))
  have s2 : ShowsTok (.plaintext (times 2 m)) (escape (times 2 m)) :=
    shows_plain (shown_of_chars (c := m) (by simp [List.replicate]) hmw.1 (by
      rcases hm with rfl | rfl <;> decide) (by rcases hm with rfl | rfl <;> decide))
  have e : escape (times 2 m ++ t ++ times 1 m) = [m, m] ++ escape t ++ [m] ∧ escape (times 2 m) = [m, m] := by
    rcases hm with rfl | rfl <;> exact ⟨by simp [escape_append]; rfl, rfl⟩
  have hin : render (inlineSrc js ++ times 2 m) = .ok (c!"<p>" ++ (inlineHtml js ++ [m, m]) ++ c!"</p>\n") := by
    have := render_inlines_then (s := times 2 m) (by simpa [List.replicate] using hj) hvj
      (LexTo.cons (fun last => last_markers hm (.inl rfl) last) LexTo.nil) (s2.adds self _ _)
    rw [this, finish_inP, e.2]
    simp
  have hw1 : (inlineSrc js ++ times 2 m).head? ≠ some ' ' := by rw [ea]; simp; rintro rfl; revert haw; decide
  have hw2 : (inlineSrc js ++ times 2 m).head? ≠ some '\t' := by rw [ea]; simp; rintro rfl; revert haw; decide
  have hnl : '\n' ∉ inlineSrc js ++ times 2 m := by
    rcases hm with rfl | rfl <;> simp [List.replicate, hnj]
  have hno : ¬ c!"<pre><code>" <:+: c!"<p>" ++ (inlineHtml js ++ [m, m]) ++ c!"</p>\n" := by
    have h1 : NoPre (c!"<p>" ++ (inlineHtml js ++ [m, m]) ++ c!"</p>" ++ c!"\n") :=
      (((NoPre.tag (by decide) (by decide)).append ((inlines_noPre hj).append (.text (by rcases hm with rfl | rfl <;> decide)))).append
        (.tag (by decide) (by decide))).append (.text (by decide))
    intro hi
    have : c!"<pre>" <:+: c!"<p>" ++ (inlineHtml js ++ [m, m]) ++ c!"</p>\n" := List.IsInfix.trans ⟨[], c!"<code>", rfl⟩ hi
    have h2 := (occ_pos (by simp)).mpr this
    have e : c!"<p>" ++ (inlineHtml js ++ [m, m]) ++ c!"</p>\n" = c!"<p>" ++ (inlineHtml js ++ [m, m]) ++ c!"</p>" ++ c!"\n" := by simp
    rw [e, h1.2] at h2
    omega
  obtain ⟨t1, hl1, ha1, _⟩ := inlines_sem hi
  have hl2 := hl1 self [] (m :: ' ' :: (inlineSrc js ++ times 2 m)) _ hi (LexTo.lastAu hm hnl)
  have hh : ∀ x, (inlineSrc is ++ m :: ' ' :: (inlineSrc js ++ times 2 m)).head? = some x → (inlineSrc is).head? = some x := by
    intro x; rw [hc]; simp
  have hl3 := LexTo.cons (fun last => au_unmatched_then hm ht (.inl rfl) (k := 1) (by decide) (by decide) (fun h => h1 (hh _ h))
    (fun h => h2 (hh _ h)) last) hl2
  have hp := parseToks_two (s1.opens.clean self []) (parseToks_two (ha1 self _ _)
    (parseToks_one (parseTok_bullet_inP self (c := '*') _ hw1 hw2 hin hno)))
  have := render_of hl3 hp
  rw [finish_ul_inP, e.1] at this
  rw [elem_p]
  simpa [List.replicate] using this

example : render c!"**a *b* c**" = .ok c!"<p>**a *b<ul>\n<li>\n<p>c**</p>\n</li>\n</p>\n</ul>\n" :=
  C146_refuted_middle '*' c!"a " [.word c!"b"] [.word c!"c"] (.inl rfl) ⟨⟨'a', c!" ", rfl, by decide⟩, by decide, by decide⟩ (by decide)
    (by decide) ⟨word_check (by decide), trivial⟩ ⟨_, rfl, trivial⟩ (by decide) (by decide) ⟨word_check (by decide), trivial⟩
    ⟨_, rfl, trivial⟩ (by decide)

/-- All other markup in emphasised, strong or struck text is shown as it is written, here code. -/
theorem C146_refuted_code (m : Char) (a b d : Str) (hm : m = '*' ∨ m = '_') (ha : Inline.EmText a) (hb : '*' ∉ b ∧ '_' ∉ b) (hd : '*' ∉ d ∧ '_' ∉ d) :
    render ([m] ++ (a ++ c!"`" ++ b ++ c!"`" ++ d) ++ [m]) = .ok (elem c!"p" (elem c!"em" (escape (a ++ c!"`" ++ b ++ c!"`" ++ d))) ++ c!"\n") ∧
    render ([m, m] ++ (a ++ c!"`" ++ b ++ c!"`" ++ d) ++ [m, m]) =
      .ok (elem c!"p" (elem c!"strong" (escape (a ++ c!"`" ++ b ++ c!"`" ++ d))) ++ c!"\n") := by
  obtain ⟨⟨c, u, rfl, hc⟩, h1, h2⟩ := ha
  have ht : Inline.EmText (c :: u ++ c!"`" ++ b ++ c!"`" ++ d) :=
    ⟨⟨c, u ++ c!"`" ++ b ++ c!"`" ++ d, by simp, hc⟩, by simp at h1 ⊢; exact ⟨h1.1, h1.2, hb.1, hd.1⟩, by simp at h2 ⊢; exact ⟨h2.1, h2.2, hb.2, hd.2⟩⟩
  have e1 := render_inline (i := .em m (c :: u ++ c!"`" ++ b ++ c!"`" ++ d)) ⟨hm, ht⟩ trivial
  have e2 := render_inline (i := .strong m (c :: u ++ c!"`" ++ b ++ c!"`" ++ d)) ⟨hm, ht, by simp, by simp⟩ trivial
  exact ⟨e1, e2⟩

example : render c!"**a `b` c**" = .ok c!"<p><strong>a `b` c</strong></p>\n" :=
  (C146_refuted_code '*' c!"a " c!"b" c!" c" (.inl rfl) ⟨⟨'a', c!" ", rfl, by decide⟩, by decide, by decide⟩ (by decide) (by decide)).2

/-- **C146, the part that holds** A word without markup is shown between the tags as it is by itself. -/
theorem C146_partial (m : Char) (w : Str) (hm : m = '*' ∨ m = '_') (hw : Word w) :
    ∃ x, render w = .ok (elem c!"p" x ++ c!"\n") ∧ render ([m] ++ w ++ [m]) = .ok (elem c!"p" (elem c!"em" x) ++ c!"\n") ∧
      render ([m, m] ++ w ++ [m, m]) = .ok (elem c!"p" (elem c!"strong" x) ++ c!"\n") ∧
      render (c!"~~" ++ w ++ c!"~~") = .ok (elem c!"p" (elem c!"strike" x) ++ c!"\n") := by
  have hn : ∀ c ∈ controlChars, c ∉ w := fun c hc hi => (hw.2 c hi).1 hc
  obtain ⟨c, u, rfl⟩ := List.exists_cons_of_ne_nil hw.1
  have ht : Inline.EmText (c :: u) := by
    refine ⟨⟨c, u, rfl, ?_⟩, hn '*' (by decide), hn '_' (by decide)⟩
    have h1 := (hw.2 c (by simp)).1
    have : ∀ x ∈ c!" \t\n", x ∈ controlChars := by decide
    exact fun h => h1 (this c h)
  exact ⟨escape (c :: u), render_inline (i := .word (c :: u)) hw trivial, render_inline (i := .em m (c :: u)) ⟨hm, ht⟩ trivial,
    render_inline (i := .strong m (c :: u)) ⟨hm, ht, by simp, by simp⟩ trivial,
    render_inline (i := .strike (c :: u)) ⟨by simp, hn '~' (by decide), by simp⟩ trivial⟩

example : ∃ x, render c!"a&b" = .ok (elem c!"p" x ++ c!"\n") ∧ render (['_'] ++ c!"a&b" ++ ['_']) = .ok (elem c!"p" (elem c!"em" x) ++ c!"\n") ∧
    render (['_', '_'] ++ c!"a&b" ++ ['_', '_']) = .ok (elem c!"p" (elem c!"strong" x) ++ c!"\n") ∧
    render (c!"~~" ++ c!"a&b" ++ c!"~~") = .ok (elem c!"p" (elem c!"strike" x) ++ c!"\n") :=
  C146_partial '_' c!"a&b" (.inr rfl) (word_check (by decide))

/-! ### C147 Markup in link texts -/

/-- **C147, negated** Markers in the text of a link are shown. -/
theorem C147_refuted : render c!"[**a**](http:b)" = .ok c!"<p><a href=\"http:b\">**a**</a></p>\n" := by decide +kernel

/-- They always are, and so is all other markup: the text of a link is shown as it is written. -/
theorem C147_refuted_always (text target : Str) (u : ValidURL) (m a b : Str) (hm : m ∈ [c!"*", c!"_", c!"**", c!"__", c!"`"])
    (ht : text = a ++ m ++ b ++ m) (h1 : ']' ∉ text) (h2 : ')' ∉ target) (h3 : ' ' ∉ target) (hu : validateLink target = .ok u) :
    render (c!"[" ++ text ++ c!"](" ++ target ++ c!")") =
      .ok (elem c!"p" (c!"<a href=\"" ++ u.display ++ c!"\">" ++ (escape a ++ m ++ escape b ++ m) ++ c!"</a>") ++ c!"\n") := by
  have he : ∀ m ∈ [c!"*", c!"_", c!"**", c!"__", c!"`"], escape m = m := by decide
  rw [C39_partial text target u h1 h2 h3 hu, ht]
  simp [escape_append, he m hm]

example : ∃ u, validateLink c!"http:x" = .ok u ∧ render c!"[the `f` **b**](http:x)" =
    .ok (elem c!"p" (c!"<a href=\"" ++ u.display ++ c!"\">" ++ (escape c!"the `f` " ++ c!"**" ++ escape c!"b" ++ c!"**") ++ c!"</a>") ++ c!"\n") :=
  ⟨_, rfl, C147_refuted_always c!"the `f` **b**" c!"http:x" _ c!"**" c!"the `f` " c!"b" (by decide) rfl (by decide) (by decide) (by decide) rfl⟩

/-- **C147, the part that holds** A word without markup is shown in a link as it is by itself. -/
theorem C147_partial (w target : Str) (hw : Word w) (h1 : ']' ∉ w) (ht : PlainTarget target) :
    ∃ x, render w = .ok (elem c!"p" x ++ c!"\n") ∧
      render (c!"[" ++ w ++ c!"](" ++ target ++ c!")") = .ok (elem c!"p" (c!"<a href=\"" ++ target ++ c!"\">" ++ x ++ c!"</a>") ++ c!"\n") :=
  ⟨escape w, render_inline (i := .word w) hw trivial, C39_plain_target w target h1 ht⟩

example : ∃ x, render c!"a&b" = .ok (elem c!"p" x ++ c!"\n") ∧
    render c!"[a&b](irc:x)" = .ok (elem c!"p" (c!"<a href=\"" ++ c!"irc:x" ++ c!"\">" ++ x ++ c!"</a>") ++ c!"\n") :=
  C147_partial c!"a&b" c!"irc:x" (word_check (by decide)) (by decide) (target_check c!"irc" c!"x" (by decide) (by decide))

/-! ### C148 Link references -/

/-- **C148, negated** A link reference and the definition of its target are shown as they are written. -/
theorem C148_refuted : render c!"[a][b]\n\n[b]: http:c" = .ok c!"<p>&lbrack;a&rbrack;&lbrack;b&rbrack;</p>\n<p>&lbrack;b&rbrack;:http:c</p>\n" := by
  decide +kernel

/-- They always are: no reference becomes a link. -/
theorem C148_refuted_always (text label target : Str) (n : Nat) (hn : 2 ≤ n) (h1 : (Inline.brackets text).Good (some '['))
    (h2 : (Inline.brackets label).Good none) (ht : Word target) :
    render (c!"[" ++ text ++ c!"][" ++ label ++ c!"]" ++ times n '\n' ++ c!"[" ++ label ++ c!"]: " ++ target) =
      .ok (elem c!"p" (escape (c!"[" ++ text ++ c!"][" ++ label ++ c!"]")) ++ c!"\n" ++
        (elem c!"p" (escape (c!"[" ++ label ++ c!"]:" ++ target)) ++ c!"\n")) := by
  have hg : DocGood (fun s x => render s = .ok x) [(.para [.brackets text, .brackets label], n),
      (.para [.brackets label, .word c!":", .space 1, .word target], 0)] := by
    obtain ⟨c, u, rfl⟩ := List.exists_cons_of_ne_nil ht.1
    have hc : ∀ x ∈ controlChars, c ≠ x := fun x hx e => (ht.2 c (by simp)).1 (e ▸ hx)
    refine ⟨⟨⟨h1, ⟨h2.1, h2.2.1, h2.2.2.1, h2.2.2.2.1, by decide⟩, trivial⟩, ⟨_, rfl, trivial⟩⟩, hn,
      ⟨⟨h2.1, h2.2.1, h2.2.2.1, h2.2.2.2.1, by simp [inlineSrc, Inline.src]⟩, word_check (by decide),
        ⟨by decide, by decide, ?_, ?_⟩, ht, trivial⟩, ⟨_, rfl, trivial⟩⟩
    · simpa [inlineSrc, Inline.src] using hc ' ' (by decide)
    · simpa [inlineSrc, Inline.src] using hc '\t' (by decide)
  have := render_blocks _ hg (by simp [docHtml, Block.html, ← List.append_assoc, List.getLast?_cons])
  have e1 : escape (c!"[" ++ text ++ c!"][" ++ label ++ c!"]") = escape (c!"[" ++ text ++ c!"]") ++ escape (c!"[" ++ label ++ c!"]") := by
    rw [← escape_append]; simp
  have e2 : escape (c!"[" ++ label ++ c!"]:" ++ target) = escape (c!"[" ++ label ++ c!"]") ++ escape c!":" ++ escape target := by
    rw [← escape_append, ← escape_append]; simp
  rw [e1, e2]
  simpa [docSrc, docHtml, Block.src, Block.html, inlineSrc, inlineHtml, Inline.src, Inline.html, elem] using this

example : render c!"[the site][1]\n\n[1]: http://a.b/c" =
    .ok c!"<p>&lbrack;the site&rbrack;&lbrack;1&rbrack;</p>\n<p>&lbrack;1&rbrack;:http://a.b/c</p>\n" :=
  C148_refuted_always c!"the site" c!"1" c!"http://a.b/c" 2 (by decide) ⟨by decide, by decide, by decide, by decide, by decide⟩
    ⟨by decide, by decide, by decide, by decide, by decide⟩ (word_check (by decide))

/-- **C148, the part that holds** A link with its target is one. -/
theorem C148_partial (text target : Str) (is js : List Inline) (h1 : ']' ∉ text) (ht : PlainTarget target) (hi : InlineGood (some '[') is)
    (hv : ∀ i, is.head? = some i → i.Visible) (hj : InlineGood none js) :
    render (inlineSrc is ++ (c!"[" ++ text ++ c!"](" ++ target ++ c!")") ++ inlineSrc js) =
      .ok (elem c!"p" (inlineHtml is ++ (c!"<a href=\"" ++ target ++ c!"\">" ++ escape text ++ c!"</a>") ++ inlineHtml js) ++ c!"\n") := by
  have hg : InlineGood none (is ++ .link text target :: js) :=
    inlineGood_append (js := .link text target :: js) ⟨⟨h1, ht⟩, hj⟩ (by simpa [inlineSrc, Inline.src] using hi)
  have := render_inlines hg (by
    cases is with
    | nil => exact ⟨_, rfl, trivial⟩
    | cons a b => exact ⟨a, rfl, hv a rfl⟩)
  simpa [inlineSrc, inlineHtml, Inline.src, Inline.html] using this

example : render c!"a[b](irc:x)c" = .ok c!"<p>a<a href=\"irc:x\">b</a>c</p>\n" :=
  C148_partial c!"b" c!"irc:x" [.word c!"a"] [.word c!"c"] (by decide) (target_check c!"irc" c!"x" (by decide) (by decide))
    ⟨word_check (by decide), trivial⟩ (by rintro i ⟨⟩; trivial) ⟨word_check (by decide), trivial⟩

/-! ### C149 The line after a quoted line -/

/-- **C149, negated** A line of text after a quoted line is not in the quote. -/
theorem C149_refuted : render c!"> a\nb" = .ok c!"<blockquote>\n<p>a</p>\n</blockquote><p>b</p>\n" := by decide +kernel

/-- It never is. -/
theorem C149_refuted_always (lines : List (QuoteLine × Str)) (is : List Inline) (hg : (Ending.quotes lines).Good fun s x => render s = .ok x)
    (hq : ∀ l ∈ lines, l.1.ends = 1) (hi : InlineGood none is) (hv : ∃ i, is.head? = some i ∧ i.Visible) :
    render ((Ending.quotes lines).src ++ inlineSrc is) =
      .ok (quoteHtml 0 lines ++ copies (quoteEnd 0 lines) c!"</blockquote>" ++ (elem c!"p" (inlineHtml is) ++ c!"\n")) := by
  have := quotes_text (s := []) hg (fun l hl => by rw [hq l hl]) hi hv LexTo.nil rfl
  rw [List.append_nil] at this
  rw [this, finish_inP, elem_p]
  simp

example : render c!">> a\nb" = .ok c!"<blockquote>\n<blockquote>\n<p>a</p>\n</blockquote></blockquote><p>b</p>\n" :=
  C149_refuted_always [(⟨2, 1, c!"a", 1⟩, c!"<p>a</p>\n")] [.word c!"b"]
    ⟨by decide, by decide, fun l hl => by
      rw [List.mem_singleton] at hl
      subst hl
      exact ⟨⟨by decide, by decide, by decide, by decide⟩, c!"<p>a</p>\n", by decide +kernel, by decide⟩⟩
    (by decide) ⟨word_check (by decide), trivial⟩ ⟨_, rfl, trivial⟩

/-- **C149, the part that holds** A line with its own sign is in the quote. -/
theorem C149_partial (a b x y : Str) (ha : '\n' ∉ a ∧ a.head? ≠ some ' ' ∧ escape a = a) (hb : '\n' ∉ b ∧ b.head? ≠ some ' ' ∧ escape b = b)
    (hx : render a = .ok x) (hy : render b = .ok y) :
    render (c!"> " ++ a ++ c!"\n> " ++ b ++ c!"\n") = .ok (c!"<blockquote>\n" ++ (detab x ++ detab y) ++ c!"</blockquote>\n") := by
  have := C133_partial [(a, x), (b, y)] (by simp) (by
    intro l hl
    simp only [List.mem_cons, List.not_mem_nil, or_false] at hl
    rcases hl with rfl | rfl
    · exact ha
    · exact hb) (by
    intro l hl
    simp only [List.mem_cons, List.not_mem_nil, or_false] at hl
    rcases hl with rfl | rfl
    · exact hx
    · exact hy)
  simpa using this

example : render c!"> a\n> b\n" = .ok c!"<blockquote>\n<p>a</p>\n<p>b</p>\n</blockquote>\n" :=
  C149_partial c!"a" c!"b" c!"<p>a</p>\n" c!"<p>b</p>\n" (by decide) (by decide) (by decide +kernel) (by decide +kernel)

/-! ### C150 Empty quoted lines -/

/-- **C150, negated** A line of nothing but `>` ends the quote, and the sign is shown in a paragraph of its own. -/
theorem C150_refuted : render c!"> a\n>\n> b" =
    .ok c!"<blockquote>\n<p>a</p>\n</blockquote><p>&gt;</p><blockquote>\n<p>b</p>\n</blockquote>\n" := by decide +kernel

/-- It always does, whatever the quotes around it are. -/
theorem C150_refuted_always (n : Nat) (l1 l2 : List (QuoteLine × Str)) (hn : 1 ≤ n) (h1 : (Ending.quotes l1).Good fun s x => render s = .ok x)
    (hq : ∀ l ∈ l1, 1 ≤ l.1.ends) (h2 : (Ending.quotes l2).Good fun s x => render s = .ok x) :
    render ((Ending.quotes l1).src ++ times n '>' ++ c!"\n" ++ (Ending.quotes l2).src) =
      .ok (quoteHtml 0 l1 ++ copies (quoteEnd 0 l1) c!"</blockquote>" ++ elem c!"p" (escape (times n '>')) ++ quoteHtml 0 l2 ++
        copies (quoteEnd 0 l2) c!"</blockquote>\n") := by
  obtain ⟨hne, hgap, hok⟩ := h2
  obtain ⟨toks, h3, h4⟩ := quotes_inP l2 hne hok hgap
  have hh : (l2.flatMap fun l => l.1.src).head? = some '>' := by
    cases l2 with
    | nil => exact absurd rfl hne
    | cons a b => rw [List.flatMap_cons, quoteLine_head (hok a (by simp)).1]
  have hq1 : 1 ≤ quoteEnd 0 l2 := by
    rcases List.eq_nil_or_concat l2 with rfl | ⟨a, x, rfl⟩
    · exact absurd rfl hne
    · have := (hok x (by simp)).1.level.1
      simpa [quoteEnd] using this
  have := quotes_text (is := [.arrows n, .eol]) h1 hq (by rw [hh]; exact ⟨⟨hn, by decide, by decide, by decide⟩, by simp [Inline.Good, inlineSrc], trivial⟩)
    ⟨_, rfl, trivial⟩ h3 (h4 _)
  rw [finish_inQ _ _ (.inr hq1)] at this
  have ee : (Ending.quotes l2).src = l2.flatMap fun l => l.1.src := rfl
  rw [ee]
  simpa [inlineSrc, inlineHtml, Inline.src, Inline.html, elem] using this

example : render c!"> a\n>\n> b" = .ok c!"<blockquote>\n<p>a</p>\n</blockquote><p>&gt;</p><blockquote>\n<p>b</p>\n</blockquote>\n" :=
  C150_refuted_always 1 [(⟨1, 1, c!"a", 1⟩, c!"<p>a</p>\n")] [(⟨1, 1, c!"b", 0⟩, c!"<p>b</p>\n")] (by decide)
    ⟨by decide, by decide, fun l hl => by
      rw [List.mem_singleton] at hl
      subst hl
      exact ⟨⟨by decide, by decide, by decide, by decide⟩, c!"<p>a</p>\n", by decide +kernel, by decide⟩⟩
    (by decide)
    ⟨by decide, by decide, fun l hl => by
      rw [List.mem_singleton] at hl
      subst hl
      exact ⟨⟨by decide, by decide, by decide, by decide⟩, c!"<p>b</p>\n", by decide +kernel, by decide⟩⟩

/-- **C150, the part that holds** A line of `>` and a space is in the quote and shows nothing but an empty line. -/
theorem C150_partial (a b x y : Str) (ha : '\n' ∉ a ∧ a.head? ≠ some ' ' ∧ escape a = a) (hb : '\n' ∉ b ∧ b.head? ≠ some ' ' ∧ escape b = b)
    (hx : render a = .ok x) (hy : render b = .ok y) :
    render (c!"> " ++ a ++ c!"\n> \n> " ++ b ++ c!"\n") = .ok (c!"<blockquote>\n" ++ (detab x ++ c!"\n" ++ detab y) ++ c!"</blockquote>\n") := by
  have := C133_partial [(a, x), ([], c!"\n"), (b, y)] (by simp) (by
    intro l hl
    simp only [List.mem_cons, List.not_mem_nil, or_false] at hl
    rcases hl with rfl | rfl | rfl
    · exact ha
    · decide
    · exact hb) (by
    intro l hl
    simp only [List.mem_cons, List.not_mem_nil, or_false] at hl
    rcases hl with rfl | rfl | rfl
    · exact hx
    · decide +kernel
    · exact hy)
  simpa [show detab c!"\n" = c!"\n" from by decide] using this

example : render c!"> a\n> \n> b\n" = .ok c!"<blockquote>\n<p>a</p>\n\n<p>b</p>\n</blockquote>\n" :=
  C150_partial c!"a" c!"b" c!"<p>a</p>\n" c!"<p>b</p>\n" (by decide) (by decide) (by decide +kernel) (by decide +kernel)

/-! ### C151 Comments -/

/-- **C151, negated** A comment is shown. -/
theorem C151_refuted : render c!"a<!-- b -->" = .ok c!"<p>a&lt;!-- b --&gt;</p>\n" := by decide +kernel

/-- Every comment is, unless it looks like a footnote. -/
theorem C151_refuted_always (c : Str) (is js : List Inline) (h1 : '>' ∉ c) (h2 : '\n' ∉ c) (h3 : ¬ c!"[^" <:+: c) (hi : InlineGood (some '<') is)
    (hv : ∀ i, is.head? = some i → i.Visible) (hj : InlineGood none js) :
    render (inlineSrc is ++ (c!"<!-- " ++ c ++ c!" -->") ++ inlineSrc js) =
      .ok (elem c!"p" (inlineHtml is ++ (c!"&lt;!-- " ++ escape c ++ c!" --&gt;") ++ inlineHtml js) ++ c!"\n") := by
  have h3' : ¬ c!"[^" <:+: c!"!-- " ++ c ++ c!" --" := by
    intro h
    rcases two_infix_append h with h | ⟨_, h⟩ | h
    · rcases two_infix_append h with h | ⟨h, _⟩ | h
      · revert h; decide
      · simp at h
      · exact h3 h
    · simp at h
    · revert h; decide
  have hg : InlineGood none (is ++ .angle (c!"!-- " ++ c ++ c!" --") :: js) :=
    inlineGood_append (js := .angle (c!"!-- " ++ c ++ c!" --") :: js) ⟨⟨by simp, by simp [h1], by simp [h2], h3', by simp, .inl ⟨' ', by simp, by decide⟩⟩, hj⟩
      (by simpa [inlineSrc, Inline.src] using hi)
  have := render_inlines hg (by
    cases is with
    | nil => exact ⟨_, rfl, trivial⟩
    | cons a b => exact ⟨a, rfl, hv a rfl⟩)
  have e : escape (c!"<" ++ (c!"!-- " ++ c ++ c!" --") ++ c!">") = c!"&lt;!-- " ++ escape c ++ c!" --&gt;" := by
    rw [escape_append, escape_append, escape_append, escape_append]
    have e1 : escape c!"<" = c!"&lt;" ∧ escape c!"!-- " = c!"!-- " ∧ escape c!" --" = c!" --" ∧ escape c!">" = c!"&gt;" := ⟨rfl, rfl, rfl, rfl⟩
    simp [e1]
  have e3 : inlineHtml (is ++ .angle (c!"!-- " ++ c ++ c!" --") :: js) =
      inlineHtml is ++ escape (c!"<" ++ (c!"!-- " ++ c ++ c!" --") ++ c!">") ++ inlineHtml js := by
    simp [inlineHtml, Inline.html]
  rw [e3, e] at this
  simpa [inlineSrc, Inline.src] using this

example : render c!"a<!-- TODO: b@c -->d" = .ok c!"<p>a&lt;!-- TODO: b@c --&gt;d</p>\n" :=
  C151_refuted_always c!"TODO: b@c" [.word c!"a"] [.word c!"d"] (by decide) (by decide) (by decide) ⟨word_check (by decide), trivial⟩
    (by rintro i ⟨⟩; trivial) ⟨word_check (by decide), trivial⟩

/-! ### C152 Images as links -/

/-- **C152, negated** An image in the text of a link becomes a link to the image, with what is written after it. -/
theorem C152_refuted : render c!"[![a](http:b)](http:c)" = .ok c!"<p><a href=\"http:b\">!&lbrack;a</a>&rbrack;&#40;http:c&#41;</p>\n" := by
  decide +kernel

/-- Every one does: nothing is an image, and the only link leads to the address of the image. -/
theorem C152_refuted_always (text image : Str) (js : List Inline) (u : ValidURL) (h1 : ']' ∉ text) (h2 : ')' ∉ image) (h3 : ' ' ∉ image)
    (hu : validateLink image = .ok u) (hj : InlineGood (some ')') js) :
    render (c!"[![" ++ text ++ c!"](" ++ image ++ c!")](" ++ inlineSrc js ++ c!")") =
      .ok (elem c!"p" (c!"<a href=\"" ++ u.display ++ c!"\">" ++ (c!"!&lbrack;" ++ escape text) ++ c!"</a>" ++
        (c!"&rbrack;&#40;" ++ inlineHtml js ++ c!"&#41;")) ++ c!"\n") := by
  have hg : InlineGood none (.word c!"](" :: (js ++ [.word c!")"])) :=
    ⟨word_check (by decide), inlineGood_append (js := [.word c!")"]) ⟨word_check (by decide), trivial⟩ (by simpa [inlineSrc, Inline.src] using hj)⟩
  obtain ⟨t1, hl1, ha1, _⟩ := inlines_sem hg
  have hl2 := hl1 self [] [] [] hg LexTo.nil
  rw [List.append_nil, List.append_nil] at hl2
  have hl := LexTo.linkTo (r := self) (ig := []) (text := c!"![" ++ text) (by simp [h1]) h2 h3 hu hl2
  have hp := parseToks_two ((shows_link u (c!"![" ++ text)).opens.clean self []) (ha1 self _ _)
  have := render_of hl hp
  rw [finish_inP] at this
  rw [elem_p]
  have e : escape (c!"![" ++ text) = c!"!&lbrack;" ++ escape text := by rw [escape_append]; rfl
  have e1 : escape c!"](" = c!"&rbrack;&#40;" := rfl
  have e2 : escape c!")" = c!"&#41;" := rfl
  rw [e] at this
  simpa [inlineSrc, inlineHtml, Inline.src, Inline.html, e1, e2] using this

example : ∃ u, validateLink c!"https://b.c/d.svg" = .ok u ∧ render c!"[![Build](https://b.c/d.svg)](http:e)" =
    .ok (elem c!"p" (c!"<a href=\"" ++ u.display ++ c!"\">" ++ (c!"!&lbrack;" ++ c!"Build") ++ c!"</a>" ++
        (c!"&rbrack;&#40;" ++ c!"http:e" ++ c!"&#41;")) ++ c!"\n") :=
  ⟨_, rfl, C152_refuted_always c!"Build" c!"https://b.c/d.svg" [.word c!"http:e"] _ (by decide) (by decide) (by decide) rfl
    ⟨word_check (by decide), trivial⟩⟩

/-- **C152, the part that holds** An image is one, and a link in the next line is one. -/
theorem C152_partial (text image label target : Str) (h : (Block.image text image).Good fun s x => render s = .ok x) (h1 : ']' ∉ label)
    (ht : PlainTarget target) :
    render (c!"![" ++ text ++ c!"](" ++ image ++ c!")\n[" ++ label ++ c!"](" ++ target ++ c!")") =
      .ok (c!"<p><img src=\"" ++ afterColon image ++ c!"\" alt=\"" ++ escape text ++ c!"\" referrerpolicy=\"no-referrer\"></p>" ++
        (elem c!"p" (c!"<a href=\"" ++ target ++ c!"\">" ++ escape label ++ c!"</a>") ++ c!"\n")) := by
  have := render_blocks [(.image text image, 1), (.para [.link label target], 0)]
    ⟨h, Nat.le_refl 1, ⟨⟨⟨h1, ht⟩, trivial⟩, ⟨_, rfl, trivial⟩⟩⟩ (by simp [docHtml, Block.html, elem, ← List.append_assoc, List.getLast?_cons])
  simpa [docSrc, docHtml, Block.src, Block.html, inlineSrc, inlineHtml, Inline.src, Inline.html, elem] using this

example : render c!"![a](http:b)\n[c](irc:d)" =
    .ok c!"<p><img src=\"b\" alt=\"a\" referrerpolicy=\"no-referrer\"></p><p><a href=\"irc:d\">c</a></p>\n" :=
  C152_partial c!"a" c!"http:b" c!"c" c!"irc:d" ⟨by decide, target_check c!"http" c!"b" (by decide) (by decide), by decide⟩ (by decide)
    (target_check c!"irc" c!"d" (by decide) (by decide))

end Smd.Gfm
