import Verif.Lemmas.Signs
import Verif.Props.Literal
import Verif.Props.Parts

/-!
Signs of lists, thematic breaks and fences: tabs after the sign (C153), no space after it (C155), runs inside a line
(C154), mixed runs (C34), tildes (C156) and an underscore at the end of a line (C95).
-/

namespace Smd.Gfm
open Smd.Rs Smd.Spec

/-! ### C34 Mixed runs -/

/-- **C34** A document of four or more asterisks, underscores and tabs is a thematic break if and only if it has no
underscore or nothing else; otherwise it is shown. -/
theorem C34_mixed (m : Char) (s : Str) (hm : m = '*' ∨ m = '_') (hs : ∀ c ∈ s, c = '*' ∨ c = '_' ∨ c = '\t') (hl : 3 ≤ s.length) :
    render (m :: s) = .ok (if '_' ∉ m :: s ∨ (∀ c ∈ m :: s, c = '_') then c!"<hr />\n" else elem c!"p" (m :: s) ++ c!"\n") := by
  have hl1 : LexTo self [] (m :: s) [_] := LexTo.cons (fun last => au_run hm hs hl last) LexTo.nil
  by_cases h : '_' ∉ m :: s ∨ ∀ c ∈ m :: s, c = '_'
  · rw [if_pos h] at hl1 ⊢
    rw [render_of hl1 (parseToks_one (parseTok_rule_clean self [])), finish_clean (h := [] ++ c!"<hr />\n") ⟨c!"<hr />", rfl⟩]
    rfl
  · rw [if_neg h] at hl1 ⊢
    have hmw : isWs m = false := by rcases hm with rfl | rfl <;> decide
    have hno : ∀ d ∈ m :: s, d = '*' ∨ d = '_' ∨ d = '\t' := by
      intro d hd
      rcases List.mem_cons.mp hd with rfl | hd
      · rcases hm with rfl | rfl <;> simp
      · exact hs d hd
    have s1 := shows_plain (t := m :: s) (shown_of_chars (c := m) (by simp) hmw
      (fun h => by have := hno _ h; revert this; decide) (.inl fun h => by have := hno _ h; revert this; decide))
    have he : escape (m :: s) = m :: s := by
      have : ∀ u : Str, (∀ d ∈ u, d = '*' ∨ d = '_' ∨ d = '\t') → escape u = u := by
        intro u
        induction u with
        | nil => intro _; rfl
        | cons a u ih =>
          intro hu
          rw [show a :: u = [a] ++ u from rfl, escape_append, ih (fun d hd => hu d (by simp [hd]))]
          rcases hu a (by simp) with rfl | rfl | rfl <;> rfl
      exact this _ hno
    rw [render_of hl1 (s1.opens.clean self []), finish_inP, elem_p, he]
    simp

example : render c!"***\t" = .ok c!"<hr />\n" ∧ render c!"___\t" = .ok c!"<p>___\t</p>\n" ∧ render c!"_***" = .ok c!"<p>_***</p>\n" :=
  ⟨C34_mixed '*' c!"**\t" (by decide) (by decide) (by decide), C34_mixed '_' c!"__\t" (by decide) (by decide) (by decide),
    C34_mixed '_' c!"***" (by decide) (by decide) (by decide)⟩

/-! ### C95 An underscore at the end of a line -/

/-- An underscore at the end of a line emphasises the line end and the lines after it. -/
theorem C95_refuted_line_end (is : List Inline) (t : Str) (hi : InlineGood (some '_') is)
    (hv : is = [] ∨ ∃ i, is.head? = some i ∧ i.Visible) (h1 : '*' ∉ t) (h2 : '_' ∉ t) :
    render (inlineSrc is ++ (c!"_\n" ++ t)) = .ok (elem c!"p" (inlineHtml is ++ elem c!"em" (c!"\n" ++ escape t)) ++ c!"\n") := by
  have hl : LexTo self [] ('_' :: '\n' :: t) [_] := LexTo.cons (fun last => au_line_end h1 h2 last) LexTo.nil
  have e : escape ('\n' :: t) = c!"\n" ++ escape t := escape_append c!"\n" t
  rcases hv with rfl | hv
  · rw [show inlineSrc [] ++ (c!"_\n" ++ t) = '_' :: '\n' :: t from rfl, render_of hl ((shows_italic _).opens.clean self []), finish_inP, elem_p, e]
    simp [inlineHtml]
  · rw [show c!"_\n" ++ t = '_' :: '\n' :: t from rfl, render_inlines_then (s := '_' :: '\n' :: t) hi hv hl ((shows_italic _).adds self _ _),
      finish_inP, elem_p, e]
    simp

example : render c!"a_\nb" = .ok c!"<p>a<em>\nb</em></p>\n" :=
  C95_refuted_line_end [.word c!"a"] c!"b" ⟨word_check (by decide), trivial⟩ (.inr ⟨_, rfl, trivial⟩) (by decide) (by decide)

/-! ### C153 A tab after the sign of a list entry -/

/-- **C153, negated** After a tab the text of an entry is code, or the sign is text, or both. -/
theorem C153_refuted : render c!"-\ta" = .ok c!"<ul>\n<li>\n<pre><code>  a\n</code></pre></li>\n</ul>\n" ∧
    render c!"*\ta" = .ok c!"<p>*\ta</p>\n" ∧ render c!"1.\ta" = .ok c!"<p>1.<pre><code>a</p>\n</code></pre>" := by decide +kernel

/-- So it is with every text, after each sign. -/
theorem C153_refuted_always (c d : Char) (t : Str) (hc : c = '-' ∨ c = '+') (hd : d ∈ c!"0123456789") (ht : Inline.EmText t) (hn : '\n' ∉ t)
    (hb : '[' ∉ t) :
    render (c :: '\t' :: t) = .ok (c!"<ul>\n<li>\n" ++ elem c!"pre" (elem c!"code" (c!"  " ++ escape t ++ c!"\n")) ++ c!"</li>\n</ul>\n") ∧
    render ('*' :: '\t' :: t) = .ok (elem c!"p" (c!"*\t" ++ escape t) ++ c!"\n") ∧
    render (d :: '.' :: '\t' :: t) = .ok (c!"<p>" ++ [d, '.'] ++ c!"<pre><code>" ++ escape t ++ c!"</p>\n</code></pre>") := by
  obtain ⟨⟨a, u, rfl, ha⟩, h1, h2⟩ := id ht
  have hs1 : (a :: u).head? ≠ some ' ' := fun e => ha (by rw [Option.some.inj e]; decide)
  have hs2 : (a :: u).head? ≠ some '\t' := fun e => ha (by rw [Option.some.inj e]; decide)
  refine ⟨?_, ?_, ?_⟩
  · have h3 : ¬ c!"\t" <+: a :: u := fun ⟨z, hz⟩ => hs2 (by rw [← hz]; rfl)
    have := render_tight (w := '\t' :: a :: u) (a := '\t' :: a :: u) hc (by simpa using hn) (by simp) (by simp) (by simp) (by
      simp [startsWith, trimStartP, h3]) (render_tab (by simp) hn hs1 hs2)
    rw [this, pad_one]
    simp [elem]
  · have hl : LexTo self [] ('*' :: '\t' :: a :: u) [_] := LexTo.cons (fun last => au_tab (.inl rfl) ht last) LexTo.nil
    have s1 := shows_plain (t := '*' :: '\t' :: a :: u) (shown_of_chars (c := '*') (by simp) (by decide) (by simpa using hn) (.inl (by simpa using hb)))
    have e : escape ('*' :: '\t' :: a :: u) = c!"*\t" ++ escape (a :: u) := escape_append c!"*\t" (a :: u)
    rw [render_of hl (s1.opens.clean self []), finish_inP, elem_p, e]
    simp
  · have := C83_refuted_always [.digitDot d] (a :: u) ⟨⟨hd, by decide⟩, trivial⟩ ⟨_, rfl, trivial⟩ hn hs1 hs2
    simpa [inlineSrc, inlineHtml, Inline.src, Inline.html] using this

example : render c!"*\tx = y" = .ok c!"<p>*\tx = y</p>\n" :=
  (C153_refuted_always '-' '1' c!"x = y" (by decide) (by decide) ⟨⟨'x', c!" = y", rfl, by decide⟩, by decide, by decide⟩ (by decide) (by decide)).2.1

/-- **C153, the part that holds** With spaces after the sign there is an entry. -/
theorem C153_partial (c d : Char) (js : List Inline) (hc : c = '-' ∨ c = '+' ∨ c = '*') (hd : d ∈ c!"0123456789") (hj : InlineGood none js)
    (hn : '\n' ∉ inlineSrc js) (hv : ∃ i, js.head? = some i ∧ i.Visible) (hb : ∀ x ∈ c!" xX", ¬ ['[', x, ']', ' '] <+: inlineSrc js) :
    render (c :: ' ' :: inlineSrc js) = .ok (c!"<ul>\n<li>\n" ++ (elem c!"p" (inlineHtml js) ++ c!"\n") ++ c!"</li>\n</ul>\n") ∧
    render (d :: '.' :: ' ' :: inlineSrc js) = .ok (c!"<ol>\n<li>\n" ++ escape (inlineSrc js) ++ c!"</li>\n</ol>\n") := by
  obtain ⟨⟨a, u, ea, ha⟩, _⟩ := head_ends hj hv
  have h1 : (inlineSrc js).head? ≠ some ' ' := by rw [ea]; simp; rintro rfl; revert ha; decide
  have h2 : (inlineSrc js).head? ≠ some '\t' := by rw [ea]; simp; rintro rfl; revert ha; decide
  constructor
  · have hr := render_inlines hj hv
    have := C28_bullets 0 [(c, inlineSrc js, 0, elem c!"p" (inlineHtml js) ++ c!"\n")] (by simp) (by simpa using hc) (by simpa using hn)
      (by simpa using ⟨h1, h2, hb ' ' (by simp), hb 'x' (by simp), hb 'X' (by simp)⟩) (by simp) (by simpa using hr) (by
        have := para_noPre hj
        rw [elem_p]
        simpa using this)
    simpa using this
  · have := C29_ordered 0 [(d, inlineSrc js, 0)] (by simp) (by simpa using hd) (by simpa using hn) (by simp)
    simpa using this

example : render c!"* a" = .ok c!"<ul>\n<li>\n<p>a</p>\n</li>\n</ul>\n" :=
  (C153_partial '*' '1' [.word c!"a"] (by decide) (by decide) ⟨word_check (by decide), trivial⟩ (by decide) ⟨_, rfl, trivial⟩ (by decide)).1

/-! ### C154 Runs of signs inside a line -/

/-- **C154, negated** A dash of three hyphens inside a line is a thematic break inside the paragraph. -/
theorem C154_refuted : render c!"a --- b" = .ok c!"<p>a<hr />\nb</p>\n" := by decide +kernel

/-- Every run of three or more hyphens or plus signs is, and of four or more asterisks or underscores. -/
theorem C154_refuted_always (n : Nat) (c : Char) (is js : List Inline)
    (h : (c = '-' ∨ c = '+') ∧ 3 ≤ n ∧ (inlineSrc js).head? ≠ some '-' ∧ (inlineSrc js).head? ≠ some '+' ∨
      (c = '*' ∨ c = '_') ∧ 4 ≤ n ∧ (inlineSrc js).head? ≠ some '*' ∧ (inlineSrc js).head? ≠ some '_' ∧ (inlineSrc js).head? ≠ some '\t')
    (hi : InlineGood (some c) is) (hv : ∃ i, is.head? = some i ∧ i.Visible) (hj : InlineGood none js) :
    render (inlineSrc is ++ times n c ++ inlineSrc js) = .ok (elem c!"p" (inlineHtml is ++ c!"<hr />\n" ++ inlineHtml js) ++ c!"\n") := by
  obtain ⟨t2, hl2, ha2, _⟩ := inlines_sem hj
  have l2 := hl2 self [] [] [] hj LexTo.nil
  rw [List.append_nil, List.append_nil] at l2
  have l1 := LexTo.ruleIn h l2
  obtain ⟨u, hu⟩ := times_head (c := c) (n := n) (by omega) (inlineSrc js)
  have hp := parseToks_cons (parseTok_rule_inP self (c!"<p>" ++ inlineHtml is)) (ha2 self _ false)
  rw [List.append_assoc, render_inlines_then (by rw [hu]; exact hi) hv l1 hp, finish_inP]
  simp [elem]

example : render c!"so ---- or *not*" = .ok c!"<p>so<hr />\nor<em>not</em></p>\n" :=
  C154_refuted_always 4 '-' [.word c!"so", .space 1] [.space 1, .word c!"or", .space 1, .em '*' c!"not"]
    (.inl ⟨by decide, by decide, by decide, by decide⟩)
    ⟨word_check (by decide), ⟨by decide, by decide, by decide, by decide⟩, trivial⟩ ⟨_, rfl, trivial⟩
    ⟨⟨by decide, by decide, by decide, by decide⟩, word_check (by decide), ⟨by decide, by decide, by decide, by decide⟩,
      ⟨.inl rfl, ⟨_, _, rfl, by decide⟩, by decide, by decide⟩, trivial⟩

/-- **C154, the part that holds** Two hyphens or plus signs are text. -/
theorem C154_partial (a b : Char) (is js : List Inline) (ha : a = '-' ∨ a = '+') (hv : ∃ i, is.head? = some i ∧ i.Visible)
    (hg : InlineGood none (is ++ .dashes a b :: js)) :
    render (inlineSrc is ++ [a, b] ++ inlineSrc js) = .ok (elem c!"p" (inlineHtml is ++ [a, b] ++ inlineHtml js) ++ c!"\n") :=
  (C69_partial a b is js ha (fun i hi => by obtain ⟨k, hk, hkv⟩ := hv; rw [hk] at hi; injection hi with e; exact e ▸ hkv)).2 hg

example : render c!"a -- b" = .ok c!"<p>a--b</p>\n" :=
  C154_partial '-' '-' [.word c!"a", .space 1] [.space 1, .word c!"b"] (by decide) ⟨_, rfl, trivial⟩
    ⟨word_check (by decide), ⟨by decide, by decide, by decide, by decide⟩, ⟨by decide, by decide, by decide, by decide⟩,
      ⟨by decide, by decide, by decide, by decide⟩, word_check (by decide), trivial⟩

/-! ### C155 An entry has a space after its sign -/

/-- **C155, negated** A negative number is an entry of a list. -/
theorem C155_refuted : render c!"-5" = .ok c!"<ul>\n<li>\n<p>5</p>\n</li>\n</ul>\n" := by decide +kernel

/-- Every text directly after a hyphen or plus sign at the start of a document is. -/
theorem C155_refuted_always (c : Char) (js : List Inline) (hc : c = '-' ∨ c = '+') (hj : InlineGood none js) (hn : '\n' ∉ inlineSrc js)
    (hv : ∃ i, js.head? = some i ∧ i.Visible) (h1 : (inlineSrc js).head? ≠ some '-') (h2 : (inlineSrc js).head? ≠ some '+') :
    render (c :: inlineSrc js) = .ok (c!"<ul>\n<li>\n" ++ (elem c!"p" (inlineHtml js) ++ c!"\n") ++ c!"</li>\n</ul>\n") := by
  obtain ⟨⟨a, u, ea, ha⟩, _⟩ := head_ends hj hv
  have h3 : (inlineSrc js).head? ≠ some ' ' := by rw [ea]; simp; rintro rfl; revert ha; decide
  have h4 : (inlineSrc js).head? ≠ some '\t' := by rw [ea]; simp; rintro rfl; revert ha; decide
  have hb := bulletText_arg (c := '*') h3 h4
  rw [show bulletText '*' (inlineSrc js) = inlineSrc js from rfl] at hb
  have := render_tight hc hn h1 h2 h3 hb (render_inlines hj hv)
  rw [this, elem_p, pad, replaceStr_none (para_noPre hj)]

example : render c!"+1 for *this*" = .ok c!"<ul>\n<li>\n<p>1for<em>this</em></p>\n</li>\n</ul>\n" :=
  C155_refuted_always '+' [.digit '1', .space 1, .word c!"for", .space 1, .em '*' c!"this"] (by decide)
    ⟨⟨by decide, by decide⟩, ⟨by decide, by decide, by decide, by decide⟩, word_check (by decide), ⟨by decide, by decide, by decide, by decide⟩,
      ⟨.inl rfl, ⟨_, _, rfl, by decide⟩, by decide, by decide⟩, trivial⟩ (by decide) ⟨_, rfl, trivial⟩ (by decide) (by decide)

/-- **C155, the part that holds** After a backslash the sign is text. -/
theorem C155_partial (c : Char) (js : List Inline) (hc : c ∈ c!"-+*_") (hj : InlineGood none js) :
    render ('\\' :: c :: inlineSrc js) = .ok (elem c!"p" (c :: inlineHtml js) ++ c!"\n") := by
  have he : ∀ c ∈ c!"-+*_", escape [c] = [c] ∧ isWs c = false ∧ c ≠ '#' ∧ c ≠ '\\' := by decide
  have := render_inlines (is := .escaped c :: js) ⟨(he c hc).2, hj⟩ ⟨_, rfl, trivial⟩
  simpa [inlineSrc, inlineHtml, Inline.src, Inline.html, (he c hc).1] using this

example : render c!"\\-5" = .ok c!"<p>-5</p>\n" := C155_partial '-' [.digit '5'] (by decide) ⟨⟨by decide, by decide⟩, trivial⟩

/-! ### C156 Fences of tildes -/

/-- **C156, negated** Lines between lines of tildes are text. -/
theorem C156_refuted : render c!"~~~\na\n~~~" = .ok c!"<p>&tilde;&tilde;&tilde;a&tilde;&tilde;&tilde;</p>\n" := by decide +kernel

/-- All are, whatever is written between the fences, and with a language after the first. -/
theorem C156_refuted_always (n k : Nat) (lang is : List Inline) (hn : 3 ≤ n) (hk : 3 ≤ k) (hlang : InlineGood (some '\n') lang)
    (h1 : (inlineSrc lang).head? ≠ some '~') (hi : InlineGood (some '\n') is)
    (h2 : ∃ a, (inlineSrc is).head? = some a ∧ a ≠ '\n') :
    render (times n '~' ++ inlineSrc lang ++ c!"\n" ++ inlineSrc is ++ c!"\n" ++ times k '~') =
      .ok (elem c!"p" (escape (times n '~') ++ inlineHtml lang ++ inlineHtml is ++ escape (times k '~')) ++ c!"\n") := by
  obtain ⟨u, hu⟩ := times_head (c := '~') (n := k) (by omega) []
  rw [List.append_nil] at hu
  have g1 : InlineGood none [.eol, .tildes k] := ⟨by simp [Inline.Good, inlineSrc, Inline.src, hu], ⟨by omega, by omega, by simp [inlineSrc]⟩, trivial⟩
  have g2 : InlineGood none (is ++ [.eol, .tildes k]) := inlineGood_append g1 (by simpa [inlineSrc, Inline.src] using hi)
  have g3 : InlineGood none (.eol :: (is ++ [.eol, .tildes k])) := by
    refine ⟨?_, g2⟩
    obtain ⟨a, ha, hne⟩ := h2
    show _ ≠ _
    rw [show inlineSrc (is ++ [.eol, .tildes k]) = inlineSrc is ++ inlineSrc [.eol, .tildes k] by simp [inlineSrc], List.head?_append, ha]
    simpa using hne
  have g4 : InlineGood none (lang ++ .eol :: (is ++ [.eol, .tildes k])) := inlineGood_append g3 (by simpa [inlineSrc, Inline.src] using hlang)
  have g5 : InlineGood none (.tildes n :: (lang ++ .eol :: (is ++ [.eol, .tildes k]))) := by
    refine ⟨⟨by omega, by omega, ?_⟩, g4⟩
    rw [show ∀ a b : List Inline, inlineSrc (a ++ b) = inlineSrc a ++ inlineSrc b by simp [inlineSrc], List.head?_append]
    cases hh : (inlineSrc lang).head? with
    | none => simp [inlineSrc, Inline.src]
    | some b => rw [hh] at h1; simpa using h1
  have := render_inlines g5 ⟨_, rfl, trivial⟩
  simpa [inlineSrc, inlineHtml, Inline.src, Inline.html] using this

example : render c!"~~~rust\nlet\n~~~" = .ok c!"<p>&tilde;&tilde;&tilde;rustlet&tilde;&tilde;&tilde;</p>\n" :=
  C156_refuted_always 3 3 [.word c!"rust"] [.word c!"let"] (by decide) (by decide) ⟨word_check (by decide), trivial⟩ (by decide)
    ⟨word_check (by decide), trivial⟩ ⟨'l', by decide, by decide⟩

end Smd.Gfm
