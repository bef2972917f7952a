import Verif.Props.Contexts
import Verif.Props.Growth
import Verif.Lemmas.Nested

/-!
Texts that are no markup after all (C36, C37, C74, C84, C87), lines indented by two tabs (C73), the next line of an entry of a list
(C129), code in entries (C130) and the length of documents without tables (C110).
-/

namespace Smd.Gfm
open Smd.Rs Smd.Spec

/-! ### C36 The last backslash -/

/-- **C36, negated** A backslash at the end shows `EOF`, whatever the text. -/
theorem C36_refuted_always (is : List Inline) (hi : InlineGood (some '\\') is) (hv : is = [] ∨ ∃ i, is.head? = some i ∧ i.Visible) :
    render (inlineSrc is ++ c!"\\") = .ok (elem c!"p" (inlineHtml is ++ c!"EOF") ++ c!"\n") :=
  render_inlines_token hi hv (fun last => backslash_end last)
    (shows_plain (t := c!"EOF") (shown_of_chars (c := 'E') (by decide) (by decide) (by decide) (.inl (by decide))))

example : render c!"*one* two\\" = .ok c!"<p><em>one</em>twoEOF</p>\n" :=
  C36_refuted_always [.em '*' c!"one", .space 1, .word c!"two"]
    ⟨⟨.inl rfl, ⟨_, _, rfl, by decide⟩, by decide, by decide⟩, ⟨by decide, by decide, by decide, by decide⟩, word_check (by decide), trivial⟩
    (.inr ⟨_, rfl, trivial⟩)

/-! ### C37 Names of footnotes with white space -/

/-- **C37, negated** A definition whose name has white space in it gives no endnote: what follows `[^` is put out, and not escaped. -/
theorem C37_refuted_names (is : List Inline) (id t : Str) (hi : InlineGood (some '[') is) (hv : is = [] ∨ ∃ i, is.head? = some i ∧ i.Visible)
    (hw : ∃ c ∈ id, isWs c = true) (hb : ']' ∉ id) (h1 : '[' ∉ id ++ t) (hn : '\n' ∉ id ++ t)
    (he : (trimEnd (id ++ c!"]:" ++ t)).getLast? ≠ some ']') :
    render (inlineSrc is ++ (c!"[^" ++ id ++ c!"]:" ++ t)) = .ok (elem c!"p" (inlineHtml is ++ (id ++ c!"]:" ++ t)) ++ c!"\n") :=
  render_inlines_token (by simpa using hi) hv (fun last => note_named hw hb (fun h => hn (by simp [h])) last)
    (shows_of_plainOut ⟨'[', by simp, by decide⟩ (plainOut_named h1 hn he))

example : render c!"x[^my note]: <b>y</b>" = .ok c!"<p>xmy note]: <b>y</b></p>\n" :=
  C37_refuted_names [.word c!"x"] c!"my note" c!" <b>y</b>" ⟨word_check (by decide), trivial⟩ (.inr ⟨_, rfl, trivial⟩)
    ⟨' ', by decide, by decide⟩ (by decide) (by decide) (by decide) (by decide)

/-! ### C73 Two tabs -/

/-- **C73, the part that holds** Lines indented by two tabs are code that starts with a tab. -/
theorem C73_partial_tabs (ls : List Str) (hne : ls ≠ []) (hl : ∀ l ∈ ls, '\n' ∉ l ∧ l.head? ≠ some ' ' ∧ l.head? ≠ some '\t') :
    render (ls.flatMap fun l => c!"\t\t" ++ l ++ c!"\n") =
      .ok (elem c!"pre" (elem c!"code" (ls.flatMap fun l => c!"\t" ++ escape l ++ c!"\n"))) := by
  have hlex := LexTo.tabLines (r := self) (ig := []) (rest := []) (ts := []) hl LexTo.nil
  rw [List.append_nil, List.append_nil] at hlex
  have := render_codes (ys := ls.map fun l => '\t' :: l ++ c!"\n") (by simpa using hne) (by rw [List.map_map]; exact hlex)
  have e : (ls.map fun l => '\t' :: l ++ c!"\n").flatMap escape = ls.flatMap fun l => c!"\t" ++ escape l ++ c!"\n" := by
    rw [List.flatMap_map]
    congr 1
    funext l
    rw [List.cons_append, show '\t' :: (l ++ c!"\n") = c!"\t" ++ (l ++ c!"\n") from rfl, escape_append, escape_append]
    simp [show escape c!"\n" = c!"\n" from rfl, show escape c!"\t" = c!"\t" from rfl]
  have e2 : endLine (ls.flatMap fun l => c!"\t" ++ escape l ++ c!"\n") = ls.flatMap fun l => c!"\t" ++ escape l ++ c!"\n" := by
    obtain ⟨u, a, rfl⟩ : ∃ u a, ls = u ++ [a] := by
      rcases List.eq_nil_or_concat ls with rfl | ⟨u, a, rfl⟩
      · exact absurd rfl hne
      · exact ⟨u, a, by simp⟩
    exact if_pos (by simp [List.getLast?_cons])
  rw [this, e, e2]
  simp [elem]

example : render c!"\t\tif a<b\n\t\t* c\n" = .ok c!"<pre><code>\tif a&lt;b\n\t* c\n</code></pre>" :=
  C73_partial_tabs [c!"if a<b", c!"* c"] (by decide) (by decide)

/-! ### C74 Empty angle brackets, and brackets with several lines behind them -/

/-- **C74, the part that holds** Angle brackets with nothing between them are text. -/
theorem C74_partial_angles (is js : List Inline) (hi : InlineGood (some '<') is) (hj : InlineGood none js)
    (hv : is = [] ∨ ∃ i, is.head? = some i ∧ i.Visible) :
    render (inlineSrc is ++ c!"<>" ++ inlineSrc js) = .ok (elem c!"p" (inlineHtml is ++ c!"&lt;&gt;" ++ inlineHtml js) ++ c!"\n") :=
  render_between (by simpa using hi) hj hv (fun last => angles_empty last)
    (shows_plain (t := c!"<>") (shown_of_chars (c := '<') (by decide) (by decide) (by decide) (.inl (by decide))))

example : render c!"Vec<>*x*" = .ok c!"<p>Vec&lt;&gt;<em>x</em></p>\n" :=
  C74_partial_angles [.word c!"Vec"] [.em '*' c!"x"] ⟨word_check (by decide), trivial⟩
    ⟨⟨.inl rfl, ⟨_, _, rfl, by decide⟩, by decide, by decide⟩, trivial⟩ (.inr ⟨_, rfl, trivial⟩)

/-- **C74, the part that holds** An opening square bracket without a closing one is text with all the lines that follow. -/
theorem C74_partial_lines (is : List Inline) (t l : Str) (hi : InlineGood (some '[') is) (hv : is = [] ∨ ∃ i, is.head? = some i ∧ i.Visible)
    (hb : ']' ∉ t ++ l) (hn : '\n' ∉ l) (hl : ∃ c ∈ l, isWs c = false) :
    render (inlineSrc is ++ ('[' :: t ++ '\n' :: l)) = .ok (elem c!"p" (inlineHtml is ++ escape ('[' :: t ++ '\n' :: l)) ++ c!"\n") :=
  render_inlines_token (by simpa using hi) hv (fun last => open_bracket (by simpa using hb) last)
    (shows_of_plainOut ⟨'[', by simp, by decide⟩ (plainOut_of_trim (plainTrim_full (s := '[' :: t) hl hn) (.inr (by simpa using hb)) (by simp)))

/-- A blank line at the end is left out, with the line end in front of it. -/
theorem C74_partial_blank (is : List Inline) (t l : Str) (hi : InlineGood (some '[') is) (hv : is = [] ∨ ∃ i, is.head? = some i ∧ i.Visible)
    (hb : ']' ∉ t) (hl : ∀ c ∈ l, c = ' ' ∨ c = '\t') (ht : ∀ c, t.getLast? = some c → isWs c = false) :
    render (inlineSrc is ++ ('[' :: t ++ '\n' :: l)) = .ok (elem c!"p" (inlineHtml is ++ escape ('[' :: t)) ++ c!"\n") := by
  have hws : ∀ c ∈ l, isWs c = true := fun c hc => by rcases hl c hc with rfl | rfl <;> decide
  have hnl : '\n' ∉ l := fun h => by rcases hl _ h with h | h <;> cases h
  have hbl : ']' ∉ l := fun h => by rcases hl _ h with h | h <;> cases h
  refine render_inlines_token (by simpa using hi) hv (fun last => open_bracket (by simp [hb, hbl]) last)
    (shows_of_plainOut ⟨'[', by simp, by decide⟩ (plainOut_of_trim (plainTrim_blank (s := '[' :: t) hws hnl ?_) (.inr (by simpa using hb)) (by simp)))
  rintro ⟨u, hu⟩
  have h1 : ('[' :: t).getLast? = ('\n' :: l).getLast? := by
    rw [← hu]
    rw [List.getLast?_append, List.getLast?_cons]
    rfl
  have h2 : ∀ c, ('\n' :: l).getLast? = some c → isWs c = true := fun c hc => by
    rcases List.mem_cons.mp (List.mem_of_getLast? hc) with rfl | h
    · decide
    · exact hws c h
  obtain ⟨c, hc⟩ : ∃ c, ('[' :: t).getLast? = some c := ⟨_, List.getLast?_cons⟩
  have h3 := h2 c (by rw [← h1]; exact hc)
  cases t with
  | nil => simp at hc; subst hc; revert h3; decide
  | cons d t =>
    have := ht c (by rw [← hc]; simp [List.getLast?_cons])
    rw [this] at h3
    cases h3

example : render c!"see [one\n*two*" = .ok c!"<p>see&lbrack;one\n*two*</p>\n" :=
  C74_partial_lines [.word c!"see", .space 1] c!"one" c!"*two*" ⟨word_check (by decide), ⟨by decide, by decide, by decide, by decide⟩, trivial⟩
    (.inr ⟨_, rfl, trivial⟩) (by decide) (by decide) ⟨'t', by decide, by decide⟩
example : render c!"see [one\n  " = .ok c!"<p>see&lbrack;one</p>\n" :=
  C74_partial_blank [.word c!"see", .space 1] c!"one" c!"  " ⟨word_check (by decide), ⟨by decide, by decide, by decide, by decide⟩, trivial⟩
    (.inr ⟨_, rfl, trivial⟩) (by decide) (by decide) (by decide)

/-! ### C84 The line after a bar -/

/-- **C84, negated** What follows a bar is not interpreted up to the end of the line, which is lost; the next line is interpreted. -/
theorem C84_refuted_lines (is js : List Inline) (t : Str) (hi : InlineGood (some '|') is) (hj : InlineGood none js)
    (hv : is = [] ∨ ∃ i, is.head? = some i ∧ i.Visible) (hn : '\n' ∉ t) (hb : '[' ∉ t) (hp : (inlineSrc js).head? ≠ some '|') :
    render (inlineSrc is ++ ('|' :: t ++ c!"\n") ++ inlineSrc js) =
      .ok (elem c!"p" (inlineHtml is ++ escape ('|' :: t) ++ inlineHtml js) ++ c!"\n") := by
  refine render_between (by simpa using hi) hj hv (fun last => pipe_then hn hp last) ?_
  refine shows_of_plainOut ⟨'|', by simp, by decide⟩ (plainOut_of_trim (plainTrim_blank (s := '|' :: t) (w := []) (by simp) (by simp) ?_)
    (.inl (by simpa using hb)) (by simp))
  rintro ⟨u, hu⟩
  have : '\n' ∈ '|' :: t := by rw [← hu]; simp
  simp at this
  exact hn this

example : render c!"a || *b*\n*c*" = .ok c!"<p>a&mid;&mid; *b*<em>c</em></p>\n" :=
  C84_refuted_lines [.word c!"a", .space 1] [.em '*' c!"c"] c!"| *b*" ⟨word_check (by decide), ⟨by decide, by decide, by decide, by decide⟩, trivial⟩
    ⟨⟨.inl rfl, ⟨_, _, rfl, by decide⟩, by decide, by decide⟩, trivial⟩ (.inr ⟨_, rfl, trivial⟩) (by decide) (by decide) (by decide)

/-! ### C87 Several references in one text -/

/-- **C87, the part that holds** References behind a bar, any number of them, are numbered one after the other. The bar and the
text in front of them are put out as they are. -/
theorem C87_partial_text (is : List Inline) (t : Str) (ids : List Str) (hi : InlineGood (some '|') is)
    (hv : is = [] ∨ ∃ i, is.head? = some i ∧ i.Visible) (ht : '[' ∉ t) (hn : '\n' ∉ t) (he : (trimEnd ('|' :: t)).getLast? ≠ some ']')
    (hne : ids ≠ []) (h : ∀ id ∈ ids, NoteId id) :
    render (inlineSrc is ++ ('|' :: t ++ ids.flatMap fun id => c!"[^" ++ id ++ c!"]")) =
      .ok (elem c!"p" (inlineHtml is ++ ('|' :: t ++ (ids.zipIdx 1).flatMap fun x => refHtml (dec x.2) x.1)) ++ c!"\n") := by
  have hnl : '\n' ∉ t ++ refsSrc ids := by
    rw [List.mem_append, refsSrc, List.mem_flatMap]
    rintro (h1 | ⟨id, hid, hm⟩)
    · exact hn h1
    · simp at hm
      have := ((h id hid).2 _ hm).1
      revert this
      decide
  refine render_inlines_token (by simpa using hi) hv (fun last => pipe_line (t := t ++ refsSrc ids) hnl last)
    (shows_of_plainOut ⟨'|', by simp, by decide⟩ ?_)
  have := plainOut_refs (a := '|' :: t) (by simpa using ht) he (by simpa using hn) hne h
  simpa [supTag, refHtml] using this

example : ∃ html, render c!"x| y[^a][^b]" = .ok html ∧ c!"footnote\">1</a></sup>" <:+: html ∧ c!"footnote\">2</a></sup>" <:+: html :=
  ⟨_, C87_partial_text [.word c!"x"] c!" y" [c!"a", c!"b"] ⟨word_check (by decide), trivial⟩ (.inr ⟨_, rfl, trivial⟩) (by decide) (by decide) (by decide)
    (by decide) (fun id hid => by
      simp only [List.mem_cons, List.not_mem_nil, or_false] at hid
      rcases hid with rfl | rfl <;> exact ⟨by decide, by decide⟩), by decide +kernel, by decide +kernel⟩

/-! ### C129 The next line of an entry -/

/-- **C129, negated** A line that continues an entry of a list is cut into characters. -/
theorem C129_refuted : render c!"- a\n\tbc" = .ok c!"<ul>\n<li>\n<p>a</p>\n<p>b</p>\n<p>c</p>\n</li>\n</ul>\n" := by
  decide +kernel

theorem entryOut_chars : ∀ {w : Str}, (∀ c ∈ w, PlainChar c) →
    entryOut self (w.map fun c => .plaintext [c]) = .ok (w.flatMap fun c => elem c!"p" (escape [c]) ++ c!"\n")
  | [], _ => rfl
  | c :: w, h => by
    have hc := h c (by simp)
    have h1 : c ≠ ' ' := fun e => by have := hc.2; rw [e] at this; revert this; decide
    have e : (if startsWith [c] c!"\t\t" then trimStartP (· == ' ') ([c].drop 1) else trimStartP (· == ' ') [c]) = [c] := by
      rw [if_neg (by simp [startsWith])]
      simp [trimStartP, h1]
    have hg : InlineGood none [.word [c]] := ⟨⟨by simp, fun x hx => by rw [List.mem_singleton] at hx; rw [hx]; exact hc⟩, trivial⟩
    have hr : self.render [] [c] = .ok (c!"<p>" ++ inlineHtml [.word [c]] ++ c!"</p>\n") := by
      have := renderIgnore_inlines [] hg ⟨_, rfl, trivial⟩
      rwa [show inlineSrc [.word [c]] = [c] from rfl] at this
    have ih := entryOut_chars (w := w) (fun x hx => h x (by simp [hx]))
    rw [List.map_cons]
    simp only [entryOut, e, hr, Outcome.ok_bind, replaceStr_none (para_noPre hg), ih]
    simp [elem, inlineHtml, Inline.html]

/-- Every character of a word in a line indented by a tab is a paragraph of its own. -/
theorem C129_refuted_tab (c : Char) (is : List Inline) (w : Str) (hc : c = '-' ∨ c = '+') (hg : InlineGood none is) (hn : '\n' ∉ inlineSrc is)
    (hv : ∃ i, is.head? = some i ∧ i.Visible) (hb : ∀ x ∈ c!" xX", ¬ ['[', x, ']', ' '] <+: inlineSrc is) (hw : Word w) :
    render (c :: ' ' :: inlineSrc is ++ '\n' :: '\t' :: w) =
      .ok (c!"<ul>\n<li>\n" ++ (elem c!"p" (inlineHtml is) ++ c!"\n") ++ (w.flatMap fun c => elem c!"p" (escape [c]) ++ c!"\n") ++
        c!"</li>\n</ul>\n") := by
  have hwn : '\n' ∉ w := fun h => by have := (hw.2 _ h).2; revert this; decide
  have hwl : LexTo self [] w (w.map fun c => .plaintext [c]) := by
    have := LexTo.word (r := self) (ig := []) (w := w) hw.2 LexTo.nil
    simpa using this
  have hlex : LexTo self [] (c :: ' ' :: inlineSrc is ++ '\n' :: '\t' :: w)
      [.unorderedListEntry (.plaintext (' ' :: inlineSrc is) :: w.map fun c => .plaintext [c])] := by
    refine LexTo.cons (s' := []) (fun last => ?_) LexTo.nil
    have := lexPlusMinus_tab (r := self) hc hn hwn hb (lex_of hwl)
    rw [List.cons_append] at this ⊢
    rw [nextToken_bullet hc, this]
    rfl
  obtain ⟨⟨a, u, ea, ha⟩, _⟩ := head_ends hg hv
  have hs : (inlineSrc is).head? ≠ some ' ' := by rw [ea]; simp; rintro rfl; revert ha; decide
  have htab : (inlineSrc is).head? ≠ some '\t' := by rw [ea]; simp; rintro rfl; revert ha; decide
  have hbt := bulletText_arg (c := '-') hs htab
  rw [show bulletText '-' (inlineSrc is) = ' ' :: inlineSrc is from rfl] at hbt
  have hx : self.render [] (inlineSrc is) = .ok (c!"<p>" ++ inlineHtml is ++ c!"</p>\n") := renderIgnore_inlines [] hg hv
  have hout : entryOut self (.plaintext (' ' :: inlineSrc is) :: w.map fun c => .plaintext [c]) =
      .ok (c!"<p>" ++ inlineHtml is ++ c!"</p>\n" ++ w.flatMap fun c => elem c!"p" (escape [c]) ++ c!"\n") := by
    simp only [entryOut, hbt, hx, Outcome.ok_bind, replaceStr_none (para_noPre hg), entryOut_chars hw.2]
  have hp := parseTok_entry self [] false (by simp [isPlaintext]) hout
  rw [render_of hlex (parseToks_one hp), finish_ul]
  simp [ulOpen, elem]

/-- Likewise in a line indented by two spaces; an empty line is put out in front of them. -/
theorem C129_refuted_spaces (c : Char) (is : List Inline) (w : Str) (hc : c = '-' ∨ c = '+') (hg : InlineGood none is) (hn : '\n' ∉ inlineSrc is)
    (hv : ∃ i, is.head? = some i ∧ i.Visible) (hb : ∀ x ∈ c!" xX", ¬ ['[', x, ']', ' '] <+: inlineSrc is) (hw : Word w) :
    render (c :: ' ' :: inlineSrc is ++ '\n' :: (c!"  " ++ w)) =
      .ok (c!"<ul>\n<li>\n" ++ (elem c!"p" (inlineHtml is) ++ c!"\n") ++ c!"\n" ++ (w.flatMap fun c => elem c!"p" (escape [c]) ++ c!"\n") ++
        c!"</li>\n</ul>\n") := by
  have hwn : '\n' ∉ w := fun h => by have := (hw.2 _ h).2; revert this; decide
  have hw0 : w.head? ≠ some ' ' ∧ w.head? ≠ some '\t' := by
    constructor <;> intro h <;> have := (hw.2 _ (List.mem_of_mem_head? h)).2 <;> revert this <;> decide
  have hwl : LexTo self [] (c!"  " ++ w) (.plaintext c!"  " :: w.map fun c => .plaintext [c]) := by
    have := LexTo.word (r := self) (ig := []) (w := w) hw.2 LexTo.nil
    exact LexTo.spaces (n := 2) (by omega) (by omega) hw0.1 hw0.2 (by simpa using this)
  have hlex : LexTo self [] (c :: ' ' :: inlineSrc is ++ '\n' :: (c!"  " ++ w))
      [.unorderedListEntry (.plaintext (' ' :: inlineSrc is) :: .plaintext c!"  " :: w.map fun c => .plaintext [c])] := by
    refine LexTo.cons (s' := []) (fun last => ?_) LexTo.nil
    have := lexPlusMinus_nested (r := self) hc hn hwn hb (lex_of hwl)
    rw [List.cons_append] at this ⊢
    rw [nextToken_bullet hc, this]
    rfl
  obtain ⟨⟨a, u, ea, ha⟩, _⟩ := head_ends hg hv
  have hs : (inlineSrc is).head? ≠ some ' ' := by rw [ea]; simp; rintro rfl; revert ha; decide
  have htab : (inlineSrc is).head? ≠ some '\t' := by rw [ea]; simp; rintro rfl; revert ha; decide
  have hbt := bulletText_arg (c := '-') hs htab
  rw [show bulletText '-' (inlineSrc is) = ' ' :: inlineSrc is from rfl] at hbt
  have hx : self.render [] (inlineSrc is) = .ok (c!"<p>" ++ inlineHtml is ++ c!"</p>\n") := renderIgnore_inlines [] hg hv
  have hnil : self.render [] [] = .ok c!"\n" := render_nil
  have e2 : (if startsWith c!"  " c!"\t\t" then trimStartP (· == ' ') (c!"  ".drop 1) else trimStartP (· == ' ') c!"  ") = [] := by decide
  have e3 : replaceStr c!"<pre><code>" c!"<pre><code>  " c!"\n" = c!"\n" := by decide
  have hout : entryOut self (.plaintext (' ' :: inlineSrc is) :: .plaintext c!"  " :: w.map fun c => .plaintext [c]) =
      .ok (c!"<p>" ++ inlineHtml is ++ c!"</p>\n" ++ (c!"\n" ++ w.flatMap fun c => elem c!"p" (escape [c]) ++ c!"\n")) := by
    simp only [entryOut, hbt, hx, Outcome.ok_bind, replaceStr_none (para_noPre hg), e2, hnil, e3, entryOut_chars hw.2]
  have hp := parseTok_entry self [] false (by simp [isPlaintext]) hout
  rw [render_of hlex (parseToks_one hp), finish_ul]
  simp [ulOpen, elem]

/-- **C129, the part that holds** The word is shown in the entry, below its text, in pieces that give the word. -/
theorem C129_partial (c : Char) (is : List Inline) (w : Str) (hc : c = '-' ∨ c = '+') (hg : InlineGood none is) (hn : '\n' ∉ inlineSrc is)
    (hv : ∃ i, is.head? = some i ∧ i.Visible) (hb : ∀ x ∈ c!" xX", ¬ ['[', x, ']', ' '] <+: inlineSrc is) (hw : Word w) :
    ∃ ps : List Str, ps.flatten = w ∧ render (c :: ' ' :: inlineSrc is ++ '\n' :: '\t' :: w) =
      .ok (c!"<ul>\n<li>\n" ++ (elem c!"p" (inlineHtml is) ++ c!"\n") ++ (ps.flatMap fun p => elem c!"p" (escape p) ++ c!"\n") ++
        c!"</li>\n</ul>\n") := by
  refine ⟨w.map fun c => [c], ?_, ?_⟩
  · induction w with
    | nil => rfl
    | cons a w ih =>
      cases w with
      | nil => rfl
      | cons b w => simpa using ih ⟨by simp, fun x hx => hw.2 x (by simp [hx])⟩
  · rw [C129_refuted_tab c is w hc hg hn hv hb hw, List.flatMap_map]

example : render c!"+ *an*\n\ta&b" = .ok c!"<ul>\n<li>\n<p><em>an</em></p>\n<p>a</p>\n<p>&amp;</p>\n<p>b</p>\n</li>\n</ul>\n" :=
  C129_refuted_tab '+' [.em '*' c!"an"] c!"a&b" (.inr rfl) ⟨⟨.inl rfl, ⟨_, _, rfl, by decide⟩, by decide, by decide⟩, trivial⟩ (by decide)
    ⟨_, rfl, trivial⟩ (by decide) (word_check (by decide))
example : render c!"- x\n  yz" = .ok c!"<ul>\n<li>\n<p>x</p>\n\n<p>y</p>\n<p>z</p>\n</li>\n</ul>\n" :=
  C129_refuted_spaces '-' [.word c!"x"] c!"yz" (.inl rfl) ⟨word_check (by decide), trivial⟩ (by decide)
    ⟨_, rfl, trivial⟩ (by decide) (word_check (by decide))

/-! ### C130 Code in entries -/

/-- **C130, negated** Code in an entry of a list is shown with two spaces that are not in it. -/
theorem C130_refuted : render c!"- `a`" = .ok c!"<ul>\n<li>\n<pre><code>  a\n</code></pre></li>\n</ul>\n" := by
  decide +kernel

/-- **C130, the part that holds** Code in entries is shown, with two spaces for every entry around it. -/
theorem C130_partial (x : CodeNest) (h : x.Good) : render x.src = .ok (x.html 0) := render_nest h

/-- In `n` entries, one in the other, code has `2 * n` spaces in front of it. -/
theorem C130_refuted_always (n : Nat) (t : Str) (hne : t ≠ []) (ht : '`' ∉ t) (hn : '\n' ∉ t) (hs : t.head? ≠ some ' ') :
    render (copies n c!"- " ++ (c!"`" ++ t ++ c!"`")) =
      .ok (copies n c!"<ul>\n<li>\n" ++ elem c!"pre" (elem c!"code" (times (2 * n) ' ' ++ escape t ++ c!"\n")) ++ copies n c!"</li>\n</ul>\n") := by
  let f : Nat → CodeNest := fun n => n.rec (.code t) fun _ x => .entry '-' x
  have good : ∀ n, (f n).Good := fun n => by
    induction n with
    | zero => exact ⟨hne, ht, hn, hs⟩
    | succ n ih => exact ⟨.inl rfl, ih⟩
  have src : ∀ n, (f n).src = copies n c!"- " ++ (c!"`" ++ t ++ c!"`") := fun n => by
    induction n with
    | zero => rfl
    | succ n ih =>
      show '-' :: ' ' :: (f n).src = _
      rw [ih, copies, copies, List.replicate_succ]
      rfl
  have swap : ∀ n (x : Str), copies (n + 1) x = copies n x ++ x := fun n x => by
    rw [copies, copies, List.replicate_succ', List.flatten_append]
    simp
  have html : ∀ n m, (f n).html m = copies n c!"<ul>\n<li>\n" ++ elem c!"pre" (elem c!"code" (times (2 * (m + n)) ' ' ++ escape t ++ c!"\n")) ++
      copies n c!"</li>\n</ul>\n" := fun n => by
    induction n with
    | zero => intro m; simp [f, CodeNest.html, copies, elem]
    | succ n ih =>
      intro m
      show c!"<ul>\n<li>\n" ++ (f n).html (m + 1) ++ c!"</li>\n</ul>\n" = _
      rw [ih, swap n c!"</li>\n</ul>\n", show m + 1 + n = m + (n + 1) by omega]
      simp [copies, List.replicate_succ]
  rw [← src, C130_partial _ (good n), html]
  simp

example : render c!"- `x` y" ≠ render c!"`x` y" ∧ CodeNest.Good (.both c!"ls" '-' (.entry '+' (.code c!"cd"))) ∧
    (CodeNest.both c!"ls" '-' (.entry '+' (.code c!"cd"))).src = c!"`ls`- + `cd`" :=
  ⟨by decide +kernel, ⟨⟨by decide, by decide, by decide, by decide⟩, .inl rfl, .inr rfl, by decide, by decide, by decide, by decide⟩, rfl⟩
example : render c!"- - `a<b`" = .ok c!"<ul>\n<li>\n<ul>\n<li>\n<pre><code>    a&lt;b\n</code></pre></li>\n</ul>\n</li>\n</ul>\n" :=
  C130_refuted_always 2 c!"a<b" (by decide) (by decide) (by decide) (by decide)

/-! ### C110 Documents without tables -/

/-- Code and an entry behind it, again and again. -/
def codeChain : Nat → CodeNest
  | 0 => .code c!"a"
  | n + 1 => .both c!"a" '-' (codeChain n)

theorem codeChain_good : ∀ n, (codeChain n).Good
  | 0 => ⟨by decide, by decide, by decide, by decide⟩
  | n + 1 => ⟨⟨by decide, by decide, by decide, by decide⟩, .inl rfl, codeChain_good n⟩

theorem codeChain_src : ∀ n, (codeChain n).src.length = 5 * n + 3 ∧ '|' ∉ (codeChain n).src
  | 0 => ⟨rfl, by decide⟩
  | n + 1 => by
    have ih := codeChain_src n
    rw [show (codeChain (n + 1)).src = c!"`a`- " ++ (codeChain n).src from rfl]
    refine ⟨by rw [List.length_append, ih.1]; simp; omega, by simp [ih.2]⟩

theorem codeChain_html : ∀ n m, n * (2 * m + n) ≤ ((codeChain n).html m).length
  | 0, m => by simp
  | n + 1, m => by
    have ih := codeChain_html n (m + 1)
    have h : 2 * m + 20 + ((codeChain n).html (m + 1)).length ≤ ((codeChain (n + 1)).html m).length := by
      simp only [codeChain, CodeNest.html, times, List.length_append, List.length_replicate, List.length_cons, List.length_nil]
      omega
    have : (n + 1) * (2 * m + (n + 1)) = n * (2 * (m + 1) + n) + (2 * m + 1) := by ring
    omega

/-- **C110, negated** also for documents without tables: every entry of a list adds two spaces to all the code in it. -/
theorem C110_refuted_lists : ∀ K : Nat, ∃ d html, '|' ∉ d ∧ render d = .ok html ∧ K * (d.length + 1) < html.length := by
  intro K
  refine ⟨(codeChain (9 * K + 1)).src, _, (codeChain_src _).2, C130_partial _ (codeChain_good _), ?_⟩
  have h := codeChain_html (9 * K + 1) 0
  rw [(codeChain_src _).1]
  have h1 : K * (5 * (9 * K + 1) + 3 + 1) < (9 * K + 1) * (2 * 0 + (9 * K + 1)) := by nlinarith
  omega

example : render c!"`a`- `a`" = .ok c!"<pre><code>a<ul>\n<li>\n<pre><code>  a\n</code></pre></li>\n</ul>\n</code></pre>" :=
  C130_partial (codeChain 1) (codeChain_good 1)

end Smd.Gfm
