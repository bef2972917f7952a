import Verif.Lemmas.Angles
import Verif.Props.Parts

/-!
Angle brackets and links that are not closed: mail addresses (C179), unclosed targets (C180), sections without a summary (C181),
tags (C182).
-/

namespace Smd.Gfm
open Smd.Rs Smd.Spec

/-! ### C179 Mail addresses -/

/-- **C179** A mail address between angle brackets is a link to itself with the scheme `mailto`, anywhere in running text. What the
reader sees and where the link leads are the address as written. -/
theorem C179_mail (t : Str) (is js : List Inline) (ht : MailAddress t) (hi : InlineGood (some '<') is) (hj : InlineGood none js)
    (hv : is = [] ∨ ∃ i, is.head? = some i ∧ i.Visible) :
    ∃ href text, render (inlineSrc is ++ (c!"<" ++ t ++ c!">") ++ inlineSrc js) =
        .ok (elem c!"p" (inlineHtml is ++ (c!"<a href=\"mailto:" ++ href ++ c!"\">" ++ text ++ c!"</a>") ++ inlineHtml js) ++ c!"\n") ∧
      percentDecode (htmlDecode href) = t ∧ htmlDecode text = t := by
  refine ⟨_, _, render_between (x := c!"<a href=\"mailto:" ++ replaceC '&' c!"&amp;" (percentEncode t) ++ c!"\">" ++ replaceC '&' c!"&amp;" t ++ c!"</a>")
    (by simpa using hi) hj hv (fun last => lex_mail ht last) ?_, ?_, ?_⟩
  · have := shows_autolink { scheme := some (.email c!"mailto"), content := t }
    simpa [ValidURL.display, ValidURL.fmtUnsafe, Scheme.display] using this
  · rw [htmlDecode_amp, percentDecode_percentEncode]
  · exact htmlDecode_amp t

/-- **C179** An address of letters, digits and the signs of most addresses is put into the output as it is. -/
theorem C179_plain (t : Str) (is js : List Inline) (ht : MailAddress t) (hp : ∀ c ∈ t, c.isAlphanum = true ∨ c ∈ c!".@_+-")
    (hi : InlineGood (some '<') is) (hj : InlineGood none js) (hv : is = [] ∨ ∃ i, is.head? = some i ∧ i.Visible) :
    render (inlineSrc is ++ (c!"<" ++ t ++ c!">") ++ inlineSrc js) =
      .ok (elem c!"p" (inlineHtml is ++ (c!"<a href=\"mailto:" ++ t ++ c!"\">" ++ t ++ c!"</a>") ++ inlineHtml js) ++ c!"\n") := by
  have hno : ∀ c ∈ t, c ∉ c!"%#[]!$'()* \\&" := by
    intro c hc
    have : ∀ c ∈ c!"%#[]!$'()* \\&", ¬ (c.isAlphanum = true ∨ c ∈ c!".@_+-") := by decide
    exact fun h => this c h (hp c hc)
  have e1 : percentEncode t = t := C05_unchanged t fun c hc h => hno c hc (by
    have : ∀ c ∈ c!"%#[]!$'()* \\", c ∈ c!"%#[]!$'()* \\&" := by decide
    exact this c h)
  have e2 : replaceC '&' c!"&amp;" t = t := replaceC_id fun h => hno _ h (by decide)
  refine render_between (by simpa using hi) hj hv (fun last => lex_mail ht last) ?_
  have := shows_autolink { scheme := some (.email c!"mailto"), content := t }
  simpa [ValidURL.display, ValidURL.fmtUnsafe, Scheme.display, e1, e2] using this

example : render c!"ask <j.doe+x@a-b.org>." = .ok c!"<p>ask<a href=\"mailto:j.doe+x@a-b.org\">j.doe+x@a-b.org</a>.</p>\n" :=
  C179_plain c!"j.doe+x@a-b.org" [.word c!"ask", .space 1] [.word c!"."] ⟨c!"j.doe+x", c!"a-b.org", rfl, by decide, by decide⟩ (by decide)
    ⟨word_check (by decide), ⟨by decide, by decide, by decide, by decide⟩, trivial⟩ ⟨word_check (by decide), trivial⟩ (.inr ⟨_, rfl, trivial⟩)

example : ∃ href text, render c!"<o'r&d@x.de>" = .ok (elem c!"p" (c!"<a href=\"mailto:" ++ href ++ c!"\">" ++ text ++ c!"</a>") ++ c!"\n") ∧
    percentDecode (htmlDecode href) = c!"o'r&d@x.de" ∧ htmlDecode text = c!"o'r&d@x.de" := by
  have := C179_mail c!"o'r&d@x.de" [] [] ⟨c!"o'r&d", c!"x.de", rfl, by decide, by decide⟩ trivial trivial (.inl rfl)
  simpa [inlineSrc, inlineHtml] using this

/-! ### C180 Targets that are not closed -/

/-- **C180 is false of the code**: with a space in the target, the rest of the document is taken for the title of the link. -/
theorem C180_refuted : render c!"[see](below for\n\n# More\n\ntext" =
    .ok c!"<p><a href=>\"http:below\" title=\" for\n\n# More\n\ntext\">see</a></p>\n" := by
  decide +kernel

/-- **C180 is false of the code**, for all texts and targets, and whatever follows up to the end of the document. -/
theorem C180_refuted_always (is : List Inline) (text target rest : Str) (u : ValidURL) (hi : InlineGood (some '[') is)
    (hv : is = [] ∨ ∃ i, is.head? = some i ∧ i.Visible) (h1 : ']' ∉ text) (h2 : ')' ∉ target) (h3 : ' ' ∉ target)
    (h4 : ')' ∉ rest) (hu : validateLink target = .ok u) :
    render (inlineSrc is ++ (c!"[" ++ text ++ c!"](" ++ target ++ c!" " ++ rest)) =
      .ok (elem c!"p" (inlineHtml is ++ (c!"<a href=>\"" ++ u.display ++ c!"\" title=\" " ++ rest ++ c!"\">" ++ escape text ++ c!"</a>")) ++ c!"\n") := by
  refine render_inlines_token (by simpa using hi) hv (fun last => lex_swallow h1 h2 h3 h4 hu last) ?_
  simpa using shows_titled u text (' ' :: rest)

example : render c!"x [a](b c\nd" = .ok c!"<p>x<a href=>\"http:b\" title=\" c\nd\">a</a></p>\n" :=
  C180_refuted_always [.word c!"x", .space 1] c!"a" c!"b" c!"c\nd" { scheme := none, content := c!"b" }
    ⟨word_check (by decide), ⟨by decide, by decide, by decide, by decide⟩, trivial⟩ (.inr ⟨_, rfl, trivial⟩) (by decide) (by decide) (by decide)
    (by decide) (by decide)

/-- **C180, the part that holds** A link whose target has no space and is not closed is shown as it is written. -/
theorem C180_partial (is : List Inline) (text target : Str) (c : Char) (hi : InlineGood (some '[') is)
    (hv : is = [] ∨ ∃ i, is.head? = some i ∧ i.Visible) (h1 : ']' ∉ text) (h2 : ')' ∉ target) (h3 : ' ' ∉ target)
    (hl : (c!"(" ++ target).getLast? = some c) (hc : isWs c = false) (hb : ¬ c!"[^" <:+: c!"[" ++ text ++ c!"](" ++ target) :
    render (inlineSrc is ++ (c!"[" ++ text ++ c!"](" ++ target)) =
      .ok (elem c!"p" (inlineHtml is ++ escape (c!"[" ++ text ++ c!"](" ++ target)) ++ c!"\n") := by
  refine render_inlines_token (by simpa using hi) hv (fun last => lex_unclosed h1 h2 h3 last) (shows_text (c := c) ?_ hc (by simp) (.inl hb))
  have e : c!"[" ++ text ++ c!"](" ++ target = (c!"[" ++ text ++ c!"]") ++ (c!"(" ++ target) := by simp
  rw [e, List.getLast?_append, hl]
  rfl

example : render c!"x [a*b*](c\nd" = .ok c!"<p>x&lbrack;a*b*&rbrack;&#40;c\nd</p>\n" :=
  C180_partial [.word c!"x", .space 1] c!"a*b*" c!"c\nd" 'd' ⟨word_check (by decide), ⟨by decide, by decide, by decide, by decide⟩, trivial⟩
    (.inr ⟨_, rfl, trivial⟩) (by decide) (by decide) (by decide) rfl (by decide) (by decide)

/-! ### C181 Sections without a summary -/

/-- **C181 is false of the code**: without a summary there is no section, and its end is shown as text. -/
theorem C181_refuted : render c!"<details>\ntext\n</details>" = .ok c!"<p>text&lt;/details&gt;</p>\n" := by
  decide +kernel

/-- **C181 is false of the code** on one line: the angle brackets are lost, anywhere in running text. -/
theorem C181_refuted_line (is js : List Inline) (hi : InlineGood (some '<') is) (hj : InlineGood none js)
    (hv : is = [] ∨ ∃ i, is.head? = some i ∧ i.Visible) (h1 : (inlineSrc js).head? ≠ some '\n') (h2 : (inlineSrc js).head? ≠ some '\r') :
    render (inlineSrc is ++ c!"<details>" ++ inlineSrc js) =
      .ok (elem c!"p" (inlineHtml is ++ c!"details" ++ inlineHtml js) ++ c!"\n") :=
  render_between (by simpa using hi) hj hv (fun last => lex_details_inline h1 h2 last)
    (shows_plain (t := c!"details") (shown_of_chars (c := 'd') (by decide) (by decide) (by decide) (.inl (by decide))))

example : render c!"the <details>*x*" = .ok c!"<p>thedetails<em>x</em></p>\n" :=
  C181_refuted_line [.word c!"the", .space 1] [.em '*' c!"x"] ⟨word_check (by decide), ⟨by decide, by decide, by decide, by decide⟩, trivial⟩
    ⟨⟨.inl rfl, ⟨_, _, rfl, by decide⟩, by decide, by decide⟩, trivial⟩ (.inr ⟨_, rfl, trivial⟩) (by decide) (by decide)

/-- **C181, the part that holds** The first line is shown as text (without its markup being understood). -/
theorem C181_partial (is : List Inline) (l : Str) (hi : InlineGood (some '<') is)
    (hv : is = [] ∨ ∃ i, is.head? = some i ∧ i.Visible) (h1 : '\n' ∉ l) (h2 : '\r' ∉ l)
    (hs : ¬ c!"<summary>" <+: l ∨ ¬ c!"</summary>" <:+ l) (hw : ∃ c ∈ l, isWs c = false) (hb : '[' ∉ l ∨ ']' ∉ l) :
    render (inlineSrc is ++ (c!"<details>\n" ++ l)) = .ok (elem c!"p" (inlineHtml is ++ escape l) ++ c!"\n") := by
  obtain ⟨c, hc, hcw⟩ := hw
  refine render_inlines_token (by simpa using hi) hv (fun last => ?_) (shows_plain (shown_of_chars hc hcw h1 hb))
  simpa using lex_details_text (r := self) (ig := []) (rest := []) h1 h2 hs (.inl rfl) last

example : render c!"a<details>\n<summary>b *c*" = .ok c!"<p>a&lt;summary&gt;b *c*</p>\n" :=
  C181_partial [.word c!"a"] c!"<summary>b *c*" ⟨word_check (by decide), trivial⟩ (.inr ⟨_, rfl, trivial⟩) (by decide) (by decide)
    (.inr (by decide)) ⟨'b', by decide, by decide⟩ (.inl (by decide))

/-! ### C182 Tags -/

/-- **C182 is false of the code** for one tag: of `<details>` the angle brackets are lost (`C181_refuted_line` for every text
around it). -/
theorem C182_refuted : render c!"a <details> tag" = .ok c!"<p>adetailstag</p>\n" := by
  decide +kernel

/-- **C182, the part that holds** Every other tag that is no address is shown as it is written, anywhere in running text. -/
theorem C182_partial (t : Str) (is js : List Inline) (h0 : t ≠ []) (hgt : '>' ∉ t) (hd : t ≠ c!"details")
    (h : (∃ c ∈ t, isWs c = true) ∨ ('@' ∉ t ∧ ¬ HasScheme t)) (hb : ¬ c!"[^" <:+: t ∨ ']' ∉ t)
    (hi : InlineGood (some '<') is) (hj : InlineGood none js) (hv : is = [] ∨ ∃ i, is.head? = some i ∧ i.Visible) :
    render (inlineSrc is ++ (c!"<" ++ t ++ c!">") ++ inlineSrc js) =
      .ok (elem c!"p" (inlineHtml is ++ (c!"&lt;" ++ escape t ++ c!"&gt;") ++ inlineHtml js) ++ c!"\n") := by
  refine render_between (by simpa using hi) hj hv (fun last => lex_tag h0 hgt hd h last) ?_
  have := shows_text (t := c!"<" ++ t ++ c!">") (c := '>') List.getLast?_concat (by decide) (by simp) (by
    rcases hb with hb | hb
    · refine .inl fun hx => hb ?_
      obtain ⟨a, b, e⟩ := hx
      cases a with
      | nil => simp at e
      | cons x a =>
        rcases List.eq_nil_or_concat b with rfl | ⟨b', y, rfl⟩
        · have e2 : (x :: a ++ c!"[") ++ c!"^" = (c!"<" ++ t) ++ c!">" := by simpa using e
          exact absurd (List.append_inj_right' e2 rfl) (by decide)
        · simp only [List.concat_eq_append, List.cons_append, List.append_assoc, List.nil_append, List.cons.injEq] at e
          have e2 : (a ++ (c!"[^" ++ b')) ++ [y] = t ++ [ '>' ] := by simpa using e.2
          have := List.append_inj_left' e2 rfl
          exact ⟨a, b', by simpa using this⟩
    · exact .inr (by simpa using hb))
  rwa [escape_append, escape_append] at this

-- A tag with attributes, one without, and one whose name is no scheme.
example : render c!"a<b class=\"x\">c" = .ok c!"<p>a&lt;b class=&quot;x&quot;&gt;c</p>\n" :=
  C182_partial c!"b class=\"x\"" [.word c!"a"] [.word c!"c"] (by decide) (by decide) (by decide) (.inl ⟨' ', by decide, by decide⟩)
    (.inr (by decide)) ⟨word_check (by decide), trivial⟩ ⟨word_check (by decide), trivial⟩ (.inr ⟨_, rfl, trivial⟩)

example : render c!"<<http:a>" = .ok c!"<p>&lt;&lt;http:a&gt;</p>\n" := by
  refine C182_partial c!"<http:a" [] [] (by decide) (by decide) (by decide) (.inr ⟨by decide, ?_⟩) (.inr (by decide)) trivial trivial (.inl rfl)
  rintro ⟨s, r, e, h, h2, -⟩
  cases s with
  | nil => simp at h2
  | cons x s =>
    simp only [List.cons_append, List.cons.injEq] at e
    exact absurd (h x (by simp)) (by rw [← e.1]; decide)

example : render c!"<br/>" = .ok c!"<p>&lt;br/&gt;</p>\n" := by
  exact C182_partial c!"br/" [] [] (by decide) (by decide) (by decide)
    (.inr ⟨by decide, fun ⟨s, r, e, _⟩ => absurd (e ▸ (by simp : ':' ∈ s ++ ':' :: r) : ':' ∈ c!"br/") (by decide)⟩)
    (.inr (by decide)) trivial trivial (.inl rfl)

end Smd.Gfm
