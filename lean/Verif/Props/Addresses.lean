import Verif.Lemmas.Exact
import Verif.Lemmas.Corners
import Verif.Lemmas.Documents
import Verif.Lemmas.Angles
import Verif.Lemmas.Order
import Verif.Props.Links

/-! # Addresses with letters outside ASCII -/

namespace Smd.Gfm
open Smd.Rs Smd.Spec

/-! ### C188 -/

/-- **C188 is false of the code**: neither as it is nor encoded. The text of the link is lost, or its address is another one. -/
theorem C188_refuted : render c!"[the city](https://x.org/Köln)" = .ok c!"<p>https://x.org/Köln</p>\n" ∧
    render c!"[the city](https://x.org/K%C3%B6ln)" = .ok c!"<p><a href=\"https://x.org/K%25C3%25B6ln\">the city</a></p>\n" := by
  decide +kernel

/-- **C188 is false of the code** for every address with a character outside ASCII, anywhere in running text: there is no link, and
its text is not shown. -/
theorem C188_refuted_always (is js : List Inline) (text target : Str) (b c : Char) (hb : b ∈ target) (hb' : 128 ≤ b.toNat) (hi : InlineGood (some '[') is)
    (hj : InlineGood none js) (hv : is = [] ∨ ∃ i, is.head? = some i ∧ i.Visible) (h1 : ']' ∉ text) (h2 : ')' ∉ target) (h3 : ' ' ∉ target)
    (hl : target.getLast? = some c) (hc : isWs c = false) (hh : target.head? ≠ some '\n') (hn : ¬ c!"[^" <:+: target ∨ ']' ∉ target) :
    render (inlineSrc is ++ (c!"[" ++ text ++ c!"](" ++ target ++ c!")") ++ inlineSrc js) =
      .ok (elem c!"p" (inlineHtml is ++ escape target ++ inlineHtml js) ++ c!"\n") := by
  refine render_between (by simpa using hi) hj hv (fun last => ?_) (shows_text hl hc hh hn)
  have he := C08_rejected target (.inr (.inr (.inl ⟨b, hb, hb'⟩)))
  have hl := lexLinks_inline (rest := inlineSrc js) h1 h2 h3
  cases hv : validateLink target with
  | ok u => exact absurd hv (he u)
  | error e =>
    rw [hv] at hl
    have e' : c!"[" ++ text ++ c!"](" ++ target ++ c!")" ++ inlineSrc js = '[' :: (text ++ c!"](" ++ target ++ c!")" ++ inlineSrc js) := by simp
    rw [e'] at hl ⊢
    rw [nextToken_bracket, hl, validateLink_err hv]
    rfl

example : render c!"see [the city](https://x.org/Köln)*now*" = .ok c!"<p>seehttps://x.org/Köln<em>now</em></p>\n" :=
  C188_refuted_always [.word c!"see", .space 1] [.em '*' c!"now"] c!"the city" c!"https://x.org/Köln" 'ö' 'n' (by decide) (by decide)
    ⟨word_check (by decide), ⟨by decide, by decide, by decide, by decide⟩, trivial⟩
    ⟨⟨.inl rfl, ⟨_, _, rfl, by decide⟩, by decide, by decide⟩, trivial⟩ (.inr ⟨_, rfl, trivial⟩) (by decide) (by decide) (by decide) (by decide) (by decide)
    (by decide) (.inl (by decide))

/-- **C188 is false of the code** in whatever way the address is encoded: what is behind the scheme of a link decodes to nothing but ASCII. -/
theorem C188_refuted_encoded (source : Str) (u : ValidURL) (h : validateLink source = .ok u) :
    ∀ c ∈ percentDecode (htmlDecode (urlRest u.display)), c.toNat < 128 := by
  obtain ⟨_, hr, _⟩ := display_parts h
  rw [hr, htmlDecode_amp, percentDecode_percentEncode]
  intro c hc
  have := List.all_eq_true.mp (address_ascii h).1 c hc
  simpa [far] using this

example : ∃ u, validateLink c!"https://x.org/K%C3%B6ln" = .ok u ∧
    percentDecode (htmlDecode (urlRest u.display)) = c!"//x.org/K%C3%B6ln" := ⟨{ content := c!"//x.org/K%C3%B6ln", scheme := some (.other c!"https") }, by decide⟩

/-- **C188 is false of the code** between angle brackets: the address is shown as it is written. -/
theorem C188_refuted_angles (is js : List Inline) (t : Str) (b : Char) (hb : b ∈ t) (hb' : 128 ≤ b.toNat) (hi : InlineGood (some '<') is)
    (hj : InlineGood none js) (hv : is = [] ∨ ∃ i, is.head? = some i ∧ i.Visible) (hgt : '>' ∉ t) (hn : '[' ∉ t) :
    render (inlineSrc is ++ (c!"<" ++ t ++ c!">") ++ inlineSrc js) =
      .ok (elem c!"p" (inlineHtml is ++ escape (c!"<" ++ t ++ c!">") ++ inlineHtml js) ++ c!"\n") := by
  refine render_between (by simpa using hi) hj hv (fun last => ?_)
    (shows_text (c := '>') List.getLast?_concat (by decide) (by simp) (.inl fun hx => ?_))
  · have he := C08_rejected t (.inr (.inr (.inl ⟨b, hb, hb'⟩)))
    have hsl := slice_self_append (c!"<" ++ t ++ c!">") (inlineSrc js)
    have e : c!"<" ++ t ++ c!">" ++ inlineSrc js = '<' :: (t ++ '>' :: inlineSrc js) := by simp
    have el : lexSideCarrot self ('<' :: (t ++ '>' :: inlineSrc js)) = .ok (.error (c!"<" ++ t ++ c!">"), inlineSrc js) := by
      rw [e] at hsl
      unfold lexSideCarrot
      simp only [List.head?_cons, ne_eq, not_true_eq_false, if_false, List.drop_one, List.tail_cons, ne_split hgt]
      rw [if_pos trivial, if_neg (by rintro rfl; exact absurd hb' ((by decide : ∀ b ∈ c!"details", ¬ 128 ≤ b.toNat) b hb)),
        if_pos (by cases t with | nil => cases hb | cons => simp)]
      split
      · rw [hsl]
      · cases hv : validateLink t with
        | ok u => exact absurd hv (he u)
        | error x => simp [hsl]
    rw [e, nextToken_lt, el]
    rfl
  · have : '[' ∈ c!"<" ++ t ++ c!">" := hx.subset (by simp)
    simp [hn] at this

example : render c!"to <https://x.org/Köln>." = .ok c!"<p>to&lt;https://x.org/Köln&gt;.</p>\n" :=
  C188_refuted_angles [.word c!"to", .space 1] [.word c!"."] c!"https://x.org/Köln" 'ö' (by decide) (by decide)
    ⟨word_check (by decide), ⟨by decide, by decide, by decide, by decide⟩, trivial⟩ ⟨word_check (by decide), trivial⟩ (.inr ⟨_, rfl, trivial⟩)
    (by decide) (by decide)

/-- **C188 is false of the code** for images: they are shown as they are written. -/
theorem C188_refuted_image (is js : List Inline) (text target : Str) (b : Char) (hb : b ∈ target) (hb' : 128 ≤ b.toNat) (hi : InlineGood (some '!') is)
    (hj : InlineGood none js) (hv : is = [] ∨ ∃ i, is.head? = some i ∧ i.Visible) (h1 : ']' ∉ text) (h2 : ')' ∉ target) (h3 : ' ' ∉ target)
    (hn : ¬ c!"[^" <:+: c!"![" ++ text ++ c!"](" ++ target ++ c!")") :
    render (inlineSrc is ++ (c!"![" ++ text ++ c!"](" ++ target ++ c!")") ++ inlineSrc js) =
      .ok (elem c!"p" (inlineHtml is ++ escape (c!"![" ++ text ++ c!"](" ++ target ++ c!")") ++ inlineHtml js) ++ c!"\n") := by
  refine render_between (by simpa using hi) hj hv (fun last => ?_)
    (shows_text (c := ')') List.getLast?_concat (by decide) (by simp) (.inl hn))
  have he := C08_rejected target (.inr (.inr (.inl ⟨b, hb, hb'⟩)))
  have hl := lexLinks_inline (rest := inlineSrc js) h1 h2 h3
  cases hv : validateLink target with
  | ok u => exact absurd hv (he u)
  | error e =>
    rw [hv] at hl
    have hsl := slice_self_append (c!"![" ++ text ++ c!"](" ++ target ++ c!")") (inlineSrc js)
    have e' : c!"![" ++ text ++ c!"](" ++ target ++ c!")" ++ inlineSrc js = '!' :: (c!"[" ++ text ++ c!"](" ++ target ++ c!")" ++ inlineSrc js) := by
      simp
    have el : lexImages ('!' :: (c!"[" ++ text ++ c!"](" ++ target ++ c!")" ++ inlineSrc js)) =
        (.error (c!"![" ++ text ++ c!"](" ++ target ++ c!")"), inlineSrc js) := by
      rw [e'] at hsl
      unfold lexImages
      rw [if_neg (by simp), List.drop_one, List.tail_cons, hl]
      simp only [hsl]
    rw [e']
    generalize c!"[" ++ text ++ c!"](" ++ target ++ c!")" ++ inlineSrc js = z at el
    unfold nextToken lexDispatch
    simp [el, resToken]

example : render c!"![Köln](Köln.png)" = .ok c!"<p>!&lbrack;Köln&rbrack;&#40;Köln.png&#41;</p>\n" := by
  have := C188_refuted_image [] [] c!"Köln" c!"Köln.png" 'ö' (by decide) (by decide) trivial trivial (.inl rfl) (by decide) (by decide) (by decide)
    (by decide)
  exact this

/-- **C188, the part that holds** An image beside the document may have an address with encoded characters: it is the source as it is. -/
theorem C188_partial (text target : Str) (h1 : ']' ∉ text) (hne : target ≠ [])
    (ht : ∀ c ∈ target, c.isAlphanum = true ∨ c ∈ c!"./-_~%") :
    render (c!"![" ++ text ++ c!"](" ++ target ++ c!")") =
      .ok (c!"<p><img src=\"" ++ target ++ c!"\" alt=\"" ++ escape text ++ c!"\" referrerpolicy=\"no-referrer\"></p>\n") := by
  have hall : ∀ c ∈ target, mailChar c = true ∧ c ≠ '@' ∧ c ≠ ')' ∧ c ≠ ' ' := by
    intro c hc
    have hm : mailChar c = true := by
      rcases ht c hc with h | h
      · simp [mailChar, h]
      · exact (by decide : ∀ c ∈ c!"./-_~%", mailChar c = true) c h
    have hno : ∀ c ∈ c!"@) ", ¬ (c.isAlphanum = true ∨ c ∈ c!"./-_~%") := by decide
    refine ⟨hm, ?_, ?_, ?_⟩ <;> (rintro rfl; exact hno _ (by decide) (ht _ hc))
  have hcol : ':' ∉ target := fun h => (mailChar_facts (hall _ h).1).2.2.2.1 rfl
  have hu : validateLink target = .ok { scheme := none, content := target } := by
    have e1 : isAscii target = true := by
      simp only [isAscii, List.all_eq_true, decide_eq_true_eq]
      exact fun c h => (mailChar_facts (hall c h).1).1
    have e2 : target.any isWs = false := by
      rw [List.any_eq_false]
      intro c h
      simp [(mailChar_facts (hall c h).1).2.1]
    have e3 : target.contains ':' = false := by
      rw [Bool.eq_false_iff, ne_eq, List.contains_iff_mem]
      exact hcol
    have e4 : target.contains '@' = false := by
      rw [Bool.eq_false_iff, ne_eq, List.contains_iff_mem]
      exact fun h => (hall _ h).2.1 rfl
    have e5 : splitScheme target = ([], target) := by simp only [splitScheme, e3]; rfl
    have e6 : sourceScheme target = none := by simp only [sourceScheme, e3]; rfl
    unfold validateLink
    simp only [e1, e2, e5, e6, e4]
    rfl
  exact render_image h1 (fun h => (hall _ h).2.2.1 rfl) (fun h => (hall _ h).2.2.2 rfl) hu hne fun c hc => (mailChar_facts (hall c hc).1).2.1

example : render c!"![Köln](bilder/K%C3%B6ln.png)" =
    .ok c!"<p><img src=\"bilder/K%C3%B6ln.png\" alt=\"Köln\" referrerpolicy=\"no-referrer\"></p>\n" :=
  C188_partial c!"Köln" c!"bilder/K%C3%B6ln.png" (by decide) (by decide) (by decide)

end Smd.Gfm
