import Verif.Lemmas.Exact

/-!
Claims that are false of the code, for all the texts they are false for: addresses with an `@` (C07, C09), HTML in the text (C14),
links with titles (C39), rejected targets (C40). Unmatched markers around several lines (C31, C38).
-/

namespace Smd.Gfm
open Smd.Rs Smd.Spec

/-! ### C07, C09 Addresses with an `@` -/

/-- **C09, negated** With one `@`, only what follows the last colon is in the address. -/
theorem C09_refuted_always (a b : Str) (u : ValidURL) (h : validateLink (a ++ ':' :: b) = .ok u)
    (hs : urlScheme u.display = urlScheme (a ++ ':' :: b)) (hat : (a ++ ':' :: b).count '@' = 1) (hb : ':' ∉ b) :
    percentDecode (htmlDecode (urlRest u.display)) = b := by
  obtain ⟨sc, hsc⟩ := sourceScheme_of_display h (by simp) hs
  rw [(display_parts h).2.1, htmlDecode_amp, percentDecode_percentEncode, content_of_at h hsc hat rfl hb]

example : percentDecode (htmlDecode (urlRest c!"https:8080/x")) = c!"8080/x" :=
  C09_refuted_always c!"https://user@example.com" c!"8080/x" { content := c!"8080/x", scheme := some (.other c!"https") } (by decide)
    (by decide) (by decide) (by decide)

/-- **C09, exactly** Of the addresses with a scheme, those are kept that do not have one `@` and several colons. -/
theorem C09_exact (source : Str) (u : ValidURL) (h : validateLink source = .ok u) (hs : urlScheme u.display = urlScheme source)
    (hc : ':' ∈ source) :
    percentDecode (htmlDecode (urlRest u.display)) = urlRest source ↔ source.count '@' ≠ 1 ∨ source.count ':' = 1 := by
  obtain ⟨sc, hsc⟩ := sourceScheme_of_display h hc hs
  constructor
  · intro he
    by_contra hn
    simp only [ne_eq, not_or, not_not] at hn
    obtain ⟨a, b, rfl, hb⟩ := last_colon hc
    rw [C09_refuted_always a b u h hs hn.1 hb] at he
    have e := split_colon _ hc
    have h1 : (a ++ ':' :: b).count ':' = 1 := by
      rw [e, List.count_append, List.count_cons_self]
      have h0 : List.count ':' (List.takeWhile (· != ':') (a ++ ':' :: b)) = 0 := by
        rw [List.count_eq_zero]
        intro hm
        exact absurd (mem_takeWhile_true _ _ _ hm) (by decide)
      have h2 : List.count ':' (List.drop 1 (List.dropWhile (· != ':') (a ++ ':' :: b))) = 0 := by
        have he : b = List.drop 1 (List.dropWhile (· != ':') (a ++ ':' :: b)) := he
        rw [← he, List.count_eq_zero]
        exact hb
      omega
    exact hn.2 h1
  · exact C09_points_where_written_partial source u sc h hsc

example : ¬ percentDecode (htmlDecode (urlRest c!"https:8080/x")) = urlRest c!"https://user@example.com:8080/x" := by
  have := C09_exact c!"https://user@example.com:8080/x" { content := c!"8080/x", scheme := some (.other c!"https") } (by decide)
    (by decide) (by decide)
  exact fun h => absurd (this.mp h) (by decide)

/-- **C07, exactly** An accepted `data` address is an image unless there is one `@`, and what follows the last colon is not. -/
theorem C07_exact (source : Str) (u : ValidURL) (h : validateLink source = .ok u) (hd : eqIgnoreCase (urlScheme u.display) c!"data") :
    c!"image/" <+: urlRest u.display ↔
      source.count '@' ≠ 1 ∨ ∃ a b, source = a ++ ':' :: b ∧ ':' ∉ b ∧ c!"image/" <+: b := by
  obtain ⟨_, hr, hcase⟩ := display_parts h
  rcases hcase with ⟨he, sc, hsc⟩ | ⟨he, _⟩ | ⟨he, _⟩
  · constructor
    · intro hi
      by_cases hat : source.count '@' = 1
      · obtain ⟨a, b, hab, hb⟩ := last_colon (sourceScheme_some hsc).1
        rw [hr, image_prefix, content_of_at h hsc hat hab hb] at hi
        exact .inr ⟨a, b, hab, hb, hi⟩
      · exact .inl hat
    · rintro (hat | ⟨a, b, hab, hb, hi⟩)
      · exact C07_data_is_image_partial source u h (.inl hat) hd
      · by_cases hat : source.count '@' = 1
        · rw [hr, image_prefix, content_of_at h hsc hat hab hb]
          exact hi
        · exact C07_data_is_image_partial source u h (.inl hat) hd
  · rw [he] at hd; exact absurd hd (by decide)
  · rw [he] at hd; exact absurd hd (by decide)

example : c!"image/" <+: urlRest c!"data:image/png,@" :=
  (C07_exact c!"data:image/x:image/png,@" { content := c!"image/png,@", scheme := some (.other c!"data") } (by decide) (by decide)).mpr
    (.inr ⟨c!"data:image/x", c!"image/png,@", by decide, by decide, by decide⟩)

/-! ### C14 HTML in the text -/

/-- **C14, negated** Any HTML on one line without brackets can be put into the output: what follows the name of a footnote that has
white space in it is not escaped. -/
theorem C14_refuted_always (t : Str) (h1 : '[' ∉ t) (h2 : '\n' ∉ t) (h3 : (trimEnd (c!" ]:" ++ t)).getLast? ≠ some ']') :
    render (c!"[^ ]:" ++ t) = .ok (c!"<p> ]:" ++ t ++ c!"</p>\n") := by
  have := C37_refuted_names [] c!" " t trivial (.inl rfl) ⟨' ', by simp, by decide⟩ (by decide) (by simpa using h1) (by simpa using h2)
    (by simpa using h3)
  simpa [inlineSrc, inlineHtml, elem] using this

example : render c!"[^ ]:<script>alert(1)</script>" = .ok c!"<p> ]:<script>alert(1)</script></p>\n" :=
  C14_refuted_always c!"<script>alert(1)</script>" (by decide) (by decide) (by decide)

/-! ### C31, C38 Unmatched markers around several lines -/

/-- **C31** Two or three markers without a matching run are shown as they are, with a text of any number of lines that does not look
like a footnote reference. -/
theorem C31_unmatched_lines (m : Char) (t : Str) (n k : Nat) (hm : m = '*' ∨ m = '_') (ht : Inline.EmText t) (hn : n = 2 ∨ n = 3)
    (hk : k ≠ n) (hend : 1 ≤ k ∨ ∃ c, t.getLast? = some c ∧ isWs c = false) (hb : ¬ c!"[^" <:+: t ∨ ']' ∉ t) :
    render (times n m ++ t ++ times k m) = .ok (elem c!"p" (escape (times n m ++ t ++ times k m)) ++ c!"\n") := by
  refine render_token (fun last => au_unmatched hm ht hn hk last) (shows_around ?_ (by omega) hend hb)
  rcases hm with rfl | rfl <;> decide

example : render c!"**a\n\nb [c]\n*" = .ok c!"<p>**a\n\nb &lbrack;c&rbrack;\n*</p>\n" :=
  C31_unmatched_lines '*' c!"a\n\nb [c]\n" 2 1 (.inl rfl) ⟨⟨_, _, rfl, by decide⟩, by decide, by decide⟩ (.inl rfl) (by decide)
    (.inl (by decide)) (.inl (by decide))

/-- **C38** The same for two tildes. -/
theorem C38_unmatched_lines (t : Str) (k : Nat) (hne : t ≠ []) (ht : '~' ∉ t) (hk : k ≠ 2)
    (hend : 1 ≤ k ∨ ∃ c, t.getLast? = some c ∧ isWs c = false) (hb : ¬ c!"[^" <:+: t ∨ ']' ∉ t) :
    render (times 2 '~' ++ t ++ times k '~') = .ok (elem c!"p" (escape (times 2 '~' ++ t ++ times k '~')) ++ c!"\n") :=
  render_token (fun last => tilde_unmatched hne ht hk last) (shows_around (by decide) (by decide) hend hb)

example : render c!"~~a\nb" = .ok c!"<p>&tilde;&tilde;a\nb</p>\n" :=
  C38_unmatched_lines c!"a\nb" 0 (by decide) (by decide) (by decide) (.inr ⟨'b', by decide, by decide⟩) (.inr (by decide))

/-! ### C39 Links with a title -/

/-- **C39, negated** For every text, target and title the `href` is empty, the title is not escaped, and the rest of the line is
not shown. What follows in the next line goes on as usual. -/
theorem C39_refuted_always (is js : List Inline) (text target title rest after : Str) (u : ValidURL) (hi : InlineGood (some '[') is)
    (hv : is = [] ∨ ∃ i, is.head? = some i ∧ i.Visible) (h1 : ']' ∉ text) (h2 : ')' ∉ target) (h3 : ' ' ∉ target) (h4 : ')' ∉ title)
    (hu : validateLink target = .ok u) (hr : '\n' ∉ rest) (ha : after = [] ∧ js = [] ∨ after = '\n' :: inlineSrc js)
    (hj : InlineGood none js) :
    render (inlineSrc is ++ (c!"[" ++ text ++ c!"](" ++ target ++ c!" " ++ title ++ c!")" ++ rest ++ after)) =
      .ok (elem c!"p" (inlineHtml is ++ (c!"<a href=>\"" ++ u.display ++ c!"\" title=\" " ++ title ++ c!"\">" ++ escape text ++ c!"</a>") ++
        inlineHtml js) ++ c!"\n") := by
  have hs : (c!"[" ++ text ++ c!"](" ++ target ++ c!" " ++ title ++ c!")" ++ rest ++ after).head? = some '[' := by simp
  have e := lexLinks_title (after := rest ++ after) h1 h2 h3 h4 hu
  have e2 : ((rest ++ after).dropWhile (· != '\n')).drop 1 = inlineSrc js := by
    rcases ha with ⟨rfl, rfl⟩ | rfl
    · rw [List.append_nil, dropWhile_all _ _ (by intro x hx; simp; rintro rfl; exact hr hx)]
      rfl
    · rw [(ne_split hr).2]
      rfl
  rw [e2] at e
  have := render_token_between (s := c!"[" ++ text ++ c!"](" ++ target ++ c!" " ++ title ++ c!")" ++ rest ++ after) (hs ▸ hi) hj hv
    (fun last => ?_) (shows_titled u text (' ' :: title))
  · rw [this]
    simp
  · rw [List.append_assoc _ rest after]
    rw [show c!"[" ++ text ++ c!"](" ++ target ++ c!" " ++ title ++ c!")" ++ (rest ++ after) =
      '[' :: (text ++ c!"](" ++ target ++ c!" " ++ title ++ c!")" ++ (rest ++ after)) by simp] at e ⊢
    rw [nextToken_bracket, e]
    rfl

example : render c!"see [a](http:b \"t\") lost\nmore" = .ok c!"<p>see<a href=>\"http:b\" title=\" \"t\"\">a</a>more</p>\n" :=
  C39_refuted_always [.word c!"see", .space 1] [.word c!"more"] c!"a" c!"http:b" c!"\"t\"" c!" lost" c!"\nmore"
    { content := c!"b", scheme := some (.http c!"http") } ⟨word_check (by decide), ⟨by decide, by decide, by decide, by decide⟩, trivial⟩
    (.inr ⟨_, rfl, trivial⟩) (by decide) (by decide) (by decide) (by decide) (by decide) (by decide) (.inr rfl)
    ⟨word_check (by decide), trivial⟩

/-! ### C40 Rejected targets -/

/-- **C40, the part that holds** A rejected target of any number of lines that does not look like a footnote reference. -/
theorem C40_partial_lines (text target : Str) (c : Char) (h1 : ']' ∉ text) (h2 : ')' ∉ target) (h3 : ' ' ∉ target)
    (he : ∀ u, validateLink target ≠ .ok u) (hl : target.getLast? = some c) (hc : isWs c = false) (hh : target.head? ≠ some '\n')
    (hb : ¬ c!"[^" <:+: target ∨ ']' ∉ target) :
    render (c!"[" ++ text ++ c!"](" ++ target ++ c!")") = .ok (elem c!"p" (escape target) ++ c!"\n") :=
  render_token (fun last => rejected_token h1 h2 h3 he last) (shows_text hl hc hh hb)

example : render c!"[click](a\nb[c])" = .ok c!"<p>a\nb&lbrack;c&rbrack;</p>\n" :=
  C40_partial_lines c!"click" c!"a\nb[c]" ']' (by decide) (by decide) (by decide)
    (by rw [show validateLink c!"a\nb[c]" = .error c!"a\nb[c]" by decide]; nofun) (by decide) (by decide) (by decide) (.inl (by decide))

/-- **C40, negated** A rejected target that ends with a footnote reference: what is in front of it is not escaped, and the reference
is an anchor. -/
theorem C40_refuted_always (text a id : Str) (h1 : ']' ∉ text) (h2 : ')' ∉ a ++ id) (h3 : ' ' ∉ a)
    (he : ∀ u, validateLink (a ++ c!"[^" ++ id ++ c!"]") ≠ .ok u) (ha : '[' ∉ a) (hn : '\n' ∉ a)
    (hl : (trimEnd a).getLast? ≠ some ']') (hid : NoteId id) :
    render (c!"[" ++ text ++ c!"](" ++ (a ++ c!"[^" ++ id ++ c!"]") ++ c!")") =
      .ok (elem c!"p" (a ++ (Inline.noteRef id).html) ++ c!"\n") := by
  have h2' : ')' ∉ a ++ c!"[^" ++ id ++ c!"]" := by simpa using h2
  have h3' : ' ' ∉ a ++ c!"[^" ++ id ++ c!"]" := by
    have : ' ' ∉ id := fun h => absurd (hid.2 _ h).1 (by decide)
    simp [h3, this]
  have e := plainOut_refs (ids := [id]) ha hl hn (by simp) (by simpa using hid)
  refine render_token (fun last => rejected_token h1 h2' h3' he last) (shows_of_plainOut ⟨']', by simp, by decide⟩ ?_)
  have e2 : (Inline.noteRef id).html = supTag (escape id) 1 := by simp [Inline.html, supTag, show dec 1 = c!"1" by decide]
  rw [e2]
  simpa [refsSrc] using e

example : render c!"[click](javascript:<b>[^1])" =
    .ok c!"<p>javascript:<b><sup id=\"fnref:1\" role=\"doc-noteref\"><a href=\"#fn:1\" class=\"footnote\" rel=\"footnote\">1</a></sup></p>\n" :=
  C40_refuted_always c!"click" c!"javascript:<b>" c!"1" (by decide) (by decide) (by decide)
    (by rw [show validateLink (c!"javascript:<b>" ++ c!"[^" ++ c!"1" ++ c!"]") = .error c!"javascript:<b>[^1]" by decide]; nofun) (by decide)
    (by decide) (by decide) ⟨by decide, by decide⟩

end Smd.Gfm
