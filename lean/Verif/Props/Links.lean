import Verif.Lemmas.Links

/-!
C06-C09: link validation. `u.display` is the text put into `href` (`ValidURL`'s `Display`). `urlScheme` and `urlRest` are
what a browser reads from it.
-/

namespace Smd.Gfm
open Smd.Rs Smd.Spec

instance (a b : Str) : Decidable (eqIgnoreCase a b) := inferInstanceAs (Decidable (_ = _))

/-- **C06** (per link). The href of an accepted link never has the scheme `javascript`, in any letter case.
`C06_no_javascript_in_documents` lifts this to all links of all documents. -/
theorem C06_no_javascript (source : Str) (u : ValidURL) (h : validateLink source = .ok u) :
    ¬ eqIgnoreCase (urlScheme u.display) c!"javascript" := by
  intro hj
  obtain ⟨_, _, h3, _, _⟩ := validateLink_ok h
  obtain ⟨_, _, hcase⟩ := display_parts h
  rcases hcase with ⟨he, sc, hsc⟩ | ⟨he, _⟩ | ⟨he, _⟩
  · obtain ⟨hcol, _⟩ := sourceScheme_some hsc
    apply h3
    unfold splitScheme
    rw [if_pos (List.contains_iff_mem.mpr hcol)]
    rw [he] at hj
    exact hj
  · rw [he] at hj; revert hj; decide
  · rw [he] at hj; revert hj; decide

-- The hypothesis is met by ordinary links, and rejected links exist.
example : validateLink c!"https://a.b/c?d=e&f" =
    .ok { content := c!"//a.b/c?d=e&f", scheme := some (.other c!"https") } := by decide
example : validateLink c!"JavaScript:alert" = .error c!"JavaScript:alert" := by decide

/-- The statement of C07: every accepted link with the scheme `data` is an image. -/
def C07_statement : Prop := ∀ (source : Str) (u : ValidURL), validateLink source = .ok u →
  eqIgnoreCase (urlScheme u.display) c!"data" → c!"image/" <+: urlRest u.display

/-- **C07 is false of the code**: with one `@` in the source, everything between the first and the last colon is dropped
(token.rs 240-247), so the check for `:image/` passes on a part that the href does not contain. -/
theorem C07_refuted : ¬ C07_statement := by
  intro h
  have hv : validateLink c!"data:image/x:text/html,<script>@" =
      .ok { content := c!"text/html,<script>@", scheme := some (.other c!"data") } := by decide
  have := h _ _ hv (by decide)
  revert this
  decide

/-- **C07, partial**: true for sources that are not taken for mail addresses (no or several `@`), or have a single colon.
Missing: sources with exactly one `@` and several colons, for which it is false (`C07_refuted`). -/
theorem C07_data_is_image_partial (source : Str) (u : ValidURL) (h : validateLink source = .ok u)
    (hm : source.count '@' ≠ 1 ∨ source.count ':' = 1) (hd : eqIgnoreCase (urlScheme u.display) c!"data") :
    c!"image/" <+: urlRest u.display := by
  obtain ⟨_, _, _, h4, _⟩ := validateLink_ok h
  obtain ⟨_, hr, hcase⟩ := display_parts h
  rcases hcase with ⟨he, sc, hsc⟩ | ⟨he, _⟩ | ⟨he, _⟩
  · obtain ⟨hcol, _⟩ := sourceScheme_some hsc
    have hs : splitScheme source = (source.takeWhile (· != ':'), source.dropWhile (· != ':')) := by
      unfold splitScheme
      rw [if_pos (List.contains_iff_mem.mpr hcol)]
    rw [hs] at h4
    rw [he] at hd
    have hp := h4 hd
    simp only [startsWith] at hp
    rw [List.isPrefixOf_iff_prefix] at hp
    obtain ⟨t, ht⟩ := hp
    have hcont := content_of_scheme h hsc hm
    have hrest : urlRest source = c!"image/" ++ t := by
      unfold urlRest
      rw [← ht]; rfl
    rw [hr, hcont, hrest, percentEncode_append, replaceC_append]
    exact ⟨_, rfl⟩
  · rw [he] at hd; exact absurd hd (by decide)
  · rw [he] at hd; exact absurd hd (by decide)

example : validateLink c!"data:image/png;base64,AA==" =
    .ok { content := c!"image/png;base64,AA==", scheme := some (.other c!"data") } := by decide

/-- **C08** (source). An accepted link source is pure ASCII and contains no whitespace. -/
theorem C08_ascii_no_whitespace (source : Str) (u : ValidURL) (h : validateLink source = .ok u) :
    ∀ c ∈ source, c.toNat < 128 ∧ isWs c = false :=
  fun c hc => ⟨(validateLink_ok h).1 c hc, (validateLink_ok h).2.1 c hc⟩

/-- The CommonMark scheme alphabet. -/
def schemeChar (c : Char) : Prop := ('A' ≤ c ∧ c ≤ 'Z') ∨ ('a' ≤ c ∧ c ≤ 'z') ∨ ('0' ≤ c ∧ c ≤ '9') ∨
  c = '+' ∨ c = '.' ∨ c = '-'

instance (c : Char) : Decidable (schemeChar c) := inferInstanceAs (Decidable (_ ∨ _))

/-- **C08** (href). The href of an accepted link is a scheme, a colon and a rest; the scheme is `http`, `mailto`, or the
scheme of the source, with 2 to 32 characters of the scheme alphabet. -/
theorem C08_href_scheme (source : Str) (u : ValidURL) (h : validateLink source = .ok u) :
    u.display = urlScheme u.display ++ ':' :: urlRest u.display ∧
    (urlScheme u.display = c!"http" ∨ urlScheme u.display = c!"mailto" ∨ urlScheme u.display = urlScheme source) ∧
    2 ≤ (urlScheme u.display).length ∧ (urlScheme u.display).length ≤ 32 ∧
    ∀ c ∈ urlScheme u.display, schemeChar c := by
  obtain ⟨h1, _, hcase⟩ := display_parts h
  refine ⟨h1, ?_⟩
  rcases hcase with ⟨he, sc, hsc⟩ | ⟨he, _⟩ | ⟨he, _⟩
  · obtain ⟨_, _, ha, h2, h3⟩ := sourceScheme_some hsc
    rw [he]
    refine ⟨.inr (.inr rfl), h2, h3, ?_⟩
    intro c hc
    have : ∀ c ∈ schemeAscii, schemeChar c := by decide
    exact this c (ha c hc)
  · rw [he]; exact ⟨.inr (.inl rfl), by decide⟩
  · rw [he]; exact ⟨.inl rfl, by decide⟩

/-- **C08** (an explicit scheme is kept). If the source has a scheme of 2 to 32 characters of the alphabet and is accepted,
the href has that scheme; without one it is `mailto` for a source with exactly one `@`, else `http`. -/
theorem C08_scheme_kept (source : Str) (u : ValidURL) (h : validateLink source = .ok u) :
    urlScheme u.display =
      (if ':' ∈ source ∧ (∀ c ∈ urlScheme source, schemeChar c) ∧ 2 ≤ (urlScheme source).length ∧
          (urlScheme source).length ≤ 32 then urlScheme source
       else if source.count '@' = 1 then c!"mailto" else c!"http") := by
  have alpha : ∀ c, schemeChar c → c ∈ schemeAscii := by
    intro c hc
    have : ∀ n < 128, schemeChar (Char.ofNat n) → Char.ofNat n ∈ schemeAscii := by decide
    have hlt : c.toNat < 128 := by
      simp only [schemeChar, Char.le_def, UInt32.le_iff_toNat_le] at hc
      simp only [Char.toNat]
      rcases hc with h | h | h | h | h | h
      · exact Nat.lt_of_le_of_lt h.2 (by decide)
      · exact Nat.lt_of_le_of_lt h.2 (by decide)
      · exact Nat.lt_of_le_of_lt h.2 (by decide)
      · subst h; decide
      · subst h; decide
      · subst h; decide
    have e : Char.ofNat c.toNat = c := Char.ofNat_toNat c
    have := this c.toNat hlt
    rw [e] at this
    exact this hc
  obtain ⟨_, _, hcase⟩ := display_parts h
  rcases hcase with ⟨he, sc, hsc⟩ | ⟨he, hsc, _, hc⟩ | ⟨he, hsc, _, hc⟩
  · obtain ⟨h0, _, ha, h2, h3⟩ := sourceScheme_some hsc
    rw [he, if_pos]
    refine ⟨h0, ?_, h2, h3⟩
    intro c hc
    have : ∀ c ∈ schemeAscii, schemeChar c := by decide
    exact this c (ha c hc)
  all_goals
    rw [he, if_neg]
    · simp [hc]
    · rintro ⟨h0, h1, h2, h3⟩
      unfold sourceScheme at hsc
      simp only at hsc
      rw [if_pos] at hsc
      · split at hsc
        · cases hsc
        · split at hsc
          · cases hsc
          · split at hsc <;> cases hsc
      · simp only [Bool.and_eq_true, List.contains_iff_mem, List.all_eq_true, decide_eq_true_eq]
        exact ⟨⟨⟨h0, fun c hc => alpha c (h1 c hc)⟩, h2⟩, h3⟩

/-- **C08** (rejection). A source with exactly one `@` and a backslash is rejected, and so is one with whitespace, with a
character outside ASCII, or with the scheme `javascript`. -/
theorem C08_rejected (source : Str)
    (h : source.count '@' = 1 ∧ '\\' ∈ source ∨ (∃ c ∈ source, isWs c = true) ∨ (∃ c ∈ source, 128 ≤ c.toNat) ∨
      ':' ∈ source ∧ eqIgnoreCase (urlScheme source) c!"javascript") :
    ∀ u, validateLink source ≠ .ok u := by
  intro u hu
  obtain ⟨h1, h2, h3, _, h5⟩ := validateLink_ok hu
  rcases h with ⟨ha, hb⟩ | ⟨c, hc, hw⟩ | ⟨c, hc, hw⟩ | ⟨hc, hj⟩
  · rcases h5 with ⟨_, _, _, _, h⟩ | ⟨_, _, _, h⟩ | ⟨_, _, _, h⟩ | ⟨_, _, h⟩
    · exact h hb
    · exact h hb
    · exact h ha
    · exact h ha
  · rw [h2 c hc] at hw; cases hw
  · have := h1 c hc; omega
  · apply h3
    unfold splitScheme
    rw [if_pos (List.contains_iff_mem.mpr hc)]
    exact hj

example : validateLink c!"foo@bar.de" = .ok { content := c!"foo@bar.de", scheme := some (.email c!"mailto") } := by decide
example : validateLink c!"foo@bar\\.de" = .error c!"foo@bar\\.de" := by decide

/-- The statement of C09: after the scheme, the href decodes to what the author wrote after the scheme. -/
def C09_statement : Prop := ∀ (source : Str) (u : ValidURL), validateLink source = .ok u →
  urlScheme u.display = urlScheme source → ':' ∈ source →
  percentDecode (htmlDecode (urlRest u.display)) = urlRest source

/-- **C09 is false of the code**: a link with a port and one `@` loses everything up to its last colon. -/
theorem C09_refuted : ¬ C09_statement := by
  intro h
  have hv : validateLink c!"https://user@example.com:8080/x" =
      .ok { content := c!"8080/x", scheme := some (.other c!"https") } := by decide
  have := h _ _ hv (by decide) (by decide)
  revert this
  decide

/-- **C09, partial**: true for sources with no or several `@`, or a single colon. Missing: one `@` and several colons
(false, `C09_refuted`). -/
theorem C09_points_where_written_partial (source : Str) (u : ValidURL) (sc : Scheme) (h : validateLink source = .ok u)
    (hs : sourceScheme source = some sc) (hm : source.count '@' ≠ 1 ∨ source.count ':' = 1) :
    percentDecode (htmlDecode (urlRest u.display)) = urlRest source := by
  obtain ⟨_, hr, _⟩ := display_parts h
  rw [hr, htmlDecode_amp, percentDecode_percentEncode, content_of_scheme h hs hm]

/-- **C09** for sources without a scheme: the href decodes to the source itself (after the added scheme). -/
theorem C09_schemeless (source : Str) (u : ValidURL) (h : validateLink source = .ok u)
    (hs : sourceScheme source = none) : percentDecode (htmlDecode (urlRest u.display)) = source := by
  obtain ⟨_, hr, hcase⟩ := display_parts h
  rcases hcase with ⟨_, sc, hsc⟩ | ⟨_, _, hc, _⟩ | ⟨_, _, hc, _⟩
  · rw [hs] at hsc; cases hsc
  · rw [hr, htmlDecode_amp, percentDecode_percentEncode, hc]
  · rw [hr, htmlDecode_amp, percentDecode_percentEncode, hc]

example : sourceScheme c!"http://a.b/(x)&y" = some (.http c!"http") ∧
    (c!"http://a.b/(x)&y").count '@' ≠ 1 := by decide
example : ({ content := c!"//a.b/(x)&y", scheme := some (.http c!"http") } : ValidURL).display =
    c!"http://a.b/%28x%29&amp;y" := by decide

end Smd.Gfm
