import Verif.Lemmas.Reference
import Verif.Props.Markdown

/-!
Where the links and images of a document lead: relative links (C142), fragments and encoded characters in addresses (C143), the
schemes of images (C144). A browser reads the attribute with its character references decoded (`htmlDecode`) and resolves it
against the address of the document (`resolve`, RFC 3986).
-/

namespace Smd.Gfm
open Smd.Rs Smd.Spec

/-! ### C142 Relative links -/

/-- **C142, negated** In `file:///doc/a.html`, the link to `b.html` does not lead to `file:///doc/b.html`. -/
theorem C142_refuted : render c!"[b](b.html)" = .ok c!"<p><a href=\"http:b.html\">b</a></p>\n" ∧
    refText (resolve (parseRef c!"file:///doc/a.html") (parseRef (htmlDecode c!"http:b.html"))) = c!"http:b.html" ∧
    refText (resolve (parseRef c!"file:///doc/a.html") (parseRef c!"b.html")) = c!"file:///doc/b.html" := by
  decide +kernel

/-- So it is with every relative link in every document that is not read over `http`; over `http`, with every one that does not
start with `//`. -/
theorem C142_refuted_always (text target : Str) (u : ValidURL) (h1 : ']' ∉ text) (h2 : ')' ∉ target) (h3 : ' ' ∉ target)
    (hu : validateLink target = .ok u) (hs : (parseRef target).scheme = none) (ha : target.count '@' ≠ 1) :
    ∃ href, render (c!"[" ++ text ++ c!"](" ++ target ++ c!")") =
        .ok (elem c!"p" (c!"<a href=\"" ++ href ++ c!"\">" ++ escape text ++ c!"</a>") ++ c!"\n") ∧
      ∀ base, base.scheme ≠ some c!"http" ∨ (base.authority.isSome = true ∧ ¬ c!"//" <+: target) →
        resolve base (parseRef (htmlDecode href)) ≠ resolve base (parseRef target) := by
  refine ⟨_, C39_partial text target u h1 h2 h3 hu, fun base hb he => ?_⟩
  have hp := refScheme_some (p := c!"http") (t := percentEncode target) (by decide) (by decide)
  have hsome : (parseRef (c!"http" ++ ':' :: percentEncode target)).scheme = some c!"http" := by
    unfold parseRef
    rw [hp]
  rw [decode_relative hu (sourceScheme_none hs) ha] at he
  rcases hb with hb | ⟨hb, ht⟩
  · have := congrArg Ref.scheme he
    rw [resolve_scheme_some _ hsome, resolve_scheme_none _ hs, hsome] at this
    exact hb this.symm
  · have := congrArg Ref.authority he
    have hn : (parseRef target).authority = none := by
      cases h0 : (parseRef target).authority with
      | none => rfl
      | some x => exact absurd ((authority_slashes hs).mp (by rw [h0]; rfl)) ht
    have hl : (parseRef (c!"http" ++ ':' :: percentEncode target)).authority = none := by
      have hx : (parseRef (c!"http" ++ ':' :: percentEncode target)).authority = (refAuthority (percentEncode target)).1 := by
        unfold parseRef
        rw [hp]
      rw [hx, refAuthority_none, percentEncode_slashes]
      exact ht
    rw [resolve_scheme_some _ hsome, resolve_authority_none _ hs hn] at this
    simp only [hl] at this
    rw [← this] at hb
    cases hb

example : ∃ href, render c!"[b](b.html)" = .ok (elem c!"p" (c!"<a href=\"" ++ href ++ c!"\">" ++ c!"b" ++ c!"</a>") ++ c!"\n") ∧
    resolve (parseRef c!"file:///doc/a.html") (parseRef (htmlDecode href)) ≠ resolve (parseRef c!"file:///doc/a.html") (parseRef c!"b.html") := by
  obtain ⟨href, h1, h2⟩ := C142_refuted_always c!"b" c!"b.html" { content := c!"b.html", scheme := none } (by decide) (by decide) (by decide)
    (by decide) (by decide) (by decide)
  exact ⟨href, h1, h2 _ (.inl (by decide))⟩

/-- **C142, the part that holds** A link that starts with `//` and needs no encoding, in a document read over `http`. -/
theorem C142_partial (text rest : Str) (u : ValidURL) (h1 : ']' ∉ text) (h2 : ∀ c ∈ rest, c ∉ c!"%#[]!$'()* \\")
    (hu : validateLink (c!"//" ++ rest) = .ok u) (ha : (c!"//" ++ rest).count '@' ≠ 1) :
    ∃ href, render (c!"[" ++ text ++ c!"](//" ++ rest ++ c!")") =
        .ok (elem c!"p" (c!"<a href=\"" ++ href ++ c!"\">" ++ escape text ++ c!"</a>") ++ c!"\n") ∧
      ∀ base, base.scheme = some c!"http" → resolve base (parseRef (htmlDecode href)) = resolve base (parseRef (c!"//" ++ rest)) := by
  have hc : ∀ c ∈ c!"//" ++ rest, c ∉ c!"%#[]!$'()* \\" := by
    intro c hm
    rcases List.mem_append.mp hm with hm | hm
    · exact (by decide : ∀ c ∈ c!"//", c ∉ c!"%#[]!$'()* \\") c hm
    · exact h2 c hm
  have hs := scheme_slashes rest
  have := C39_partial text (c!"//" ++ rest) u h1 (fun hm => hc _ hm (by decide)) (fun hm => hc _ hm (by decide)) hu
  refine ⟨u.display, by simpa using this, fun base hb => ?_⟩
  rw [decode_relative hu (sourceScheme_none hs) ha, percentEncode_plain hc, parseRef_scheme (by decide) (by decide) hs,
    resolve_scheme_some _ rfl]
  have hauth := (authority_slashes hs).mpr ⟨rest, rfl⟩
  unfold resolve
  rw [hs, if_neg (by simp), if_pos hauth, hb]

example : ∃ href, render c!"[b](//x.org/b)" = .ok (elem c!"p" (c!"<a href=\"" ++ href ++ c!"\">" ++ c!"b" ++ c!"</a>") ++ c!"\n") ∧
    resolve (parseRef c!"http://y.org/a") (parseRef (htmlDecode href)) = parseRef c!"http://x.org/b" := by
  obtain ⟨href, h1, h2⟩ := C142_partial c!"b" c!"x.org/b" { content := c!"//x.org/b", scheme := none } (by decide) (by decide) (by decide)
    (by decide)
  exact ⟨href, h1, (h2 _ (by decide)).trans (by decide)⟩

/-- **C142, the part that holds** The address of an image stays relative: it is in the document as written. -/
theorem C142_partial_image (text target : Str) (u : ValidURL) (h1 : ']' ∉ text) (h2 : ')' ∉ target) (h3 : ' ' ∉ target) (hne : target ≠ [])
    (hu : validateLink target = .ok u) (hs : (parseRef target).scheme = none) :
    render (c!"![" ++ text ++ c!"](" ++ target ++ c!")") =
      .ok (c!"<p><img src=\"" ++ target ++ c!"\" alt=\"" ++ escape text ++ c!"\" referrerpolicy=\"no-referrer\"></p>\n") := by
  have hc : u.content = target := by
    obtain ⟨_, _, hcase⟩ := display_parts hu
    rcases hcase with ⟨_, sc, hsc⟩ | ⟨_, _, hc, _⟩ | ⟨_, _, hc, _⟩
    · rw [sourceScheme_none hs] at hsc; cases hsc
    · exact hc
    · exact hc
  have := render_image h1 h2 h3 hu (by rw [hc]; exact hne) (by rw [hc]; exact (validateLink_ok hu).2.1)
  rw [this, hc]

example : render c!"![b](img/b.png)" = .ok c!"<p><img src=\"img/b.png\" alt=\"b\" referrerpolicy=\"no-referrer\"></p>\n" :=
  C142_partial_image c!"b" c!"img/b.png" { content := c!"img/b.png", scheme := none } (by decide) (by decide) (by decide) (by decide) (by decide)
    (by decide)

/-! ### C143 Fragments and encoded characters -/

/-- **C143, negated** A link to a section of a page leads to another page, one with `#` in its name. -/
theorem C143_refuted : render c!"[b](http://x.org/a#b)" = .ok c!"<p><a href=\"http://x.org/a%23b\">b</a></p>\n" := by
  decide +kernel

/-- An encoded space is encoded again. -/
theorem C143_refuted_percent : render c!"[b](http://x.org/a%20b)" = .ok c!"<p><a href=\"http://x.org/a%2520b\">b</a></p>\n" := by
  decide +kernel

/-- No link with a fragment leads where it is meant to, wherever the document is. -/
theorem C143_refuted_always (text target : Str) (u : ValidURL) (h1 : ']' ∉ text) (h2 : ')' ∉ target) (h3 : ' ' ∉ target)
    (hu : validateLink target = .ok u) (hf : '#' ∈ target) :
    ∃ href, render (c!"[" ++ text ++ c!"](" ++ target ++ c!")") =
        .ok (elem c!"p" (c!"<a href=\"" ++ href ++ c!"\">" ++ escape text ++ c!"</a>") ++ c!"\n") ∧
      ∀ base, resolve base (parseRef (htmlDecode href)) ≠ resolve base (parseRef target) := by
  refine ⟨_, C39_partial text target u h1 h2 h3 hu, fun base he => ?_⟩
  have := congrArg Ref.fragment he
  rw [resolve_fragment, resolve_fragment] at this
  have ht := (fragment_isSome target).mpr hf
  rw [← this] at ht
  exact display_no_hash hu ((fragment_isSome _).mp ht)

example : ∃ href, render c!"[b](#b)" = .ok (elem c!"p" (c!"<a href=\"" ++ href ++ c!"\">" ++ c!"b" ++ c!"</a>") ++ c!"\n") ∧
    ∀ base, resolve base (parseRef (htmlDecode href)) ≠ resolve base (parseRef c!"#b") :=
  C143_refuted_always c!"b" c!"#b" { content := c!"#b", scheme := none } (by decide) (by decide) (by decide) (by decide) (by decide)

/-- Nor does an autolink. -/
theorem C143_refuted_autolink (target : Str) (u : ValidURL) (h1 : '>' ∉ target) (hq : '"' ∉ target) (hc : ':' ∈ target)
    (hu : validateLink target = .ok u) (hs : u.scheme.isSome = true) (hf : '#' ∈ target) :
    ∃ href text, render (c!"<" ++ target ++ c!">") = .ok (elem c!"p" (c!"<a href=\"" ++ href ++ c!"\">" ++ text ++ c!"</a>") ++ c!"\n") ∧
      '"' ∉ href ∧ ∀ base, resolve base (parseRef (htmlDecode href)) ≠ resolve base (parseRef target) := by
  refine ⟨_, _, render_autolink h1 hc hu hs, display_mem hu (.inr rfl) hq, fun base he => ?_⟩
  have := congrArg Ref.fragment he
  rw [resolve_fragment, resolve_fragment] at this
  have ht := (fragment_isSome target).mpr hf
  rw [← this] at ht
  exact display_no_hash hu ((fragment_isSome _).mp ht)

example : ∃ href text, render c!"<http://x.org/a#b>" = .ok (elem c!"p" (c!"<a href=\"" ++ href ++ c!"\">" ++ text ++ c!"</a>") ++ c!"\n") ∧
    '"' ∉ href ∧ ∀ base, resolve base (parseRef (htmlDecode href)) ≠ resolve base (parseRef c!"http://x.org/a#b") :=
  C143_refuted_autolink c!"http://x.org/a#b" { content := c!"//x.org/a#b", scheme := some (.http c!"http") } (by decide) (by decide) (by decide)
    (by decide) (by decide) (by decide)

/-- **C143, exactly** An address is kept as written if it has a scheme and none of the characters `%#[]!$'()*\`, and does not have one
`@` and several colons. -/
theorem C143_exact (text target : Str) (u : ValidURL) (h1 : ']' ∉ text) (h2 : ')' ∉ target) (h3 : ' ' ∉ target)
    (hu : validateLink target = .ok u) :
    ∃ href, render (c!"[" ++ text ++ c!"](" ++ target ++ c!")") =
        .ok (elem c!"p" (c!"<a href=\"" ++ href ++ c!"\">" ++ escape text ++ c!"</a>") ++ c!"\n") ∧
      (htmlDecode href = target ↔
        (∃ p r, target = p ++ ':' :: r ∧ 2 ≤ p.length ∧ p.length ≤ 32 ∧ ∀ c ∈ p, c.isAlphanum = true ∨ c ∈ c!"+.-") ∧
        (∀ c ∈ target, c ∉ c!"%#[]!$'()*\\") ∧ (target.count '@' ≠ 1 ∨ target.count ':' = 1)) := by
  refine ⟨_, C39_partial text target u h1 h2 h3 hu, ?_⟩
  have hascii : ∀ c ∈ schemeAscii, c.isAlphanum = true ∨ c ∈ c!"+.-" := by decide
  have hascii' : ∀ n, n < 128 → ((Char.ofNat n).isAlphanum = true ∨ Char.ofNat n ∈ c!"+.-") → Char.ofNat n ∈ schemeAscii := by decide
  have hsp : ∀ c ∈ pctSpecial, c ∉ schemeAscii := by decide
  have hsub : ∀ c ∈ c!"%#[]!$'()*\\", c ∈ pctSpecial := by decide
  have hsub' : ∀ c ∈ pctSpecial, c ≠ ' ' → c ∈ c!"%#[]!$'()*\\" := by decide
  rw [decode_display hu]
  obtain ⟨hasc, _, _⟩ := validateLink_ok hu
  obtain ⟨_, _, hcase⟩ := display_parts hu
  rcases hcase with ⟨he, sc, hsc⟩ | ⟨he, hsc, hc, _⟩ | ⟨he, hsc, hc, _⟩
  · obtain ⟨hcol, _, hall, hl1, hl2⟩ := sourceScheme_some hsc
    have e := split_colon target hcol
    have hts : urlScheme target ++ ':' :: urlRest target = target := e.symm
    have ex : ∃ p r, target = p ++ ':' :: r ∧ 2 ≤ p.length ∧ p.length ≤ 32 ∧ ∀ c ∈ p, c.isAlphanum = true ∨ c ∈ c!"+.-" :=
      ⟨_, _, e, hl1, hl2, fun c hc => hascii c (hall c hc)⟩
    rw [he]
    constructor
    · intro hd
      have hd' := List.append_cancel_left (hd.trans hts.symm)
      injection hd' with _ hd'
      have hk : target.count '@' ≠ 1 ∨ target.count ':' = 1 := by
        by_cases hat : target.count '@' = 1
        · right
          obtain ⟨a, b, hab, hb⟩ := last_colon hcol
          have hcb := content_of_at hu hsc hat hab hb
          rw [hcb] at hd
          have h0 : ':' ∉ percentEncode b := fun hm => hb (percentEncode_mem hm (by decide))
          have hz : ':' ∉ urlScheme target := fun hm => absurd (mem_takeWhile_true _ _ _ hm) (by decide)
          rw [← hd, List.count_append, List.count_cons_self, List.count_eq_zero.mpr h0, List.count_eq_zero.mpr hz]
        · exact .inl hat
      refine ⟨ex, ?_, hk⟩
      rw [content_of_scheme hu hsc hk] at hd'
      have hr := (length_percentEncode (urlRest target)).2 (by rw [hd'])
      intro c hcm
      rw [← hts, List.mem_append, List.mem_cons] at hcm
      rcases hcm with hcm | rfl | hcm
      · intro hx
        exact hsp c (hsub c hx) (hall c hcm)
      · decide
      · intro hx
        exact hr c hcm (hsub c hx)
    · rintro ⟨_, hn, hk⟩
      have hpl : percentEncode (urlRest target) = urlRest target := by
        refine percentEncode_plain fun c hcm hx => ?_
        have hct : c ∈ target := by
          rw [← hts]
          exact List.mem_append_right _ (List.mem_cons_of_mem _ hcm)
        by_cases hsp : c = ' '
        · subst hsp; exact h3 hct
        · exact hn c hct (hsub' c hx hsp)
      rw [content_of_scheme hu hsc hk, hpl]
      exact hts
  all_goals
    have hlen := (length_percentEncode target).1
    constructor
    · intro hd
      have := congrArg List.length hd
      rw [he, hc] at this
      simp at this
      omega
    · rintro ⟨⟨p, r, htp, hl1, hl2, hp⟩, _, _⟩
      exfalso
      have hp' : ∀ c ∈ p, c ∈ schemeAscii := by
        intro c hcp
        have := hascii' c.toNat (hasc c (by rw [htp]; simp [hcp]))
        rw [Char.ofNat_toNat] at this
        exact this (hp c hcp)
      have htw : target.takeWhile (· != ':') = p := by
        rw [htp]
        exact urlScheme_append p r (colon_not_scheme p hp')
      unfold sourceScheme at hsc
      simp only [htw] at hsc
      rw [if_pos (by simp [htp, hl1, hl2]; exact hp')] at hsc
      split at hsc
      · cases hsc
      · split at hsc
        · cases hsc
        · split at hsc <;> cases hsc

example : ∃ href, render c!"[b](http://x.org/a%20b)" = .ok (elem c!"p" (c!"<a href=\"" ++ href ++ c!"\">" ++ c!"b" ++ c!"</a>") ++ c!"\n") ∧
    htmlDecode href ≠ c!"http://x.org/a%20b" := by
  obtain ⟨href, h1, h2⟩ := C143_exact c!"b" c!"http://x.org/a%20b" { content := c!"//x.org/a%20b", scheme := some (.http c!"http") } (by decide)
    (by decide) (by decide) (by decide)
  exact ⟨href, h1, fun h => absurd (h2.mp h).2.1 (by decide)⟩

/-- **C143, the part that holds** Such addresses lead where they are meant to, wherever the document is. -/
theorem C143_partial (text target : Str) (h1 : ']' ∉ text) (ht : PlainTarget target) :
    ∃ href, render (c!"[" ++ text ++ c!"](" ++ target ++ c!")") =
        .ok (elem c!"p" (c!"<a href=\"" ++ href ++ c!"\">" ++ escape text ++ c!"</a>") ++ c!"\n") ∧
      ∀ base, resolve base (parseRef (htmlDecode href)) = resolve base (parseRef target) :=
  ⟨target, C39_plain_target text target h1 ht, fun base => by
    rw [htmlDecode_plain fun hm => absurd (ht.chars _ hm).2.2 (by decide)]⟩

example : ∃ href, render c!"[b](http://x.org/a?b=c)" = .ok (elem c!"p" (c!"<a href=\"" ++ href ++ c!"\">" ++ c!"b" ++ c!"</a>") ++ c!"\n") ∧
    ∀ base, resolve base (parseRef (htmlDecode href)) = resolve base (parseRef c!"http://x.org/a?b=c") :=
  C143_partial c!"b" c!"http://x.org/a?b=c" (by decide) (target_check c!"http" c!"//x.org/a?b=c" (by decide) (by decide))

/-! ### C144 Schemes of images -/

/-- **C144, negated** An image of the web is not found by a document in a file. -/
theorem C144_refuted : render c!"![b](https://x.org/b.png)" = .ok c!"<p><img src=\"//x.org/b.png\" alt=\"b\" referrerpolicy=\"no-referrer\"></p>\n" ∧
    refText (resolve (parseRef c!"file:///doc/a.html") (parseRef c!"//x.org/b.png")) = c!"file://x.org/b.png" := by
  decide +kernel

/-- **C144, negated** An image in a `data` address is not found by any document. -/
theorem C144_refuted_data : render c!"![b](data:image/png;base64,AA)" =
      .ok c!"<p><img src=\"image/png;base64,AA\" alt=\"b\" referrerpolicy=\"no-referrer\"></p>\n" ∧
    refText (resolve (parseRef c!"file:///doc/a.html") (parseRef c!"image/png;base64,AA")) = c!"file:///doc/image/png;base64,AA" := by
  decide +kernel

/-- The document that is one image with a scheme. -/
theorem render_image_scheme {text sc rest : Str} {u : ValidURL} (h1 : ']' ∉ text) (h2 : ')' ∉ rest) (h3 : ' ' ∉ rest) (hne : rest ≠ [])
    (hsc : 2 ≤ sc.length ∧ sc.length ≤ 32) (hal : ∀ c ∈ sc, c ∈ schemeAscii)
    (hu : validateLink (sc ++ ':' :: rest) = .ok u) (ha : (sc ++ ':' :: rest).count '@' ≠ 1) :
    render (c!"![" ++ text ++ c!"](" ++ (sc ++ ':' :: rest) ++ c!")") =
      .ok (c!"<p><img src=\"" ++ rest ++ c!"\" alt=\"" ++ escape text ++ c!"\" referrerpolicy=\"no-referrer\"></p>\n") := by
  have htw := urlScheme_append sc rest (colon_not_scheme sc hal)
  have hrest := urlRest_append sc rest (colon_not_scheme sc hal)
  have hss : ∃ s, sourceScheme (sc ++ ':' :: rest) = some s := by
    cases hs : sourceScheme (sc ++ ':' :: rest) with
    | some s => exact ⟨s, rfl⟩
    | none =>
      exfalso
      unfold urlScheme at htw
      unfold sourceScheme at hs
      simp only [htw] at hs
      rw [if_pos (by simp [hsc]; exact hal)] at hs
      split at hs
      · cases hs
      · split at hs
        · cases hs
        · split at hs <;> cases hs
  obtain ⟨s, hs⟩ := hss
  have hc := content_of_scheme hu hs (.inl ha)
  rw [hrest] at hc
  have hn : ∀ x, x ∉ schemeAscii → x ≠ ':' → x ∉ rest → x ∉ sc ++ ':' :: rest := by
    intro x hx1 hx2 hx3 hm
    rw [List.mem_append, List.mem_cons] at hm
    rcases hm with hm | hm | hm
    · exact hx1 (hal x hm)
    · exact hx2 hm
    · exact hx3 hm
  have := render_image h1 (hn ')' (by decide) (by decide) h2) (hn ' ' (by decide) (by decide) h3) hu (by rw [hc]; exact hne)
    (by rw [hc]; exact fun c hcm => (validateLink_ok hu).2.1 c (by simp [hcm]))
  rw [this, hc]

/-- **C144, exactly** The image at `scheme://rest` is found if the document itself is read over that scheme. -/
theorem C144_exact (text sc rest : Str) (u : ValidURL) (h1 : ']' ∉ text) (h2 : ')' ∉ rest) (h3 : ' ' ∉ rest) (h4 : '&' ∉ rest)
    (hsc : 2 ≤ sc.length ∧ sc.length ≤ 32) (hal : ∀ c ∈ sc, c.isAlpha = true)
    (hu : validateLink (sc ++ c!"://" ++ rest) = .ok u) (ha : (sc ++ c!"://" ++ rest).count '@' ≠ 1) :
    ∃ src, render (c!"![" ++ text ++ c!"](" ++ sc ++ c!"://" ++ rest ++ c!")") =
        .ok (c!"<p><img src=\"" ++ src ++ c!"\" alt=\"" ++ escape text ++ c!"\" referrerpolicy=\"no-referrer\"></p>\n") ∧
      ∀ base, resolve base (parseRef (htmlDecode src)) = resolve base (parseRef (sc ++ c!"://" ++ rest)) ↔ base.scheme = some sc := by
  have e : sc ++ c!"://" ++ rest = sc ++ ':' :: (c!"//" ++ rest) := by simp
  rw [e] at hu ha
  have hal' : ∀ c ∈ sc, c ∈ schemeAscii := by
    intro c hc
    have := isAlpha_scheme c.toNat ((validateLink_ok hu).1 c (by simp [hc]))
    rw [Char.ofNat_toNat] at this
    exact this (hal c hc)
  have hr := render_image_scheme (rest := c!"//" ++ rest) h1 (by simpa using h2) (by simpa using h3) (by simp) hsc hal' hu ha
  refine ⟨c!"//" ++ rest, by simpa using hr, fun base => ?_⟩
  have hs := scheme_slashes rest
  have hauth := (authority_slashes hs).mpr ⟨rest, rfl⟩
  have hp := parseRef_scheme (p := sc) (t := c!"//" ++ rest) (by rintro rfl; simp at hsc)
    (fun c hm hx => schemeAscii_ref c (hal' c hm) (by simp at hx ⊢; tauto)) hs
  rw [htmlDecode_plain (by simpa using h4), e, hp,
    resolve_scheme_some base (s := sc) (r := { parseRef (c!"//" ++ rest) with scheme := some sc }) rfl]
  unfold resolve
  rw [hs, if_neg (by simp), if_pos hauth]
  constructor
  · intro h
    exact congrArg Ref.scheme h
  · intro h
    rw [h]

example : ∃ src, render c!"![b](https://x.org/b.png)" = .ok (c!"<p><img src=\"" ++ src ++ c!"\" alt=\"" ++ c!"b" ++ c!"\" referrerpolicy=\"no-referrer\"></p>\n") ∧
    resolve (parseRef c!"file:///doc/a.html") (parseRef (htmlDecode src)) ≠ resolve (parseRef c!"file:///doc/a.html") (parseRef c!"https://x.org/b.png") := by
  obtain ⟨src, h1, h2⟩ := C144_exact c!"b" c!"https" c!"x.org/b.png" { content := c!"//x.org/b.png", scheme := some (.other c!"https") } (by decide)
    (by decide) (by decide) (by decide) (by decide) (by decide) (by decide) (by decide)
  exact ⟨src, h1, fun h => absurd ((h2 _).mp h) (by decide)⟩

/-- **C144, the part that holds** -/
theorem C144_partial (text sc rest : Str) (u : ValidURL) (base : Ref) (h1 : ']' ∉ text) (h2 : ')' ∉ rest) (h3 : ' ' ∉ rest) (h4 : '&' ∉ rest)
    (hsc : 2 ≤ sc.length ∧ sc.length ≤ 32) (hal : ∀ c ∈ sc, c.isAlpha = true)
    (hu : validateLink (sc ++ c!"://" ++ rest) = .ok u) (ha : (sc ++ c!"://" ++ rest).count '@' ≠ 1) (hb : base.scheme = some sc) :
    ∃ src, render (c!"![" ++ text ++ c!"](" ++ sc ++ c!"://" ++ rest ++ c!")") =
        .ok (c!"<p><img src=\"" ++ src ++ c!"\" alt=\"" ++ escape text ++ c!"\" referrerpolicy=\"no-referrer\"></p>\n") ∧
      resolve base (parseRef (htmlDecode src)) = resolve base (parseRef (sc ++ c!"://" ++ rest)) := by
  obtain ⟨src, hr, hx⟩ := C144_exact text sc rest u h1 h2 h3 h4 hsc hal hu ha
  exact ⟨src, hr, (hx base).mpr hb⟩

example : ∃ src, render c!"![b](http://x.org/b.png)" = .ok (c!"<p><img src=\"" ++ src ++ c!"\" alt=\"" ++ c!"b" ++ c!"\" referrerpolicy=\"no-referrer\"></p>\n") ∧
    resolve (parseRef c!"http://y.org") (parseRef (htmlDecode src)) = parseRef c!"http://x.org/b.png" := by
  obtain ⟨src, h1, h2⟩ := C144_partial c!"b" c!"http" c!"x.org/b.png" { content := c!"//x.org/b.png", scheme := some (.http c!"http") }
    (parseRef c!"http://y.org") (by decide) (by decide) (by decide) (by decide) (by decide) (by decide) (by decide) (by decide) (by decide)
  exact ⟨src, h1, h2.trans (by decide)⟩

/-- An image in a `data` address is found by no document: the address leads to a file beside the document. -/
theorem C144_refuted_always (text rest : Str) (u : ValidURL) (h1 : ']' ∉ text) (h2 : ')' ∉ rest) (h3 : ' ' ∉ rest)
    (hu : validateLink (c!"data:image/" ++ rest) = .ok u) (ha : (c!"data:image/" ++ rest).count '@' ≠ 1) :
    ∃ src, render (c!"![" ++ text ++ c!"](data:image/" ++ rest ++ c!")") =
        .ok (c!"<p><img src=\"" ++ src ++ c!"\" alt=\"" ++ escape text ++ c!"\" referrerpolicy=\"no-referrer\"></p>\n") ∧
      ∀ base, base.scheme ≠ some c!"data" → resolve base (parseRef (htmlDecode src)) ≠ resolve base (parseRef (c!"data:image/" ++ rest)) := by
  have hr := render_image_scheme (text := text) (sc := c!"data") (rest := c!"image/" ++ rest) h1 (by simpa using h2) (by simpa using h3)
    (by simp) (by decide) (by decide) hu ha
  refine ⟨c!"image/" ++ rest, by simpa using hr, fun base hb he => ?_⟩
  rw [htmlDecode_plain_append _ (by decide)] at he
  have hs : (parseRef (c!"image/" ++ htmlDecode rest)).scheme = none := by
    unfold parseRef refScheme before after
    simp
  have hd : (parseRef (c!"data:image/" ++ rest)).scheme = some c!"data" := by
    have := refScheme_some (p := c!"data") (t := c!"image/" ++ rest) (by decide) (by decide)
    unfold parseRef
    rw [show c!"data:image/" ++ rest = c!"data" ++ ':' :: (c!"image/" ++ rest) by simp, this]
  have := congrArg Ref.scheme he
  rw [resolve_scheme_none _ hs, resolve_scheme_some _ hd, hd] at this
  exact hb this

example : ∃ src, render c!"![b](data:image/png;base64,AA)" =
      .ok (c!"<p><img src=\"" ++ src ++ c!"\" alt=\"" ++ c!"b" ++ c!"\" referrerpolicy=\"no-referrer\"></p>\n") ∧
    ∀ base, base.scheme ≠ some c!"data" → resolve base (parseRef (htmlDecode src)) ≠ resolve base (parseRef c!"data:image/png;base64,AA") :=
  C144_refuted_always c!"b" c!"png;base64,AA" { content := c!"image/png;base64,AA", scheme := some (.other c!"data") } (by decide) (by decide)
    (by decide) (by decide) (by decide)

end Smd.Gfm
