import Verif.Lemmas.Escape

/-! Case analysis of `validate_link`. -/

namespace Smd.Gfm
open Smd.Rs Smd.Spec

theorem sourceScheme_some {source : Str} {sc : Scheme} (h : sourceScheme source = some sc) :
    ':' ∈ source ∧ sc.display = source.takeWhile (· != ':') ∧ (∀ c ∈ source.takeWhile (· != ':'), c ∈ schemeAscii) ∧
      2 ≤ (source.takeWhile (· != ':')).length ∧ (source.takeWhile (· != ':')).length ≤ 32 := by
  unfold sourceScheme at h
  simp only at h
  split at h
  · next hc =>
    simp only [Bool.and_eq_true, List.contains_iff_mem, List.all_eq_true, decide_eq_true_eq] at hc
    obtain ⟨⟨⟨h1, h2⟩, h3⟩, h4⟩ := hc
    refine ⟨h1, ?_, h2, h3, h4⟩
    split at h
    · injection h with h; subst h; rfl
    · split at h
      · injection h with h; subst h; rfl
      · split at h
        · injection h with h; subst h; rfl
        · injection h with h; subst h; rfl
  · cases h

/-- The text after the first colon. -/
theorem split_colon (s : Str) (h : ':' ∈ s) :
    s = s.takeWhile (· != ':') ++ ':' :: (s.dropWhile (· != ':')).drop 1 := by
  rcases dropWhile_cases (· != ':') s with ⟨_, h2⟩ | ⟨x, xs, h1, h2⟩
  · have := mem_takeWhile_true (· != ':') s ':' (by rw [h2]; exact h)
    simp at this
  · have e := split_while (· != ':') s
    have hx : x = ':' := by simpa using h2
    rw [h1, hx] at e
    rw [h1]
    simpa using e.symm

theorem stripScheme_eq (s : Str) (h : ':' ∈ s) :
    stripScheme (s.takeWhile (· != ':')) s = (s.dropWhile (· != ':')).drop 1 := by
  have e := split_colon s h
  generalize hp : s.takeWhile (· != ':') = p at *
  generalize hr : (s.dropWhile (· != ':')).drop 1 = r at *
  subst e
  have h1 : stripPrefix p (p ++ ':' :: r) = some (':' :: r) := by
    unfold stripPrefix
    rw [if_pos (List.isPrefixOf_iff_prefix.mpr ⟨_, rfl⟩)]
    simp
  unfold stripScheme
  rw [h1]
  simp [stripPrefix, List.isPrefixOf]

/-- `validate_link` accepts in four ways. -/
theorem validateLink_ok {source : Str} {u : ValidURL} (h : validateLink source = .ok u) :
    (∀ c ∈ source, c.toNat < 128) ∧ (∀ c ∈ source, isWs c = false) ∧
    lower (splitScheme source).1 ≠ c!"javascript" ∧
    (lower (splitScheme source).1 = c!"data" → startsWith (splitScheme source).2 c!":image/" = true) ∧
    ((∃ sc, sourceScheme source = some sc ∧ u = { scheme := some sc, content := afterLastColon source } ∧
        source.count '@' = 1 ∧ '\\' ∉ source) ∨
      (sourceScheme source = none ∧ u = { scheme := some (.email c!"mailto"), content := source } ∧
        source.count '@' = 1 ∧ '\\' ∉ source) ∨
      (∃ sc, sourceScheme source = some sc ∧ u = { scheme := some sc, content := stripScheme sc.display source } ∧
        source.count '@' ≠ 1) ∨
      (sourceScheme source = none ∧ u = { scheme := none, content := source } ∧ source.count '@' ≠ 1)) := by
  unfold validateLink at h
  split at h
  · cases h
  · next h1 =>
    simp only [Bool.or_eq_true, Bool.not_eq_true', not_or, Bool.not_eq_false, Bool.not_eq_true] at h1
    obtain ⟨ha, hw⟩ := h1
    simp only [isAscii, List.all_eq_true, decide_eq_true_eq] at ha
    simp only [List.any_eq_false, Bool.not_eq_true] at hw
    simp only at h
    split at h
    · cases h
    · next h2 =>
      simp only [Bool.or_eq_true, beq_iff_eq, not_or] at h2
      split at h
      · cases h
      · next h3 =>
        split at h
        · cases h
        · next h4 =>
          refine ⟨ha, hw, h2.1, ?_, ?_⟩
          · intro hd
            simp only [hd, beq_self_eq_true, Bool.true_and, Bool.not_eq_true', Bool.not_eq_false] at h3
            exact h3
          · split at h
            · next h5 =>
              simp only [Bool.and_eq_true, List.contains_iff_mem, beq_iff_eq, Bool.not_eq_true'] at h5
              have hb : '\\' ∉ source := by
                intro hm
                have := List.contains_iff_mem.mpr hm
                rw [h5.2] at this
                cases this
              split at h
              · next sc hsc => left; injection h with h; exact ⟨sc, hsc, h.symm, h5.1.2, hb⟩
              · next hsc => right; left; injection h with h; exact ⟨hsc, h.symm, h5.1.2, hb⟩
            · next h5 =>
              split at h
              · cases h
              · next h6 =>
                have hcnt : source.count '@' ≠ 1 := by
                  intro hc
                  have hm : source.contains '@' = true := by
                    rw [List.contains_iff_mem]
                    apply List.count_pos_iff.mp
                    omega
                  simp only [hm, hc, beq_self_eq_true, Bool.and_self, Bool.true_and, Bool.not_eq_true', Bool.not_eq_false,
                    Bool.not_eq_true] at h5 h6
                  rw [h5] at h6
                  cases h6
                split at h
                · next sc hsc => right; right; left; injection h with h; exact ⟨_, hsc, h.symm, hcnt⟩
                · next sc hsc => right; right; left; injection h with h; exact ⟨_, hsc, h.symm, hcnt⟩
                · next sc hsc => right; right; left; injection h with h; exact ⟨_, hsc, h.symm, hcnt⟩
                · next sc hsc => right; right; left; injection h with h; exact ⟨_, hsc, h.symm, hcnt⟩
                · next hsc => right; right; right; injection h with h; exact ⟨hsc, h.symm, hcnt⟩

theorem colon_not_scheme (p : Str) (h : ∀ c ∈ p, c ∈ schemeAscii) : ∀ c ∈ p, (c != ':') = true := by
  intro c hc
  have : ∀ c ∈ schemeAscii, (c != ':') = true := by decide
  exact this c (h c hc)

theorem urlScheme_append (p t : Str) (h : ∀ c ∈ p, (c != ':') = true) : urlScheme (p ++ ':' :: t) = p :=
  takeWhile_append_stop _ _ _ (by decide) p h

theorem urlRest_append (p t : Str) (h : ∀ c ∈ p, (c != ':') = true) : urlRest (p ++ ':' :: t) = t := by
  unfold urlRest
  rw [dropWhile_append_stop _ _ _ (by decide) p h]
  rfl

/-- The scheme and the rest of the href of an accepted link. -/
theorem display_parts {source : Str} {u : ValidURL} (h : validateLink source = .ok u) :
    u.display = urlScheme u.display ++ ':' :: urlRest u.display ∧
    urlRest u.display = replaceC '&' c!"&amp;" (percentEncode u.content) ∧
    (urlScheme u.display = urlScheme source ∧ (∃ sc, sourceScheme source = some sc) ∨
      urlScheme u.display = c!"mailto" ∧ sourceScheme source = none ∧ u.content = source ∧ source.count '@' = 1 ∨
      urlScheme u.display = c!"http" ∧ sourceScheme source = none ∧ u.content = source ∧ source.count '@' ≠ 1) := by
  obtain ⟨_, _, _, _, h4⟩ := validateLink_ok h
  have app : ∀ (p t : Str), p ++ c!":" ++ t = p ++ ':' :: t := by simp
  rcases h4 with ⟨sc, hsc, rfl, hc, _⟩ | ⟨hsc, rfl, hc, _⟩ | ⟨sc, hsc, rfl, hc⟩ | ⟨hsc, rfl, hc⟩
  · obtain ⟨_, hd, ha, _, _⟩ := sourceScheme_some hsc
    have hn := colon_not_scheme _ ha
    rw [← hd] at hn
    simp only [ValidURL.display, app, urlScheme_append _ _ hn, urlRest_append _ _ hn]
    exact ⟨trivial, trivial, .inl ⟨hd, sc, hsc⟩⟩
  · have hn : ∀ c ∈ c!"mailto", (c != ':') = true := by decide
    simp only [ValidURL.display, Scheme.display, app, urlScheme_append _ _ hn, urlRest_append _ _ hn]
    exact ⟨trivial, trivial, .inr (.inl ⟨trivial, hsc, trivial, hc⟩)⟩
  · obtain ⟨_, hd, ha, _, _⟩ := sourceScheme_some hsc
    have hn := colon_not_scheme _ ha
    rw [← hd] at hn
    simp only [ValidURL.display, app, urlScheme_append _ _ hn, urlRest_append _ _ hn]
    exact ⟨trivial, trivial, .inl ⟨hd, sc, hsc⟩⟩
  · have hn : ∀ c ∈ c!"http", (c != ':') = true := by decide
    have e : ∀ t, c!"http:" ++ t = c!"http" ++ ':' :: t := by simp
    simp only [ValidURL.display, e, urlScheme_append _ _ hn, urlRest_append _ _ hn]
    exact ⟨trivial, trivial, .inr (.inr ⟨trivial, hsc, trivial, hc⟩)⟩

/-- The content of a link with an explicit scheme, when no mail address re-splits it. -/
theorem content_of_scheme {source : Str} {u : ValidURL} {sc : Scheme} (h : validateLink source = .ok u)
    (hs : sourceScheme source = some sc) (hm : source.count '@' ≠ 1 ∨ source.count ':' = 1) :
    u.content = urlRest source := by
  obtain ⟨_, _, _, _, h4⟩ := validateLink_ok h
  obtain ⟨hcol, hd, ha, _, _⟩ := sourceScheme_some hs
  rcases h4 with ⟨sc', hsc, rfl, hc, _⟩ | ⟨hsc, rfl, hc, _⟩ | ⟨sc', hsc, rfl, hc⟩ | ⟨hsc, rfl, hc⟩
  · have hone : source.count ':' = 1 := by
      rcases hm with h | h
      · exact absurd hc h
      · exact h
    have e := split_colon source hcol
    show afterLastColon source = urlRest source
    have hr : ':' ∉ (source.dropWhile (· != ':')).drop 1 := by
      intro hmem
      have hp : 0 < ((source.dropWhile (· != ':')).drop 1).count ':' := List.count_pos_iff.mpr hmem
      rw [e] at hone
      simp only [List.count_append, List.count_cons_self] at hone
      omega
    have hall : ∀ c ∈ ((source.dropWhile (· != ':')).drop 1).reverse, (c != ':') = true := by
      intro c hc
      simp only [List.mem_reverse] at hc
      simp only [bne_iff_ne, ne_eq]
      intro e; subst e; exact hr hc
    unfold afterLastColon
    conv => lhs; rw [e]
    rw [List.reverse_append, List.reverse_cons, List.append_assoc, List.singleton_append,
      takeWhile_append_stop _ _ _ (by decide) _ hall, List.reverse_reverse]
    rfl
  · rw [hs] at hsc; cases hsc
  · rw [hs] at hsc; injection hsc with hsc; subst hsc
    show stripScheme sc.display source = _
    rw [hd, stripScheme_eq source hcol]; rfl
  · rw [hs] at hsc; cases hsc

/-- The content of an accepted link is always a part of its source. -/
theorem content_sublist {source : Str} {u : ValidURL} (h : validateLink source = .ok u) : ∀ c ∈ u.content, c ∈ source := by
  obtain ⟨_, _, _, _, h4⟩ := validateLink_ok h
  rcases h4 with ⟨sc, hsc, rfl, _⟩ | ⟨hsc, rfl, hc, _⟩ | ⟨sc, hsc, rfl, hc⟩ | ⟨hsc, rfl, hc⟩
  · intro c hc
    have : c ∈ (source.reverse.takeWhile (· != ':')).reverse := hc
    simp only [List.mem_reverse] at this
    simpa using mem_of_mem_takeWhile _ _ _ this
  · exact fun c hc => hc
  · obtain ⟨hcol, hd, _⟩ := sourceScheme_some hsc
    intro c hc
    have : c ∈ stripScheme sc.display source := hc
    rw [hd, stripScheme_eq source hcol] at this
    exact mem_of_mem_dropWhile _ _ _ (List.mem_of_mem_drop this)
  · exact fun c hc => hc

/-- Decoding `&amp;` undoes the replacement of `&`. -/
theorem htmlDecode_amp : ∀ s : Str, htmlDecode (replaceC '&' c!"&amp;" s) = s
  | [] => rfl
  | c :: s => by
    by_cases h : c = '&'
    · subst h
      have : replaceC '&' c!"&amp;" ('&' :: s) = '&' :: 'a' :: 'm' :: 'p' :: ';' :: replaceC '&' c!"&amp;" s := rfl
      rw [this]
      have : ∀ t, htmlDecode ('&' :: 'a' :: 'm' :: 'p' :: ';' :: t) = '&' :: htmlDecode t := fun _ => rfl
      rw [this, htmlDecode_amp s]
    · have : replaceC '&' c!"&amp;" (c :: s) = c :: replaceC '&' c!"&amp;" s := by simp [replaceC, h]
      rw [this, htmlDecode_cons c _ h, htmlDecode_amp s]

end Smd.Gfm
