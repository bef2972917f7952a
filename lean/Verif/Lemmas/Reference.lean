import Verif.Spec.Reference
import Verif.Lemmas.Exact

/-! References: their parts, and those of the addresses put out. -/

namespace Smd.Spec

theorem mem_before {stop s : Str} {c : Char} (h : c ∈ before stop s) : c ∉ stop := by
  simpa using Smd.mem_takeWhile_true _ _ _ h

theorem before_append_after (stop s : Str) : before stop s ++ after stop s = s := Smd.split_while _ s

theorem mem_after {stop s : Str} {c : Char} (hc : c ∈ stop) (h : c ∈ s) : c ∈ after stop s := by
  rw [← before_append_after stop s, List.mem_append] at h
  exact h.resolve_left fun hb => mem_before hb hc

theorem after_subset {stop s : Str} {c : Char} (h : c ∈ after stop s) : c ∈ s := (List.dropWhile_suffix _).subset h

theorem after_head {stop s : Str} {c : Char} {r : Str} (h : after stop s = c :: r) : c ∈ stop := by
  rcases Smd.dropWhile_cases (fun c => decide (c ∉ stop)) s with ⟨h1, _⟩ | ⟨x, xs, h1, h2⟩
  · rw [after, h1] at h; cases h
  · rw [after, h1] at h
    injection h with h _
    subst h
    simpa using h2

theorem before_stop {stop p t : Str} {c : Char} (hc : c ∈ stop) (hp : ∀ x ∈ p, x ∉ stop) : before stop (p ++ c :: t) = p :=
  Smd.takeWhile_append_stop _ _ _ (by simpa using hc) p (by simpa using hp)

theorem after_stop {stop p t : Str} {c : Char} (hc : c ∈ stop) (hp : ∀ x ∈ p, x ∉ stop) : after stop (p ++ c :: t) = c :: t :=
  Smd.dropWhile_append_stop _ _ _ (by simpa using hc) p (by simpa using hp)

theorem refScheme_some {p t : Str} (hp : p ≠ []) (h : ∀ c ∈ p, c ∉ c!":/?#") : refScheme (p ++ ':' :: t) = (some p, t) := by
  unfold refScheme
  rw [before_stop (by decide) h, after_stop (by decide) h]
  cases p with
  | nil => exact absurd rfl hp
  | cons c p => rfl

theorem refScheme_cases (s : Str) : refScheme s = (none, s) ∨ ∃ p t, s = p ++ ':' :: t ∧ p ≠ [] ∧ (∀ c ∈ p, c ∉ c!":/?#") ∧
    refScheme s = (some p, t) := by
  have e := before_append_after c!":/?#" s
  unfold refScheme
  cases hb : before c!":/?#" s with
  | nil => exact .inl rfl
  | cons c a =>
    cases ha : after c!":/?#" s with
    | nil => exact .inl rfl
    | cons d r =>
      by_cases hd : d = ':'
      · subst hd
        rw [hb, ha] at e
        exact .inr ⟨_, _, e.symm, by simp, fun x hx => mem_before (s := s) (by rw [hb]; exact hx), rfl⟩
      · left
        simp [hd]

theorem refScheme_none {s : Str} (h : (parseRef s).scheme = none) : refScheme s = (none, s) := by
  rcases refScheme_cases s with h1 | ⟨p, t, _, _, _, h1⟩
  · exact h1
  · rw [parseRef, h1] at h; cases h

theorem mem_refScheme {s : Str} (h : '#' ∈ s) : '#' ∈ (refScheme s).2 := by
  rcases refScheme_cases s with h1 | ⟨p, t, he, _, hp, h1⟩
  · rw [h1]; exact h
  · rw [h1]
    rw [he, List.mem_append, List.mem_cons] at h
    rcases h with h | h | h
    · exact absurd (hp _ h) (by decide)
    · cases h
    · exact h

theorem refScheme_subset {s : Str} {c : Char} (h : c ∈ (refScheme s).2) : c ∈ s := by
  rcases refScheme_cases s with h1 | ⟨p, t, he, _, hp, h1⟩
  · rw [h1] at h; exact h
  · rw [h1] at h; rw [he]; simp; exact .inr (.inr h)

theorem mem_refAuthority {s : Str} (h : '#' ∈ s) : '#' ∈ (refAuthority s).2 := by
  unfold refAuthority
  split
  · simp only [List.mem_cons] at h
    rcases h with h | h | h
    · cases h
    · cases h
    · exact mem_after (by decide) h
  · exact h

theorem refAuthority_subset {s : Str} {c : Char} (h : c ∈ (refAuthority s).2) : c ∈ s := by
  unfold refAuthority at h
  split at h
  · have := after_subset h
    simp [this]
  · exact h

theorem refAuthority_none {s : Str} : (refAuthority s).1 = none ↔ ¬ c!"//" <+: s := by
  unfold refAuthority
  split
  · simp
  · next h =>
    refine ⟨fun _ => ?_, fun _ => rfl⟩
    rintro ⟨t, rfl⟩
    exact h t rfl

/-- An address has a fragment if there is a `#` in it. -/
theorem fragment_isSome (s : Str) : (parseRef s).fragment.isSome = true ↔ '#' ∈ s := by
  have hq : ∀ x : Str, '#' ∈ after c!"?#" x → (refFragment (refQuery (after c!"?#" x)).2).isSome = true := by
    intro x hx
    cases he : after c!"?#" x with
    | nil => rw [he] at hx; cases hx
    | cons c r =>
      have hc := after_head he
      rw [he] at hx
      simp only [List.mem_cons, List.not_mem_nil, or_false] at hc
      rcases hc with rfl | rfl
      · have hr : '#' ∈ r := by simpa using hx
        have ha := mem_after (stop := c!"#") (by decide) hr
        simp only [refQuery]
        cases h2 : after c!"#" r with
        | nil => rw [h2] at ha; cases ha
        | cons d t =>
          have := after_head h2
          simp only [List.mem_cons, List.not_mem_nil, or_false] at this
          subst this
          rfl
      · rfl
  constructor
  · intro h
    by_contra hn
    have h1 : '#' ∉ after c!"?#" (refAuthority (refScheme s).2).2 := fun hm =>
      hn (refScheme_subset (refAuthority_subset (after_subset hm)))
    have h2 : '#' ∉ (refQuery (after c!"?#" (refAuthority (refScheme s).2).2)).2 := by
      unfold refQuery
      split
      · next r he =>
        intro hm
        rw [he] at h1
        exact h1 (by simp [after_subset hm])
      · exact h1
    unfold parseRef at h
    simp only at h
    generalize (refQuery (after c!"?#" (refAuthority (refScheme s).2).2)).2 = x at h h2
    unfold refFragment at h
    split at h
    · simp at h2
    · cases h
  · intro h
    exact hq _ (mem_after (by decide) (mem_refAuthority (mem_refScheme h)))

theorem resolve_fragment (b r : Ref) : (resolve b r).fragment = r.fragment := by
  unfold resolve
  split
  · rfl
  · split <;> rfl

theorem resolve_scheme_some (b : Ref) {r : Ref} {s : Str} (h : r.scheme = some s) :
    resolve b r = { r with path := removeDots r.path } := by
  unfold resolve
  rw [h]
  rfl

theorem resolve_scheme_none (b : Ref) {r : Ref} (h : r.scheme = none) : (resolve b r).scheme = b.scheme := by
  unfold resolve
  rw [h, if_neg (by simp)]
  split <;> rfl

theorem resolve_authority_none (b : Ref) {r : Ref} (h : r.scheme = none) (ha : r.authority = none) : (resolve b r).authority = b.authority := by
  unfold resolve
  rw [h, ha, if_neg (by simp), if_neg (by simp)]

/-- The parts of an address with a scheme. -/
theorem parseRef_scheme {p t : Str} (hp : p ≠ []) (h : ∀ c ∈ p, c ∉ c!":/?#") (ht : (parseRef t).scheme = none) :
    parseRef (p ++ ':' :: t) = { parseRef t with scheme := some p } := by
  unfold parseRef
  rw [refScheme_none ht, refScheme_some hp h]

theorem scheme_slashes (t : Str) : (parseRef (c!"//" ++ t)).scheme = none := by
  unfold parseRef refScheme before
  simp

theorem authority_slashes {s : Str} (h : (parseRef s).scheme = none) : (parseRef s).authority.isSome = true ↔ c!"//" <+: s := by
  have h2 := refAuthority_none (s := s)
  have e : (parseRef s).authority = (refAuthority s).1 := by
    unfold parseRef
    rw [refScheme_none h]
  rw [e]
  cases ha : (refAuthority s).1 with
  | none => simpa using h2.mp ha
  | some x =>
    simp only [Option.isSome_some, true_iff]
    by_contra hn
    rw [h2.mpr hn] at ha
    cases ha

end Smd.Spec

namespace Smd.Gfm
open Smd.Rs Smd.Spec

theorem schemeAscii_ref : ∀ c ∈ schemeAscii, c ∉ c!":/?#&" := by decide

/-- A relative reference has no scheme for the code either. -/
theorem sourceScheme_none {s : Str} (h : (parseRef s).scheme = none) : sourceScheme s = none := by
  cases hs : sourceScheme s with
  | none => rfl
  | some sc =>
    obtain ⟨hc, _, ha, hl, _⟩ := sourceScheme_some hs
    have e := split_colon s hc
    have := refScheme_some (p := s.takeWhile (· != ':')) (t := (s.dropWhile (· != ':')).drop 1) (by rintro h0; rw [h0] at hl; simp at hl)
      (fun c hm => fun hx => schemeAscii_ref c (ha c hm) (by simp at hx ⊢; tauto))
    rw [← e] at this
    rw [parseRef, this] at h
    cases h

theorem htmlDecode_plain_append {p : Str} (t : Str) (h : '&' ∉ p) : htmlDecode (p ++ t) = p ++ htmlDecode t := by
  induction p with
  | nil => rfl
  | cons c p ih =>
    simp only [List.mem_cons, not_or] at h
    rw [List.cons_append, htmlDecode_cons _ _ (fun hc => h.1 hc.symm), ih h.2, List.cons_append]

theorem htmlDecode_plain {p : Str} (h : '&' ∉ p) : htmlDecode p = p := by
  have := htmlDecode_plain_append [] h
  simpa [show htmlDecode [] = [] from rfl] using this

/-- The scheme of an accepted address, as put out. -/
theorem display_scheme {source : Str} {u : ValidURL} (h : validateLink source = .ok u) :
    ∀ c ∈ urlScheme u.display, c ∈ schemeAscii := by
  obtain ⟨_, _, hcase⟩ := display_parts h
  rcases hcase with ⟨he, sc, hsc⟩ | ⟨he, _⟩ | ⟨he, _⟩
  · rw [he]
    exact (sourceScheme_some hsc).2.2.1
  · rw [he]; decide
  · rw [he]; decide

/-- The address as a browser reads it. -/
theorem decode_display {source : Str} {u : ValidURL} (h : validateLink source = .ok u) :
    htmlDecode u.display = urlScheme u.display ++ ':' :: percentEncode u.content := by
  obtain ⟨hd, hr, _⟩ := display_parts h
  have hamp : '&' ∉ urlScheme u.display := fun hm => absurd (schemeAscii_ref _ (display_scheme h _ hm)) (by decide)
  rw [hr] at hd
  generalize hp : urlScheme u.display = p at *
  rw [hd, htmlDecode_plain_append _ hamp, htmlDecode_cons _ _ (by decide), htmlDecode_amp]

/-- The same, of a relative address. -/
theorem decode_relative {source : Str} {u : ValidURL} (h : validateLink source = .ok u) (hs : sourceScheme source = none)
    (ha : source.count '@' ≠ 1) : htmlDecode u.display = c!"http" ++ ':' :: percentEncode source := by
  rw [decode_display h]
  obtain ⟨_, _, hcase⟩ := display_parts h
  rcases hcase with ⟨_, sc, hsc⟩ | ⟨_, _, _, hc⟩ | ⟨he, _, hc, _⟩
  · rw [hs] at hsc; cases hsc
  · exact absurd hc ha
  · rw [he, hc]

theorem pct_no_hash (c : Char) : '#' ∉ pct c := by
  intro h
  have := percentEncode_mem (c := '#') (x := [c]) (by rw [percentEncode_single]; exact h) (by decide)
  rw [List.mem_singleton] at this
  subst this
  revert h
  decide

theorem percentEncode_no_hash (s : Str) : '#' ∉ percentEncode s := by
  rw [percentEncode_eq_flatMap]
  intro h
  obtain ⟨c, _, hc⟩ := List.mem_flatMap.mp h
  exact pct_no_hash c hc

/-- No address put out has a fragment. -/
theorem display_no_hash {source : Str} {u : ValidURL} (h : validateLink source = .ok u) : '#' ∉ htmlDecode u.display := by
  rw [decode_display h]
  intro hm
  rw [List.mem_append, List.mem_cons] at hm
  rcases hm with hm | hm | hm
  · exact absurd (schemeAscii_ref _ (display_scheme h _ hm)) (by decide)
  · cases hm
  · exact percentEncode_no_hash _ hm

theorem percentEncode_slash {s t : Str} (h : percentEncode s = '/' :: t) : ∃ s', s = '/' :: s' ∧ t = percentEncode s' := by
  cases s with
  | nil => cases h
  | cons c s =>
    rw [percentEncode_cons] at h
    by_cases hs : c ∈ pctSpecial
    · have hall : ∀ c ∈ pctSpecial, (pct c).head? = some '%' := by decide
      have h1 := hall c hs
      cases hp : pct c with
      | nil => rw [hp] at h1; cases h1
      | cons a b =>
        rw [hp] at h1 h
        simp only [List.head?_cons, Option.some.injEq] at h1
        rw [h1, List.cons_append] at h
        injection h with h _
        exact absurd h (by decide)
    · rw [pct_other c hs, List.singleton_append] at h
      injection h with h h'
      exact ⟨s, by rw [h], h'.symm⟩

theorem percentEncode_slashes (s : Str) : c!"//" <+: percentEncode s ↔ c!"//" <+: s := by
  constructor
  · rintro ⟨t, ht⟩
    obtain ⟨s1, rfl, h1⟩ := percentEncode_slash ht.symm
    obtain ⟨s2, rfl, _⟩ := percentEncode_slash h1.symm
    exact ⟨s2, rfl⟩
  · rintro ⟨t, rfl⟩
    rw [percentEncode_append]
    exact ⟨_, rfl⟩

theorem percentEncode_plain {s : Str} (h : ∀ c ∈ s, c ∉ c!"%#[]!$'()* \\") : percentEncode s = s := by
  rw [percentEncode_eq_flatMap]
  induction s with
  | nil => rfl
  | cons c s ih =>
    rw [List.flatMap_cons, pct_other c (h c (by simp)), ih (fun x hx => h x (by simp [hx]))]
    rfl

theorem length_pct (c : Char) : 1 ≤ (pct c).length ∧ ((pct c).length = 1 → c ∉ pctSpecial) := by
  by_cases hs : c ∈ pctSpecial
  · have : ∀ c ∈ pctSpecial, (pct c).length = 3 := by decide
    rw [this c hs]
    simp
  · rw [pct_other c hs]
    simp [hs]

theorem length_percentEncode (s : Str) : s.length ≤ (percentEncode s).length ∧
    ((percentEncode s).length = s.length → ∀ c ∈ s, c ∉ pctSpecial) := by
  rw [percentEncode_eq_flatMap]
  induction s with
  | nil => simp
  | cons c s ih =>
    obtain ⟨h1, h2⟩ := length_pct c
    rw [List.flatMap_cons, List.length_append, List.length_cons]
    refine ⟨by omega, fun h x hx => ?_⟩
    rcases List.mem_cons.mp hx with rfl | hx
    · exact h2 (by omega)
    · exact ih.2 (by omega) x hx

/-- The document that is one autolink. -/
theorem render_autolink {target : Str} {u : ValidURL} (h1 : '>' ∉ target) (hc : ':' ∈ target) (hu : validateLink target = .ok u)
    (hs : u.scheme.isSome = true) :
    render (c!"<" ++ target ++ c!">") = .ok (elem c!"p" (c!"<a href=\"" ++ u.display ++ c!"\">" ++ u.fmtUnsafe ++ c!"</a>") ++ c!"\n") := by
  refine render_token (fun last => ?_) (shows_autolink u)
  have e := lexSideCarrot_auto (r := self) (rest := []) h1 hu hs (by rintro rfl; revert hc; decide) (by rintro rfl; cases hc) (by
    rw [List.any_eq_false]
    intro c hx
    simpa using (validateLink_ok hu).2.1 c hx)
  rw [List.append_nil] at e
  have e' : c!"<" ++ target ++ c!">" = '<' :: (target ++ c!">") := by simp
  rw [e'] at e ⊢
  rw [nextToken_lt, e]
  rfl

/-- The document that is one image. -/
theorem render_image {text target : Str} {u : ValidURL} (h1 : ']' ∉ text) (h2 : ')' ∉ target) (h3 : ' ' ∉ target)
    (hu : validateLink target = .ok u) (hne : u.content ≠ []) (hw : ∀ c ∈ u.content, isWs c = false) :
    render (c!"![" ++ text ++ c!"](" ++ target ++ c!")") =
      .ok (c!"<p><img src=\"" ++ u.content ++ c!"\" alt=\"" ++ escape text ++ c!"\" referrerpolicy=\"no-referrer\"></p>\n") := by
  have hl := LexTo.image (r := self) (ig := []) h1 h2 h3 hu LexTo.nil
  rw [List.append_nil] at hl
  have ht : trim u.content ≠ [] := by
    cases he : u.content with
    | nil => exact absurd he hne
    | cons c cs =>
      rw [← he]
      exact trim_ne_nil (c := c) (by simp [he]) (hw c (by simp [he]))
  have hf : ∀ h : Str, finish (clean (h ++ c!"</p>")) = h ++ c!"</p>\n" := by
    intro h
    simp [finish, rep, endNl]
  have hi : imageOut u.content (some text) =
      c!"<p><img src=\"" ++ u.content ++ c!"\" alt=\"" ++ escape text ++ c!"\" referrerpolicy=\"no-referrer\">" ++ c!"</p>" := by
    simp only [imageOut, if_neg ht, sanitize_eq_escape, List.append_assoc]
    rfl
  rw [render_of hl (parseToks_one (parseTok_image_clean self u.content text [])), List.nil_append, hi, hf]
  simp

end Smd.Gfm
