import Verif.Spec.Angles
import Verif.Lemmas.Syntax
import Verif.Lemmas.Corners
import Verif.Lemmas.Reference
import Verif.Lemmas.Trailing

/-!
Angle brackets and unfinished links, for C179-C182.
-/

namespace Smd.Gfm
open Smd.Rs Smd.Spec

/-! ### Mail addresses -/

theorem mailChar_facts {c : Char} (h : mailChar c = true) :
    c.toNat < 128 ∧ isWs c = false ∧ c ≠ '>' ∧ c ≠ ':' ∧ c ≠ '@' ∧ c ≠ '\\' := by
  have hn : c.toNat < 128 := by
    simp only [mailChar, Bool.or_eq_true, List.contains_iff_mem] at h
    rcases h with h | h
    · simp only [Char.isAlphanum, Char.isAlpha, Char.isUpper, Char.isLower, Char.isDigit, Bool.or_eq_true, Bool.and_eq_true,
        decide_eq_true_eq, UInt32.le_iff_toNat_le, ge_iff_le] at h
      simp only [Char.toNat]
      rcases h with (⟨h1, h2⟩ | ⟨h1, h2⟩) | ⟨h1, h2⟩
      · exact Nat.lt_of_le_of_lt h2 (by decide)
      · exact Nat.lt_of_le_of_lt h2 (by decide)
      · exact Nat.lt_of_le_of_lt h2 (by decide)
    · have : ∀ c ∈ c!".!#$%&'*+/=?^_`{|}~-", c.toNat < 128 := by decide
      exact this c h
  have all : ∀ n < 128, mailChar (Char.ofNat n) = true →
      isWs (Char.ofNat n) = false ∧ Char.ofNat n ≠ '>' ∧ Char.ofNat n ≠ ':' ∧ Char.ofNat n ≠ '@' ∧ Char.ofNat n ≠ '\\' := by
    decide
  have := all c.toNat hn
  rw [Char.ofNat_toNat] at this
  exact ⟨hn, this h⟩

theorem mail_facts {t : Str} (h : MailAddress t) :
    (∀ c ∈ t, c.toNat < 128 ∧ isWs c = false ∧ c ≠ '>' ∧ c ≠ ':' ∧ c ≠ '\\') ∧ t.count '@' = 1 ∧ '@' ∈ t := by
  obtain ⟨a, b, rfl, ha, hb⟩ := h
  refine ⟨fun c hc => ?_, ?_, by simp⟩
  · rcases List.mem_append.mp hc with hc | hc
    · have := mailChar_facts (ha c hc); tauto
    · rcases List.mem_cons.mp hc with rfl | hc
      · decide
      · have := mailChar_facts (hb c hc); tauto
  · rw [List.count_append, List.count_cons_self, List.count_eq_zero.mpr (fun hm => (mailChar_facts (ha _ hm)).2.2.2.2.1 rfl),
      List.count_eq_zero.mpr (fun hm => (mailChar_facts (hb _ hm)).2.2.2.2.1 rfl)]

theorem validate_mail {t : Str} (h : MailAddress t) : validateLink t = .ok { scheme := some (.email c!"mailto"), content := t } := by
  obtain ⟨hc, h1, hm⟩ := mail_facts h
  have e1 : isAscii t = true := by
    simp only [isAscii, List.all_eq_true, decide_eq_true_eq]
    exact fun c h => (hc c h).1
  have e2 : t.any isWs = false := by
    rw [List.any_eq_false]
    intro c h
    simp [(hc c h).2.1]
  have e3 : t.contains ':' = false := by
    rw [Bool.eq_false_iff, ne_eq, List.contains_iff_mem]
    exact fun h => (hc _ h).2.2.2.1 rfl
  have e4 : t.contains '\\' = false := by
    rw [Bool.eq_false_iff, ne_eq, List.contains_iff_mem]
    exact fun h => (hc _ h).2.2.2.2 rfl
  have e5 : splitScheme t = ([], t) := by simp only [splitScheme, e3]; rfl
  have e6 : sourceScheme t = none := by simp only [sourceScheme, e3]; rfl
  unfold validateLink
  simp only [e1, e2, e5, e6, e4, h1, List.contains_iff_mem.mpr hm]
  rfl

theorem lex_mail {t : Str} (h : MailAddress t) (last : Option Token) :
    nextToken r ig last (c!"<" ++ t ++ c!">" ++ rest) =
      .ok (some (.link { scheme := some (.email c!"mailto"), content := t } none none, rest)) := by
  obtain ⟨hc, h1, hm⟩ := mail_facts h
  have e := lexSideCarrot_auto (r := r) (rest := rest) (fun hx => (hc _ hx).2.2.1 rfl) (validate_mail h) rfl
    (by rintro rfl; revert hm; decide) (by rintro rfl; cases hm) (by
      rw [List.any_eq_false]
      intro c h
      simp [(hc c h).2.1])
  have e' : c!"<" ++ t ++ c!">" ++ rest = '<' :: (t ++ '>' :: rest) := by simp
  rw [e'] at e ⊢
  rw [nextToken_lt, e]
  rfl

/-! ### Links that are not closed -/

theorem lex_unclosed {text target : Str} (h1 : ']' ∉ text) (h2 : ')' ∉ target) (h3 : ' ' ∉ target) (last : Option Token) :
    nextToken r ig last (c!"[" ++ text ++ c!"](" ++ target) = .ok (some (.plaintext (c!"[" ++ text ++ c!"](" ++ target), [])) := by
  have e0 : c!"[" ++ text ++ c!"](" ++ target = '[' :: (text ++ ']' :: '(' :: target) := by simp
  rw [e0]
  have hs := ne_split (u := '(' :: target) h1
  have hall : ∀ x ∈ target, (x != ')' && x != ' ') = true := by
    intro x hx
    have h4 : x ≠ ')' := fun e => h2 (e ▸ hx)
    have h5 : x ≠ ' ' := fun e => h3 (e ▸ hx)
    simp [h4, h5]
  have hd : target.dropWhile (fun c => c != ')' && c != ' ') = [] := dropWhile_all _ _ hall
  have hsl : slice ('[' :: (text ++ ']' :: '(' :: target)) [] = '[' :: (text ++ ']' :: '(' :: target) := by
    have := slice_self_append ('[' :: (text ++ ']' :: '(' :: target)) []
    rwa [List.append_nil] at this
  have e : lexLinks ('[' :: (text ++ ']' :: '(' :: target)) = (.error ('[' :: (text ++ ']' :: '(' :: target)), []) := by
    unfold lexLinks
    simp only [List.head?_cons, ne_eq, not_true_eq_false, if_false, List.drop_one, List.tail_cons, hs, hd, hsl]
    simp
  rw [nextToken_bracket, e]
  rfl

theorem lexLinks_swallow {text target title : Str} {u : ValidURL} (h1 : ']' ∉ text) (h2 : ')' ∉ target) (h3 : ' ' ∉ target)
    (h4 : ')' ∉ title) (hu : validateLink target = .ok u) :
    lexLinks (c!"[" ++ text ++ c!"](" ++ target ++ c!" " ++ title) = (.ok (.link u (some text) (some (' ' :: title))), []) := by
  have e : c!"[" ++ text ++ c!"](" ++ target ++ c!" " ++ title = '[' :: (text ++ ']' :: '(' :: (target ++ (' ' :: title))) := by simp
  rw [e]
  unfold lexLinks
  have hs := ne_split (u := '(' :: (target ++ (' ' :: title))) h1
  have ht := run_split (fun c => c != ')' && c != ' ') (s := target) (rest := ' ' :: title) (by
    intro x hx
    have h4 : x ≠ ')' := fun e => h2 (e ▸ hx)
    have h5 : x ≠ ' ' := fun e => h3 (e ▸ hx)
    simp [h4, h5]) (by simp)
  have hall : ∀ x ∈ ' ' :: title, (x != ')') = true := by
    intro x hx
    have : x ≠ ')' := by rintro rfl; simp [h4] at hx
    simp [this]
  have hh : (' ' :: title).takeWhile (· != ')') = ' ' :: title := takeWhile_all _ _ hall
  have hd : (' ' :: title).dropWhile (· != ')') = [] := dropWhile_all _ _ hall
  simp only [List.head?_cons, ne_eq, not_true_eq_false, if_false, List.drop_one, List.tail_cons, hs, ht]
  rw [if_neg (by simp), if_neg (by simp), if_neg (by simp)]
  simp only [hu, hh, hd]
  simp

theorem lex_swallow {text target title : Str} {u : ValidURL} (h1 : ']' ∉ text) (h2 : ')' ∉ target) (h3 : ' ' ∉ target)
    (h4 : ')' ∉ title) (hu : validateLink target = .ok u) (last : Option Token) :
    nextToken r ig last (c!"[" ++ text ++ c!"](" ++ target ++ c!" " ++ title) =
      .ok (some (.link u (some text) (some (' ' :: title)), [])) := by
  have e := lexLinks_swallow h1 h2 h3 h4 hu
  have e0 : c!"[" ++ text ++ c!"](" ++ target ++ c!" " ++ title = '[' :: (text ++ c!"](" ++ target ++ c!" " ++ title) := by simp
  rw [e0] at e ⊢
  rw [nextToken_bracket, e]
  rfl

/-! ### Tags -/

theorem hasScheme_of_source {t : Str} {sc : Scheme} (h : sourceScheme t = some sc) : HasScheme t := by
  unfold sourceScheme at h
  simp only at h
  split at h
  · next hc =>
    simp only [Bool.and_eq_true, List.contains_iff_mem, List.all_eq_true, decide_eq_true_eq] at hc
    obtain ⟨⟨⟨h1, h2⟩, h3⟩, h4⟩ := hc
    have hcut : t = t.takeWhile (· != ':') ++ ':' :: (t.dropWhile (· != ':')).tail := by
      obtain ⟨a, b, ha, rfl⟩ : ∃ a b, ':' ∉ a ∧ t = a ++ ':' :: b := by
        obtain ⟨a, b, e, ha⟩ := List.eq_append_cons_of_mem h1
        exact ⟨a, b, ha, e⟩
      rw [(ne_split ha).1, (ne_split ha).2]
      rfl
    refine ⟨_, _, hcut, fun c hm => ?_, h3, h4⟩
    have : ∀ c ∈ schemeAscii, c.isAlphanum = true ∨ c ∈ c!"+.-" := by decide
    exact this c (h2 c hm)
  · cases h

theorem validate_tag {t : Str} (ha : '@' ∉ t) (h : ¬ HasScheme t) : ∀ u, validateLink t = .ok u → u.scheme.isSome = false := by
  intro u hu
  obtain ⟨_, _, _, _, hcase⟩ := validateLink_ok hu
  rcases hcase with ⟨sc, hs, _⟩ | ⟨_, _, hc, _⟩ | ⟨sc, hs, _⟩ | ⟨_, rfl, _⟩
  · exact absurd (hasScheme_of_source hs) h
  · rw [List.count_eq_zero.mpr ha] at hc; cases hc
  · exact absurd (hasScheme_of_source hs) h
  · rfl

theorem lex_tag {t : Str} (h0 : t ≠ []) (hgt : '>' ∉ t) (hd : t ≠ c!"details")
    (h : (∃ c ∈ t, isWs c = true) ∨ ('@' ∉ t ∧ ¬ HasScheme t)) (last : Option Token) :
    nextToken r ig last (c!"<" ++ t ++ c!">" ++ rest) = .ok (some (.plaintext (c!"<" ++ t ++ c!">"), rest)) := by
  have e0 : c!"<" ++ t ++ c!">" ++ rest = '<' :: (t ++ '>' :: rest) := by simp
  have hsl : slice ('<' :: (t ++ '>' :: rest)) rest = c!"<" ++ t ++ c!">" := by
    have := slice_self_append (c!"<" ++ t ++ c!">") rest
    rwa [e0] at this
  have e : lexSideCarrot r ('<' :: (t ++ '>' :: rest)) = .ok (.error (c!"<" ++ t ++ c!">"), rest) := by
    unfold lexSideCarrot
    simp only [List.head?_cons, ne_eq, not_true_eq_false, if_false, List.drop_one, List.tail_cons, ne_split hgt, hsl]
    rw [if_pos trivial, if_neg hd, if_pos (by cases t with | nil => exact absurd rfl h0 | cons => simp)]
    by_cases hw : t.any isWs = true
    · rw [if_pos hw]
    · rw [if_neg hw]
      rcases h with ⟨c, hc, hcw⟩ | ⟨ha, hs⟩
      · exact absurd (List.any_eq_true.mpr ⟨c, hc, hcw⟩) hw
      · cases hv : validateLink t with
        | error x => rfl
        | ok u => simp [validate_tag ha hs u hv]
  rw [e0, nextToken_lt, e]
  rfl

theorem lex_details_inline (h1 : rest.head? ≠ some '\n') (h2 : rest.head? ≠ some '\r') (last : Option Token) :
    nextToken r ig last (c!"<details>" ++ rest) = .ok (some (.plaintext c!"details", rest)) := by
  have hs := ne_split (c := '>') (t := c!"details") (u := rest) (by decide)
  have e : lexSideCarrot r ('<' :: (c!"details" ++ '>' :: rest)) = .ok (.error c!"details", rest) := by
    unfold lexSideCarrot
    simp only [List.head?_cons, ne_eq, not_true_eq_false, if_false, List.drop_one, List.tail_cons, hs]
    have : skipIf '\r' rest = rest := by
      unfold skipIf
      cases rest with
      | nil => rfl
      | cons c s => simp_all
    rw [if_pos trivial, if_pos trivial, this, if_neg h1]
  show nextToken r ig last ('<' :: (c!"details" ++ '>' :: rest)) = _
  rw [nextToken_lt, e]
  rfl

theorem lex_details_text {l : Str} (h1 : '\n' ∉ l) (h2 : '\r' ∉ l) (hs : ¬ c!"<summary>" <+: l ∨ ¬ c!"</summary>" <:+ l)
    (hr : rest = [] ∨ ∃ u, rest = '\n' :: u) (last : Option Token) :
    nextToken r ig last (c!"<details>\n" ++ l ++ rest) = .ok (some (.plaintext l, rest)) := by
  have hd := ne_split (c := '>') (t := c!"details") (u := '\n' :: (l ++ rest)) (by decide)
  have hl := run_split (fun c => c != '\n' && c != '\r') (s := l) (rest := rest) (by
    intro x hx
    have h4 : x ≠ '\n' := fun e => h1 (e ▸ hx)
    have h5 : x ≠ '\r' := fun e => h2 (e ▸ hx)
    simp [h4, h5]) (by
    rcases hr with rfl | ⟨u, rfl⟩ <;> simp)
  have hskip : skipIf '\r' rest = rest := by
    rcases hr with rfl | ⟨u, rfl⟩ <;> simp [skipIf]
  have hp : parseDetails r (l ++ rest) = .ok (.error l, rest) := by
    unfold parseDetails
    simp only [hl, hskip]
    rw [if_pos]
    rcases hs with hs | hs
    · rw [show startsWith l c!"<summary>" = false from by
        rw [Bool.eq_false_iff]; intro h; exact hs (startsWith_iff.mp h)]
      rfl
    · rw [show endsWith l c!"</summary>" = false from by
        rw [Bool.eq_false_iff]; intro h; exact hs (endsWith_suffix.mp h)]
      simp
  have e : lexSideCarrot r ('<' :: (c!"details" ++ '>' :: '\n' :: (l ++ rest))) = .ok (.error l, rest) := by
    unfold lexSideCarrot
    simp only [List.head?_cons, ne_eq, not_true_eq_false, if_false, List.drop_one, List.tail_cons, hd]
    have : skipIf '\r' ('\n' :: (l ++ rest)) = '\n' :: (l ++ rest) := by simp [skipIf]
    rw [if_pos trivial, if_pos trivial, this, if_pos (by simp)]
    simpa using hp
  have e0 : c!"<details>\n" ++ l ++ rest = '<' :: (c!"details" ++ '>' :: '\n' :: (l ++ rest)) := by simp
  rw [e0, nextToken_lt, e]
  rfl

end Smd.Gfm
