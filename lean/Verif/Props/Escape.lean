import Verif.Lemmas.Escape

/-! C03, C04, C05: escaping of displayed text and percent-encoding of link targets. -/

namespace Smd.Gfm
open Smd.Rs Smd.Spec

/-- **C03** (no markup delimiters). Escaped text contains none of the delimiters of HTML or Markdown listed. -/
theorem C03_no_delimiters (s : Str) (c : Char) (h : c ∈ c!"<>\"'[]{}|~()\\") : c ∉ sanitize s := by
  rw [sanitize_eq_flatMap]
  intro hm
  obtain ⟨d, _, hd⟩ := List.mem_flatMap.mp hm
  by_cases hs : d ∈ escSpecial
  · have : ∀ d ∈ escSpecial, ∀ c ∈ c!"<>\"'[]{}|~()\\", c ∉ esc d := by decide
    exact this d hs c h hd
  · rw [esc_other d hs] at hd
    have : c = d := by simpa using hd
    subst this
    have : ∀ c ∈ c!"<>\"'[]{}|~()\\", c ∈ escSpecial := by decide
    exact hs (this c h)

/-- **C03** (ampersands). Every `&` of an escaped text is the first character of a character reference. -/
theorem C03_amp_starts_reference (s a b : Str) (h : sanitize s = a ++ '&' :: b) :
    ∃ e ∈ entityTable, e.1 <+: '&' :: b := by
  have t1 : ∀ c ∈ escSpecial, esc c = [] ∨ ∃ e ∈ entityTable, e.1 = esc c := by decide
  have t2 : ∀ c ∈ escSpecial, '&' ∉ (esc c).tail := by decide
  induction s generalizing a with
  | nil => simp [sanitize_nil] at h
  | cons c s ih =>
    rw [sanitize_cons] at h
    rcases List.append_eq_append_iff.mp h with ⟨x, h1, h2⟩ | ⟨x, h1, h2⟩
    · exact ih x h2
    · cases x with
      | nil =>
        simp only [List.nil_append] at h2
        exact ih [] h2.symm
      | cons y ys =>
        simp only [List.cons_append, List.cons.injEq] at h2
        obtain ⟨rfl, rfl⟩ := h2
        -- the `&` is inside `esc c`, so it is its first character
        by_cases hs : c ∈ escSpecial
        · cases a with
          | nil =>
            simp only [List.nil_append] at h1
            rcases t1 c hs with h | ⟨e, he, hp⟩
            · rw [h] at h1; cases h1
            · exact ⟨e, he, by rw [hp, h1]; exact ⟨sanitize s, rfl⟩⟩
          | cons z zs =>
            exfalso
            apply t2 c hs
            rw [h1]
            simp
        · rw [esc_other c hs] at h1
          cases a with
          | nil =>
            simp at h1
            exact absurd (by decide) (h1.1 ▸ hs)
          | cons z zs => simp at h1

/-- **C03** (piecewise). Escaping the pieces of a text is escaping the text. -/
theorem C03_piecewise (a b : Str) : sanitize (a ++ b) = sanitize a ++ sanitize b := sanitize_append a b

/-- **C03** (characters with no meaning in markup are left alone). -/
theorem C03_ordinary_unchanged (s : Str) (h : ∀ c ∈ s, c ∉ c!"&<>\"'[]{}|~()\\") : sanitize s = s := by
  rw [sanitize_eq_flatMap]
  induction s with
  | nil => rfl
  | cons c s ih =>
    have hc : c ∉ escSpecial := by
      intro hm
      have : ∀ c ∈ escSpecial, c ∈ c!"&<>\"'[]{}|~()\\" := by decide
      exact h c (by simp) (this c hm)
    simp [esc_other c hc, ih (fun d hd => h d (by simp [hd]))]

example : sanitize c!"<b title=\"x\">&amp;(a)\\n" =
    c!"&lt;b title=&quot;x&quot;&gt;&amp;amp;&#40;a&#41;n" := by decide

/-- **C04**. What a browser shows for an escaped text is the text without its backslashes. -/
theorem C04_display_roundtrip (s : Str) : htmlDecode (sanitize s) = s.filter (· ≠ '\\') := htmlDecode_sanitize s

/-- **C04** (injectivity). Two texts are escaped to the same text only if they differ in backslashes alone. -/
theorem C04_injective (a b : Str) : sanitize a = sanitize b ↔ a.filter (· ≠ '\\') = b.filter (· ≠ '\\') := by
  constructor
  · intro h
    rw [← htmlDecode_sanitize, ← htmlDecode_sanitize, h]
  · intro h
    have : ∀ s : Str, sanitize s = sanitize (s.filter (· ≠ '\\')) := by
      intro s
      induction s with
      | nil => rfl
      | cons c s ih =>
        by_cases hc : c = '\\'
        · subst hc; rw [sanitize_cons, ih]; simp [esc]
        · rw [sanitize_cons, ih]; simp [hc, sanitize_cons]
    rw [this a, this b, h]

-- A text with markup, references and a backslash.
example : htmlDecode (sanitize c!"&lt;<a>\\|") = c!"&lt;<a>|" := by decide

/-- **C05** (decoding). Percent-decoding an encoded link target gives the target back. -/
theorem C05_roundtrip (s : Str) : percentDecode (percentEncode s) = s := percentDecode_percentEncode s

/-- **C05** (removed characters). None of these characters is left in an encoded target. -/
theorem C05_removed (s : Str) (c : Char) (h : c ∈ c!"#[]!$'()* \\") : c ∉ percentEncode s := by
  rw [percentEncode_eq_flatMap]
  intro hm
  obtain ⟨d, _, hd⟩ := List.mem_flatMap.mp hm
  by_cases hs : d ∈ pctSpecial
  · have : ∀ d ∈ pctSpecial, ∀ c ∈ c!"#[]!$'()* \\", c ∉ pct d := by decide
    exact this d hs c h hd
  · rw [pct_other d hs] at hd
    have : c = d := by simpa using hd
    subst this
    have : ∀ c ∈ c!"#[]!$'()* \\", c ∈ pctSpecial := by decide
    exact hs (this c h)

/-- **C05** (everything else). A target without `%` and the removed characters is unchanged. -/
theorem C05_unchanged (s : Str) (h : ∀ c ∈ s, c ∉ c!"%#[]!$'()* \\") : percentEncode s = s := by
  rw [percentEncode_eq_flatMap]
  induction s with
  | nil => rfl
  | cons c s ih =>
    have hc : c ∉ pctSpecial := by
      intro hm
      have : ∀ c ∈ pctSpecial, c ∈ c!"%#[]!$'()* \\" := by decide
      exact h c (by simp) (this c hm)
    simp [pct_other c hc, ih (fun d hd => h d (by simp [hd]))]

/-- **C05** (piecewise). -/
theorem C05_piecewise (a b : Str) : percentEncode (a ++ b) = percentEncode a ++ percentEncode b :=
  percentEncode_append a b

example : percentEncode c!"//a.b/%20(x)*?q=1" = c!"//a.b/%2520%28x%29%2A?q=1" := by decide

end Smd.Gfm
