import Verif.Lemmas.Chars
import Verif.Props.Safety

/-! # The characters of the output -/

namespace Smd.Gfm
open Smd.Rs

/-! ## C177 — The output invents no characters -/

/-- Every character of the output is a character of the document, printable ASCII, a line feed, a tab, or, when the document
has what footnotes need, the arrow back from an endnote. -/
theorem C177_chars (d html : Str) (e : render d = .ok html) : ∀ c ∈ html,
    c ∈ d ∨ (32 ≤ c.toNat ∧ c.toNat ≤ 126) ∨ c = '\n' ∨ c = '\t' ∨ (c = '↩' ∧ '[' ∈ d ∧ '^' ∈ d) := by
  intro c hc
  rcases render_chars' e c hc with h | h | h
  · exact .inl h
  · simp only [ownChar, Bool.or_eq_true, Bool.and_eq_true, decide_eq_true_eq, beq_iff_eq] at h
    rcases h with (⟨h1, h2⟩ | h) | h
    · exact .inr (.inl ⟨Char.le_def.mp h1, Char.le_def.mp h2⟩)
    · exact .inr (.inr (.inl h))
    · exact .inr (.inr (.inr (.inl h)))
  · exact .inr (.inr (.inr (.inr h)))

/-- A document in ASCII without `[` has an output in ASCII. -/
theorem C177_ascii (d html : Str) (hd : ∀ c ∈ d, c.toNat < 128) (hb : '[' ∉ d) (e : render d = .ok html) : ∀ c ∈ html, c.toNat < 128 := by
  intro c hc
  rcases C177_chars d html e c hc with h | h | rfl | rfl | h
  · exact hd c h
  · omega
  · decide
  · decide
  · exact absurd h.2.1 hb

/-- No output has the character NUL, a carriage return or another control character that the document does not have. -/
theorem C177_control (d html : Str) (c : Char) (hc : c.toNat < 32 ∨ c.toNat = 127) (hn : c ≠ '\n') (ht : c ≠ '\t') (hd : c ∉ d) (e : render d = .ok html) :
    c ∉ html := by
  intro h
  rcases C177_chars d html e c h with h | h | h | h | h
  · exact hd h
  · omega
  · exact hn h
  · exact ht h
  · rw [h.1] at hc
    revert hc
    decide

/-- Letters of other alphabets come from the document, and the arrow from a footnote. -/
example : ∃ html, render c!"# Größe\n\n| ä |\n|---|\n| [^1] |\n\n> ñ `é`\n\n[^1]: ø" = .ok html ∧ 'ö' ∈ html ∧ 'ñ' ∈ html ∧ 'é' ∈ html ∧ 'ø' ∈ html ∧
    '↩' ∈ html ∧ 'ü' ∉ html :=
  render_check _ (fun html => 'ö' ∈ html ∧ 'ñ' ∈ html ∧ 'é' ∈ html ∧ 'ø' ∈ html ∧ '↩' ∈ html ∧ 'ü' ∉ html) (by decide +kernel)

/-- A document in ASCII with most constructs. -/
example : ∃ html, render c!"# A\n\n- b\n\n> c **d**\n\n1. e\n\n<details><summary>f</summary>\ng\n</details>\n" = .ok html ∧ html.all (·.toNat < 128) = true :=
  render_check _ (fun html => html.all (·.toNat < 128) = true) (by decide +kernel)

/-- A carriage return in code stays; there is none where the document has none. -/
example : (∃ html, render c!"`a\nb`" = .ok html ∧ '\r' ∉ html) ∧ ∃ html, render c!"`a\rb`" = .ok html ∧ '\r' ∈ html :=
  ⟨render_check _ (fun html => '\r' ∉ html) (by decide +kernel), render_check _ (fun html => '\r' ∈ html) (by decide +kernel)⟩

end Smd.Gfm
