import Verif.Lemmas.ElementSigns
import Verif.Props.Safety

/-! # The elements of the output and the signs of the document -/

namespace Smd.Gfm
open Smd.Rs Smd.Spec

/-! ## C172 — Elements have a sign -/

/-- Every element a browser finds in the output has its sign in the document. The hypothesis is that of C14. -/
theorem C172_signs (d html : Str) (hd : SafeSource False d) (e : render d = .ok html) : ∀ t ∈ htmlTags html, Sign d t.name :=
  Only.names (fun _ h => Sign.known h) (render_only' hd e)

/-- Without the signs of an element the output has no tag of that element. -/
theorem C172_absent (d html n : Str) (hd : SafeSource False d) (hn : n ∈ tagNames) (h : ¬ Sign d n) (e : render d = .ok html) :
    opens n html = 0 ∧ closes n html = 0 := by
  have key := render_only' hd e
  have hne : ∀ m ∈ tagNames, '>' ∉ m ∧ ' ' ∉ m ∧ '/' ∉ m ∧ m ≠ [] := by decide
  have cmp : ∀ (a b r s : Str) (x y : Char), (x = '>' ∨ x = ' ') → (y = '>' ∨ y = ' ') → '>' ∉ a ∧ ' ' ∉ a → '>' ∉ b ∧ ' ' ∉ b →
      a ++ x :: r = b ++ y :: s → a = b := by
    intro a b r s x y hx hy ha hb e
    rcases split_at_char e with ⟨b', rfl, _⟩ | ⟨a', e1, rfl⟩
    · exfalso
      rcases hy with rfl | rfl <;> simp at ha
    · cases a' with
      | nil => simp
      | cons z a' =>
        exfalso
        injection e1 with e1 _
        subst e1
        rcases hx with rfl | rfl <;> simp at hb
  have ⟨n1, n2, n3, n4⟩ := hne n hn
  have no : ∀ (x : Char) (u : Str), (u = [] ∨ u = c!"/") → (x = '>' ∨ x = ' ') → ¬ '<' :: (u ++ n ++ [x]) <:+: html := by
    rintro x u hu hx ⟨a, b, hab⟩
    obtain ⟨y, r, e1, -, m, hm, hy⟩ := key a (u ++ n ++ x :: b) (by rw [← hab]; simp)
    have ⟨m1, m2, m3, m4⟩ := hne m (Sign.known hm)
    apply h
    rcases hu with rfl | rfl
    · rcases hy with rfl | ⟨w, rfl⟩ | rfl
      · exact cmp n y _ _ x '>' hx (.inl rfl) ⟨n1, n2⟩ ⟨m1, m2⟩ (by simpa using e1) ▸ hm
      · exact cmp n m _ _ x ' ' hx (.inr rfl) ⟨n1, n2⟩ ⟨m1, m2⟩ (by simpa using e1) ▸ hm
      · exfalso
        cases n with
        | nil => exact n4 rfl
        | cons c n =>
          simp at e1
          simp [e1.1] at n3
    · rcases hy with rfl | ⟨w, rfl⟩ | rfl
      · exfalso
        cases y with
        | nil => exact m4 rfl
        | cons c m =>
          simp at e1
          simp [← e1.1] at m3
      · exfalso
        cases m with
        | nil => exact m4 rfl
        | cons c m =>
          simp at e1
          simp [← e1.1] at m3
      · exact cmp n m _ _ x '>' hx (.inl rfl) ⟨n1, n2⟩ ⟨m1, m2⟩ (by simpa using e1) ▸ hm
  refine ⟨?_, ?_⟩
  · unfold opens
    rw [occ_zero (by simp) (by simpa using no '>' [] (.inl rfl) (.inl rfl)), occ_zero (by simp) (by simpa using no ' ' [] (.inl rfl) (.inr rfl))]
  · unfold closes
    exact occ_zero (by simp [closeTag]) (by simpa [closeTag] using no '>' c!"/" (.inr rfl) (.inl rfl))

/-- A document without any sign has only paragraphs. -/
theorem C172_paragraphs (d html : Str) (hd : ∀ c ∈ d, c ∉ c!"#>-+*_.[]`\t!~<|\\") (hs : ¬ c!"    " <:+: d) (e : render d = .ok html) :
    ∀ t ∈ htmlTags html, t.name = c!"p" := by
  have no : ∀ c ∈ c!"#>-+*_.[]`\t!~<|\\", c ∉ d := fun c hc h => hd c h hc
  intro t ht
  have h := C172_signs d html (.of_clean (no _ (by decide)) (no _ (by decide))) e t ht
  generalize t.name = n at *
  have em : ∀ c ∈ c!"-+*_", c ∉ d := fun c hc => no c ((by decide : ∀ c ∈ c!"-+*_", c ∈ c!"#>-+*_.[]`\t!~<|\\") c hc)
  cases h with
  | paragraph => rfl
  | heading n hn h => exact absurd h (no _ (by decide))
  | quote h => exact absurd h (no _ (by decide))
  | bullet n hn c hc h => exact absurd h (em c hc)
  | box c hc h => exact absurd h (em c hc)
  | number n hn c hc h hdot => exact absurd hdot (no _ (by decide))
  | note n hn h => exact absurd h (no _ (by decide))
  | code n hn h =>
    rcases h with h | h | h
    · exact absurd h (no _ (by decide))
    · exact absurd h (no _ (by decide))
    · rw [List.filter_eq_self.mpr fun c hc => by simpa using fun (h : c = '\\') => no _ (by decide) (h ▸ hc)] at h
      exact absurd h hs
  | emphasis n hn h => exact h.elim (fun h => absurd h (no _ (by decide))) fun h => absurd h (no _ (by decide))
  | message h => exact absurd h (no _ (by decide))
  | strike h => exact absurd h (no _ (by decide))
  | link h => exact absurd (h.subset (show ']' ∈ c!"](" by simp)) (no _ (by decide))
  | autolink h => exact absurd h (no _ (by decide))
  | image h => exact absurd h (no _ (by decide))
  | details n hn h => exact absurd h (no _ (by decide))
  | table n hn h => exact absurd h (no _ (by decide))
  | rule c hc h => exact absurd h (em c hc)

/-- The message is needed: here is an emphasis without `*` and `_`. -/
theorem C172_message : (∃ html, render c!"- a\n\t![^1]: b" = .ok html ∧ ∃ t ∈ htmlTags html, t.name = c!"em") ∧
    '*' ∉ c!"- a\n\t![^1]: b" ∧ '_' ∉ c!"- a\n\t![^1]: b" :=
  ⟨render_check c!"- a\n\t![^1]: b" (fun html => ∃ t ∈ htmlTags html, t.name = c!"em") (by decide +kernel), by decide, by decide⟩

/-- The hypothesis is needed: the target of a link is copied. -/
example : ∃ html, render c!"[a](<b>x)" = .ok html ∧ c!"<b>" <:+: html :=
  render_check c!"[a](<b>x)" (fun html => c!"<b>" <:+: html) (by decide +kernel)

example : ∃ html, render sampleDoc = .ok html ∧ 10 < (htmlTags html).length ∧ ∀ t ∈ htmlTags html, Sign sampleDoc t.name :=
  have ⟨html, e, h⟩ := render_check sampleDoc (fun html => 10 < (htmlTags html).length) (by decide +kernel)
  ⟨html, e, h, C172_signs _ _ (sampleDoc_safe _) e⟩

example : ∃ html, render c!"- a\n\n1. b\n\n## c" = .ok html ∧ 4 < (htmlTags html).length ∧ opens c!"table" html = 0 ∧ closes c!"table" html = 0 :=
  have ⟨html, e, h⟩ := render_check c!"- a\n\n1. b\n\n## c" (fun html => 4 < (htmlTags html).length) (by decide +kernel)
  ⟨html, e, h, C172_absent _ _ c!"table" (.of_clean (by decide) (by decide)) (by decide)
    (by intro h; cases h <;> first | (next h => revert h; decide) | (next hn _ => revert hn; decide)) e⟩

example : ∃ html, render c!"Some text,\nmore (text)\n\nand 3 & 4" = .ok html ∧ (htmlTags html).length = 4 ∧ ∀ t ∈ htmlTags html, t.name = c!"p" :=
  have ⟨html, e, h⟩ := render_check c!"Some text,\nmore (text)\n\nand 3 & 4" (fun html => (htmlTags html).length = 4) (by decide +kernel)
  ⟨html, e, h, C172_paragraphs _ _ (by decide) (by decide) e⟩

end Smd.Gfm
