import Verif.Lemmas.Documents

/-! Consequences of `render_doc` and of the lexing lemmas for texts that stand alone. -/

namespace Smd.Gfm
open Smd.Rs Smd.Spec

variable {r : Rec} {ig : List Char} {rest : Str} {ts : List Token}

/-- Running text rendered by itself. -/
theorem render_inlines {is : List Inline} (h : InlineGood none is) (hv : ∃ i, is.head? = some i ∧ i.Visible) :
    render (inlineSrc is) = .ok (elem c!"p" (inlineHtml is) ++ c!"\n") := by
  rw [elem_p]
  exact renderIgnore_inlines [] h hv

/-- One piece rendered by itself. -/
theorem render_inline {i : Inline} (h : i.Good none) (hv : i.Visible) :
    render i.src = .ok (elem c!"p" i.html ++ c!"\n") := by
  have := render_inlines (is := [i]) ⟨by simpa [inlineSrc] using h, trivial⟩ ⟨i, rfl, hv⟩
  simpa [inlineSrc, inlineHtml] using this

/-- A text that is lexed to one token which shows `x`. -/
theorem render_token {s x : Str} {t : Token} (h : ∀ last, nextToken self [] last s = .ok (some (t, []))) (ht : ShowsTok t x) :
    render s = .ok (elem c!"p" x ++ c!"\n") := by
  have hp := ht.opens.clean self []
  rw [List.nil_append] at hp
  rw [render_of (LexTo.cons h LexTo.nil) hp, finish_inP, elem_p]

/-- Running text after a token that shows `x`. -/
theorem render_token_inlines {s x : Str} {t : Token} {is : List Inline} (hg : InlineGood none is)
    (h : ∀ last, nextToken self [] last (s ++ inlineSrc is) = .ok (some (t, inlineSrc is))) (ht : ShowsTok t x) :
    render (s ++ inlineSrc is) = .ok (elem c!"p" (x ++ inlineHtml is) ++ c!"\n") := by
  obtain ⟨toks, hl, ha, _⟩ := inlines_sem hg
  have h1 := hl self [] [] [] hg LexTo.nil
  rw [List.append_nil, List.append_nil] at h1
  have hp := parseToks_two (ht.opens.clean self []) (ha self _ false)
  rw [render_of (LexTo.cons h h1) hp, finish_inP, elem_p]
  simp

/-- Every paragraph is running text. -/
theorem paragraph_inlines {p l : Str} (h : Paragraph p l) : ∃ is, inlineSrc is = p ∧ inlineHtml is = escape l ∧
    InlineGood (some '\n') is ∧ (∃ i, is.head? = some i ∧ i.Visible) ∧ (∃ i, is.getLast? = some i ∧ i.Visible) := by
  induction h with
  | one w hw =>
    exact ⟨[.word w], by simp [inlineSrc, Inline.src], by simp [inlineHtml, Inline.html], ⟨hw, trivial⟩, ⟨_, rfl, trivial⟩, ⟨_, rfl, trivial⟩⟩
  | more w p l sep hw hs hp ih =>
    obtain ⟨is, h1, h2, h3, h4, h5⟩ := ih
    obtain ⟨⟨a, u, e, ha⟩, _⟩ := head_ends h3 h4
    have hlast : ∀ x y : Inline, ∃ i, (x :: y :: is).getLast? = some i ∧ i.Visible := by
      intro x y
      obtain ⟨i, hi, hv⟩ := h5
      refine ⟨i, ?_, hv⟩
      cases is with
      | nil => cases hi
      | cons j js => simpa using hi
    have hne : ∀ c, isWs c = true → (inlineSrc is).head?.or (some '\n') ≠ some c := by
      intro c hc
      rw [e]
      simp
      rintro rfl
      rw [ha] at hc; cases hc
    rcases hs with rfl | rfl
    · refine ⟨.word w :: .space 1 :: is, by simp [inlineSrc, Inline.src, ← h1, List.replicate], ?_, ⟨hw, ⟨by omega, by omega, hne _ (by decide), hne _ (by decide)⟩, h3⟩,
        ⟨_, rfl, trivial⟩, hlast _ _⟩
      rw [escape_append, ← h2]
      simp [inlineHtml, Inline.html]
    · refine ⟨.word w :: .eol :: is, by simp [inlineSrc, Inline.src, ← h1], ?_, ⟨hw, hne _ (by decide), h3⟩, ⟨_, rfl, trivial⟩, hlast _ _⟩
      rw [escape_append, ← h2]
      simp [inlineHtml, Inline.html]

/-! ### Hashes that are text -/

theorem hashes_text {n : Nat} (hn : 1 ≤ n) (hh : rest.head? ≠ some '#')
    (h : 7 ≤ n ∨ ∀ c ∈ c!" \t\n", rest.head? ≠ some c) (last : Option Token) :
    nextToken r [] last (times n '#' ++ rest) = .ok (some (.plaintext (times n '#'), rest)) := by
  obtain ⟨k, rfl⟩ : ∃ k, n = k + 1 := ⟨n - 1, by omega⟩
  have e : lexHeading r (times (k + 1) '#' ++ rest) = .ok (.error (times (k + 1) '#'), rest) := by
    unfold lexHeading
    simp only [times_split hh, List.length_replicate]
    split
    · rfl
    · next h6 =>
      have h : ∀ c ∈ c!" \t\n", rest.head? ≠ some c := by
        rcases h with h | h
        · omega
        · exact h
      have hs : headingSep rest = none := by
        cases rest with
        | nil => rfl
        | cons c cs =>
          have h1 : c ≠ ' ' := by simpa using h ' ' (by decide)
          have h2 : c ≠ '\t' := by simpa using h '\t' (by decide)
          have h3 : c ≠ '\n' := by simpa using h '\n' (by decide)
          unfold headingSep
          split
          · next e => injection e with e _; exact absurd e h1
          · next e => injection e with e _; exact absurd e h2
          · next e => injection e with e _; exact absurd e h3
          · rfl
      rw [hs]
  rw [times_succ_append] at e ⊢
  rw [nextToken_hash rfl, e]
  rfl

theorem shown_of_chars {t : Str} {c : Char} (h : c ∈ t) (hc : isWs c = false) (hn : '\n' ∉ t) (hb : '[' ∉ t ∨ ']' ∉ t) : Shown t :=
  ⟨trim_ne_nil h hc, hn, by
    rcases hb with hb | hb
    · exact .inl fun hi => hb (hi.subset (by simp))
    · exact .inr hb⟩

/-! ### Unmatched markers -/

/-- Two or three markers, a text, and another number of markers. -/
theorem au_unmatched {n k : Nat} {m : Char} {t : Str} (hm : m = '*' ∨ m = '_') (ht : Inline.EmText t) (hn : n = 2 ∨ n = 3) (hk : k ≠ n)
    (last : Option Token) :
    nextToken r ig last (times n m ++ t ++ times k m) = .ok (some (.plaintext (times n m ++ t ++ times k m), [])) := by
  have e : lexAsteriskUnderscore (times n m ++ (t ++ times k m)) = (.error (times n m ++ t ++ times k m), []) := by
    have h1 := au_split n hm ht (rest := times k m)
    have h2 : (t ++ times k m).takeWhile (fun c => !isAU c) = t ∧ (t ++ times k m).dropWhile (fun c => !isAU c) = times k m := by
      refine run_split _ ?_ ?_
      · intro x hx
        have h1 : x ≠ '*' := fun e => ht.2.1 (e ▸ hx)
        have h2 : x ≠ '_' := fun e => ht.2.2 (e ▸ hx)
        simp [isAU, h1, h2]
      · intro c hc
        have : c = m := by
          cases k with
          | zero => simp at hc
          | succ k => simpa [List.replicate_succ] using hc.symm
        subst this
        rcases hm with rfl | rfl <;> rfl
    have h3 := em_close_split k hm (rest := []) (by simp) (by simp)
    rw [List.append_nil] at h3
    have hsl : slice (times n m ++ (t ++ times k m)) [] = times n m ++ t ++ times k m := by
      have := slice_self_append (times n m ++ (t ++ times k m)) []
      simpa using this
    unfold lexAsteriskUnderscore
    simp only [h1, h2, h3, List.length_replicate, hsl]
    rw [if_neg (fun h => by omega), if_neg (fun h => (emText_head ht _).2 h.2), if_neg (by omega)]
    rcases hn with rfl | rfl
    · rw [if_pos rfl, if_neg hk]
    · rw [if_neg (by omega), if_pos rfl, if_neg hk]
  rw [List.append_assoc] at e ⊢
  obtain ⟨j, rfl⟩ : ∃ j, n = j + 1 := ⟨n - 1, by omega⟩
  rw [times_succ_append] at e ⊢
  rw [nextToken_au hm, e]
  rfl

theorem tilde_unmatched {k : Nat} {t : Str} (hne : t ≠ []) (ht : '~' ∉ t) (hk : k ≠ 2) (last : Option Token) :
    nextToken r ig last (times 2 '~' ++ t ++ times k '~') = .ok (some (.plaintext (times 2 '~' ++ t ++ times k '~'), [])) := by
  have e : lexTilde (times 2 '~' ++ (t ++ times k '~')) = (.error (times 2 '~' ++ t ++ times k '~'), []) := by
    have hh : (t ++ times k '~').head? ≠ some '~' := by
      cases t with
      | nil => exact absurd rfl hne
      | cons c t => simp at ht ⊢; exact fun h => ht.1 h.symm
    have hs := run_split (· != '~') (s := t) (rest := times k '~') (by
      intro x hx
      simp
      rintro rfl
      exact ht hx) (by
      intro c hc
      cases k with
      | zero => simp at hc
      | succ k => have : '~' = c := by simpa [List.replicate_succ] using hc
                  subst this; rfl)
    have hc := times_split (c := '~') (n := k) (rest := []) (by simp)
    rw [List.append_nil] at hc
    have hsl : slice (times 2 '~' ++ (t ++ times k '~')) [] = times 2 '~' ++ t ++ times k '~' := by
      have := slice_self_append (times 2 '~' ++ (t ++ times k '~')) []
      simpa using this
    unfold lexTilde
    simp only [times_split hh, hs, hc, hsl, List.length_replicate]
    rw [if_neg (by omega), if_pos trivial, if_pos (Ne.symm hk)]
  rw [List.append_assoc] at e ⊢
  rw [times_succ_append] at e ⊢
  rw [nextToken_tilde, e]
  rfl

/-- Two dashes are text. -/
theorem dashes_text {c d : Char} (hc : c = '-' ∨ c = '+') (hd : d = '-' ∨ d = '+') (h1 : rest.head? ≠ some '-') (h2 : rest.head? ≠ some '+')
    (last : Option Token) : nextToken r ig last ([c, d] ++ rest) = .ok (some (.plaintext [c, d], rest)) := by
  have hs := run_split (fun c => c == '-' || c == '+') (s := [c, d]) (rest := rest) (by
    intro x hx
    rcases hc with rfl | rfl <;> rcases hd with rfl | rfl <;> simp at hx <;> rcases hx with rfl | rfl <;> rfl) (by
    intro x hx
    have e1 : x ≠ '-' := fun e => h1 (e ▸ hx)
    have e2 : x ≠ '+' := fun e => h2 (e ▸ hx)
    simp [e1, e2])
  have e : lexPlusMinus r ([c, d] ++ rest) = .ok (.error [c, d], rest) := by
    unfold lexPlusMinus
    simp only [hs, slice_self_append]
    rw [if_neg (by simp), if_pos (by simp)]
  have e' : [c, d] ++ rest = c :: d :: rest := rfl
  rw [e'] at e ⊢
  rw [nextToken_bullet hc, e]
  rfl

end Smd.Gfm
