import Verif.Lemmas.Inside

/-! Lemmas about markup that is shown as it is written: markers inside emphasised text, lists that begin inside a line and
text directly after quotes. -/

namespace Smd.Gfm
open Smd.Rs Smd.Spec

variable {r : Rec} {ig : List Char} {rest : Str} {ts : List Token}

/-- Two or three markers, a text, another number of markers, and something after them. -/
theorem au_unmatched_then {n k : Nat} {m : Char} {t : Str} (hm : m = '*' ∨ m = '_') (ht : Inline.EmText t) (hn : n = 2 ∨ n = 3)
    (hk : k ≠ n) (hk1 : 1 ≤ k) (hr1 : rest.head? ≠ some '*') (hr2 : rest.head? ≠ some '_') (last : Option Token) :
    nextToken r ig last (times n m ++ t ++ times k m ++ rest) = .ok (some (.plaintext (times n m ++ t ++ times k m), rest)) := by
  have e : lexAsteriskUnderscore (times n m ++ (t ++ (times k m ++ rest))) = (.error (times n m ++ t ++ times k m), rest) := by
    have h1 := au_split n hm ht (rest := times k m ++ rest)
    have h2 : (t ++ (times k m ++ rest)).takeWhile (fun c => !isAU c) = t ∧
        (t ++ (times k m ++ rest)).dropWhile (fun c => !isAU c) = times k m ++ rest := by
      refine run_split _ ?_ ?_
      · intro x hx
        have h1 : x ≠ '*' := fun e => ht.2.1 (e ▸ hx)
        have h2 : x ≠ '_' := fun e => ht.2.2 (e ▸ hx)
        simp [isAU, h1, h2]
      · intro c hc
        have : c = m := by
          obtain ⟨j, rfl⟩ : ∃ j, k = j + 1 := ⟨k - 1, by omega⟩
          simpa [List.replicate_succ] using hc.symm
        subst this
        rcases hm with rfl | rfl <;> rfl
    have h3 := em_close_split k hm hr1 hr2
    have hsl : slice (times n m ++ (t ++ (times k m ++ rest))) rest = times n m ++ t ++ times k m := by
      have := slice_self_append (times n m ++ t ++ times k m) rest
      simpa using this
    unfold lexAsteriskUnderscore
    simp only [h1, h2, h3, List.length_replicate, hsl]
    rw [if_neg (fun h => by omega), if_neg (fun h => (emText_head ht _).2 h.2), if_neg (by omega)]
    rcases hn with rfl | rfl
    · rw [if_pos rfl, if_neg hk]
    · rw [if_neg (by omega), if_pos rfl, if_neg hk]
  have ea : times n m ++ t ++ times k m ++ rest = times n m ++ (t ++ (times k m ++ rest)) := by simp
  rw [ea]
  obtain ⟨j, rfl⟩ : ∃ j, n = j + 1 := ⟨n - 1, by omega⟩
  rw [times_succ_append] at e ⊢
  rw [nextToken_au hm, e]
  rfl

/-- An item with `*` or `_` at the end of the document: one line. -/
theorem LexTo.lastAu {m : Char} {w : Str} (hm : m = '*' ∨ m = '_') (hw : '\n' ∉ w) :
    LexTo r ig (m :: ' ' :: w) [.unorderedListEntry [.plaintext (bulletText '*' w)]] := by
  refine .cons (s' := []) (fun last => ?_) LexTo.nil
  rw [nextToken_au hm]
  have h1 : w.takeWhile (· != '\n') = w := by simpa using takeWhile_eol hw (.inl rfl)
  have h2 : w.dropWhile (· != '\n') = [] := by simpa using dropWhile_eol hw (.inl rfl)
  have e : lexAsteriskUnderscore (m :: ' ' :: w) = (.ok (.unorderedListEntry [.plaintext w]), []) := by
    have e0 : (m :: ' ' :: w).takeWhile (fun c => c == '*' || c == '_' || c == '\t') = [m] ∧
        (m :: ' ' :: w).dropWhile (fun c => c == '*' || c == '_' || c == '\t') = ' ' :: w := by
      rcases hm with rfl | rfl <;> exact ⟨rfl, rfl⟩
    unfold lexAsteriskUnderscore
    simp only [e0]
    rw [if_pos ⟨rfl, rfl⟩]
    simp [h1, h2]
  rw [e]
  rfl

/-- Quoted lines and text directly after them. -/
theorem quotes_text {is : List Inline} {lines : List (QuoteLine × Str)} {s : Str} {ts : List Token} {st : PState}
    (hg : (Ending.quotes lines).Good fun s x => render s = .ok x) (hq : ∀ l ∈ lines, 1 ≤ l.1.ends) (hi : InlineGood s.head? is)
    (hv : ∃ i, is.head? = some i ∧ i.Visible) (h : LexTo self [] s ts)
    (hp : parseToks self ts (inP (quoteHtml 0 lines ++ copies (quoteEnd 0 lines) c!"</blockquote>" ++ c!"<p>" ++ inlineHtml is)) = .ok st) :
    render ((Ending.quotes lines).src ++ inlineSrc is ++ s) = .ok (finish st) := by
  obtain ⟨hne, hgap, hok⟩ := hg
  obtain ⟨toks, h1, h2⟩ := quotes_sem (r := self) (stop := []) lines 0 hok hgap
  obtain ⟨t1, hl1, _, ho1⟩ := inlines_sem hi
  have hnl : (inlineSrc is ++ s).head? ≠ some '\n' := by
    obtain ⟨⟨a, u, ea, ha⟩, _⟩ := head_ends hi hv
    rw [ea]
    simp only [List.cons_append, List.head?_cons, ne_eq, Option.some.injEq]
    rintro rfl
    revert ha
    decide
  have hl := h1 [] _ _ hnl (.inr hq) (hl1 self [] s ts hi h)
  have ee : (lines.flatMap fun l => l.1.src) = (Ending.quotes lines).src := rfl
  rw [List.append_assoc, ← ee]
  refine render_of hl (parseToks_two (h2 []) (parseToks_two (ho1 hv self _ _) ?_))
  rw [← hp]
  simp [closeQ, copies, rep]

end Smd.Gfm
