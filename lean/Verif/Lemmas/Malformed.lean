import Verif.Lemmas.Angles
import Verif.Lemmas.Inside
import Verif.Lemmas.Notes

/-!
Quotes without a space, fences that are not closed and lines of footnotes, for C183-C185.
-/

namespace Smd.Gfm
open Smd.Rs Smd.Spec

/-! ### A tab after the signs of a quote -/

theorem lex_quote_tab {n : Nat} {t : Str} (hn : 1 ≤ n) (ht : '\n' ∉ t) (last : Option Token) :
    nextToken r ig last (times n '>' ++ '\t' :: t) = .ok (some (.blockQuote (n % 256) ('\t' :: t), [])) := by
  have hs := times_split (c := '>') (n := n) (rest := '\t' :: t) (by simp)
  have hnl : '\n' ∉ '\t' :: t := by simp [ht]
  have e : lexBlockquotes (times n '>' ++ '\t' :: t) = (.ok (.blockQuote (n % 256) ('\t' :: t)), []) := by
    unfold lexBlockquotes
    simp only [hs.1, hs.2, List.length_replicate]
    rw [if_pos (by simp), takeWhile_all _ _ (by intro x hx; simp; rintro rfl; exact hnl hx),
      dropWhile_all _ _ (by intro x hx; simp; rintro rfl; exact hnl hx)]
    rfl
  obtain ⟨v, hv⟩ := times_head (c := '>') hn ('\t' :: t)
  rw [hv] at e ⊢
  rw [nextToken_gt, e]
  rfl

theorem parseTok_quote_tab {r : Rec} {n q : Nat} {t x : Str} (h : Str) (hx : r.render [] (escape ('\t' :: t)) = .ok x) :
    parseTok r (.blockQuote n ('\t' :: t)) (inQ h q) = .ok (inQ (h ++ (quoteMove q n ++ detab x)) n) := by
  have h1 : step1 (.blockQuote n ('\t' :: t)) (inQ h q) = inQ h q := by
    simp [step1, isBlankPlain, isTab, staysInList, staysInTask, opensPara, closesPara, isCode]
  have e : trimStartP (· == ' ') ('\t' :: t) = '\t' :: t := by simp [trimStartP]
  simp only [parseTok, h1, step2, quoteStep, e, sanitize_eq_escape, hx]
  simp [PState.push, quoteTags_eq, detab_eq]

/-! ### Fences -/

theorem lex_fence {lang body : Str} {k : Nat} (h1 : '\n' ∉ lang) (h2 : lang.head? ≠ some '`') (h3 : '`' ∉ body) (hk : k ≠ 3)
    (hr : rest.head? ≠ some '`') (h0 : k = 0 → rest = []) (last : Option Token) :
    nextToken r ig last (c!"```" ++ lang ++ c!"\n" ++ body ++ times k '`' ++ rest) =
      .ok (some (.plaintext (c!"```" ++ lang ++ c!"\n" ++ body ++ times k '`'), rest)) := by
  have hs := times_split (c := '`') (n := 3) (rest := lang ++ ('\n' :: (body ++ (times k '`' ++ rest)))) (by
    cases lang with
    | nil => simp
    | cons c l => simpa using h2)
  have hb : (body ++ (times k '`' ++ rest)).takeWhile (· != '`') = body ∧ (body ++ (times k '`' ++ rest)).dropWhile (· != '`') = times k '`' ++ rest :=
    run_split (fun c => c != '`') (by intro x hx; simp; rintro rfl; exact h3 hx) (by
      intro c hc
      cases k with
      | zero => simp [h0 rfl] at hc
      | succ k => simp [times, List.replicate_succ] at hc; simp [← hc])
  have ht := times_split (c := '`') (n := k) hr
  have e0 : c!"```" ++ lang ++ c!"\n" ++ body ++ times k '`' ++ rest = times 3 '`' ++ (lang ++ ('\n' :: (body ++ (times k '`' ++ rest)))) := by
    simp [times, List.replicate_succ]
  have hsl : slice (times 3 '`' ++ (lang ++ ('\n' :: (body ++ (times k '`' ++ rest))))) rest = c!"```" ++ lang ++ c!"\n" ++ body ++ times k '`' := by
    rw [← e0]
    exact slice_self_append _ _
  have e2 : (if (lang ++ ('\n' :: (body ++ (times k '`' ++ rest)))).head? = some '\n' then (lang ++ ('\n' :: (body ++ (times k '`' ++ rest)))).drop 1
      else ((lang ++ ('\n' :: (body ++ (times k '`' ++ rest)))).dropWhile (· != '\n')).drop 1) = body ++ (times k '`' ++ rest) := by
    rw [(ne_split h1).2]
    cases lang with
    | nil => simp
    | cons c l =>
      have : c ≠ '\n' := fun e => h1 (by simp [e])
      simp [this]
  have e : lexBackticks (times 3 '`' ++ (lang ++ ('\n' :: (body ++ (times k '`' ++ rest))))) =
      (.error (c!"```" ++ lang ++ c!"\n" ++ body ++ times k '`'), rest) := by
    unfold lexBackticks
    simp only [hs.1, hs.2, e2, hb.1, hb.2, ht.1, ht.2, hsl, List.length_replicate, if_true]
    rw [if_pos (by omega)]
  rw [e0]
  have e3 : times 3 '`' ++ (lang ++ ('\n' :: (body ++ (times k '`' ++ rest)))) = '`' :: (c!"``" ++ (lang ++ ('\n' :: (body ++ (times k '`' ++ rest))))) := by
    simp [times, List.replicate_succ]
  rw [e3] at e ⊢
  rw [nextToken_tick, e]
  rfl

/-! ### Lines of footnotes -/

theorem lex_note_indent {id t : Str} {k : Nat} (hb : ']' ∉ id) (ht : '\n' ∉ t) (hk : k ≠ 0 ∧ k ≠ 2 ∧ k ≠ 4) (hr : rest.head? ≠ some ' ')
    (last : Option Token) :
    nextToken r ig last (c!"[^" ++ id ++ c!"]:" ++ t ++ c!"\n" ++ times k ' ' ++ rest) =
      .ok (some (.plaintext (c!"[^" ++ id ++ c!"]:" ++ t ++ c!"\n" ++ times k ' '), rest)) := by
  have hs := run_split (fun c => c != ']') (s := '^' :: id) (rest := c!"]:" ++ (t ++ '\n' :: (times k ' ' ++ rest))) (by
    intro x hx; simp; rintro rfl; simp at hx; exact hb hx) (by simp)
  have hsl : slice (c!"[^" ++ id ++ c!"]:" ++ t ++ c!"\n" ++ times k ' ' ++ rest) rest = c!"[^" ++ id ++ c!"]:" ++ t ++ c!"\n" ++ times k ' ' :=
    slice_self_append _ _
  have e0 : (c!"[^" ++ id ++ c!"]:" ++ t ++ c!"\n" ++ times k ' ' ++ rest).drop 1 = ('^' :: id) ++ (c!"]:" ++ (t ++ '\n' :: (times k ' ' ++ rest))) := by simp
  have hf : ∀ n, footnoteLoop (n + 1) (t ++ '\n' :: (times k ' ' ++ rest)) = (false, rest) := by
    intro n
    have hsp := times_split (c := ' ') (n := k) hr
    obtain ⟨v, hv⟩ := times_head (c := ' ') (n := k) (by omega) rest
    unfold footnoteLoop
    simp only [(ne_split ht).2, List.drop_one, List.tail_cons, hsp.1, hsp.2, List.length_replicate]
    rw [if_neg (by rw [hv]; simp), if_neg (by rw [hv]; simp), if_neg (by omega)]
  have e : lexLinks (c!"[^" ++ id ++ c!"]:" ++ t ++ c!"\n" ++ times k ' ' ++ rest) =
      (.error (c!"[^" ++ id ++ c!"]:" ++ t ++ c!"\n" ++ times k ' '), rest) := by
    unfold lexLinks
    rw [if_neg (by simp)]
    simp only [e0, hs.1, hs.2]
    rw [if_neg (by simp), if_pos (by simp [startsWith])]
    have e3 : ((c!"]:" ++ (t ++ '\n' :: (times k ' ' ++ rest))).drop 1).drop 1 = t ++ '\n' :: (times k ' ' ++ rest) := by simp
    simp only [e3, hf, hsl]
    simp
  have : c!"[^" ++ id ++ c!"]:" ++ t ++ c!"\n" ++ times k ' ' ++ rest = '[' :: ('^' :: (id ++ c!"]:" ++ t ++ c!"\n" ++ times k ' ' ++ rest)) := by simp
  rw [this] at e ⊢
  rw [nextToken_bracket, e]
  rfl

theorem plainOut_note_indent {id t : Str} {k : Nat} (h1 : '[' ∉ id ++ t) (hn : '\n' ∉ id ++ t)
    (he : (trimEnd (id ++ c!"]:" ++ t)).getLast? ≠ some ']') :
    plainOut (c!"[^" ++ id ++ c!"]:" ++ t ++ c!"\n" ++ times k ' ') = id ++ c!"]:" ++ t := by
  rw [← plainOut_named h1 hn he]
  have hn' : '\n' ∉ c!"[^" ++ id ++ c!"]:" ++ t := by simpa using hn
  have e1 : plainTrim (c!"[^" ++ id ++ c!"]:" ++ t ++ c!"\n" ++ times k ' ') = c!"[^" ++ id ++ c!"]:" ++ t := by
    have := plainTrim_blank (s := c!"[^" ++ id ++ c!"]:" ++ t) (w := times k ' ') (by
      intro c hc; rw [(List.mem_replicate.mp hc).2]; decide) (by
      intro hc; have := (List.mem_replicate.mp hc).2; revert this; decide) (fun hx => hn' (hx.subset (by simp)))
    simpa using this
  have e2 : plainTrim (c!"[^" ++ id ++ c!"]:" ++ t) = c!"[^" ++ id ++ c!"]:" ++ t := by
    unfold plainTrim afterLast
    rw [if_neg (by simpa using hn)]
  unfold plainOut
  rw [e1, e2]

end Smd.Gfm
