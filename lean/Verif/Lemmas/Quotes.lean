import Verif.Lemmas.Blocks

/-! Block quotes. -/

namespace Smd.Gfm
open Smd.Rs Smd.Spec

variable {stop : Str}

variable {r : Rec} {ig : List Char} {rest : Str} {ts : List Token}

theorem detab_eq (x : Str) : replaceStr c!"\t" c!"  " x = detab x := replaceStr_char '\t' _ x

theorem nextToken_gt {last : Option Token} {s : Str} :
    nextToken r ig last ('>' :: s) = .ok (some (resToken (lexBlockquotes ('>' :: s)).1, (lexBlockquotes ('>' :: s)).2)) := by
  unfold nextToken lexDispatch
  simp

theorem atEol_gap {n : Nat} (hn : 1 ≤ n ∨ rest = []) : AtEol (times n '\n' ++ rest) := by
  cases n with
  | zero =>
    rcases hn with hn | rfl
    · omega
    · exact .inl rfl
  | succ n => exact .inr ⟨_, rfl⟩

theorem LexTo.quote {n k g : Nat} {t : Str} (hn : 1 ≤ n) (hk : 1 ≤ k) (ht : '\n' ∉ t) (hg : 1 ≤ g ∨ rest = [])
    (hr : rest.head? ≠ some '\n') (h : LexTo (stop := stop) r ig rest ts) :
    LexTo (stop := stop) r ig (times n '>' ++ times k ' ' ++ t ++ times g '\n' ++ rest)
      (.blockQuote (n % 256) (times k ' ' ++ t) :: (gapToks (g - 1) ++ ts)) := by
  have hsrc : times n '>' ++ times k ' ' ++ t ++ times g '\n' ++ rest =
      times n '>' ++ ((times k ' ' ++ t) ++ (times g '\n' ++ rest)) := by simp
  rw [hsrc]
  refine .cons (s' := times (g - 1) '\n' ++ rest) (fun last => ?_) (LexTo.gaps hr h)
  obtain ⟨u, hu⟩ := times_head (c := ' ') hk (t ++ (times g '\n' ++ rest))
  rw [List.append_assoc (times k ' ')]
  have hs := times_split (c := '>') (n := n) (rest := times k ' ' ++ (t ++ (times g '\n' ++ rest))) (by rw [hu]; simp)
  have hnl : '\n' ∉ times k ' ' ++ t := by simp [List.mem_replicate, ht]
  have e : lexBlockquotes (times n '>' ++ (times k ' ' ++ (t ++ (times g '\n' ++ rest)))) =
      (.ok (.blockQuote (n % 256) (times k ' ' ++ t)), times (g - 1) '\n' ++ rest) := by
    unfold lexBlockquotes
    simp only [hs.1, hs.2, List.length_replicate]
    rw [if_pos (by rw [hu]; simp)]
    rw [← List.append_assoc (times k ' '), takeWhile_eol hnl (atEol_gap hg), dropWhile_eol hnl (atEol_gap hg), skipIf_gap hr]
  obtain ⟨v, hv⟩ := times_head (c := '>') hn (times k ' ' ++ (t ++ (times g '\n' ++ rest)))
  rw [hv] at e ⊢
  rw [nextToken_gt, e]
  rfl

theorem trimSpaces {k : Nat} {t : Str} (h : t.head? ≠ some ' ') : trimStartP (· == ' ') (times k ' ' ++ t) = t :=
  (times_split (c := ' ') (n := k) h).2

theorem quoteTags_eq (l q : Nat) : quoteTags l q = quoteMove q l := by
  unfold quoteTags quoteMove
  by_cases h : l = q
  · subst h
    rw [if_pos rfl, if_neg (by omega), Nat.sub_self]
    rfl
  · rw [if_neg h]
    rfl

theorem parseTok_quote {r : Rec} {n k q : Nat} {t x : Str} (h : Str) (hk : 1 ≤ k) (ht : t.head? ≠ some ' ')
    (hx : r.render [] (escape t) = .ok x) :
    parseTok r (.blockQuote n (times k ' ' ++ t)) (inQ h q) = .ok (inQ (h ++ (quoteMove q n ++ detab x)) n) := by
  have h1 : step1 (.blockQuote n (times k ' ' ++ t)) (inQ h q) = inQ h q := by
    simp [step1, isBlankPlain, isTab, staysInList, staysInTask, opensPara, closesPara, isCode]
  have hne : (times k ' ' ++ t).isEmpty = false := by
    obtain ⟨u, hu⟩ := times_head (c := ' ') hk t
    rw [hu]; rfl
  simp only [parseTok, h1, step2, quoteStep, hne, trimSpaces ht, sanitize_eq_escape, hx]
  simp [PState.push, quoteTags_eq, detab_eq]

theorem parseToks_gaps_inQ (r : Rec) (n q : Nat) (h : Str) : parseToks r (gapToks n) (inQ h q) = .ok (inQ h q) := by
  unfold gapToks gapTok
  split
  · rfl
  · refine parseToks_one ?_
    split
    · exact parseTok_blank r _ (by decide)
    · simp [parseTok, step1, step2, isBlankPlain, isTab, staysInList, staysInTask, opensPara, closesPara, staysInQuote, isCode]

theorem quoteLine_head {l : QuoteLine} (h : l.Good) (rest : Str) : (l.src ++ rest).head? = some '>' := by
  obtain ⟨u, hu⟩ := times_head (c := '>') h.level.1 (times l.spaces ' ' ++ l.text ++ times l.ends '\n' ++ rest)
  unfold QuoteLine.src
  simp only [List.append_assoc] at hu ⊢
  rw [hu]; rfl

theorem quoteEnd_cons (q : Nat) (l : QuoteLine × Str) (ls : List (QuoteLine × Str)) :
    quoteEnd q (l :: ls) = quoteEnd l.1.level ls := by
  cases ls with
  | nil => rfl
  | cons m ms =>
    simp only [quoteEnd, List.getLast?_cons_cons]
    cases h : (m :: ms).getLast? with
    | none => simp at h
    | some a => rfl

/-- Quoted lines, whatever comes after them. -/
theorem quotes_sem {r : Rec} : ∀ (lines : List (QuoteLine × Str)) (q : Nat),
    (∀ l ∈ lines, l.1.Good ∧ ∃ x, r.render [] (escape l.1.text) = .ok x ∧ l.2 = detab x) →
    (∀ l ∈ lines.dropLast, 1 ≤ l.1.ends) →
    ∃ toks, (∀ ig rest ts, rest.head? ≠ some '\n' → (rest = [] ∨ ∀ l ∈ lines, 1 ≤ l.1.ends) → LexTo (stop := stop) r ig rest ts →
        LexTo (stop := stop) r ig ((lines.flatMap fun l => l.1.src) ++ rest) (toks ++ ts)) ∧
      ∀ h, parseToks r toks (inQ h q) = .ok (inQ (h ++ quoteHtml q lines) (quoteEnd q lines))
  | [], q, _, _ => ⟨[], fun ig rest ts _ _ h => h, fun h => by simp [parseToks, quoteHtml, quoteEnd]⟩
  | l :: ls, q, hok, hn => by
    obtain ⟨hg, x, hx, hl⟩ := hok l (by simp)
    obtain ⟨toks, h1, h2⟩ := quotes_sem ls l.1.level (fun m hm => hok m (by simp [hm])) (by
      intro m hm
      refine hn m ?_
      cases ls with
      | nil => simp at hm
      | cons a b => simp [hm])
    refine ⟨.blockQuote (l.1.level % 256) (times l.1.spaces ' ' ++ l.1.text) :: (gapToks (l.1.ends - 1) ++ toks), ?_, ?_⟩
    · intro ig rest ts hr he hts
      have h3 := h1 ig rest ts hr (he.imp id fun h m hm => h m (by simp [hm])) hts
      have hend : 1 ≤ l.1.ends ∨ (ls.flatMap fun l => l.1.src) ++ rest = [] := by
        cases ls with
        | nil =>
          rcases he with rfl | he
          · exact .inr rfl
          · exact .inl (he l (by simp))
        | cons a b => exact .inl (hn l (by simp))
      have hnl : ((ls.flatMap fun l => l.1.src) ++ rest).head? ≠ some '\n' := by
        cases ls with
        | nil => exact hr
        | cons a b =>
          rw [List.flatMap_cons, List.append_assoc, quoteLine_head (hok a (by simp)).1]
          decide
      have := LexTo.quote hg.level.1 hg.spaces hg.oneLine hend hnl h3
      rw [List.flatMap_cons, List.append_assoc, QuoteLine.src]
      simpa using this
    · intro h
      have hlev : l.1.level % 256 = l.1.level := Nat.mod_eq_of_lt (by have := hg.level.2; omega)
      rw [hlev]
      refine parseToks_cons (parseTok_quote h hg.spaces hg.start hx) ?_
      refine parseToks_two (parseToks_gaps_inQ r _ _ _) ?_
      rw [h2, quoteEnd_cons]
      simp [quoteHtml, hl]

theorem finish_inQ (h : Str) (q : Nat) (hh : c!"\n" <:+ h ∨ 1 ≤ q) :
    finish (inQ h q) = h ++ copies q c!"</blockquote>\n" := by
  have e : ∀ a : Str, c!"\n" <:+ a → endNl a = a := by
    rintro _ ⟨a, rfl⟩
    simp [endNl]
  have : c!"\n" <:+ h ++ copies q c!"</blockquote>\n" := by
    cases q with
    | zero => simpa [copies] using hh
    | succ q =>
      rw [show copies (q + 1) c!"</blockquote>\n" = copies q c!"</blockquote>\n" ++ c!"</blockquote>\n" by
        simp [copies, List.replicate_succ']]
      exact ⟨h ++ (copies q c!"</blockquote>\n" ++ c!"</blockquote>"), by simp⟩
  simp only [finish]
  simp [rep]
  exact e _ this

end Smd.Gfm
