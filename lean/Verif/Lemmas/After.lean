import Verif.Lemmas.Documents
import Verif.Lemmas.Forms
import Verif.Lemmas.Nested

/-! Indented lines after lists and quotes, and what the asterisk as list marker does not do. -/

namespace Smd.Gfm
open Smd.Rs Smd.Spec

variable {r : Rec} {ig : List Char} {rest : Str} {ts : List Token}

/-- `rest` after `n` line ends does not belong to a list item before them: not indented, or by spaces after a blank line. -/
structure Behind (n : Nat) (rest : Str) : Prop where
  noNl : rest.head? ≠ some '\n'
  noTab : rest.head? ≠ some '\t'
  noSpace : rest.head? ≠ some ' ' ∨ 2 ≤ n

theorem Behind.ends {n : Nat} (h : Behind n rest) (hn : 1 ≤ n) : ItemEnds (times n '\n' ++ rest) := by
  rcases h.noSpace with hs | h2
  · exact itemEnds_gap ⟨h.noNl, hs, h.noTab⟩ (.inl hn)
  · match n, h2 with
    | 2, _ =>
      refine ⟨.inr ⟨_, rfl⟩, ?_, by simp [List.replicate], by simp [List.replicate]⟩
      have h3 := h.noTab
      cases rest with
      | nil => simp [List.replicate]
      | cons c cs => simp [List.replicate] at h3 ⊢; exact fun h => h3 h.symm
    | n + 3, _ => exact ⟨.inr ⟨_, rfl⟩, by simp [List.replicate_succ], by simp [List.replicate_succ], by simp [List.replicate_succ]⟩

/-- An item of a list with `*`: one line, whatever comes after it. -/
theorem LexTo.star {w : Str} {n : Nat} (hw : '\n' ∉ w) (hn : 1 ≤ n ∨ rest = []) (hr : rest.head? ≠ some '\n') (h : LexTo r ig rest ts) :
    LexTo r ig (('*' :: ' ' :: w) ++ (times n '\n' ++ rest)) (.unorderedListEntry [.plaintext (bulletText '*' w)] :: (gapToks (n - 1) ++ ts)) := by
  refine .cons (s' := times (n - 1) '\n' ++ rest) (fun last => ?_) (LexTo.gaps hr h)
  have heol : AtEol (times n '\n' ++ rest) := by
    cases n with
    | zero =>
      rcases hn with hn | rfl
      · omega
      · exact .inl rfl
    | succ n => exact .inr ⟨_, rfl⟩
  rw [List.cons_append, nextToken_au (.inl rfl)]
  have e : lexAsteriskUnderscore ('*' :: (' ' :: w ++ (times n '\n' ++ rest))) =
      (.ok (.unorderedListEntry [.plaintext w]), times (n - 1) '\n' ++ rest) := by
    unfold lexAsteriskUnderscore
    rw [if_pos (by simp)]
    have e1 : (('*' :: (' ' :: w ++ (times n '\n' ++ rest))).dropWhile (fun c => c == '*' || c == '_' || c == '\t')).drop 1 =
        w ++ (times n '\n' ++ rest) := rfl
    simp only [e1, takeWhile_eol hw heol, dropWhile_eol hw heol]
    congr 1
    cases n with
    | zero =>
      rcases hn with hn | rfl
      · omega
      · rfl
    | succ n => rfl
  rw [e]
  rfl

theorem LexTo.bullet_behind {c : Char} {w : Str} {n : Nat} (hc : c = '-' ∨ c = '+' ∨ c = '*') (hw : '\n' ∉ w)
    (hb : ∀ x ∈ c!" xX", ¬ ['[', x, ']', ' '] <+: w) (hn : 1 ≤ n) (hr : Behind n rest) (h : LexTo r ig rest ts) :
    LexTo r ig ((c :: ' ' :: w) ++ (times n '\n' ++ rest)) (.unorderedListEntry [.plaintext (bulletText c w)] :: (gapToks (n - 1) ++ ts)) := by
  rcases hc with rfl | rfl | rfl
  · refine .cons (s' := times (n - 1) '\n' ++ rest) (fun last => ?_) (LexTo.gaps hr.noNl h)
    have e := lexPlusMinus_item r (.inl rfl) hw (hr.ends hn) (hb ' ' (by decide)) (hb 'x' (by decide)) (hb 'X' (by decide))
    rw [List.cons_append] at e ⊢
    rw [nextToken_bullet (.inl rfl), e, skipIf_gap hr.noNl]
    rfl
  · refine .cons (s' := times (n - 1) '\n' ++ rest) (fun last => ?_) (LexTo.gaps hr.noNl h)
    have e := lexPlusMinus_item r (.inr rfl) hw (hr.ends hn) (hb ' ' (by decide)) (hb 'x' (by decide)) (hb 'X' (by decide))
    rw [List.cons_append] at e ⊢
    rw [nextToken_bullet (.inr rfl), e, skipIf_gap hr.noNl]
    rfl
  · exact LexTo.star hw (.inl hn) hr.noNl h

theorem LexTo.task_behind {c x : Char} {b : TaskBox} {w : Str} {n : Nat} (hc : c = '-' ∨ c = '+') (hx : boxOf x = some b) (hw : '\n' ∉ w)
    (hn : 1 ≤ n) (hr : Behind n rest) (h : LexTo r ig rest ts) :
    LexTo r ig ((c :: ' ' :: '[' :: x :: ']' :: ' ' :: w) ++ (times n '\n' ++ rest)) (.taskListItem b w :: (gapToks (n - 1) ++ ts)) := by
  refine .cons (s' := times (n - 1) '\n' ++ rest) (fun last => ?_) (LexTo.gaps hr.noNl h)
  have he := hr.ends hn
  have e := lexPlusMinus_task r hc hx hw he.eol he.noPara
  rw [List.cons_append] at e ⊢
  rw [nextToken_bullet hc, e, skipIf_gap hr.noNl]
  rfl

/-- A list with a blank line and something that may be indented by spaces after it. -/
theorem lists_behind {l : Ending} {R : Str → Str → Prop} (hg : l.Good R) (hs : l.Spaced) (ha : l.Apart) : ∃ toks,
    (∀ rest ts, rest.head? ≠ some '\n' → rest.head? ≠ some '\t' → LexTo self [] rest ts → LexTo self [] (l.src ++ rest) (toks ++ ts)) ∧
    ∀ h, parseToks self toks (clean h) = .ok (listSt (h ++ l.opened) l) := by
  cases l with
  | bullets items =>
    obtain ⟨h0, _, hok⟩ := hg
    refine ⟨items.flatMap fun i => .unorderedListEntry [.plaintext (bulletText i.1 (inlineSrc i.2.1))] :: gapToks (i.2.2 - 1),
      fun rest ts h1 h2 h => ?_, fun h => ?_⟩
    · refine list_lex (fun i : Char × List Inline × Nat => i.1 :: ' ' :: inlineSrc i.2.1 ++ times i.2.2 '\n') _ h items ?_
      intro i is his ts hts
      obtain ⟨hm, _, hnl, _, hbox⟩ := hok i (his.subset (by simp))
      have hnext : Behind i.2.2 ((is.flatMap fun i => i.1 :: ' ' :: inlineSrc i.2.1 ++ times i.2.2 '\n') ++ rest) := by
        cases is with
        | nil =>
          refine ⟨h1, h2, .inr (ha i ?_)⟩
          obtain ⟨pre, rfl⟩ := his
          simp
        | cons j js =>
          have := (hok j (his.subset (by simp))).1
          rw [List.flatMap_cons]
          rcases this with e | e | e <;> exact ⟨by simp [e], by simp [e], by simp [e]⟩
      have := LexTo.bullet_behind hm hnl hbox (hs i (his.subset (by simp))) hnext hts
      simpa using this
    · have := (list_parse self (fun i : Char × List Inline × Nat => .unorderedListEntry [.plaintext (bulletText i.1 (inlineSrc i.2.1))] :: gapToks (i.2.2 - 1))
        (fun i => c!"<li>\n" ++ (elem c!"p" (inlineHtml i.2.1) ++ c!"\n") ++ c!"</li>\n") ulSt c!"<ul>\n" items (by
          intro i hi b h
          obtain ⟨_, hgood, _, hv, _⟩ := hok i hi
          obtain ⟨⟨a, u, e, ha⟩, _⟩ := head_ends hgood hv
          refine parseToks_cons (parseTok_bullet self h ?_ ?_ (renderIgnore_inlines [] (inlineGood_none hgood) hv) (para_noPre hgood)) ?_
          · simp only [e]; simp; rintro rfl; revert ha; decide
          · simp only [e]; simp; rintro rfl; revert ha; decide
          · rw [parseToks_gaps_ul]
            simp [ulOpen, elem])).2 h0 h
      rw [this]
      simp [listSt, Ending.opened]
  | ordered items =>
    obtain ⟨h0, _, hok⟩ := hg
    refine ⟨items.flatMap fun i => .orderedListEntry i.2.1 :: gapToks i.2.2, fun rest ts h1 h2 h => ?_, fun h => ?_⟩
    · refine list_lex (fun i : Char × Str × Nat => i.1 :: '.' :: ' ' :: i.2.1 ++ times i.2.2 '\n') _ h items ?_
      intro i is his ts hts
      have hb := hok i (his.subset (by simp))
      have hnext : ((is.flatMap fun i => i.1 :: '.' :: ' ' :: i.2.1 ++ times i.2.2 '\n') ++ rest).head? ≠ some '\n' := by
        cases is with
        | nil => exact h1
        | cons j js =>
          have := (hok j (his.subset (by simp))).1
          rw [List.flatMap_cons]
          simp
          rintro e
          rw [e] at this
          revert this
          decide
      have := LexTo.ordered (n := i.2.2) hb.1 hb.2 (.inl (hs i (his.subset (by simp)))) hnext hts
      simpa using this
    · have := (list_parse self (fun i : Char × Str × Nat => .orderedListEntry i.2.1 :: gapToks i.2.2)
        (fun i => c!"<li>\n" ++ escape i.2.1 ++ c!"</li>\n") olSt c!"<ol>\n" items (by
          intro i hi b h
          refine parseToks_cons (parseTok_ordered self b _ _) ?_
          rw [parseToks_gaps_ol])).2 h0 h
      rw [this]
      simp [listSt, Ending.opened]
  | tasks items =>
    obtain ⟨h0, _, hok⟩ := hg
    obtain ⟨_, _, h3⟩ := tasks_behind (stop := []) self [] items hok hs
    refine ⟨items.flatMap fun i => .taskListItem (if i.2.1 = ' ' then .unchecked else .checked) i.2.2.1 :: gapToks (i.2.2.2 - 1),
      fun rest ts h1 h2 h => ?_, fun h => ?_⟩
    · refine list_lex (fun i : Char × Char × Str × Nat => i.1 :: ' ' :: '[' :: i.2.1 :: ']' :: ' ' :: i.2.2.1 ++ times i.2.2.2 '\n') _ h items ?_
      intro i is his ts hts
      obtain ⟨hb1, hb2, hb3⟩ := hok i (his.subset (by simp))
      have hnext : Behind i.2.2.2 ((is.flatMap fun i => i.1 :: ' ' :: '[' :: i.2.1 :: ']' :: ' ' :: i.2.2.1 ++ times i.2.2.2 '\n') ++ rest) := by
        cases is with
        | nil =>
          refine ⟨h1, h2, .inr (ha i ?_)⟩
          obtain ⟨pre, rfl⟩ := his
          simp
        | cons j js =>
          have := (hok j (his.subset (by simp))).1
          rw [List.flatMap_cons]
          rcases this with e | e <;> exact ⟨by simp [e], by simp [e], by simp [e]⟩
      have := LexTo.task_behind hb1 (boxOf_some hb2) hb3 (hs i (his.subset (by simp))) hnext hts
      simpa using this
    · have hp : ∀ i ∈ items, ∀ b h, parseToks self (.taskListItem (if i.2.1 = ' ' then .unchecked else .checked) i.2.2.1 :: gapToks (i.2.2.2 - 1)) (taskSt b h) =
          .ok (taskSt true (h ++ (if b then [] else c!"<ul class=\"contains-task-list\">") ++ taskHtml (decide (i.2.1 ≠ ' ')) i.2.2.1)) := by
        intro i hi b h
        refine parseToks_cons (parseTok_task self b _ _ _) ?_
        rw [parseToks_gaps_task]
        by_cases hx : i.2.1 = ' ' <;> simp [hx]
      generalize he : c!"<ul class=\"contains-task-list\">" = op at hp
      rw [(list_parse self (fun i : Char × Char × Str × Nat =>
        .taskListItem (if i.2.1 = ' ' then .unchecked else .checked) i.2.2.1 :: gapToks (i.2.2.2 - 1))
        (fun i => taskHtml (decide (i.2.1 ≠ ' ')) i.2.2.1) taskSt op items hp).2 h0 h]
      simp [listSt, Ending.opened, ← he]
  | _ => exact hs.elim

theorem parseTok_code_list (r : Rec) {l : Ending} (hs : l.Spaced) (t h : Str) :
    parseTok r (.code t) (listSt h l) = .ok (inP (h ++ l.close ++ c!"<p>" ++ escape t)) := by
  cases l <;> first | exact hs.elim | simp [listSt, Ending.close, parseTok, step1, step2, isBlankPlain, isTab, staysInList, staysInTask, opensPara, PState.ensurePara, PState.push, sanitize_eq_escape]

theorem parseTok_code_inQ (r : Rec) (t h : Str) (q : Nat) :
    parseTok r (.code t) (inQ h q) = .ok { html := h ++ c!"<pre><code>" ++ escape t, quoteLevel := q, inCode := true } := by
  simp [parseTok, step1, step2, isBlankPlain, isTab, staysInList, staysInTask, opensPara, closesPara, staysInQuote, isCode, PState.push, sanitize_eq_escape]

end Smd.Gfm
