import Verif.Lemmas.Inline
import Verif.Lemmas.Html

/-! Lexing and parsing of lists. -/

namespace Smd.Gfm
open Smd.Rs Smd.Spec

variable {stop : Str}

variable {r : Rec} {ig : List Char} {rest : Str} {ts : List Token}

/-- The tokens of `n` line ends. -/
def gapToks (n : Nat) : List Token := if n = 0 then [] else [gapTok n]

theorem LexTo.gaps {n : Nat} (hs : rest.head? ≠ some '\n') (h : LexTo (stop := stop) r ig rest ts) :
    LexTo (stop := stop) r ig (times n '\n' ++ rest) (gapToks n ++ ts) := by
  unfold gapToks
  by_cases hn : n = 0
  · subst hn; exact h
  · rw [if_neg hn]
    exact LexTo.gap (by omega) hs h

theorem replaceStr_none {p q : Str} : ∀ {s : Str}, ¬ p <:+: s → replaceStr p q s = s
  | [], _ => rfl
  | c :: s, h => by
    rw [replaceStr_nomatch q (fun hp => h hp.isInfix), replaceStr_none fun hi => h (hi.trans (List.suffix_cons c s).isInfix)]

/-- What may follow the line of a list item and its line ends. -/
def NextLine (rest : Str) : Prop := rest.head? ≠ some '\n' ∧ rest.head? ≠ some ' ' ∧ rest.head? ≠ some '\t'

theorem NextLine.nil : NextLine [] := by simp [NextLine]

theorem itemEnds_gap {n : Nat} (h : NextLine rest) (hn : 1 ≤ n ∨ rest = []) : ItemEnds (times n '\n' ++ rest) := by
  obtain ⟨h1, h2, h3⟩ := h
  match n with
  | 0 =>
    rcases hn with hn | rfl
    · omega
    · exact ItemEnds.nil
  | 1 =>
    cases rest with
    | nil => exact ItemEnds.nl
    | cons c cs => exact ItemEnds.line (by simpa using h1) (by simpa using h2) (by simpa using h3)
  | 2 =>
    refine ⟨.inr ⟨_, rfl⟩, ?_, ?_, ?_⟩
    · cases rest with
      | nil => simp [List.replicate]
      | cons c cs => simp [List.replicate] at h3 ⊢; exact fun h => h3 h.symm
    · simp [List.replicate]
    · simp [List.replicate]
  | n + 3 => exact ⟨.inr ⟨_, rfl⟩, by simp [List.replicate_succ], by simp [List.replicate_succ], by simp [List.replicate_succ]⟩

theorem skipIf_gap {n : Nat} (h : rest.head? ≠ some '\n') : skipIf '\n' (times n '\n' ++ rest) = times (n - 1) '\n' ++ rest := by
  cases n with
  | zero =>
    cases rest with
    | nil => rfl
    | cons c cs =>
      have : c ≠ '\n' := by simpa using h
      simp [skipIf, this]
  | succ n => rfl

/-- The text a bullet's token holds. -/
def bulletText (c : Char) (w : Str) : Str := if c = '*' then w else ' ' :: w

theorem LexTo.bullet {c : Char} {w : Str} {n : Nat} (hc : c = '-' ∨ c = '+' ∨ c = '*') (hw : '\n' ∉ w)
    (h1 : ¬ c!"[ ] " <+: w) (h2 : ¬ c!"[x] " <+: w) (h3 : ¬ c!"[X] " <+: w) (hn : 1 ≤ n ∨ rest = [])
    (hr : NextLine rest) (h : LexTo (stop := stop) r ig rest ts) :
    LexTo (stop := stop) r ig ((c :: ' ' :: w) ++ (times n '\n' ++ rest))
      (.unorderedListEntry [.plaintext (bulletText c w)] :: (gapToks (n - 1) ++ ts)) := by
  refine .cons (s' := times (n - 1) '\n' ++ rest) (fun last => ?_) (LexTo.gaps hr.1 h)
  have he := itemEnds_gap hr hn
  have hcase : (c = '-' ∨ c = '+') ∨ c = '*' := by
    rcases hc with h | h | h
    · exact .inl (.inl h)
    · exact .inl (.inr h)
    · exact .inr h
  rcases hcase with hc | rfl
  · have e := lexPlusMinus_item r hc hw he h1 h2 h3
    rw [List.cons_append] at e ⊢
    rw [nextToken_bullet hc, e, skipIf_gap hr.1]
    rcases hc with rfl | rfl <;> rfl
  · rw [List.cons_append, nextToken_au (.inl rfl)]
    have e : lexAsteriskUnderscore ('*' :: (' ' :: w ++ (times n '\n' ++ rest))) =
        (.ok (.unorderedListEntry [.plaintext w]), times (n - 1) '\n' ++ rest) := by
      unfold lexAsteriskUnderscore
      rw [if_pos (by simp)]
      have e1 : (('*' :: (' ' :: w ++ (times n '\n' ++ rest))).dropWhile (fun c => c == '*' || c == '_' || c == '\t')).drop 1 =
          w ++ (times n '\n' ++ rest) := rfl
      simp only [e1, takeWhile_eol hw he.eol, dropWhile_eol hw he.eol]
      congr 1
      cases n with
      | zero =>
        rcases hn with hn | rfl
        · omega
        · rfl
      | succ n => rfl
    rw [e]
    rfl

/-- Inside a list of bullets, or before one. -/
abbrev ulSt (b : Bool) (h : Str) : PState := { html := h, inUl := b }

def ulOpen (b : Bool) : Str := if b then [] else c!"<ul>\n"

theorem bulletText_arg {c : Char} {w : Str} (h1 : w.head? ≠ some ' ') (h2 : w.head? ≠ some '\t') :
    (if startsWith (bulletText c w) c!"\t\t" then trimStartP (· == ' ') ((bulletText c w).drop 1)
      else trimStartP (· == ' ') (bulletText c w)) = w := by
  have hd : w.dropWhile (· == ' ') = w := by
    cases w with
    | nil => rfl
    | cons d w =>
      have : d ≠ ' ' := by simpa using h1
      simp [this]
  unfold bulletText trimStartP
  split
  · next hc =>
    rw [if_neg, hd]
    intro hp
    have hp := startsWith_iff.mp hp
    obtain ⟨u, hu⟩ := hp
    rw [← hu] at h2
    simp at h2
  · rw [if_neg]
    · simp [hd]
    · intro hp
      have hp := startsWith_iff.mp hp
      simp at hp

theorem parseTok_bullet (r : Rec) {b : Bool} {c : Char} {w x : Str} (h : Str) (h1 : w.head? ≠ some ' ')
    (h2 : w.head? ≠ some '\t') (hx : r.render [] w = .ok x) (hp : ¬ c!"<pre><code>" <:+: x) :
    parseTok r (.unorderedListEntry [.plaintext (bulletText c w)]) (ulSt b h) =
      .ok (ulSt true (h ++ ulOpen b ++ (c!"<li>\n" ++ x ++ c!"</li>\n"))) := by
  have e : entryOut r [.plaintext (bulletText c w)] = .ok x := by
    simp only [entryOut, bulletText_arg h1 h2, hx, Outcome.ok_bind, replaceStr_none hp, List.append_nil]
  cases b
  · simp [parseTok, step1, step2, isBlankPlain, isTab, staysInList, staysInTask, opensPara, closesPara, staysInQuote, isCode, e,
      isPlaintext, PState.push, ulOpen]
  · simp [parseTok, step1, step2, isBlankPlain, isTab, staysInList, e, isPlaintext, PState.push, ulOpen]

theorem parseToks_gaps_ul (r : Rec) (n : Nat) (h : Str) : parseToks r (gapToks n) (ulSt true h) = .ok (ulSt true h) := by
  unfold gapToks gapTok
  split
  · rfl
  · refine parseToks_one ?_
    split
    · exact parseTok_blank r _ (by decide)
    · simp [parseTok, step1, step2, isBlankPlain, isTab, staysInList]

/-- Lines of a list of bullets: marker, text, line ends after it, and the rendering of the text. -/
structure BulletOk (c : Char) (w : Str) : Prop where
  marker : c = '-' ∨ c = '+' ∨ c = '*'
  oneLine : '\n' ∉ w
  noSpace : w.head? ≠ some ' '
  noTab : w.head? ≠ some '\t'
  noBox : ∀ x ∈ c!" xX", ¬ ['[', x, ']', ' '] <+: w

theorem finish_ul (h : Str) : finish (ulSt true h) = h ++ c!"</ul>\n" := by
  simp [finish, rep, endNl]

/-- A list of items that are lexed and parsed one after the other. -/
theorem list_sem {ι : Type} (r : Rec) (ig : List Char) (src : ι → Str) (tok : ι → List Token) (out : ι → Str)
    (st : Bool → Str → PState) (op : Str) : ∀ (items : List ι),
    (∀ i is, i :: is <:+ items → ∀ ts, LexTo r ig (is.flatMap src) ts → LexTo r ig (src i ++ is.flatMap src) (tok i ++ ts)) →
    (∀ i ∈ items, ∀ b h, parseToks r (tok i) (st b h) = .ok (st true (h ++ (if b then [] else op) ++ out i))) →
    ∃ toks, LexTo r ig (items.flatMap src) toks ∧
      (∀ h, parseToks r toks (st true h) = .ok (st true (h ++ items.flatMap out))) ∧
      (items ≠ [] → ∀ h, parseToks r toks (st false h) = .ok (st true (h ++ op ++ items.flatMap out)))
  | [], _, _ => ⟨[], LexTo.nil, fun h => by simp [parseToks], fun h => absurd rfl h⟩
  | i :: is, hl, hp => by
    obtain ⟨toks, h1, h2, _⟩ := list_sem r ig src tok out st op is
      (fun j js hj => hl j js (hj.trans (List.suffix_cons i is))) (fun j hj => hp j (by simp [hj]))
    refine ⟨tok i ++ toks, hl i is (List.suffix_refl _) toks h1, fun h => ?_, fun _ h => ?_⟩
    · refine parseToks_two (hp i (by simp) true h) ?_
      rw [h2]; simp
    · refine parseToks_two (hp i (by simp) false h) ?_
      rw [h2]; simp

theorem last_empty {ι : Type} {src : ι → Str} {gap : ι → Nat} {i : ι} {is items : List ι} (h : i :: is <:+ items)
    (hn : ∀ i ∈ items.dropLast, 1 ≤ gap i) : 1 ≤ gap i ∨ is.flatMap src = [] := by
  cases is with
  | nil => exact .inr rfl
  | cons j js =>
    refine .inl (hn i ?_)
    obtain ⟨pre, rfl⟩ := h
    rw [List.dropLast_append_of_ne_nil (by simp)]
    simp

/-- A line of a list of bullets: marker, text, number of line ends after it, and the rendering of the text. -/
theorem bullets_sem (r : Rec) (ig : List Char) (items : List (Char × Str × Nat × Str))
    (hok : ∀ i ∈ items, BulletOk i.1 i.2.1 ∧ r.render [] i.2.1 = .ok i.2.2.2 ∧ ¬ c!"<pre><code>" <:+: i.2.2.2)
    (hn : ∀ i ∈ items.dropLast, 1 ≤ i.2.2.1) :
    ∃ toks, LexTo r ig (items.flatMap fun i => i.1 :: ' ' :: i.2.1 ++ times i.2.2.1 '\n') toks ∧
      (items ≠ [] → ∀ h, parseToks r toks (clean h) =
        .ok (ulSt true (h ++ c!"<ul>\n" ++ items.flatMap fun i => c!"<li>\n" ++ i.2.2.2 ++ c!"</li>\n"))) := by
  refine Exists.elim (list_sem r ig (fun i : Char × Str × Nat × Str => i.1 :: ' ' :: i.2.1 ++ times i.2.2.1 '\n')
    (fun i => .unorderedListEntry [.plaintext (bulletText i.1 i.2.1)] :: gapToks (i.2.2.1 - 1))
    (fun i => c!"<li>\n" ++ i.2.2.2 ++ c!"</li>\n") ulSt c!"<ul>\n" items ?_ ?_) (fun toks h => ⟨toks, h.1, h.2.2⟩)
  · intro i is his ts hts
    have hb := (hok i (his.subset (by simp))).1
    have hnext : NextLine (is.flatMap fun i => i.1 :: ' ' :: i.2.1 ++ times i.2.2.1 '\n') := by
      cases is with
      | nil => exact NextLine.nil
      | cons j js =>
        have := (hok j (his.subset (by simp))).1.marker
        rw [List.flatMap_cons]
        rcases this with e | e | e <;> simp [NextLine, e]
    have := LexTo.bullet (n := i.2.2.1) hb.marker hb.oneLine (hb.noBox ' ' (by decide)) (hb.noBox 'x' (by decide))
      (hb.noBox 'X' (by decide)) (last_empty (gap := fun i => i.2.2.1) his hn) hnext hts
    simpa using this
  · intro i hi b h
    obtain ⟨hb, hx, hpc⟩ := hok i hi
    refine parseToks_cons (parseTok_bullet r h hb.noSpace hb.noTab hx hpc) ?_
    rw [parseToks_gaps_ul]
    rfl

/-! ### Ordered lists -/

theorem LexTo.ordered {d : Char} {w : Str} {n : Nat} (hd : d ∈ c!"0123456789") (hw : '\n' ∉ w) (hn : 1 ≤ n ∨ rest = [])
    (hr : rest.head? ≠ some '\n') (h : LexTo (stop := stop) r ig rest ts) :
    LexTo (stop := stop) r ig ((d :: '.' :: ' ' :: w) ++ (times n '\n' ++ rest)) (.orderedListEntry w :: (gapToks n ++ ts)) := by
  refine .cons (s' := times n '\n' ++ rest) (fun last => ?_) (LexTo.gaps hr h)
  have heol : AtEol (times n '\n' ++ rest) := by
    cases n with
    | zero =>
      rcases hn with hn | rfl
      · omega
      · exact .inl rfl
    | succ n => exact .inr ⟨_, rfl⟩
  have key : nextToken r ig last (d :: '.' :: ' ' :: w ++ (times n '\n' ++ rest)) =
      .ok (some (.orderedListEntry ((w ++ (times n '\n' ++ rest)).takeWhile (· != '\n')),
        (w ++ (times n '\n' ++ rest)).dropWhile (· != '\n'))) := by
    simp only [List.mem_cons, List.not_mem_nil, or_false] at hd
    unfold nextToken lexDispatch
    rcases hd with rfl | rfl | rfl | rfl | rfl | rfl | rfl | rfl | rfl | rfl <;> simp [lexNumbers, resToken]
  rw [key, takeWhile_eol hw heol, dropWhile_eol hw heol]

/-- Inside an ordered list, or before one. -/
abbrev olSt (b : Bool) (h : Str) : PState := { html := h, inOl := b }

theorem parseTok_ordered (r : Rec) (b : Bool) (w h : Str) :
    parseTok r (.orderedListEntry w) (olSt b h) =
      .ok (olSt true (h ++ (if b then [] else c!"<ol>\n") ++ (c!"<li>\n" ++ escape w ++ c!"</li>\n"))) := by
  cases b
  · simp [parseTok, step1, step2, isBlankPlain, isTab, staysInList, staysInTask, opensPara, closesPara, staysInQuote, isCode,
      PState.push, sanitize_eq_escape]
  · simp [parseTok, step1, step2, isBlankPlain, isTab, staysInList, PState.push, sanitize_eq_escape]

theorem parseToks_gaps_ol (r : Rec) (n : Nat) (h : Str) : parseToks r (gapToks n) (olSt true h) = .ok (olSt true h) := by
  unfold gapToks gapTok
  split
  · rfl
  · refine parseToks_one ?_
    split
    · exact parseTok_blank r _ (by decide)
    · simp [parseTok, step1, step2, isBlankPlain, isTab, staysInList]

theorem finish_ol (h : Str) : finish (olSt true h) = h ++ c!"</ol>\n" := by
  simp [finish, rep, endNl]

theorem ordered_sem (r : Rec) (ig : List Char) (items : List (Char × Str × Nat))
    (hok : ∀ i ∈ items, i.1 ∈ c!"0123456789" ∧ '\n' ∉ i.2.1) (hn : ∀ i ∈ items.dropLast, 1 ≤ i.2.2) :
    ∃ toks, LexTo r ig (items.flatMap fun i => i.1 :: '.' :: ' ' :: i.2.1 ++ times i.2.2 '\n') toks ∧
      (items ≠ [] → ∀ h, parseToks r toks (clean h) =
        .ok (olSt true (h ++ c!"<ol>\n" ++ items.flatMap fun i => c!"<li>\n" ++ escape i.2.1 ++ c!"</li>\n"))) := by
  refine Exists.elim (list_sem r ig (fun i : Char × Str × Nat => i.1 :: '.' :: ' ' :: i.2.1 ++ times i.2.2 '\n')
    (fun i => .orderedListEntry i.2.1 :: gapToks i.2.2) (fun i => c!"<li>\n" ++ escape i.2.1 ++ c!"</li>\n") olSt c!"<ol>\n"
    items ?_ ?_) (fun toks h => ⟨toks, h.1, h.2.2⟩)
  · intro i is his ts hts
    have hb := hok i (his.subset (by simp))
    have hnext : (is.flatMap fun i => i.1 :: '.' :: ' ' :: i.2.1 ++ times i.2.2 '\n').head? ≠ some '\n' := by
      cases is with
      | nil => simp
      | cons j js =>
        have := (hok j (his.subset (by simp))).1
        rw [List.flatMap_cons]
        simp
        rintro e
        rw [e] at this
        revert this
        decide
    have := LexTo.ordered (n := i.2.2) hb.1 hb.2 (last_empty (gap := fun i => i.2.2) his hn) hnext hts
    simpa using this
  · intro i hi b h
    refine parseToks_cons (parseTok_ordered r b _ _) ?_
    rw [parseToks_gaps_ol]

/-! ### Task lists -/

theorem LexTo.task {c x : Char} {b : TaskBox} {w : Str} {n : Nat} (hc : c = '-' ∨ c = '+') (hx : boxOf x = some b) (hw : '\n' ∉ w)
    (hn : 1 ≤ n ∨ rest = []) (hr : NextLine rest) (h : LexTo (stop := stop) r ig rest ts) :
    LexTo (stop := stop) r ig ((c :: ' ' :: '[' :: x :: ']' :: ' ' :: w) ++ (times n '\n' ++ rest)) (.taskListItem b w :: (gapToks (n - 1) ++ ts)) := by
  refine .cons (s' := times (n - 1) '\n' ++ rest) (fun last => ?_) (LexTo.gaps hr.1 h)
  have he := itemEnds_gap hr hn
  have e := lexPlusMinus_task r hc hx hw he.eol he.noPara
  rw [List.cons_append] at e ⊢
  rw [nextToken_bullet hc, e, skipIf_gap hr.1]
  rfl

/-- Inside a task list, or before one. -/
abbrev taskSt (b : Bool) (h : Str) : PState := { html := h, inTask := b }

theorem taskOut_eq (b : TaskBox) (w : Str) : taskOut b w = taskHtml (decide (b = .checked)) w := by
  cases b <;> simp [taskOut, taskHtml, sanitize_eq_escape]

theorem parseTok_task (r : Rec) (b : Bool) (x : TaskBox) (w h : Str) :
    parseTok r (.taskListItem x w) (taskSt b h) =
      .ok (taskSt true (h ++ (if b then [] else c!"<ul class=\"contains-task-list\">") ++ taskHtml (decide (x = .checked)) w)) := by
  rw [← taskOut_eq]
  cases b
  · simp [parseTok, step1, step2, isBlankPlain, isTab, staysInList, staysInTask, opensPara, closesPara, staysInQuote, isCode,
      PState.push]
  · simp [parseTok, step1, step2, isBlankPlain, isTab, staysInList, staysInTask, PState.push]

theorem parseToks_gaps_task (r : Rec) (n : Nat) (h : Str) : parseToks r (gapToks n) (taskSt true h) = .ok (taskSt true h) := by
  unfold gapToks gapTok
  split
  · rfl
  · refine parseToks_one ?_
    split
    · exact parseTok_blank r _ (by decide)
    · simp [parseTok, step1, step2, isBlankPlain, isTab, staysInList, staysInTask]

theorem finish_task (h : Str) : finish (taskSt true h) = h ++ c!"</ul>\n" := by
  simp [finish, rep, endNl]

theorem boxOf_some {x : Char} (h : x ∈ c!" xX") : boxOf x = some (if x = ' ' then .unchecked else .checked) := by
  simp only [List.mem_cons, List.not_mem_nil, or_false] at h
  rcases h with rfl | rfl | rfl <;> rfl

theorem tasks_sem (r : Rec) (ig : List Char) (items : List (Char × Char × Str × Nat))
    (hok : ∀ i ∈ items, (i.1 = '-' ∨ i.1 = '+') ∧ i.2.1 ∈ c!" xX" ∧ '\n' ∉ i.2.2.1) (hn : ∀ i ∈ items.dropLast, 1 ≤ i.2.2.2) :
    ∃ toks, LexTo r ig (items.flatMap fun i => i.1 :: ' ' :: '[' :: i.2.1 :: ']' :: ' ' :: i.2.2.1 ++ times i.2.2.2 '\n') toks ∧
      (items ≠ [] → ∀ h, parseToks r toks (clean h) =
        .ok (taskSt true (h ++ c!"<ul class=\"contains-task-list\">" ++
          items.flatMap fun i => taskHtml (decide (i.2.1 ≠ ' ')) i.2.2.1))) := by
  refine Exists.elim (list_sem r ig
    (fun i : Char × Char × Str × Nat => i.1 :: ' ' :: '[' :: i.2.1 :: ']' :: ' ' :: i.2.2.1 ++ times i.2.2.2 '\n')
    (fun i => .taskListItem (if i.2.1 = ' ' then .unchecked else .checked) i.2.2.1 :: gapToks (i.2.2.2 - 1))
    (fun i => taskHtml (decide (i.2.1 ≠ ' ')) i.2.2.1) taskSt c!"<ul class=\"contains-task-list\">" items ?_ ?_) (fun toks h => ⟨toks, h.1, h.2.2⟩)
  · intro i is his ts hts
    obtain ⟨hb1, hb2, hb3⟩ := hok i (his.subset (by simp))
    have hnext : NextLine (is.flatMap fun i => i.1 :: ' ' :: '[' :: i.2.1 :: ']' :: ' ' :: i.2.2.1 ++ times i.2.2.2 '\n') := by
      cases is with
      | nil => exact NextLine.nil
      | cons j js =>
        have := (hok j (his.subset (by simp))).1
        rw [List.flatMap_cons]
        rcases this with e | e <;> simp [NextLine, e]
    have := LexTo.task (n := i.2.2.2) hb1 (boxOf_some hb2) hb3 (last_empty (gap := fun i => i.2.2.2) his hn) hnext hts
    simpa using this
  · intro i hi b h
    refine parseToks_cons (parseTok_task r b _ _ _) ?_
    rw [parseToks_gaps_task]
    by_cases hx : i.2.1 = ' ' <;> simp [hx]

end Smd.Gfm
