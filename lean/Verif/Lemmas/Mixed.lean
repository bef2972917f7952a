import Verif.Lemmas.Leads
import Verif.Lemmas.Forms
import Verif.Lemmas.Nesting

/-! A task behind a list of bullets and an ordered list. -/

namespace Smd.Gfm
open Smd.Rs Smd.Spec

/-- An ordered list after a list of bullets, with something behind it. -/
theorem ordered_inUl_then (r : Rec) (ig : List Char) (items : List (Char × Str × Nat))
    (hok : ∀ i ∈ items, i.1 ∈ c!"0123456789" ∧ '\n' ∉ i.2.1) (hn : ∀ i ∈ items, 1 ≤ i.2.2) : ∃ toks,
    (∀ R ts, NextLine R → LexTo r ig R ts → LexTo r ig ((items.flatMap fun i => i.1 :: '.' :: ' ' :: i.2.1 ++ times i.2.2 '\n') ++ R) (toks ++ ts)) ∧
    (items ≠ [] → ∀ h, parseToks r toks (ulSt true h) =
      .ok { html := h ++ c!"<ol>\n" ++ items.flatMap fun i => c!"<li>\n" ++ escape i.2.1 ++ c!"</li>\n", inUl := true, inOl := true }) := by
  refine ⟨items.flatMap fun i => .orderedListEntry i.2.1 :: gapToks i.2.2, ?_, ?_⟩
  · intro R tsR hR hl
    refine list_lex _ _ hl items ?_
    intro i is his ts hts
    have hb := hok i (his.subset (by simp))
    have hnext : ((is.flatMap fun i => i.1 :: '.' :: ' ' :: i.2.1 ++ times i.2.2 '\n') ++ R).head? ≠ some '\n' := by
      cases is with
      | nil => exact hR.1
      | cons j js =>
        have := (hok j (his.subset (by simp))).1
        rw [List.flatMap_cons]
        simp
        rintro e
        rw [e] at this
        revert this
        decide
    have := LexTo.ordered (n := i.2.2) hb.1 hb.2 (.inl (hn i (his.subset (by simp)))) hnext hts
    simpa using this
  · refine (list_parse r _ (fun i => c!"<li>\n" ++ escape i.2.1 ++ c!"</li>\n") (fun b h => { html := h, inUl := true, inOl := b }) c!"<ol>\n" items ?_).2
    intro i hi b h
    refine parseToks_cons (st' := { html := h ++ (if b then [] else c!"<ol>\n") ++ (c!"<li>\n" ++ escape i.2.1 ++ c!"</li>\n"), inUl := true, inOl := true }) ?_ ?_
    · cases b <;> simp [parseTok, step1, step2, isBlankPlain, isTab, staysInList, PState.push, sanitize_eq_escape]
    · unfold gapToks gapTok
      split
      · rfl
      · refine parseToks_one ?_
        split
        · exact parseTok_blank r _ (by decide)
        · simp [parseTok, step1, step2, isBlankPlain, isTab, staysInList]

theorem parseTok_task_inBoth (r : Rec) (x : TaskBox) (w h : Str) :
    parseTok r (.taskListItem x w) { html := h, inUl := true, inOl := true } =
      .ok { html := h ++ c!"</ol>\n<p><ul class=\"contains-task-list\">" ++ taskHtml (decide (x = .checked)) w, inTask := true, inPara := true, inUl := true } := by
  rw [← taskOut_eq]
  simp [parseTok, step1, step2, isBlankPlain, isTab, staysInList, staysInTask, opensPara, PState.push, PState.ensurePara]

theorem finish_task_ul (h : Str) : finish { html := h, inTask := true, inPara := true, inUl := true } = h ++ c!"</p>\n</ul>\n" := by
  simp [finish, rep, endNl]

/-! ### HTML that is not properly nested -/

/-- One tag, given by what is between `<` and `>`, and the elements that are open. -/
def tagStep (b : Str) (open_ : List Str) : Option (List Str) :=
  if b.head? = some '/' then (if open_.head? = some b.tail then some open_.tail else none)
  else if b.takeWhile (· != ' ') ∈ c!"hr" :: voidNames then some open_
  else some (b.takeWhile (· != ' ') :: open_)

/-- All tags of a text; `cur` is the beginning of a tag. -/
def tagRun : Str → Option Str → List Str → Option (List Str)
  | [], _, o => some o
  | c :: s, none, o => tagRun s (if c = '<' then some [] else none) o
  | c :: s, some b, o => if c = '>' then (match tagStep b o with
    | some o' => tagRun s none o'
    | none => none) else tagRun s (some (b ++ [c])) o

theorem tagRun_text : ∀ {s : Str} (rest : Str) (o : List Str), '<' ∉ s → tagRun (s ++ rest) none o = tagRun rest none o
  | [], _, _, _ => rfl
  | c :: s, rest, o, h => by
    have hc : c ≠ '<' := fun e => h (by simp [e])
    rw [List.cons_append, tagRun, if_neg hc]
    exact tagRun_text rest o (fun e => h (by simp [e]))

theorem tagRun_inside : ∀ (s : Str) (b rest : Str) (o : List Str), '>' ∉ s →
    tagRun (s ++ '>' :: rest) (some b) o = match tagStep (b ++ s) o with
      | some o' => tagRun rest none o'
      | none => none
  | [], b, rest, o, _ => by simp [tagRun]
  | c :: s, b, rest, o, h => by
    have hc : c ≠ '>' := fun e => h (by simp [e])
    rw [List.cons_append, tagRun, if_neg hc, tagRun_inside s _ rest o (fun e => h (by simp [e]))]
    simp

theorem tagRun_tag (s rest : Str) (o : List Str) (h : '>' ∉ s) :
    tagRun ('<' :: (s ++ '>' :: rest)) none o = match tagStep s o with
      | some o' => tagRun rest none o'
      | none => none := by
  rw [tagRun, if_pos rfl, tagRun_inside s [] rest o h]
  rfl

theorem attr_no_gt {attrs : List (Str × Str)} (ha : ∀ a ∈ attrs, a.1 ∈ attrNames ∧ '"' ∉ a.2 ∧ '<' ∉ a.2 ∧ '>' ∉ a.2) : '>' ∉ attrs.flatMap attrText := by
  intro h
  obtain ⟨a, hm, h⟩ := List.mem_flatMap.mp h
  obtain ⟨h1, _, _, h4⟩ := ha a hm
  have h5 : '>' ∉ a.1 := (show ∀ n ∈ attrNames, '>' ∉ n by decide) _ h1
  simp [attrText, h4, h5] at h

theorem name_of_tag {n : Str} (hn : ' ' ∉ n) (attrs : List (Str × Str)) : (n ++ attrs.flatMap attrText).takeWhile (· != ' ') = n := by
  rw [List.takeWhile_append_of_pos (by intro c hc; simpa using fun e : c = ' ' => hn (e ▸ hc))]
  cases attrs with
  | nil => simp
  | cons a l => simp [attrText]

theorem tagRun_open {n : Str} {attrs : List (Str × Str)} (rest : Str) (o : List Str) (hn : n ∈ elementNames)
    (ha : ∀ a ∈ attrs, a.1 ∈ attrNames ∧ '"' ∉ a.2 ∧ '<' ∉ a.2 ∧ '>' ∉ a.2) :
    tagRun (openTag n attrs ++ rest) none o = tagRun rest none (if n ∈ voidNames then o else n :: o) := by
  obtain ⟨h1, _, h3, h4, h5⟩ := name_chars n hn
  have e : openTag n attrs ++ rest = '<' :: ((n ++ attrs.flatMap attrText) ++ '>' :: rest) := by simp [openTag]
  have hh : (n ++ attrs.flatMap attrText).head? ≠ some '/' := by
    cases n with
    | nil => exact absurd rfl h1
    | cons c n =>
      intro e
      simp at e
      exact h5 (by simp [e])
  have hr : n ≠ c!"hr" := fun e => absurd hn (by rw [e]; decide)
  rw [e, tagRun_tag _ _ _ (by simp [h3, attr_no_gt ha]), tagStep, if_neg hh, name_of_tag h4]
  by_cases hv : n ∈ voidNames
  · simp [hv]
  · simp [hv, hr]

theorem tagRun_close {n : Str} (rest : Str) (o : List Str) (hn : n ∈ elementNames) :
    tagRun (closeTag n ++ rest) none o = if o.head? = some n then tagRun rest none o.tail else none := by
  obtain ⟨_, _, h3, _, _⟩ := name_chars n hn
  have e : closeTag n ++ rest = '<' :: (('/' :: n) ++ '>' :: rest) := by simp [closeTag]
  rw [e, tagRun_tag _ _ _ (by simp [h3])]
  by_cases h : o.head? = some n <;> simp [tagStep, h]

/-- Properly nested HTML leaves the open elements as they are. -/
theorem Nested.tagRun {s : Str} (h : Nested s) : ∀ (rest : Str) (o : List Str), tagRun (s ++ rest) none o = Gfm.tagRun rest none o := by
  induction h with
  | text s h1 _ => exact fun rest o => tagRun_text rest o h1
  | append a b _ _ iha ihb =>
    intro rest o
    rw [List.append_assoc, iha, ihb]
  | rule => intro rest o; rfl
  | void n attrs hn ha =>
    intro rest o
    rw [tagRun_open rest o ((show ∀ n ∈ voidNames, n ∈ elementNames by decide) _ hn) ha, if_pos hn]
  | elem n attrs x hn hv ha _ ih =>
    intro rest o
    rw [List.append_assoc, List.append_assoc, tagRun_open _ _ hn ha, if_neg hv, ih, tagRun_close _ _ hn]
    simp

theorem Nested.entries {α : Type} (f : α → Str) (rest : Str) (o : List Str) (l : List α) (h : ∀ a ∈ l, Nested (f a)) :
    Gfm.tagRun ((l.flatMap f) ++ rest) none o = Gfm.tagRun rest none o :=
  Nested.tagRun (nested_flatMap f l h) rest o

/-- What is not closed in order is not properly nested. -/
theorem not_nested {s : Str} (h : tagRun s none [] ≠ some []) : ¬ Nested s := fun hs => h (by simpa [Gfm.tagRun] using Nested.tagRun hs [] [])

end Smd.Gfm
