import Verif.Lemmas.Lists
import Verif.Lemmas.Code

/-! Lists with something after them. -/

namespace Smd.Gfm
open Smd.Rs Smd.Spec

variable {stop : Str} {r : Rec} {ig : List Char} {rest : Str} {ts : List Token}

theorem list_lex {ι : Type} {R : Str} {tsR : List Token} (src : ι → Str) (tok : ι → List Token) (hR : LexTo (stop := stop) r ig R tsR) : ∀ (items : List ι),
    (∀ i is, i :: is <:+ items → ∀ ts, LexTo (stop := stop) r ig (is.flatMap src ++ R) ts → LexTo (stop := stop) r ig (src i ++ (is.flatMap src ++ R)) (tok i ++ ts)) →
    LexTo (stop := stop) r ig (items.flatMap src ++ R) (items.flatMap tok ++ tsR)
  | [], _ => hR
  | i :: is, h => by
    have ih := list_lex src tok hR is fun j js hj => h j js (hj.trans (List.suffix_cons i is))
    have := h i is (List.suffix_refl _) _ ih
    simpa using this

theorem list_parse {ι : Type} (r : Rec) (tok : ι → List Token) (out : ι → Str) (st : Bool → Str → PState) (op : Str) : ∀ (items : List ι),
    (∀ i ∈ items, ∀ b h, parseToks r (tok i) (st b h) = .ok (st true (h ++ (if b then [] else op) ++ out i))) →
    (∀ h, parseToks r (items.flatMap tok) (st true h) = .ok (st true (h ++ items.flatMap out))) ∧
    (items ≠ [] → ∀ h, parseToks r (items.flatMap tok) (st false h) = .ok (st true (h ++ op ++ items.flatMap out)))
  | [], _ => ⟨fun h => by simp [parseToks], fun h => absurd rfl h⟩
  | i :: is, hp => by
    have h2 := (list_parse r tok out st op is fun j hj => hp j (by simp [hj])).1
    rw [List.flatMap_cons]
    refine ⟨fun h => ?_, fun _ h => ?_⟩
    · refine parseToks_two (hp i (by simp) true h) ?_
      rw [h2]; simp
    · refine parseToks_two (hp i (by simp) false h) ?_
      rw [h2]; simp

theorem bullets_behind (r : Rec) (ig : List Char) (items : List (Char × Str × Nat × Str))
    (hok : ∀ i ∈ items, BulletOk i.1 i.2.1 ∧ r.render [] i.2.1 = .ok i.2.2.2 ∧ ¬ c!"<pre><code>" <:+: i.2.2.2)
    (hn : ∀ i ∈ items, 1 ≤ i.2.2.1) : ∃ toks,
    (∀ R ts, NextLine R → LexTo (stop := stop) r ig R ts → LexTo (stop := stop) r ig ((items.flatMap fun i => i.1 :: ' ' :: i.2.1 ++ times i.2.2.1 '\n') ++ R) (toks ++ ts)) ∧
    (items ≠ [] → ∀ h, parseToks r toks (clean h) =
      .ok (ulSt true (h ++ c!"<ul>\n" ++ items.flatMap fun i => c!"<li>\n" ++ i.2.2.2 ++ c!"</li>\n"))) := by
  refine ⟨items.flatMap fun i => .unorderedListEntry [.plaintext (bulletText i.1 i.2.1)] :: gapToks (i.2.2.1 - 1), ?_, ?_⟩
  · intro R tsR hR hl
    refine list_lex _ _ hl items ?_
    intro i is his ts hts
    have hb := (hok i (his.subset (by simp))).1
    have hnext : NextLine ((is.flatMap fun i => i.1 :: ' ' :: i.2.1 ++ times i.2.2.1 '\n') ++ R) := by
      cases is with
      | nil => exact hR
      | cons j js =>
        have := (hok j (his.subset (by simp))).1.marker
        rw [List.flatMap_cons]
        rcases this with e | e | e <;> simp [NextLine, e]
    have := LexTo.bullet (n := i.2.2.1) hb.marker hb.oneLine (hb.noBox ' ' (by decide)) (hb.noBox 'x' (by decide))
      (hb.noBox 'X' (by decide)) (.inl (hn i (his.subset (by simp)))) hnext hts
    simpa using this
  · refine (list_parse r _ (fun i => c!"<li>\n" ++ i.2.2.2 ++ c!"</li>\n") ulSt c!"<ul>\n" items ?_).2
    intro i hi b h
    obtain ⟨hb, hx, hpc⟩ := hok i hi
    refine parseToks_cons (parseTok_bullet r h hb.noSpace hb.noTab hx hpc) ?_
    rw [parseToks_gaps_ul]
    rfl

theorem ordered_behind (r : Rec) (ig : List Char) (items : List (Char × Str × Nat))
    (hok : ∀ i ∈ items, i.1 ∈ c!"0123456789" ∧ '\n' ∉ i.2.1) (hn : ∀ i ∈ items, 1 ≤ i.2.2) : ∃ toks,
    (∀ R ts, NextLine R → LexTo (stop := stop) r ig R ts → LexTo (stop := stop) r ig ((items.flatMap fun i => i.1 :: '.' :: ' ' :: i.2.1 ++ times i.2.2 '\n') ++ R) (toks ++ ts)) ∧
    (items ≠ [] → ∀ h, parseToks r toks (clean h) =
      .ok (olSt true (h ++ c!"<ol>\n" ++ items.flatMap fun i => c!"<li>\n" ++ escape i.2.1 ++ c!"</li>\n"))) := by
  refine ⟨items.flatMap fun i => .orderedListEntry i.2.1 :: gapToks i.2.2, ?_, ?_⟩
  · intro R tsR hR hl
    refine list_lex _ _ hl items ?_
    intro i is his ts hts
    have hb := hok i (his.subset (by simp))
    have hnext : ((is.flatMap fun i => i.1 :: '.' :: ' ' :: i.2.1 ++ times i.2.2 '\n') ++ R).head? ≠ some '\n' := by
      cases is with
      | nil => exact hR.1
      | cons j js =>
        have := (hok j (his.subset (by simp))).1
        rw [List.flatMap_cons]
        simp
        rintro e
        rw [e] at this
        revert this
        decide
    have := LexTo.ordered (n := i.2.2) hb.1 hb.2 (.inl (hn i (his.subset (by simp)))) hnext hts
    simpa using this
  · refine (list_parse r _ (fun i => c!"<li>\n" ++ escape i.2.1 ++ c!"</li>\n") olSt c!"<ol>\n" items ?_).2
    intro i hi b h
    refine parseToks_cons (parseTok_ordered r b _ _) ?_
    rw [parseToks_gaps_ol]

theorem tasks_behind (r : Rec) (ig : List Char) (items : List (Char × Char × Str × Nat))
    (hok : ∀ i ∈ items, (i.1 = '-' ∨ i.1 = '+') ∧ i.2.1 ∈ c!" xX" ∧ '\n' ∉ i.2.2.1) (hn : ∀ i ∈ items, 1 ≤ i.2.2.2) : ∃ toks,
    (∀ R ts, NextLine R → LexTo (stop := stop) r ig R ts →
      LexTo (stop := stop) r ig ((items.flatMap fun i => i.1 :: ' ' :: '[' :: i.2.1 :: ']' :: ' ' :: i.2.2.1 ++ times i.2.2.2 '\n') ++ R) (toks ++ ts)) ∧
    (items ≠ [] → ∀ h, parseToks r toks (clean h) =
      .ok (taskSt true (h ++ c!"<ul class=\"contains-task-list\">" ++
        items.flatMap fun i => taskHtml (decide (i.2.1 ≠ ' ')) i.2.2.1))) := by
  refine ⟨items.flatMap fun i => .taskListItem (if i.2.1 = ' ' then .unchecked else .checked) i.2.2.1 :: gapToks (i.2.2.2 - 1), ?_, ?_⟩
  · intro R tsR hR hl
    refine list_lex _ _ hl items ?_
    intro i is his ts hts
    obtain ⟨hb1, hb2, hb3⟩ := hok i (his.subset (by simp))
    have hnext : NextLine ((is.flatMap fun i => i.1 :: ' ' :: '[' :: i.2.1 :: ']' :: ' ' :: i.2.2.1 ++ times i.2.2.2 '\n') ++ R) := by
      cases is with
      | nil => exact hR
      | cons j js =>
        have := (hok j (his.subset (by simp))).1
        rw [List.flatMap_cons]
        rcases this with e | e <;> simp [NextLine, e]
    have h1 : 1 ≤ i.2.2.2 := hn i (his.subset (by simp))
    have := LexTo.task hb1 (boxOf_some hb2) hb3 (.inl h1) hnext hts
    simpa using this
  · have hp : ∀ i ∈ items, ∀ b h, parseToks r (.taskListItem (if i.2.1 = ' ' then .unchecked else .checked) i.2.2.1 :: gapToks (i.2.2.2 - 1)) (taskSt b h) =
        .ok (taskSt true (h ++ (if b then [] else c!"<ul class=\"contains-task-list\">") ++ taskHtml (decide (i.2.1 ≠ ' ')) i.2.2.1)) := by
      intro i hi b h
      refine parseToks_cons (parseTok_task r b _ _ _) ?_
      rw [parseToks_gaps_task]
      by_cases hx : i.2.1 = ' ' <;> simp [hx]
    generalize c!"<ul class=\"contains-task-list\">" = op at hp ⊢
    exact (list_parse r (fun i : Char × Char × Str × Nat =>
      .taskListItem (if i.2.1 = ' ' then .unchecked else .checked) i.2.2.1 :: gapToks (i.2.2.2 - 1))
      (fun i => taskHtml (decide (i.2.1 ≠ ' ')) i.2.2.1) taskSt op items hp).2

/-- Inside a list. -/
def listSt (h : Str) : Ending → PState
  | .bullets _ => ulSt true h
  | .ordered _ => olSt true h
  | _ => taskSt true h

/-- A list with something after it. -/
theorem lists_sem {l : Ending} {R : Str → Str → Prop} (hg : l.Good R) (hs : l.Spaced) : ∃ toks,
    (∀ rest ts, NextLine rest → LexTo (stop := stop) self [] rest ts → LexTo (stop := stop) self [] (l.src ++ rest) (toks ++ ts)) ∧
    ∀ h, parseToks self toks (clean h) = .ok (listSt (h ++ l.opened) l) := by
  cases l with
  | bullets items =>
    obtain ⟨h0, _, hok⟩ := hg
    let items' : List (Char × Str × Nat × Str) :=
      items.map fun i => (i.1, inlineSrc i.2.1, i.2.2, c!"<p>" ++ inlineHtml i.2.1 ++ c!"</p>\n")
    obtain ⟨ts, h1, h2⟩ := bullets_behind self [] items' (by
      intro i hi
      obtain ⟨j, hj, rfl⟩ := List.mem_map.mp hi
      obtain ⟨hm, hgood, hnl, hv, hbox⟩ := hok j hj
      obtain ⟨⟨a, u, e, ha⟩, _⟩ := head_ends hgood hv
      refine ⟨⟨hm, hnl, ?_, ?_, hbox⟩, renderIgnore_inlines [] (inlineGood_none hgood) hv, para_noPre hgood⟩
      · simp only [e]; simp; rintro rfl; revert ha; decide
      · simp only [e]; simp; rintro rfl; revert ha; decide) (by
      intro i hi
      obtain ⟨j, hj, rfl⟩ := List.mem_map.mp hi
      exact hs j hj)
    refine ⟨ts, fun rest tr hr hl => ?_, fun h => ?_⟩
    · simpa [Ending.src, items', List.flatMap_map] using h1 rest tr hr hl
    · rw [h2 (by simpa [items'] using h0) h]
      simp [listSt, Ending.opened, items', List.flatMap_map, elem]
  | ordered items =>
    obtain ⟨h0, _, hok⟩ := hg
    obtain ⟨ts, h1, h2⟩ := ordered_behind self [] items hok hs
    exact ⟨ts, h1, fun h => by rw [h2 h0 h]; simp [listSt, Ending.opened]⟩
  | tasks items =>
    obtain ⟨h0, _, hok⟩ := hg
    obtain ⟨ts, h1, h2⟩ := tasks_behind self [] items hok hs
    exact ⟨ts, h1, fun h => by rw [h2 h0 h]; simp [listSt, Ending.opened]⟩
  | _ => exact hs.elim

theorem parseTok_two_list (r : Rec) {l : Ending} (hs : l.Spaced) {a b : Str} (ha : Shown a) (hb : Shown b) (h : Str) :
    parseToks r [.plaintext a, .plaintext b] (listSt h l) = .ok (inP (h ++ c!"<p>" ++ escape a ++ l.close ++ escape b)) := by
  have na := ha.notBlank
  have nb := hb.notBlank
  rw [← sanitize_eq_escape, ← sanitize_eq_escape]
  cases l <;> first | exact hs.elim | skip
  · refine parseToks_cons (st' := { html := h ++ c!"<p>" ++ sanitize a, inUl := true, inPara := true }) ?_ (parseToks_one ?_) <;>
      simp [listSt, Ending.close, parseTok, step1, step2, isBlankPlain, isTab, staysInList, staysInTask, opensPara, na, nb, plainOut_shown ha, plainOut_shown hb,
        PState.push, PState.ensurePara, rep]
  · refine parseToks_cons (st' := { html := h ++ c!"<p>" ++ sanitize a, inOl := true, inPara := true }) ?_ (parseToks_one ?_) <;>
      simp [listSt, Ending.close, parseTok, step1, step2, isBlankPlain, isTab, staysInList, staysInTask, opensPara, na, nb, plainOut_shown ha, plainOut_shown hb,
        PState.push, PState.ensurePara, rep]
  · refine parseToks_cons (st' := { html := h ++ c!"<p>" ++ sanitize a, inTask := true, inPara := true }) ?_ (parseToks_one ?_) <;>
      simp [listSt, Ending.close, parseTok, step1, step2, isBlankPlain, isTab, staysInList, staysInTask, opensPara, na, nb, plainOut_shown ha, plainOut_shown hb,
        PState.push, PState.ensurePara, rep]

theorem parseTok_header_list (r : Rec) {l : Ending} (hs : l.Spaced) (n : Nat) (x h : Str) :
    parseTok r (.header n x none) (listSt h l) = .ok (inP (h ++ l.close ++ c!"<p>" ++ headerOut n x none)) := by
  cases l <;> first | exact hs.elim | simp [listSt, Ending.close, parseTok, step1, step2, isBlankPlain, isTab, staysInList, staysInTask, opensPara, PState.ensurePara, PState.push]

theorem parseTok_rule_list (r : Rec) {l : Ending} (hs : l.Spaced) (h : Str) :
    parseTok r .horizontalRule (listSt h l) = .ok (inP (h ++ l.close ++ c!"<p>" ++ c!"<hr />\n")) := by
  cases l <;> first | exact hs.elim | simp [listSt, Ending.close, parseTok, step1, step2, isBlankPlain, isTab, staysInList, staysInTask, opensPara, PState.ensurePara, PState.push]

end Smd.Gfm
