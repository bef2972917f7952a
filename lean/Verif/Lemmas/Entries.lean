import Verif.Lemmas.Documents
import Verif.Spec.Blocks

/-! Entries of a list with further lines, each after a blank line and a tab. -/

namespace Smd.Gfm
open Smd.Rs Smd.Spec

variable {r : Rec} {ig : List Char} {rest : Str} {ts : List Token}

/-- The further lines of an entry. -/
def moreSrc (more : List Str) : Str := more.flatMap fun l => c!"\n\n\t" ++ l

theorem contLines_more (hr : ItemEnds rest) : ∀ (more : List Str) (fuel : Nat), more.length < fuel → (∀ l ∈ more, '\n' ∉ l) →
    contLines fuel (moreSrc more ++ rest) = (more, rest)
  | [], fuel + 1, _, _ => by
    show contLines (fuel + 1) rest = _
    rw [contLines, startsWith_false hr.noPara]
    rfl
  | l :: more, fuel + 1, hf, hl => by
    have ih := contLines_more hr more fuel (by simpa using hf) fun x hx => hl x (by simp [hx])
    have heol : AtEol (moreSrc more ++ rest) := by
      cases more with
      | nil => exact hr.eol
      | cons m more => exact .inr ⟨_, rfl⟩
    have hn := hl l (by simp)
    have e : moreSrc (l :: more) ++ rest = c!"\n\n\t" ++ (l ++ (moreSrc more ++ rest)) := by simp [moreSrc]
    rw [e, contLines, startsWith_iff.mpr (List.prefix_append _ _)]
    simp only [if_true]
    have e2 : (c!"\n\n\t" ++ (l ++ (moreSrc more ++ rest))).drop 3 = l ++ (moreSrc more ++ rest) := rfl
    rw [e2, takeWhile_eol hn heol, dropWhile_eol hn heol, ih]

theorem box_more {x : Char} {w : Str} {more : List Str} (h : ¬ ['[', x, ']', ' '] <+: w) :
    ¬ [' ', '[', x, ']', ' '] <+: ' ' :: w ++ moreSrc more := by
  cases more with
  | nil => simpa [moreSrc] using h
  | cons m more =>
    intro hp
    have e : moreSrc (m :: more) = '\n' :: '\n' :: '\t' :: (m ++ moreSrc more) := by simp [moreSrc]
    rw [e] at hp
    revert h hp
    rcases w with _ | ⟨a, _ | ⟨b, _ | ⟨c, _ | ⟨d, w⟩⟩⟩⟩ <;> simp

theorem length_moreSrc (more : List Str) : more.length ≤ (moreSrc more).length := by
  induction more with
  | nil => simp
  | cons m more ih =>
    simp only [moreSrc, List.flatMap_cons, List.length_append, List.length_cons] at ih ⊢
    omega

theorem lexPlusMinus_entry (r : Rec) {c : Char} {w : Str} {more : List Str} (hc : c = '-' ∨ c = '+') (hw : '\n' ∉ w)
    (hm : ∀ l ∈ more, '\n' ∉ l) (hend : ItemEnds rest) (hb : ∀ x ∈ c!" xX", ¬ ['[', x, ']', ' '] <+: w) :
    lexPlusMinus r ((c :: ' ' :: w) ++ (moreSrc more ++ rest)) =
      .ok (.ok (.unorderedListEntry ((' ' :: w) :: more |>.map .plaintext)), skipIf '\n' rest) := by
  by_cases hne : more = []
  · subst hne
    exact lexPlusMinus_item r hc hw hend (hb ' ' (by decide)) (hb 'x' (by decide)) (hb 'X' (by decide))
  have hw' : '\n' ∉ ' ' :: w := by simp [hw]
  have e : ' ' :: (w ++ (moreSrc more ++ rest)) = (' ' :: w) ++ (moreSrc more ++ rest) := rfl
  have heol : AtEol (moreSrc more ++ rest) := by
    cases more with
    | nil => exact absurd rfl hne
    | cons m more => exact .inr ⟨_, rfl⟩
  have hlen : more.length < (moreSrc more ++ rest).length := by
    cases more with
    | nil => exact absurd rfl hne
    | cons m more =>
      have := length_moreSrc more
      simp only [moreSrc, List.flatMap_cons, List.length_append, List.length_cons] at this ⊢
      omega
  have hs : slice (' ' :: w ++ (moreSrc more ++ rest)) rest = ' ' :: w ++ moreSrc more := by
    rw [← List.append_assoc, slice_self_append]
  unfold lexPlusMinus
  rw [(bullet_split hc).1, (bullet_split hc).2, e]
  simp only [takeWhile_eol hw' heol, dropWhile_eol hw' heol, contLines_more hend more _ hlen hm, hs]
  rw [if_neg (by simp), if_neg (by simp), if_pos (by simp)]
  rw [startsWith_false (p := c!" [ ] ") (box_more (hb ' ' (by decide))),
    startsWith_false (p := c!" [x] ") (box_more (hb 'x' (by decide))),
    startsWith_false (p := c!" [X] ") (box_more (hb 'X' (by decide)))]
  simp only [Bool.false_eq_true, if_false, Bool.or_self]
  cases hl : lineAhead (skipIf '\n' rest) with
  | none => rfl
  | some p =>
    obtain ⟨l, s5⟩ := p
    have hp : l <+: skipIf '\n' rest := ⟨s5, (lineAhead_parts hl).symm⟩
    simp only
    rw [startsWith_false fun h => skipIf_nl_no hend.eol (by simp) hend.noIndent (h.trans hp),
      startsWith_false fun h => skipIf_nl_no hend.eol (by simp) hend.noTab (h.trans hp)]
    rfl

/-- The token of an entry. -/
def entryTok (e : ListEntry) : Token :=
  .unorderedListEntry (.plaintext (bulletText e.marker e.text.1) :: e.more.map fun l => .plaintext l.1)

theorem LexTo.entry {e : ListEntry} {Shows : Str → Str → Prop} (he : e.Good Shows) (hn : 1 ≤ e.ends ∨ rest = []) (hr : NextLine rest)
    (h : LexTo r ig rest ts) : LexTo r ig (e.src ++ rest) (entryTok e :: (gapToks (e.ends - 1) ++ ts)) := by
  obtain ⟨c, ⟨w, x⟩, more, n⟩ := e
  obtain ⟨hm, hb, hl⟩ := he
  simp only at hm hb hl hn
  have hw := (hl (w, x) (by simp)).1
  have hcase : (c = '-' ∨ c = '+') ∨ c = '*' ∧ more = [] := by
    rcases hm with h | h | h
    · exact .inl (.inl h)
    · exact .inl (.inr h)
    · exact .inr h
  rcases hcase with hc | ⟨rfl, rfl⟩
  · refine .cons (s' := times (n - 1) '\n' ++ rest) (fun last => ?_) (LexTo.gaps hr.1 h)
    have e := lexPlusMinus_entry r (more := more.map Prod.fst) hc hw
      (by
        intro l hx
        obtain ⟨p, hp, rfl⟩ := List.mem_map.mp hx
        exact (hl p (by simp [hp])).1) (itemEnds_gap hr hn) hb
    have hsrc : ListEntry.src ⟨c, (w, x), more, n⟩ ++ rest = c :: (' ' :: w ++ (moreSrc (more.map Prod.fst) ++ (times n '\n' ++ rest))) := by
      simp [ListEntry.src, moreSrc, List.flatMap_map]
    rw [List.cons_append] at e
    rw [hsrc, nextToken_bullet hc, e, skipIf_gap hr.1]
    rcases hc with rfl | rfl <;> simp [entryTok, bulletText, resToken]
  · have := LexTo.bullet (n := n) (rest := rest) (.inr (.inr rfl)) hw (hb ' ' (by decide)) (hb 'x' (by decide)) (hb 'X' (by decide)) hn hr h
    simpa [ListEntry.src, entryTok] using this

theorem line_arg {w : Str} (h1 : w.head? ≠ some ' ') (h2 : w.head? ≠ some '\t') :
    (if startsWith w c!"\t\t" then trimStartP (· == ' ') (w.drop 1) else trimStartP (· == ' ') w) = w :=
  bulletText_arg (c := '*') h1 h2

theorem entryOut_more (r : Rec) : ∀ more : List (Str × Str),
    (∀ l ∈ more, l.1.head? ≠ some ' ' ∧ l.1.head? ≠ some '\t' ∧ r.render [] l.1 = .ok l.2 ∧ ¬ c!"<pre><code>" <:+: l.2) →
    entryOut r (more.map fun l => .plaintext l.1) = .ok (more.flatMap fun l => l.2)
  | [], _ => rfl
  | l :: more, h => by
    obtain ⟨h1, h2, h3, h4⟩ := h l (by simp)
    have ih := entryOut_more r more fun x hx => h x (by simp [hx])
    simp only [List.map_cons, entryOut, line_arg h1 h2, h3, Outcome.ok_bind, ih, replaceStr_none h4, List.flatMap_cons]

theorem parseTok_listEntry (r : Rec) {b : Bool} {e : ListEntry} (h : Str) (he : e.Good fun s x => r.render [] s = .ok x) :
    parseTok r (entryTok e) (ulSt b h) = .ok (ulSt true (h ++ ulOpen b ++ e.html)) := by
  obtain ⟨c, ⟨w, x⟩, more, n⟩ := e
  obtain ⟨_, _, hl⟩ := he
  obtain ⟨_, h1, h2, h3, h4⟩ := hl (w, x) (by simp)
  have e1 := entryOut_more r more fun l hx => (hl l (by simp [hx])).2
  have e : entryOut r (.plaintext (bulletText c w) :: more.map fun l => .plaintext l.1) = .ok (x ++ more.flatMap fun l => l.2) := by
    simp only [entryOut, bulletText_arg h1 h2, h3, Outcome.ok_bind, replaceStr_none h4, e1]
  have hall : (more.map fun l => Token.plaintext l.1).all isPlaintext = true := by
    simp [isPlaintext]
  cases b
  · simp [entryTok, parseTok, step1, step2, isBlankPlain, isTab, staysInList, staysInTask, opensPara, closesPara, staysInQuote, isCode, e,
      isPlaintext, PState.push, ulOpen, ListEntry.html]
  · simp [entryTok, parseTok, step1, step2, isBlankPlain, isTab, staysInList, e, isPlaintext, PState.push, ulOpen, ListEntry.html]

theorem entries_sem (r : Rec) (ig : List Char) (items : List ListEntry) (hok : ∀ e ∈ items, e.Good fun s x => r.render [] s = .ok x)
    (hn : ∀ e ∈ items.dropLast, 1 ≤ e.ends) :
    ∃ toks, LexTo r ig (items.flatMap ListEntry.src) toks ∧
      (items ≠ [] → ∀ h, parseToks r toks (clean h) = .ok (ulSt true (h ++ c!"<ul>\n" ++ items.flatMap ListEntry.html))) := by
  refine Exists.elim (list_sem r ig ListEntry.src (fun e => entryTok e :: gapToks (e.ends - 1)) ListEntry.html ulSt c!"<ul>\n" items ?_ ?_)
    (fun toks h => ⟨toks, h.1, h.2.2⟩)
  · intro i is his ts hts
    refine LexTo.entry (hok i (his.subset (by simp))) (last_empty (gap := fun i => i.ends) his hn) ?_ hts
    cases is with
    | nil => exact NextLine.nil
    | cons j js =>
      have := (hok j (his.subset (by simp))).marker
      rw [List.flatMap_cons]
      rcases this with e | e | e <;> simp [NextLine, ListEntry.src, e]
  · intro i hi b h
    refine parseToks_cons (parseTok_listEntry r h (hok i hi)) ?_
    rw [parseToks_gaps_ul]
    rfl

end Smd.Gfm
