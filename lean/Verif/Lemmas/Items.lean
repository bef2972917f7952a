import Verif.Lemmas.Heading

/-! `lex_plus_minus` on a list item that is one line. -/

namespace Smd.Gfm
open Smd.Rs Smd.Spec

/-- `rest` does not continue the list item before it: it starts no continuation paragraph and the next line is not
indented. -/
structure ItemEnds (rest : Str) : Prop where
  eol : AtEol rest
  noPara : ¬ c!"\n\n\t" <+: rest
  noIndent : ¬ c!"\n  " <+: rest
  noTab : ¬ c!"\n\t" <+: rest

theorem ItemEnds.nil : ItemEnds [] := ⟨.inl rfl, by simp, by simp, by simp⟩

theorem ItemEnds.line {c : Char} {r : Str} (h1 : c ≠ '\n') (h2 : c ≠ ' ') (h3 : c ≠ '\t') : ItemEnds ('\n' :: c :: r) :=
  ⟨.inr ⟨_, rfl⟩, by simp [Ne.symm h1], by simp [Ne.symm h2], by simp [Ne.symm h3]⟩

theorem ItemEnds.nl : ItemEnds c!"\n" := ⟨.inr ⟨_, rfl⟩, by simp, by simp, by simp⟩

theorem startsWith_iff {s p : Str} : startsWith s p = true ↔ p <+: s := by
  unfold startsWith
  exact List.isPrefixOf_iff_prefix

theorem startsWith_false {s p : Str} (h : ¬ p <+: s) : startsWith s p = false := by
  cases e : startsWith s p with
  | false => rfl
  | true => exact absurd (startsWith_iff.mp e) h

theorem contLines_none {n : Nat} {s : Str} (h : ¬ c!"\n\n\t" <+: s) : contLines n s = ([], s) := by
  cases n with
  | zero => rfl
  | succ n =>
    unfold contLines
    rw [startsWith_false h]
    rfl

theorem slice_self_append (a b : Str) : slice (a ++ b) b = a := by
  unfold slice
  rw [List.length_append, Nat.add_sub_cancel]
  exact List.take_left

/-- The bullet and the rest of the first line. -/
theorem bullet_split {c : Char} {w rest : Str} (hc : c = '-' ∨ c = '+') :
    ((c :: ' ' :: w) ++ rest).takeWhile (fun c => c == '-' || c == '+') = [c] ∧
    ((c :: ' ' :: w) ++ rest).dropWhile (fun c => c == '-' || c == '+') = ' ' :: (w ++ rest) := by
  rcases hc with rfl | rfl <;> exact ⟨rfl, rfl⟩

theorem skipIf_nl_no {p rest : Str} (heol : AtEol rest) (hp : p ≠ []) (h : ¬ '\n' :: p <+: rest) :
    ¬ p <+: skipIf '\n' rest := by
  rcases heol with rfl | ⟨t, rfl⟩
  · intro h'
    simp [skipIf] at h'
    exact hp h'
  · intro h'
    rw [skipIf, if_pos rfl] at h'
    exact h (List.cons_prefix_cons.mpr ⟨rfl, h'⟩)

theorem lexPlusMinus_item (r : Rec) {c : Char} {w rest : Str} (hc : c = '-' ∨ c = '+') (hw : '\n' ∉ w)
    (hend : ItemEnds rest) (h1 : ¬ c!"[ ] " <+: w) (h2 : ¬ c!"[x] " <+: w) (h3 : ¬ c!"[X] " <+: w) :
    lexPlusMinus r ((c :: ' ' :: w) ++ rest) =
      .ok (.ok (.unorderedListEntry [.plaintext (' ' :: w)]), skipIf '\n' rest) := by
  have hw' : '\n' ∉ ' ' :: w := by simp [hw]
  have e : ' ' :: (w ++ rest) = (' ' :: w) ++ rest := rfl
  unfold lexPlusMinus
  rw [(bullet_split hc).1, (bullet_split hc).2, e]
  simp only [takeWhile_eol hw' hend.eol, dropWhile_eol hw' hend.eol, contLines_none hend.noPara, slice_self_append]
  rw [if_neg (by simp), if_neg (by simp), if_pos (by simp)]
  rw [startsWith_false (p := c!" [ ] ") (by simpa using h1), startsWith_false (p := c!" [x] ") (by simpa using h2),
    startsWith_false (p := c!" [X] ") (by simpa using h3)]
  simp only [Bool.false_eq_true, if_false, Bool.or_self, List.map_cons, List.map_nil]
  cases hl : lineAhead (skipIf '\n' rest) with
  | none => rfl
  | some p =>
    obtain ⟨l, s5⟩ := p
    have hp : l <+: skipIf '\n' rest := ⟨s5, (lineAhead_parts hl).symm⟩
    simp only
    rw [startsWith_false fun h => skipIf_nl_no hend.eol (by simp) hend.noIndent (h.trans hp),
      startsWith_false fun h => skipIf_nl_no hend.eol (by simp) hend.noTab (h.trans hp)]
    rfl

/-- A hyphen not followed by a space starts an entry as well. -/
theorem lexPlusMinus_hyphen (r : Rec) {c : Char} {w : Str} (hc : c = '-' ∨ c = '+') (hw : '\n' ∉ w)
    (h1 : w.head? ≠ some '-') (h2 : w.head? ≠ some '+') (h3 : w.head? ≠ some ' ') :
    lexPlusMinus r (c :: w) = .ok (.ok (.unorderedListEntry [.plaintext w]), []) := by
  have hs : (c :: w).takeWhile (fun c => c == '-' || c == '+') = [c] ∧ (c :: w).dropWhile (fun c => c == '-' || c == '+') = w := by
    have : (c == '-' || c == '+') = true := by rcases hc with rfl | rfl <;> rfl
    cases w with
    | nil => simp [this]
    | cons d w =>
      have hd : (d == '-' || d == '+') = false := by simp_all
      simp [this, hd]
  have e1 : w.takeWhile (· != '\n') = w := by
    have := takeWhile_eol (line := w) (rest := []) hw (.inl rfl)
    rwa [List.append_nil] at this
  have e2 : w.dropWhile (· != '\n') = [] := by
    have := dropWhile_eol (line := w) (rest := []) hw (.inl rfl)
    rwa [List.append_nil] at this
  have e3 : slice w [] = w := by
    have := slice_self_append w []
    rwa [List.append_nil] at this
  have hno : ∀ p : Str, ¬ ' ' :: p <+: w := fun p ⟨u, hu⟩ => h3 (by rw [← hu]; rfl)
  unfold lexPlusMinus
  rw [hs.1, hs.2]
  simp only [e1, e2]
  rw [if_neg (by simp), if_neg (by simp), if_pos (by simp), show contLines ([] : Str).length [] = ([], []) from rfl]
  simp only [e3]
  rw [startsWith_false (p := c!" [ ] ") (hno _), startsWith_false (p := c!" [x] ") (hno _), startsWith_false (p := c!" [X] ") (hno _)]
  rfl

/-- A box as written in a task list, and whether it is checked. -/
def boxOf (x : Char) : Option TaskBox :=
  if x = ' ' then some .unchecked else if x = 'x' ∨ x = 'X' then some .checked else none

theorem lexPlusMinus_task (r : Rec) {c x : Char} {b : TaskBox} {w rest : Str} (hc : c = '-' ∨ c = '+') (hx : boxOf x = some b)
    (hw : '\n' ∉ w) (heol : AtEol rest) (hno : ¬ c!"\n\n\t" <+: rest) :
    lexPlusMinus r ((c :: ' ' :: '[' :: x :: ']' :: ' ' :: w) ++ rest) =
      .ok (.ok (.taskListItem b w), skipIf '\n' rest) := by
  have hxs : x = ' ' ∨ x = 'x' ∨ x = 'X' := by
    unfold boxOf at hx
    split at hx
    · next h => exact .inl h
    · split at hx
      · next h => exact .inr h
      · cases hx
  have hw' : '\n' ∉ ' ' :: '[' :: x :: ']' :: ' ' :: w := by
    rcases hxs with rfl | rfl | rfl <;> simp [hw]
  have e : ' ' :: (('[' :: x :: ']' :: ' ' :: w) ++ rest) = (' ' :: '[' :: x :: ']' :: ' ' :: w) ++ rest := rfl
  unfold lexPlusMinus
  rw [(bullet_split hc).1, (bullet_split hc).2, e]
  simp only [takeWhile_eol hw' heol, dropWhile_eol hw' heol, contLines_none hno, slice_self_append]
  rw [if_neg (by simp), if_neg (by simp), if_pos (by simp)]
  rcases hxs with rfl | rfl | rfl <;> simp [boxOf] at hx <;> subst hx <;> rfl

theorem nextToken_bullet {r : Rec} {ig : List Char} {last : Option Token} {c : Char} {s : Str} (h : c = '-' ∨ c = '+') :
    nextToken r ig last (c :: s) =
      (lexPlusMinus r (c :: s) >>= fun res => .ok (some (resToken res.1, res.2))) := by
  unfold nextToken lexDispatch
  rcases h with rfl | rfl <;> simp

end Smd.Gfm
