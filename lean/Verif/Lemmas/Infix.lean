import Verif.Gfm.Render
import Verif.Lemmas.Text

/-! Which part of a text each string operation returns. -/

namespace Smd.Gfm
open Smd.Rs

theorem drop_suffix' (n : Nat) (s : Str) : s.drop n <:+ s := List.drop_suffix n s

theorem takeWhile_infix (p : Char → Bool) (s : Str) : s.takeWhile p <:+: s := (List.takeWhile_prefix p).isInfix

theorem dropWhile_infix (p : Char → Bool) (s : Str) : s.dropWhile p <:+: s := (dropWhile_suffix p s).isInfix

theorem slice_prefix (start s : Str) : slice start s <+: start := List.take_prefix _ _

theorem slice_infix (start s : Str) : slice start s <:+: start := (slice_prefix start s).isInfix

theorem skipIf_suffix (c : Char) (s : Str) : skipIf c s <:+ s := by
  cases s with
  | nil => exact List.suffix_refl _
  | cons x xs =>
    simp only [skipIf]
    split
    · exact List.suffix_cons x xs
    · exact List.suffix_refl _

theorem untilTailGo_append' (tail : Str) : ∀ (acc rest : Str),
    (untilTailGo tail acc rest).1 ++ (untilTailGo tail acc rest).2 = acc ++ rest
  | acc, [] => by simp [untilTailGo]
  | acc, c :: rest => by
    unfold untilTailGo
    split
    · rfl
    · rw [untilTailGo_append' tail (acc ++ [c]) rest]; simp

theorem untilTail_append (tail s : Str) : (untilTail tail s).1 ++ (untilTail tail s).2 = s := by
  have := untilTailGo_append' tail [] s
  simpa [untilTail] using this

theorem untilTail_prefix (tail s : Str) : (untilTail tail s).1 <+: s := ⟨_, untilTail_append tail s⟩

theorem untilTail_suffix (tail s : Str) : (untilTail tail s).2 <:+ s := ⟨_, untilTail_append tail s⟩

theorem lineAhead_parts {s l s' : Str} (h : lineAhead s = some (l, s')) : s = l ++ s' := by
  unfold lineAhead at h
  split at h
  · next hm =>
    injection h with h
    injection h with h1 h2
    have := split_line s (List.contains_iff_mem.mp hm)
    rw [h1, h2] at this
    exact this
  · split at h
    · cases h
    · injection h with h
      injection h with h1 h2
      subst h1 h2
      simp

theorem trimStartP_suffix (p : Char → Bool) (s : Str) : trimStartP p s <:+ s := dropWhile_suffix p s

theorem trimEndP_prefix (p : Char → Bool) (s : Str) : trimEndP p s <+: s := by
  unfold trimEndP
  have := dropWhile_suffix p s.reverse
  rw [← List.reverse_prefix] at this
  simpa using this

theorem trim_infix (s : Str) : trim s <:+: s :=
  (trimEndP_prefix isWs _).isInfix.trans (trimStartP_suffix isWs s).isInfix

theorem trimEnd_prefix (s : Str) : trimEnd s <+: s := trimEndP_prefix isWs s

theorem stripPrefix_some {p s t : Str} (h : stripPrefix p s = some t) : s = p ++ t := by
  unfold stripPrefix at h
  split at h
  · next hp =>
    injection h with h
    obtain ⟨r, rfl⟩ := List.isPrefixOf_iff_prefix.mp hp
    simp at h
    rw [h]
  · cases h

theorem stripSuffix_some {p s t : Str} (h : stripSuffix p s = some t) : s = t ++ p := by
  unfold stripSuffix at h
  split at h
  · next hp =>
    injection h with h
    obtain ⟨r, rfl⟩ := List.isSuffixOf_iff_suffix.mp hp
    simp at h
    rw [h]
  · cases h

theorem stripPrefix_getD_infix (p s : Str) : (stripPrefix p s).getD [] <:+: s := by
  cases h : stripPrefix p s with
  | none => exact List.nil_infix
  | some t =>
    have := stripPrefix_some h
    exact (this ▸ List.suffix_append p t : t <:+ s).isInfix

theorem stripSuffix_getD_infix (p s : Str) : (stripSuffix p s).getD [] <:+: s := by
  cases h : stripSuffix p s with
  | none => exact List.nil_infix
  | some t =>
    have := stripSuffix_some h
    exact (this ▸ List.prefix_append t p : t <+: s).isInfix

theorem trimEndStrGo_prefix (p : Str) : ∀ (n : Nat) (s : Str), trimEndStrGo p n s <+: s
  | 0, s => List.prefix_refl _
  | n + 1, s => by
    unfold trimEndStrGo
    split
    · exact (trimEndStrGo_prefix p n _).trans (List.take_prefix _ _)
    · exact List.prefix_refl _

theorem trimEndStr_prefix (p s : Str) : trimEndStr p s <+: s := trimEndStrGo_prefix p _ s

theorem rsplitOnce_prefix {c : Char} {s l r : Str} (h : rsplitOnce c s = some (l, r)) : l <+: s := by
  unfold rsplitOnce at h
  split at h
  · injection h with h
    injection h with h1 h2
    have : (s.reverse.dropWhile (· != c)).drop 1 <:+ s.reverse :=
      (List.drop_suffix 1 _).trans (dropWhile_suffix _ _)
    rw [← List.reverse_prefix] at this
    rw [h1] at this
    simpa using this
  · cases h

theorem headingLabel_ok {line l : Str} (h : headingLabel line = .ok l) : l <:+: line := by
  unfold headingLabel at h
  split at h
  · split at h
    · cases h
    · next heading _ _ =>
      split at h
      · cases h
      · next l1 h1 =>
        split at h
        · cases h
        · next l2 h2 =>
          split at h
          · cases h
          · next l3 h3 =>
            injection h with h
            subst h
            have e1 := stripPrefix_some h1
            have e2 := stripPrefix_some h2
            have e3 := stripSuffix_some h3
            rw [e1, e2, e3]
            exact ⟨heading ++ c!"{#", c!"}", by simp⟩
  · injection h with h
    subst h
    exact List.infix_refl _

theorem headingTrim_prefix (line : Str) : headingTrim line <+: line := by
  unfold headingTrim
  split
  · next l r h =>
    split
    · exact (rsplitOnce_prefix h).trans (trimEnd_prefix line)
    · exact List.prefix_refl _
  · exact List.prefix_refl _

theorem consHead_flat (c : Char) (l : List Str) : ∀ x ∈ consHead c l, x = [c] ∨ (∃ y ∈ l, x = c :: y) ∨ x ∈ l := by
  intro x hx
  cases l with
  | nil => simp [consHead] at hx; exact .inl hx
  | cons h t =>
    simp only [consHead, List.mem_cons] at hx
    rcases hx with rfl | hx
    · exact .inr (.inl ⟨h, by simp, rfl⟩)
    · exact .inr (.inr (by simp [hx]))

/-- The first piece of a split is a prefix, every piece is an infix. -/
theorem splitGo_infix (p : Str) : ∀ (k : Nat) (s : Str),
    (∀ x ∈ splitGo p k s, x <:+: s) ∧ (k = 0 → ∀ x, (splitGo p k s).head? = some x → x <+: s) ∧ splitGo p k s ≠ []
  | k, [] => by simp [splitGo]
  | k + 1, c :: cs => by
    simp only [splitGo]
    have ⟨h1, _, h3⟩ := splitGo_infix p k cs
    exact ⟨fun x hx => (h1 x hx).trans (List.suffix_cons c cs).isInfix, by simp, h3⟩
  | 0, c :: cs => by
    simp only [splitGo]
    split
    · have ⟨h1, _, _⟩ := splitGo_infix p (p.length - 1) cs
      refine ⟨?_, ?_, by simp⟩
      · intro x hx
        rcases List.mem_cons.mp hx with rfl | hx
        · exact List.nil_infix
        · exact (h1 x hx).trans (List.suffix_cons c cs).isInfix
      · intro _ x hx
        simp at hx
        subst hx
        exact List.nil_prefix
    · have ⟨h1, h2, h3⟩ := splitGo_infix p 0 cs
      cases hsp : splitGo p 0 cs with
      | nil => exact absurd hsp h3
      | cons h t =>
        rw [hsp] at h1 h2
        have hp : h <+: cs := h2 rfl h (by simp)
        have hp' : c :: h <+: c :: cs := List.cons_prefix_cons.mpr ⟨rfl, hp⟩
        simp only [consHead]
        refine ⟨?_, ?_, by simp⟩
        · intro x hx
          rcases List.mem_cons.mp hx with rfl | hx
          · exact hp'.isInfix
          · exact (h1 x (by simp [hx])).trans (List.suffix_cons c cs).isInfix
        · intro _ x hx
          simp at hx
          subst hx
          exact hp'

theorem splitStr_infix (p s : Str) : ∀ x ∈ splitStr p s, x <:+: s := (splitGo_infix p 0 s).1

theorem cells_infix (l : Str) : ∀ x ∈ cells l, x <:+: l := fun x hx =>
  splitStr_infix _ l x (List.mem_filter.mp hx).1

/-- A text with no newline except possibly at its end. -/
def OneLine (s : Str) : Prop := '\n' ∉ s.dropLast

theorem OneLine.of_no_nl {s : Str} (h : '\n' ∉ s) : OneLine s := fun hm => h ((List.dropLast_prefix s).subset hm)

theorem OneLine.takeWhile (s : Str) : OneLine (s.takeWhile (· != '\n')) := .of_no_nl fun hm => by
  have := mem_takeWhile_true _ _ _ hm
  simp at this

theorem OneLine.infix {s t : Str} (h : OneLine s) (ht : t <:+: s) : OneLine t := by
  obtain ⟨a, b, rfl⟩ := ht
  intro hm
  apply h
  rcases List.eq_nil_or_concat t with rfl | ⟨u, d, rfl⟩
  · simp at hm
  · rw [List.concat_eq_append, List.dropLast_concat] at hm
    have e : a ++ u.concat d ++ b = (a ++ u) ++ (d :: b) := by simp [List.concat_eq_append]
    rw [e, List.dropLast_append_of_ne_nil (by simp)]
    simp [hm]

theorem lineAhead_oneLine {s l s' : Str} (h : lineAhead s = some (l, s')) : OneLine l := by
  unfold lineAhead at h
  split at h
  · injection h with h
    injection h with h _
    subst h
    unfold OneLine
    rw [List.dropLast_concat]
    intro hm
    have := mem_takeWhile_true _ _ _ hm
    simp at this
  · next hno =>
    split at h
    · cases h
    · injection h with h
      injection h with h _
      subst h
      exact .of_no_nl (by simpa using hno)

theorem contLines_spec : ∀ (n : Nat) (s : Str), (contLines n s).2 <:+ s ∧ ∀ x ∈ (contLines n s).1, x <:+: s ∧ OneLine x
  | 0, s => by simp [contLines]
  | n + 1, s => by
    unfold contLines
    split
    · have ⟨h1, h2⟩ := contLines_spec n ((s.drop 3).dropWhile (· != '\n'))
      have hs : (s.drop 3).dropWhile (· != '\n') <:+ s := (dropWhile_suffix _ _).trans (List.drop_suffix 3 s)
      refine ⟨h1.trans hs, ?_⟩
      intro x hx
      rcases List.mem_cons.mp hx with rfl | hx
      · exact ⟨(takeWhile_infix _ _).trans (List.drop_suffix 3 s).isInfix, .takeWhile _⟩
      · exact ⟨(h2 x hx).1.trans hs.isInfix, (h2 x hx).2⟩
    · simp

theorem footnoteLoop_suffix : ∀ (n : Nat) (s : Str), (footnoteLoop n s).2 <:+ s
  | 0, s => by simp [footnoteLoop]
  | n + 1, s => by
    unfold footnoteLoop
    have h1 : (s.dropWhile (· != '\n')).drop 1 <:+ s := (List.drop_suffix 1 _).trans (dropWhile_suffix _ s)
    simp only
    split
    · exact h1
    · split
      · exact (footnoteLoop_suffix n _).trans ((List.drop_suffix 1 _).trans h1)
      · split
        · exact (footnoteLoop_suffix n _).trans ((dropWhile_suffix _ _).trans h1)
        · exact (dropWhile_suffix _ _).trans h1

theorem pipeLines_spec : ∀ (n : Nat) (s : Str), (pipeLines n s).2 <:+ s ∧
    ∀ x ∈ (pipeLines n s).1, x <:+: s ∧ x.length < s.length
  | 0, s => by simp [pipeLines]
  | n + 1, s => by
    unfold pipeLines
    split
    · next hp =>
      have ⟨h1, h2⟩ := pipeLines_spec n (((s.drop 1).dropWhile (· != '\n')).drop 1)
      have hs : ((s.drop 1).dropWhile (· != '\n')).drop 1 <:+ s.drop 1 :=
        (List.drop_suffix 1 _).trans (dropWhile_suffix _ _)
      have hpos : 0 < s.length := by
        cases s with
        | nil => simp at hp
        | cons c s => simp
      refine ⟨h1.trans (hs.trans (List.drop_suffix 1 s)), ?_⟩
      intro x hx
      rcases List.mem_cons.mp hx with rfl | hx
      · refine ⟨(takeWhile_infix _ _).trans (List.drop_suffix 1 s).isInfix, ?_⟩
        have := (takeWhile_infix (· != '\n') (s.drop 1)).length_le
        simp only [List.length_drop] at this
        omega
      · have ⟨h3, h4⟩ := h2 x hx
        refine ⟨h3.trans (hs.trans (List.drop_suffix 1 s)).isInfix, ?_⟩
        have := hs.length_le
        simp only [List.length_drop] at this
        simp only [List.length_drop] at h4
        omega
    · simp

theorem pipeLines_oneLine : ∀ (n : Nat) (s : Str), ∀ x ∈ (pipeLines n s).1, OneLine x
  | 0, s => by simp [pipeLines]
  | n + 1, s => by
    unfold pipeLines
    split
    · intro x hx
      rcases List.mem_cons.mp hx with rfl | hx
      · exact .takeWhile _
      · exact pipeLines_oneLine n _ x hx
    · simp

theorem detailsLoop_ok (start : Str) : ∀ (n : Nat) (s : Str) (res : Str × Str), detailsLoop start n s = .ok res →
    res.2 <:+ s ∧ res.1 <+: start
  | n, s, res, h => by
    unfold detailsLoop at h
    simp only at h
    split at h
    · injection h with h
      subst h
      exact ⟨List.suffix_refl _, slice_prefix _ _⟩
    · split at h
      · cases h
      · next fuel =>
        split at h
        · cases h
        · have ⟨h1, h2⟩ := detailsLoop_ok start fuel _ res h
          exact ⟨h1.trans (untilTail_suffix _ s), h2⟩

theorem contains_infix {s p : Str} (hp : p ≠ []) (h : contains s p = true) : p <:+: s := by
  induction s with
  | nil =>
    cases p with
    | nil => exact absurd rfl hp
    | cons a b => simp [contains] at h
  | cons c cs ih =>
    unfold contains at h
    rcases (Bool.or_eq_true _ _).mp h with h | h
    · exact (List.isPrefixOf_iff_prefix.mp h).isInfix
    · exact (ih h).trans (List.suffix_cons _ _).isInfix

theorem infix_contains {s p : Str} (h : p <:+: s) : contains s p = true := by
  induction s with
  | nil =>
    have := List.eq_nil_of_infix_nil h
    subst this
    rfl
  | cons c cs ih =>
    unfold contains
    rw [Bool.or_eq_true]
    rcases List.infix_cons_iff.mp h with h | h
    · exact .inl (List.isPrefixOf_iff_prefix.mpr h)
    · exact .inr (ih h)

end Smd.Gfm
