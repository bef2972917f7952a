import Verif.Lemmas.Local
import Verif.Lemmas.Items

/-!
How far the lexer looks, continued: headings, list entries, links, details and tables; and `nextToken`.
-/

namespace Smd.Gfm
open Smd.Rs

variable {b b' s s' u u' : Str} {res : LexRes} {r : Rec}

theorem Sim.len (h : Sim b b' s s') : s'.length + b.length = s.length + b'.length := by
  obtain ⟨q, rfl, rfl⟩ := h
  simp only [List.length_append]
  omega

theorem Sim.sep (A : Agree b b') (h : Sim b b' s s') :
    (headingSep s = none → headingSep s' = none) ∧
      ∀ {t}, headingSep s = some t → b <:+ t → ∃ t', headingSep s' = some t' ∧ Sim b b' t t' := by
  have hh := h.head A
  have hd := h.drop1 A
  cases s with
  | nil =>
    cases s' with
    | nil => exact ⟨fun _ => rfl, fun e => by simp [headingSep] at e⟩
    | cons d t => simp at hh
  | cons x xs =>
    cases s' with
    | nil => simp at hh
    | cons y ys =>
      simp at hh
      subst hh
      simp only [List.drop_one, List.tail_cons] at hd
      constructor
      · intro e
        unfold headingSep at e ⊢
        split at e <;> simp_all
      · intro t e hb
        unfold headingSep at e ⊢
        split at e
        · rename_i e'; cases e'
          obtain rfl := Option.some.inj e
          exact ⟨ys, rfl, hd hb⟩
        · rename_i e'; cases e'
          obtain rfl := Option.some.inj e
          exact ⟨ys, rfl, hd hb⟩
        · rename_i e'; cases e'
          obtain rfl := Option.some.inj e
          exact ⟨_, rfl, h⟩
        · cases e

theorem lexHeading_local (A : Agree b b') (hs : Sim b b' s s') (h : lexHeading r s = .ok (res, b)) : lexHeading r s' = .ok (res, b') := by
  unfold lexHeading at h ⊢
  dsimp only at h ⊢
  by_cases c1 : (s.takeWhile (· == '#')).length > 6
  · rw [if_pos c1] at h
    obtain ⟨rfl, e⟩ := Prod.mk.inj (Outcome.ok.inj h)
    obtain ⟨e1, S1⟩ := hs.run A (· == '#') (sfx_of e)
    simp only [e1]
    rw [if_pos c1, S1.fin e]
  rw [if_neg c1] at h
  split at h
  · rename_i hn
    obtain ⟨rfl, e⟩ := Prod.mk.inj (Outcome.ok.inj h)
    obtain ⟨e1, S1⟩ := hs.run A (· == '#') (sfx_of e)
    simp only [e1]
    rw [if_neg c1, (S1.sep A).1 hn, S1.fin e]
  · rename_i s2 hn
    obtain ⟨line, hl, h⟩ := Outcome.bind_ok' h
    have hb : b <:+ s2.dropWhile (· != '\n') := by
      split at h
      · exact sfx_of (Prod.mk.inj (Outcome.ok.inj h)).2
      · obtain ⟨html, _, h⟩ := Outcome.bind_ok' h
        exact sfx_of (Prod.mk.inj (Outcome.ok.inj h)).2
    have hb2 := hb.trans (dropWhile_suffix _ _)
    obtain ⟨e1, S1⟩ := hs.run A (· == '#') (hb2.trans (headingSep_suffix hn))
    obtain ⟨s2', hn', S2⟩ := (S1.sep A).2 hn hb2
    obtain ⟨e3, S3⟩ := S2.run A _ hb
    simp only [e1, hn', e3, hl]
    rw [if_neg c1]
    show (if _ then _ else _) = _
    split at h
    · obtain ⟨rfl, e⟩ := Prod.mk.inj (Outcome.ok.inj h)
      rw [if_pos ‹_›, S3.fin e]
    · rw [if_neg ‹_›]
      obtain ⟨html, hr, h⟩ := Outcome.bind_ok' h
      obtain ⟨rfl, e⟩ := Prod.mk.inj (Outcome.ok.inj h)
      rw [hr, S3.fin e]
      rfl

/-! ### List entries -/

theorem startsWith_sim (A : Agree b b') (hs : Sim b b' s s') (hb : b <:+ skipIf '\n' s) (h : startsWith s c!"\n\n\t" = false) :
    startsWith s' c!"\n\n\t" = false := by
  apply startsWith_false
  rintro ⟨z, hz⟩
  have h' : ¬ c!"\n\n\t" <+: s := fun hp => by rw [startsWith_iff.mpr hp] at h; cases h
  apply h'
  obtain ⟨q, rfl, rfl⟩ := hs
  match q, hz with
  | [], hz =>
    simp only [List.nil_append] at *
    have := A.head
    rw [← hz] at this
    cases b with
    | nil => simp at this
    | cons c t =>
      simp at this
      subst this
      simp [skipIf] at hb
      have := hb.length_le
      simp at this
      omega
  | [x], hz =>
    simp at hz
    obtain ⟨rfl, hz⟩ := hz
    obtain ⟨t, ht⟩ := A.nt.mpr ⟨z, by simpa using hz⟩
    exact ⟨t, by rw [← ht]; rfl⟩
  | [x, y], hz =>
    have h1 := A.head
    simp at hz
    obtain ⟨rfl, rfl, hz⟩ := hz
    rw [← hz] at h1
    cases b with
    | nil => simp at h1
    | cons c t => simp at h1; exact ⟨t, by simp [h1]⟩
  | x :: y :: z' :: q, hz =>
    simp at hz
    obtain ⟨rfl, rfl, rfl, hz⟩ := hz
    exact ⟨q ++ b, by simp⟩

theorem contLines_local (A : Agree b b') : ∀ (n n' : Nat) (s s' : Str), s.length ≤ n → s'.length ≤ n' → Sim b b' s s' →
    b <:+ skipIf '\n' (contLines n s).2 →
    (contLines n' s').1 = (contLines n s).1 ∧ Sim b b' (contLines n s).2 (contLines n' s').2
  | 0, n', s, s', hn, _, hs, _ => by
    obtain rfl : s = [] := List.length_eq_zero_iff.mp (by omega)
    obtain rfl : s' = [] := (hs.empty A).mpr rfl
    rw [contLines_none (by simp), contLines_none (by simp)]
    exact ⟨rfl, hs⟩
  | n + 1, 0, s, s', _, hn', hs, _ => by
    obtain rfl : s' = [] := List.length_eq_zero_iff.mp (by omega)
    obtain rfl : s = [] := (hs.empty A).mp rfl
    rw [contLines_none (by simp), contLines_none (by simp)]
    exact ⟨rfl, hs⟩
  | n + 1, n' + 1, s, s', hn, hn', hs, hb => by
    cases hw : startsWith s c!"\n\n\t" with
    | false =>
      have e : contLines (n + 1) s = ([], s) := by rw [contLines, hw]; rfl
      rw [e] at hb ⊢
      have hw' := startsWith_sim A hs hb hw
      have e' : contLines (n' + 1) s' = ([], s') := by rw [contLines, hw']; rfl
      rw [e']
      exact ⟨rfl, hs⟩
    | true =>
      have e : ∀ (n : Nat) (s : Str), startsWith s c!"\n\n\t" = true → contLines (n + 1) s =
          ((s.drop 3).takeWhile (· != '\n') :: (contLines n ((s.drop 3).dropWhile (· != '\n'))).1,
            (contLines n ((s.drop 3).dropWhile (· != '\n'))).2) := by
        intro n s hw
        rw [contLines, hw]
        rfl
      rw [e n s hw] at hb ⊢
      have hb1 := hb.trans ((skipIf_suffix _ _).trans (contLines_spec _ _).1)
      have hb3 : b <:+ s.drop 3 := hb1.trans (dropWhile_suffix _ _)
      have S1 := hs.drop A 3 hb3
      have hw' : startsWith s' c!"\n\n\t" = true := by
        rw [startsWith_iff] at hw ⊢
        obtain ⟨z, rfl⟩ := hw
        obtain ⟨q, e1, rfl⟩ := hs
        have hl := hb3.length_le
        have hq : 3 ≤ q.length := by
          have := congrArg List.length e1
          simp at this hl
          omega
        match q, hq with
        | x :: y :: w :: q, _ =>
          simp at e1
          exact ⟨q ++ b', by simp [← e1.1, ← e1.2.1, ← e1.2.2.1]⟩
      rw [e n' s' hw']
      obtain ⟨e2, S2⟩ := S1.run A _ hb1
      have h3 : 3 ≤ s.length := (startsWith_iff.mp hw).length_le
      have h3' : 3 ≤ s'.length := (startsWith_iff.mp hw').length_le
      have l1 := dropWhile_length_le (· != '\n') (s.drop 3)
      have l2 := dropWhile_length_le (· != '\n') (s'.drop 3)
      simp only [List.length_drop] at l1 l2
      obtain ⟨e3, S3⟩ := contLines_local A n n' _ _ (by omega) (by omega) S2 hb
      exact ⟨by rw [e2, e3], S3⟩

theorem startsWith_one_head (c : Char) (t : Str) : startsWith t [c] = decide (t.head? = some c) := by
  cases t with
  | nil => rfl
  | cons x t => simp only [startsWith, List.isPrefixOf, Bool.and_true, List.head?_cons, Option.some.injEq, eq_comm (a := x), beq_eq_decide]

theorem lineAhead_starts {l t : Str} (h : lineAhead s = some (l, t)) :
    startsWith l c!"  " = startsWith s c!"  " ∧ startsWith l c!"\t" = startsWith s c!"\t" := by
  unfold lineAhead at h
  split at h
  · obtain ⟨rfl, -⟩ := Prod.mk.inj (Option.some.inj h)
    match s with
    | [] => simp_all
    | [x] =>
      by_cases hx : x = '\n'
      · subst hx; decide
      · rename_i hm
        simp at hm
        exact absurd hm.symm hx
    | x :: y :: t =>
      by_cases hx : x = '\n'
      · subst hx; simp [startsWith, List.isPrefixOf]
      · by_cases hy : y = '\n'
        · subst hy; simp [startsWith, List.isPrefixOf, hx]
        · simp [startsWith, List.isPrefixOf, hx, hy]
  · split at h
    · cases h
    · obtain ⟨rfl, -⟩ := Prod.mk.inj (Option.some.inj h)
      exact ⟨rfl, rfl⟩

theorem Agree.starts (A : Agree b b') : startsWith b' c!"  " = startsWith b c!"  " ∧ startsWith b' c!"\t" = startsWith b c!"\t" := by
  have h1 := A.head
  constructor
  · have e := A.sp
    cases h : startsWith b c!"  " with
    | true => exact startsWith_iff.mpr (e.mp (startsWith_iff.mp h))
    | false => exact startsWith_false fun hp => by rw [startsWith_iff.mpr (e.mpr hp)] at h; cases h
  · rw [startsWith_one_head, startsWith_one_head, h1]

theorem lineAhead_none (h : lineAhead s = none) : s = [] := by
  unfold lineAhead at h
  split at h
  · cases h
  · split at h
    · assumption
    · cases h

theorem lineAhead_sim (A : Agree b b') (hs : Sim b b' s s') {l : Str} (h : lineAhead s = some (l, b)) : lineAhead s' = some (l, b') := by
  have hp := lineAhead_parts h
  obtain ⟨q, e, rfl⟩ := hs
  obtain rfl : q = l := List.append_cancel_right (e.symm.trans hp)
  subst e
  cases b with
  | nil => rw [A.nil]; exact h
  | cons c t =>
    unfold lineAhead at h
    split at h
    · rename_i hc
      obtain ⟨e1, e2⟩ := Prod.mk.inj (Option.some.inj h)
      generalize hx : ((q ++ c :: t).takeWhile (· != '\n')) = x at *
      have hx' : ∀ a ∈ x, (a != '\n') = true := by
        intro a ha
        rw [← hx] at ha
        exact mem_takeWhile_true (· != '\n') _ _ ha
      rw [← e1]
      unfold lineAhead
      rw [if_pos (by simp)]
      simp only [List.append_assoc]
      rw [List.takeWhile_append_of_pos hx', List.dropWhile_append_of_pos hx']
      simp
    · split at h
      · cases h
      · simp at h

theorem lexPlusMinus_local (A : Agree b b') (hs : Sim b b' s s') (h : lexPlusMinus r s = .ok (res, b)) : lexPlusMinus r s' = .ok (res, b') := by
  unfold lexPlusMinus at h ⊢
  dsimp only at h ⊢
  generalize hf : (fun c : Char => c == '-' || c == '+') = f at *
  have easy : ∀ {y : Str}, s.dropWhile f = y → y = b → s'.takeWhile f = s.takeWhile f ∧ s'.dropWhile f = b' ∧ Sim b b' (s.dropWhile f) (s'.dropWhile f) := by
    rintro y rfl e
    obtain ⟨e1, S1⟩ := hs.run A f (sfx_of e)
    exact ⟨e1, S1.fin e, S1⟩
  split at h
  · obtain ⟨rfl, e⟩ := Prod.mk.inj (Outcome.ok.inj h)
    obtain ⟨e1, e2, -⟩ := easy rfl e
    rw [e1, if_pos ‹_›, e2]
  split at h
  · obtain ⟨rfl, e⟩ := Prod.mk.inj (Outcome.ok.inj h)
    obtain ⟨e1, e2, S⟩ := easy rfl e
    rw [e1, if_neg ‹_›, if_pos ‹_›, hs.slice S, e2]
  split at h
  swap
  · obtain ⟨rfl, e⟩ := Prod.mk.inj (Outcome.ok.inj h)
    obtain ⟨e1, e2, S⟩ := easy rfl e
    rw [e1, if_neg ‹_›, if_neg ‹_›, if_neg ‹_›, e2]
  rename_i c1 c2 c3
  generalize hs2 : (s.dropWhile f).dropWhile (· != '\n') = s2 at h
  have hb4 : b <:+ skipIf '\n' (contLines s2.length s2).2 := by
    split at h
    · exact sfx_of (Prod.mk.inj (Outcome.ok.inj h)).2
    split at h
    · exact sfx_of (Prod.mk.inj (Outcome.ok.inj h)).2
    split at h
    · rename_i l s5 hl
      split at h
      · obtain ⟨ts, _, h⟩ := Outcome.bind_ok' h
        rw [lineAhead_parts hl, (Prod.mk.inj (Outcome.ok.inj h)).2]
        exact List.suffix_append _ _
      split at h
      · obtain ⟨ts, _, h⟩ := Outcome.bind_ok' h
        rw [lineAhead_parts hl, (Prod.mk.inj (Outcome.ok.inj h)).2]
        exact List.suffix_append _ _
      · exact sfx_of (Prod.mk.inj (Outcome.ok.inj h)).2
    · exact sfx_of (Prod.mk.inj (Outcome.ok.inj h)).2
  have hb2 : b <:+ s2 := hb4.trans ((skipIf_suffix _ _).trans (contLines_spec _ _).1)
  obtain ⟨e1, S1⟩ := hs.run A f (by rw [← hs2] at hb2; exact hb2.trans (dropWhile_suffix _ _))
  obtain ⟨e2, S2⟩ := S1.run A (· != '\n') (by rw [hs2]; exact hb2)
  rw [hs2] at S2
  generalize (s'.dropWhile f).dropWhile (· != '\n') = s2' at *
  obtain ⟨e3, S3⟩ := contLines_local A s2.length s2'.length s2 s2' (Nat.le_refl _) (Nat.le_refl _) S2 hb4
  have S4 := S3.skip A '\n' hb4
  have esl := S1.slice S3
  rw [e1, if_neg c1, if_neg c2, if_pos c3, e2, e3]
  generalize (contLines s2.length s2).2 = s3 at *
  generalize (contLines s2'.length s2').2 = s3' at *
  generalize skipIf '\n' s3 = s4 at *
  generalize skipIf '\n' s3' = s4' at *
  rw [esl]
  split at h
  · obtain ⟨rfl, e⟩ := Prod.mk.inj (Outcome.ok.inj h)
    rw [if_pos ‹_›, S4.fin e]
  rw [if_neg ‹_›]
  split at h
  · obtain ⟨rfl, e⟩ := Prod.mk.inj (Outcome.ok.inj h)
    rw [if_pos ‹_›, S4.fin e]
  rw [if_neg ‹_›]
  split at h
  · rename_i l s5 hl
    by_cases d1 : startsWith l c!"  " = true
    · rw [if_pos d1] at h
      obtain ⟨ts, ht, h⟩ := Outcome.bind_ok' h
      obtain ⟨rfl, rfl⟩ := Prod.mk.inj (Outcome.ok.inj h)
      rw [lineAhead_sim A S4 hl]
      dsimp only
      rw [if_pos d1, ht]
      rfl
    rw [if_neg d1] at h
    by_cases d2 : startsWith l c!"\t" = true
    · rw [if_pos d2] at h
      obtain ⟨ts, ht, h⟩ := Outcome.bind_ok' h
      obtain ⟨rfl, rfl⟩ := Prod.mk.inj (Outcome.ok.inj h)
      rw [lineAhead_sim A S4 hl]
      dsimp only
      rw [if_neg d1, if_pos d2, ht]
      rfl
    · rw [if_neg d2] at h
      obtain ⟨rfl, rfl⟩ := Prod.mk.inj (Outcome.ok.inj h)
      obtain rfl := S4.done
      obtain ⟨g1, g2⟩ := lineAhead_starts hl
      obtain ⟨a1, a2⟩ := A.starts
      split
      · rename_i l' s5' hl'
        obtain ⟨g1', g2'⟩ := lineAhead_starts hl'
        rw [if_neg (by rw [g1', a1, ← g1]; exact d1), if_neg (by rw [g2', a2, ← g2]; exact d2)]
      · rfl
  · rename_i hl
    obtain ⟨rfl, rfl⟩ := Prod.mk.inj (Outcome.ok.inj h)
    obtain rfl := S4.done
    obtain rfl := lineAhead_none hl
    obtain rfl := A.nil
    rw [hl]

/-! ### Links, images and footnotes -/

theorem footnoteLoop_local (A : Agree b b') : ∀ (n n' : Nat) (s s' : Str), s.length < n → s'.length < n' → Sim b b' s s' →
    b <:+ (footnoteLoop n s).2 → (footnoteLoop n' s').1 = (footnoteLoop n s).1 ∧ Sim b b' (footnoteLoop n s).2 (footnoteLoop n' s').2
  | 0, _, _, _, hn, _, _, _ => by omega
  | _ + 1, 0, _, _, _, hn', _, _ => by omega
  | n + 1, n' + 1, s, s', hn, hn', hs, hb => by
    have hb1 : b <:+ (s.dropWhile (· != '\n')).drop 1 := by
      unfold footnoteLoop at hb
      dsimp only at hb
      split at hb
      · exact hb
      split at hb
      · exact hb.trans ((footnoteLoop_suffix _ _).trans (List.drop_suffix _ _))
      split at hb
      · exact hb.trans ((footnoteLoop_suffix _ _).trans (dropWhile_suffix _ _))
      · exact hb.trans (dropWhile_suffix _ _)
    obtain ⟨-, S0⟩ := hs.run A (· != '\n') (hb1.trans (List.drop_suffix _ _))
    have S1 := S0.drop1 A hb1
    have l1 := ((List.drop_suffix 1 (s.dropWhile (· != '\n'))).trans (dropWhile_suffix _ _)).length_le
    have l2 := ((List.drop_suffix 1 (s'.dropWhile (· != '\n'))).trans (dropWhile_suffix _ _)).length_le
    have hh := S1.head A
    unfold footnoteLoop at hb ⊢
    dsimp only at hb ⊢
    generalize (s.dropWhile (· != '\n')).drop 1 = s1 at *
    generalize (s'.dropWhile (· != '\n')).drop 1 = s1' at *
    rw [hh]
    have short : ∀ (y y' : Str) (c : Char), y.head? = some c → y'.head? = some c → (y.drop 1).length < y.length ∧ (y'.drop 1).length < y'.length := by
      intro y y' c h h'
      cases y <;> cases y' <;> simp_all
    split at hb
    · rename_i hc1
      simp only [if_pos hc1]
      exact ⟨trivial, S1⟩
    rename_i hc1
    simp only [if_neg hc1]
    split at hb
    · rename_i ht
      simp only [if_pos ht]
      have ⟨q1, q2⟩ := short s1 s1' '\t' ht (hh.trans ht)
      exact footnoteLoop_local A n n' _ _ (by omega) (by omega) (S1.drop1 A (hb.trans (footnoteLoop_suffix _ _))) hb
    rename_i hc2
    simp only [if_neg hc2]
    have hsp : s1.head? = some ' ' := by
      by_contra hn
      exact hc1 ⟨hn, hc2⟩
    have hb2 : b <:+ s1.dropWhile (· == ' ') := by
      split at hb
      · exact hb.trans (footnoteLoop_suffix _ _)
      · exact hb
    obtain ⟨e2, S2⟩ := S1.run A (· == ' ') hb2
    rw [e2]
    split at hb
    · rename_i hc3
      simp only [if_pos hc3]
      have q : ∀ y : Str, y.head? = some ' ' → (y.dropWhile (· == ' ')).length < y.length := by
        intro y hy
        cases y with
        | nil => simp at hy
        | cons c t =>
          simp at hy
          have := (dropWhile_tail (p := (· == ' ')) (c := c) (cs := t) (by simp [hy])).length_le
          simp only [List.length_cons]
          omega
      have q1 := q s1 hsp
      have q2 := q s1' (hh.trans hsp)
      exact footnoteLoop_local A n n' _ _ (by omega) (by omega) S2 hb
    · rename_i hc3
      simp only [if_neg hc3]
      exact ⟨trivial, S2⟩

theorem lexLinks_local (A : Agree b b') (hs : Sim b b' s s') (h : lexLinks s = (res, b)) : lexLinks s' = (res, b') := by
  have hh := hs.head A
  unfold lexLinks at h ⊢
  rw [hh]
  by_cases c0 : s.head? ≠ some '['
  · rw [if_pos c0] at h ⊢
    obtain ⟨rfl, e⟩ := Prod.mk.inj h
    rw [hs.fin e]
  rw [if_neg c0] at h ⊢
  dsimp only at h ⊢
  -- the end of the title
  have hb2 : b <:+ (s.drop 1).dropWhile (· != ']') := by
    split at h
    · exact sfx_of (Prod.mk.inj h).2
    split at h
    · split at h
      · rw [← (Prod.mk.inj h).2]; exact (footnoteLoop_suffix _ _).trans (by sfx)
      split at h
      · rw [← (Prod.mk.inj h).2]; exact (footnoteLoop_suffix _ _).trans (by sfx)
      · rw [← (Prod.mk.inj h).2]; exact (footnoteLoop_suffix _ _).trans (by sfx)
    split at h
    · rest h
    split at h
    · rest h
    split at h
    · split at h <;> rest h
    · split at h <;> rest h
  have S1 := hs.drop1 A (hb2.trans (dropWhile_suffix _ _))
  obtain ⟨e2, S2⟩ := S1.run A _ hb2
  rw [e2, S2.head A]
  generalize hg2 : (s.drop 1).dropWhile (· != ']') = s2 at *
  generalize (s'.drop 1).dropWhile (· != ']') = s2' at *
  by_cases c1 : s2.head? ≠ some ']'
  · rw [if_pos c1] at h ⊢
    obtain ⟨rfl, e⟩ := Prod.mk.inj h
    rw [hs.slice S2, S2.fin e]
  rw [if_neg c1] at h ⊢
  have hb3 : b <:+ s2.drop 1 := by
    split at h
    · split at h
      · rw [← (Prod.mk.inj h).2]; exact (footnoteLoop_suffix _ _).trans (by sfx)
      split at h
      · rw [← (Prod.mk.inj h).2]; exact (footnoteLoop_suffix _ _).trans (by sfx)
      · rw [← (Prod.mk.inj h).2]; exact (footnoteLoop_suffix _ _).trans (by sfx)
    split at h
    · rest h
    split at h
    · rest h
    split at h
    · split at h <;> rest h
    · split at h <;> rest h
  have S3 := S2.drop1 A hb3
  rw [S3.head A]
  generalize s2.drop 1 = s3 at *
  generalize s2'.drop 1 = s3' at *
  split at h
  · rw [if_pos ‹_›]
    have hb5 : b <:+ (footnoteLoop ((s3.drop 1).length + 1) (s3.drop 1)).2 := by
      split at h
      · rest h
      split at h
      · rest h
      · rest h
    have S4 := S3.drop1 A (hb5.trans (footnoteLoop_suffix _ _))
    obtain ⟨e5, S5⟩ := footnoteLoop_local A ((s3.drop 1).length + 1) ((s3'.drop 1).length + 1) _ _ (by omega) (by omega) S4 hb5
    rw [e5, hs.slice S5, S4.slice S5]
    split at h
    · obtain ⟨rfl, e⟩ := Prod.mk.inj h
      rw [if_pos ‹_›, S5.fin e]
    rw [if_neg ‹_›]
    split at h
    · obtain ⟨rfl, e⟩ := Prod.mk.inj h
      rw [if_pos ‹_›, S5.fin e]
    · obtain ⟨rfl, e⟩ := Prod.mk.inj h
      rw [if_neg ‹_›, S5.fin e]
  rw [if_neg ‹_›]
  split at h
  · obtain ⟨rfl, e⟩ := Prod.mk.inj h
    rw [if_pos ‹_›, hs.slice S3, S3.fin e]
  rw [if_neg ‹_›]
  have hb5 : b <:+ (s3.drop 1).dropWhile (fun c => c != ')' && c != ' ') := by
    split at h
    · rest h
    split at h
    · split at h <;> rest h
    · split at h <;> rest h
  have S4 := S3.drop1 A (hb5.trans (dropWhile_suffix _ _))
  obtain ⟨e5, S5⟩ := S4.run A _ hb5
  rw [e5, S5.head A]
  generalize (s3.drop 1).dropWhile (fun c => c != ')' && c != ' ') = s5 at *
  generalize (s3'.drop 1).dropWhile (fun c => c != ')' && c != ' ') = s5' at *
  split at h
  · obtain ⟨rfl, e⟩ := Prod.mk.inj h
    rw [if_pos ‹_›, hs.slice S5, S5.fin e]
  rw [if_neg ‹_›]
  split at h
  · rw [if_pos ‹_›]
    have S6 := S5.drop1 A (by split at h <;> rest h)
    split at h
    · obtain ⟨rfl, e⟩ := Prod.mk.inj h
      rw [S6.fin e]
    · obtain ⟨rfl, e⟩ := Prod.mk.inj h
      rw [S6.fin e]
  rw [if_neg ‹_›]
  have hb6 : b <:+ ((s5.dropWhile (· != ')')).dropWhile (· != '\n')).drop 1 := by split at h <;> rest h
  obtain ⟨e6, S6⟩ := S5.run A (· != ')') (hb6.trans ((List.drop_suffix _ _).trans (dropWhile_suffix _ _)))
  obtain ⟨-, S7⟩ := S6.run A (· != '\n') (hb6.trans (List.drop_suffix _ _))
  have S8 := S7.drop1 A hb6
  rw [e6]
  split at h
  · obtain ⟨rfl, e⟩ := Prod.mk.inj h
    rw [S8.fin e]
  · obtain ⟨rfl, e⟩ := Prod.mk.inj h
    rw [S8.fin e]

theorem lexLinks_rest (h : lexLinks s = (res, b)) : b <:+ s := by
  unfold lexLinks at h
  split at h
  · rest h
  dsimp only at h
  split at h
  · rest h
  split at h
  · split at h
    · rw [← (Prod.mk.inj h).2]; exact (footnoteLoop_suffix _ _).trans (by sfx)
    split at h
    · rw [← (Prod.mk.inj h).2]; exact (footnoteLoop_suffix _ _).trans (by sfx)
    · rw [← (Prod.mk.inj h).2]; exact (footnoteLoop_suffix _ _).trans (by sfx)
  split at h
  · rest h
  split at h
  · rest h
  split at h
  · split at h <;> rest h
  · split at h <;> rest h

theorem lexImages_local (A : Agree b b') (hs : Sim b b' s s') (h : lexImages s = (res, b)) : lexImages s' = (res, b') := by
  have hh := hs.head A
  unfold lexImages at h ⊢
  rw [hh]
  by_cases c0 : s.head? ≠ some '!'
  · rw [if_pos c0] at h ⊢
    obtain ⟨rfl, e⟩ := Prod.mk.inj h
    rw [hs.fin e]
  rw [if_neg c0] at h ⊢
  generalize hx : lexLinks (s.drop 1) = x at h
  obtain ⟨a, t⟩ := x
  obtain rfl : t = b := by
    split at h <;> (rename_i e; cases e; exact (Prod.mk.inj h).2)
  have S1 := hs.drop1 A (lexLinks_rest hx)
  rw [lexLinks_local A S1 hx]
  have hsl := hs.slice (.refl t b')
  split at h
  · rename_i e; cases e
    obtain ⟨rfl, -⟩ := Prod.mk.inj h
    simp only [hsl]
  · rename_i e; cases e
    obtain ⟨rfl, -⟩ := Prod.mk.inj h
    rfl
  · rename_i hne e; cases e
    obtain ⟨rfl, -⟩ := Prod.mk.inj h
    split
    · rename_i e; cases e
    · rename_i e; cases e
      exact (hne _ _ _ rfl).elim
    · rename_i e; cases e
      rfl

/-! ### Details -/

theorem untilTail_shorter {tail : Str} (ht : tail ≠ []) (h : s ≠ []) : (untilTail tail s).2.length < s.length := by
  have happ := congrArg List.length (untilTail_append tail s)
  rw [List.length_append] at happ
  suffices 0 < (untilTail tail s).1.length by omega
  cases s with
  | nil => exact absurd rfl h
  | cons c t =>
    have h0 : tail.isSuffixOf ([] : Str) = false := by
      cases e : tail.isSuffixOf ([] : Str) with
      | false => rfl
      | true => exact absurd (List.suffix_nil.mp (List.isSuffixOf_iff_suffix.mp e)) ht
    unfold untilTail untilTailGo
    rw [h0]
    have := untilTailGo_append' tail [c] t
    have hp : ∀ (x acc : Str), acc.length ≤ (untilTailGo tail acc x).1.length := by
      intro x
      induction x with
      | nil => intro acc; simp [untilTailGo]
      | cons d x ih =>
        intro acc
        unfold untilTailGo
        split
        · simp
        · refine Nat.le_trans ?_ (ih _)
          simp
    exact hp t [c]

theorem detailsLoop_local (A : Agree b b') {start start' : Str} (h0 : Sim b b' start start') {rem : Str} : ∀ (n n' : Nat) (s s' : Str), s.length ≤ n →
    s'.length ≤ n' → Sim b b' s s' → detailsLoop start n s = .ok (rem, b) → detailsLoop start' n' s' = .ok (rem, b')
  | n, n', s, s', hn, hn', hs, h => by
    unfold detailsLoop at h ⊢
    dsimp only at h ⊢
    rw [h0.slice hs]
    split at h
    · obtain ⟨rfl, e⟩ := Prod.mk.inj (Outcome.ok.inj h)
      rw [if_pos ‹_›, hs.fin e]
    rw [if_neg ‹_›]
    cases n with
    | zero => cases h
    | succ n =>
      dsimp only at h
      split at h
      · cases h
      rename_i hne
      have hne' : s' ≠ [] := fun e => hne ((hs.empty A).mp e)
      cases n' with
      | zero => exact absurd (List.length_eq_zero_iff.mp (by omega)) hne'
      | succ n' =>
        dsimp only
        rw [if_neg hne']
        obtain ⟨-, S1⟩ := hs.until A c!"</details>" (detailsLoop_ok _ _ _ _ h).1
        have l1 := untilTail_shorter (tail := c!"</details>") (by simp) hne
        have l2 := untilTail_shorter (tail := c!"</details>") (by simp) hne'
        exact detailsLoop_local A h0 n n' _ _ (by omega) (by omega) S1 h

theorem parseDetails_local (A : Agree b b') (hs : Sim b b' s s') (h : parseDetails r s = .ok (res, b)) : parseDetails r s' = .ok (res, b') := by
  unfold parseDetails at h ⊢
  dsimp only at h ⊢
  have hb1 : b <:+ skipIf '\r' (s.dropWhile (fun c => c != '\n' && c != '\r')) := by
    split at h
    · exact sfx_of (Prod.mk.inj (Outcome.ok.inj h)).2
    split at h
    · cases h
    obtain ⟨x, hx, h⟩ := Outcome.bind_ok' h
    obtain ⟨ts, ht, h⟩ := Outcome.bind_ok' h
    obtain ⟨rfl, e⟩ := Prod.mk.inj (Outcome.ok.inj h)
    rw [← e]
    split at hx
    · exact (detailsLoop_ok _ _ _ _ hx).1.trans (untilTail_suffix _ _)
    · rw [← Outcome.ok.inj hx]; exact untilTail_suffix _ _
  obtain ⟨e1, S1⟩ := hs.run A _ (hb1.trans (skipIf_suffix _ _))
  have S2 := S1.skip A '\r' hb1
  rw [e1]
  split at h
  · obtain ⟨rfl, e⟩ := Prod.mk.inj (Outcome.ok.inj h)
    rw [if_pos ‹_›, S2.fin e]
  rw [if_neg ‹_›]
  split at h
  · cases h
  generalize skipIf '\r' (s.dropWhile (fun c => c != '\n' && c != '\r')) = s1 at *
  generalize skipIf '\r' (s'.dropWhile (fun c => c != '\n' && c != '\r')) = s1' at *
  obtain ⟨⟨rem, t⟩, hx, h⟩ := Outcome.bind_ok' h
  obtain ⟨ts, ht, h⟩ := Outcome.bind_ok' h
  obtain ⟨rfl, rfl⟩ := Prod.mk.inj (Outcome.ok.inj h)
  dsimp only at hx ht ⊢
  have hb2 : t <:+ (untilTail c!"</details>" s1).2 := by
    split at hx
    · exact (detailsLoop_ok _ _ _ _ hx).1
    · exact sfx_of (Prod.mk.inj (Outcome.ok.inj hx)).2
  obtain ⟨e3, S3⟩ := S2.until A c!"</details>" hb2
  rw [e3]
  have key : (if contains (untilTail c!"</details>" s1).1 c!"<details>" = true then
      detailsLoop s1' (untilTail c!"</details>" s1').2.length (untilTail c!"</details>" s1').2
      else .ok ((untilTail c!"</details>" s1).1, (untilTail c!"</details>" s1').2)) = .ok (rem, b') := by
    split at hx
    · rw [if_pos ‹_›]
      exact detailsLoop_local A S2 _ _ _ _ (Nat.le_refl _) (Nat.le_refl _) S3 hx
    · rw [if_neg ‹_›]
      obtain ⟨rfl, e⟩ := Prod.mk.inj (Outcome.ok.inj hx)
      rw [S3.fin e]
  rw [key]
  show (r.lex _ >>= _) = _
  rw [ht]
  rfl

theorem lexSideCarrot_local (A : Agree b b') (hs : Sim b b' s s') (h : lexSideCarrot r s = .ok (res, b)) : lexSideCarrot r s' = .ok (res, b') := by
  unfold lexSideCarrot at h ⊢
  rw [hs.head A]
  split at h
  · obtain ⟨rfl, e⟩ := Prod.mk.inj (Outcome.ok.inj h)
    rw [if_pos ‹_›, hs.fin e]
  rw [if_neg ‹_›]
  dsimp only at h ⊢
  have hrest : ∀ {x}, parseDetails r x = .ok (res, b) → b <:+ x := by
    intro x h
    unfold parseDetails at h
    dsimp only at h
    split at h
    · rw [← (Prod.mk.inj (Outcome.ok.inj h)).2]; sfx
    split at h
    · cases h
    obtain ⟨x, hx, h⟩ := Outcome.bind_ok' h
    obtain ⟨ts, ht, h⟩ := Outcome.bind_ok' h
    obtain ⟨rfl, e⟩ := Prod.mk.inj (Outcome.ok.inj h)
    rw [← e]
    split at hx
    · exact (detailsLoop_ok _ _ _ _ hx).1.trans (by sfx)
    · rw [← Outcome.ok.inj hx]; sfx
  have hb2 : b <:+ (s.drop 1).dropWhile (· != '>') := by
    split at h
    · split at h
      · split at h
        · exact (hrest h).trans (by sfx)
        · rw [← (Prod.mk.inj (Outcome.ok.inj h)).2]; sfx
      split at h
      · split at h
        · rw [← (Prod.mk.inj (Outcome.ok.inj h)).2]; sfx
        split at h
        · split at h
          · rw [← (Prod.mk.inj (Outcome.ok.inj h)).2]; sfx
          · rw [← (Prod.mk.inj (Outcome.ok.inj h)).2]; sfx
        · rw [← (Prod.mk.inj (Outcome.ok.inj h)).2]; sfx
      · rw [← (Prod.mk.inj (Outcome.ok.inj h)).2]; sfx
    · exact sfx_of (Prod.mk.inj (Outcome.ok.inj h)).2
  have S1 := hs.drop1 A (hb2.trans (dropWhile_suffix _ _))
  obtain ⟨e2, S2⟩ := S1.run A _ hb2
  rw [e2, S2.head A]
  split at h
  swap
  · obtain ⟨rfl, e⟩ := Prod.mk.inj (Outcome.ok.inj h)
    rw [if_neg ‹_›, S2.fin e]
  rw [if_pos ‹_›]
  generalize (s.drop 1).dropWhile (· != '>') = s2 at *
  generalize (s'.drop 1).dropWhile (· != '>') = s2' at *
  split at h
  · rw [if_pos ‹_›]
    have hb4 : b <:+ skipIf '\r' (s2.drop 1) := by
      split at h
      · exact (hrest h).trans (by sfx)
      · exact sfx_of (Prod.mk.inj (Outcome.ok.inj h)).2
    have S4 := (S2.drop1 A (hb4.trans (skipIf_suffix _ _))).skip A '\r' hb4
    rw [S4.head A]
    split at h
    · rw [if_pos ‹_›]
      exact parseDetails_local A (S4.drop1 A (hrest h)) h
    · obtain ⟨rfl, e⟩ := Prod.mk.inj (Outcome.ok.inj h)
      rw [if_neg ‹_›, S4.fin e]
  rw [if_neg ‹_›]
  have hb3 : b <:+ s2.drop 1 := by
    split at h
    · split at h
      · exact sfx_of (Prod.mk.inj (Outcome.ok.inj h)).2
      split at h
      · split at h
        · exact sfx_of (Prod.mk.inj (Outcome.ok.inj h)).2
        · exact sfx_of (Prod.mk.inj (Outcome.ok.inj h)).2
      · exact sfx_of (Prod.mk.inj (Outcome.ok.inj h)).2
    · exact sfx_of (Prod.mk.inj (Outcome.ok.inj h)).2
  have S3 := S2.drop1 A hb3
  rw [hs.slice S3]
  split at h
  · rw [if_pos ‹_›]
    split at h
    · obtain ⟨rfl, e⟩ := Prod.mk.inj (Outcome.ok.inj h)
      rw [if_pos ‹_›, S3.fin e]
    rw [if_neg ‹_›]
    split at h
    · split at h
      · obtain ⟨rfl, e⟩ := Prod.mk.inj (Outcome.ok.inj h)
        rw [if_pos ‹_›, S3.fin e]
      · obtain ⟨rfl, e⟩ := Prod.mk.inj (Outcome.ok.inj h)
        rw [if_neg ‹_›, S3.fin e]
    · obtain ⟨rfl, e⟩ := Prod.mk.inj (Outcome.ok.inj h)
      rw [S3.fin e]
  · obtain ⟨rfl, e⟩ := Prod.mk.inj (Outcome.ok.inj h)
    rw [if_neg ‹_›, S3.fin e]

/-! ### Tables -/

theorem pipeLines_local (A : Agree b b') : ∀ (n n' : Nat) (s s' : Str), s.length ≤ n → s'.length ≤ n' → Sim b b' s s' →
    b <:+ (pipeLines n s).2 → (pipeLines n' s').1 = (pipeLines n s).1 ∧ Sim b b' (pipeLines n s).2 (pipeLines n' s').2
  | 0, n', s, s', hn, _, hs, _ => by
    obtain rfl : s = [] := List.length_eq_zero_iff.mp (by omega)
    obtain rfl : s' = [] := (hs.empty A).mpr rfl
    cases n' <;> exact ⟨rfl, hs⟩
  | n + 1, 0, s, s', _, hn', hs, _ => by
    obtain rfl : s' = [] := List.length_eq_zero_iff.mp (by omega)
    obtain rfl : s = [] := (hs.empty A).mp rfl
    exact ⟨rfl, hs⟩
  | n + 1, n' + 1, s, s', hn, hn', hs, hb => by
    have hh := hs.head A
    unfold pipeLines at hb ⊢
    dsimp only at hb ⊢
    rw [hh]
    split at hb
    · rename_i hp
      simp only [if_pos hp]
      dsimp only at hb ⊢
      have hb1 := hb.trans (pipeLines_spec _ _).1
      have S1 := hs.drop1 A (hb1.trans ((List.drop_suffix _ _).trans (dropWhile_suffix _ _)))
      obtain ⟨e2, S2⟩ := S1.run A (· != '\n') (hb1.trans (List.drop_suffix _ _))
      have S3 := S2.drop1 A hb1
      have l : ∀ y : Str, y.head? = some '|' → (((y.drop 1).dropWhile (· != '\n')).drop 1).length < y.length := by
        intro y hy
        cases y with
        | nil => simp at hy
        | cons c t =>
          have := ((List.drop_suffix 1 (t.dropWhile (· != '\n'))).trans (dropWhile_suffix _ _)).length_le
          simp only [List.drop_one, List.tail_cons, List.length_cons] at this ⊢
          omega
      have l1 := l s hp
      have l2 := l s' (hh.trans hp)
      obtain ⟨e3, S4⟩ := pipeLines_local A n n' _ _ (by omega) (by omega) S3 hb
      exact ⟨by rw [e2, e3], S4⟩
    · rename_i hp
      simp only [if_neg hp]
      exact ⟨trivial, hs⟩

theorem lexPipes_local (A : Agree b b') (hs : Sim b b' s s') (h : lexPipes r s = .ok (res, b)) : lexPipes r s' = .ok (res, b') := by
  unfold lexPipes at h ⊢
  dsimp only at h ⊢
  have hb1 : b <:+ (pipeLines s.length s).2 := by
    split at h
    · exact sfx_of (Prod.mk.inj (Outcome.ok.inj h)).2
    split at h
    · split at h
      · exact sfx_of (Prod.mk.inj (Outcome.ok.inj h)).2
      · obtain ⟨x, hx, h⟩ := Outcome.bind_ok' h
        exact sfx_of (Prod.mk.inj (Outcome.ok.inj h)).2
    · cases h
  obtain ⟨e1, S1⟩ := pipeLines_local A s.length s'.length s s' (Nat.le_refl _) (Nat.le_refl _) hs hb1
  rw [e1, hs.slice S1]
  generalize (pipeLines s.length s).1 = lines at *
  split at h
  · obtain ⟨rfl, e⟩ := Prod.mk.inj (Outcome.ok.inj h)
    rw [if_pos ‹_›, S1.fin e]
  rw [if_neg ‹_›]
  split at h
  · split at h
    · obtain ⟨rfl, e⟩ := Prod.mk.inj (Outcome.ok.inj h)
      rw [if_pos ‹_›, S1.fin e]
    · rw [if_neg ‹_›]
      obtain ⟨x, hx, h⟩ := Outcome.bind_ok' h
      obtain ⟨rfl, e⟩ := Prod.mk.inj (Outcome.ok.inj h)
      rw [hx, S1.fin e]
      rfl
  · cases h

/-! ### A token -/

theorem ite_local {α β : Type} {p : Prop} [Decidable p] {x y v : α} {x' y' v' : β} (h : (if p then x else y) = v) (h1 : p → x = v → x' = v')
    (h2 : y = v → y' = v') : (if p then x' else y') = v' := by
  by_cases hp : p
  · rw [if_pos hp] at h ⊢; exact h1 hp h
  · rw [if_neg hp] at h ⊢; exact h2 h

/-- The routine for a character that begins a text looks at no more than it consumes and one or two further characters. -/
theorem lexDispatch_local (A : Agree b b') {ignore : List Char} {last : Option Token} {c : Char} {t : Str} (hs : Sim b b' (c :: t) s')
    (h : lexDispatch r ignore last c (c :: t) = .ok (res, b)) : lexDispatch r ignore last c s' = .ok (res, b') := by
  have pure : ∀ {x : LexRes × Str} {y : LexRes × Str}, (x = (res, b) → y = (res, b')) → (.ok x : Outcome _) = .ok (res, b) → (.ok y : Outcome _) = .ok (res, b') := by
    intro x y f e
    rw [f (Outcome.ok.inj e)]
  unfold lexDispatch at h ⊢
  refine ite_local h (fun _ h => lexHeading_local A hs h) fun h => ?_
  refine ite_local h (fun _ h => pure (lexNewlines_local A hs) h) fun h => ?_
  refine ite_local h (fun hc h => pure (lexTabsSpaces_local A last hc.symm hs) h) fun h => ?_
  refine ite_local h (fun _ h => pure (lexNumbers_local A hs) h) fun h => ?_
  refine ite_local h (fun _ h => pure (lexAsteriskUnderscore_local A hs) h) fun h => ?_
  refine ite_local h (fun _ h => lexPlusMinus_local A hs h) fun h => ?_
  refine ite_local h (fun _ h => pure (lexBlockquotes_local A hs) h) fun h => ?_
  refine ite_local h (fun _ h => pure (lexTilde_local A hs) h) fun h => ?_
  refine ite_local h (fun _ h => pure (lexBackticks_local A hs) h) fun h => ?_
  refine ite_local h (fun _ h => pure (lexLinks_local A hs) h) fun h => ?_
  refine ite_local h (fun _ h => pure (lexImages_local A hs) h) fun h => ?_
  refine ite_local h (fun _ h => lexSideCarrot_local A hs h) fun h => ?_
  refine ite_local h (fun _ h => lexPipes_local A hs h) fun h => ?_
  refine ite_local h (fun _ h => pure (lexEscaped_local A hs) h) fun h => ?_
  obtain ⟨rfl, e⟩ := Prod.mk.inj (Outcome.ok.inj h)
  rw [(hs.drop1 A (sfx_of e)).fin e]

/-- A token depends only on the characters it consumes and on the one or two characters after them. -/
theorem nextToken_local (A : Agree b b') {ignore : List Char} {last : Option Token} {p : Str} {t : Token}
    (h : nextToken r ignore last (p ++ b) = .ok (some (t, b))) : nextToken r ignore last (p ++ b') = .ok (some (t, b')) := by
  cases p with
  | nil =>
    have := (nextToken_shape _ _ _ _ _ _ h).2.2
    simp at this
  | cons c p =>
    simp only [List.cons_append, nextToken] at h ⊢
    obtain ⟨⟨res, u⟩, hx, h⟩ := Outcome.bind_ok' h
    obtain ⟨rfl, rfl⟩ := Prod.mk.inj (Option.some.inj (Outcome.ok.inj h))
    rw [lexDispatch_local A (s' := c :: (p ++ b')) ⟨c :: p, rfl, rfl⟩ hx]
    rfl

end Smd.Gfm
