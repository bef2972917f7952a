import Verif.Lemmas.Loop

/-!
How far the lexer looks: a token depends only on the characters it consumes and on the one or two after them.
-/

namespace Smd.Gfm
open Smd.Rs

/-- The same first character, and agreement on whether the text begins with two spaces and whether it begins with a line feed and a
tab. -/
structure Agree (b b' : Str) : Prop where
  head : b.head? = b'.head?
  sp : c!"  " <+: b ↔ c!"  " <+: b'
  nt : c!"\n\t" <+: b ↔ c!"\n\t" <+: b'

theorem prefix_two {x y : Char} {b : Str} : [x, y] <+: b ↔ b.take 2 = [x, y] := by
  constructor
  · rintro ⟨z, rfl⟩; rfl
  · intro h; exact h ▸ List.take_prefix 2 b

theorem Agree.of_take {b b' : Str} (h : b.take 2 = b'.take 2) : Agree b b' := by
  refine ⟨?_, by rw [prefix_two, prefix_two, h], by rw [prefix_two, prefix_two, h]⟩
  match b, b', h with
  | [], [], _ => rfl
  | _ :: _, _ :: _, h => simp at h; simp [h.1]

theorem Agree.nil {b' : Str} (h : Agree [] b') : b' = [] := by
  have := h.head
  simpa [eq_comm] using this

/-- Texts that are the same up to `b` and `b'`. -/
def Sim (b b' s s' : Str) : Prop := ∃ q, s = q ++ b ∧ s' = q ++ b'

variable {b b' s s' u u' : Str}

theorem Sim.done (h : Sim b b' b u) : u = b' := by
  obtain ⟨q, e, rfl⟩ := h
  have : q.length + b.length = b.length := by rw [← List.length_append, ← e]
  have : q = [] := List.length_eq_zero_iff.mp (by omega)
  simp [this]

theorem Sim.fin (h : Sim b b' s u) (e : s = b) : u = b' := (e ▸ h : Sim b b' b u).done

theorem sfx_of {x : Str} (e : x = b) : b <:+ x := e ▸ List.suffix_rfl

theorem Sim.refl (b b' : Str) : Sim b b' b b' := ⟨[], rfl, rfl⟩

theorem Sim.suffix (h : Sim b b' s s') : b <:+ s := ⟨h.choose, h.choose_spec.1.symm⟩

theorem Sim.head (A : Agree b b') (h : Sim b b' s s') : s'.head? = s.head? := by
  obtain ⟨q, rfl, rfl⟩ := h
  cases q with
  | nil => exact A.head.symm
  | cons c q => rfl

theorem suffix_eq {a c : Str} (h1 : a <:+ c) (h2 : c <:+ a) : a = c := h1.eq_of_length (Nat.le_antisymm h1.length_le h2.length_le)

theorem Sim.run (A : Agree b b') (f : Char → Bool) (h : Sim b b' s s') (hb : b <:+ s.dropWhile f) :
    s'.takeWhile f = s.takeWhile f ∧ Sim b b' (s.dropWhile f) (s'.dropWhile f) := by
  obtain ⟨q, rfl, rfl⟩ := h
  induction q with
  | nil =>
    simp only [List.nil_append] at *
    have e := suffix_eq hb (dropWhile_suffix f b)
    cases b with
    | nil => rw [A.nil]; exact ⟨rfl, [], rfl, rfl⟩
    | cons c t =>
      have hc : f c = false := by
        by_contra hc
        rw [List.dropWhile_cons_of_pos (by simpa using hc)] at e
        have := (dropWhile_suffix f t).length_le
        rw [← e] at this
        simp only [List.length_cons] at this
        omega
      obtain ⟨t', ht⟩ : ∃ t', b' = c :: t' := by
        have := A.head
        cases b' with
        | nil => simp at this
        | cons d t' => simp at this; exact ⟨t', by rw [this]⟩
      subst ht
      rw [List.dropWhile_cons_of_neg (by simp [hc]), List.dropWhile_cons_of_neg (by simp [hc]), List.takeWhile_cons_of_neg (by simp [hc]),
        List.takeWhile_cons_of_neg (by simp [hc])]
      exact ⟨rfl, [], rfl, rfl⟩
  | cons c q ih =>
    simp only [List.cons_append] at *
    by_cases hc : f c = true
    · rw [List.dropWhile_cons_of_pos hc] at hb ⊢
      rw [List.dropWhile_cons_of_pos hc, List.takeWhile_cons_of_pos hc, List.takeWhile_cons_of_pos hc]
      obtain ⟨e, S⟩ := ih hb
      exact ⟨by rw [e], S⟩
    · rw [List.dropWhile_cons_of_neg hc, List.dropWhile_cons_of_neg hc, List.takeWhile_cons_of_neg hc, List.takeWhile_cons_of_neg hc]
      exact ⟨rfl, c :: q, rfl, rfl⟩

theorem Sim.drop1 (A : Agree b b') (h : Sim b b' s s') (hb : b <:+ s.drop 1) : Sim b b' (s.drop 1) (s'.drop 1) := by
  obtain ⟨q, rfl, rfl⟩ := h
  cases q with
  | nil =>
    have : b = [] := by
      have := hb.length_le
      cases b with
      | nil => rfl
      | cons c t =>
        simp only [List.nil_append, List.drop_one, List.tail_cons, List.length_cons] at this
        omega
    subst this
    rw [A.nil]
    exact ⟨[], rfl, rfl⟩
  | cons c q => exact ⟨q, rfl, rfl⟩

theorem Sim.drop (A : Agree b b') : ∀ (n : Nat) {s s' : Str}, Sim b b' s s' → b <:+ s.drop n → Sim b b' (s.drop n) (s'.drop n)
  | 0, _, _, h, _ => h
  | n + 1, s, s', h, hb => by
    have e : ∀ s : Str, s.drop (n + 1) = (s.drop 1).drop n := fun s => by rw [List.drop_drop, Nat.add_comm]
    rw [e] at hb ⊢
    rw [e]
    exact Sim.drop A n (h.drop1 A (hb.trans (List.drop_suffix _ _))) hb

theorem Sim.slice (h : Sim b b' s s') (g : Sim b b' u u') : slice s' u' = slice s u := by
  obtain ⟨q, rfl, rfl⟩ := h
  obtain ⟨v, rfl, rfl⟩ := g
  unfold Gfm.slice
  simp only [List.length_append]
  rw [List.take_append_of_le_length (by omega), List.take_append_of_le_length (by omega)]
  congr 1
  omega

theorem Sim.skip (A : Agree b b') (c : Char) (h : Sim b b' s s') (hb : b <:+ skipIf c s) : Sim b b' (skipIf c s) (skipIf c s') := by
  have hh := h.head A
  have hd := h.drop1 A
  cases s with
  | nil =>
    cases s' with
    | nil => exact h
    | cons d t => simp at hh
  | cons x xs =>
    cases s' with
    | nil => simp at hh
    | cons y ys =>
      simp at hh
      subst hh
      simp only [skipIf] at hb ⊢
      split
      · rw [if_pos ‹_›] at hb
        exact hd hb
      · exact h

theorem Sim.empty (A : Agree b b') (h : Sim b b' s s') : s' = [] ↔ s = [] := by
  have := h.head A
  cases s <;> cases s' <;> simp_all

/-- Reduce a suffix goal to the text the routine started from. -/
macro "sfx" : tactic => `(tactic|
  repeat first
    | exact List.suffix_rfl
    | assumption
    | refine (dropWhile_suffix _ _).trans ?_
    | refine (List.drop_suffix _ _).trans ?_
    | refine (skipIf_suffix _ _).trans ?_
    | refine (untilTail_suffix _ _).trans ?_)

theorem untilTailGo_sim (A : Agree b b') (tail : Str) : ∀ (q acc : Str), b <:+ (untilTailGo tail acc (q ++ b)).2 →
    (untilTailGo tail acc (q ++ b')).1 = (untilTailGo tail acc (q ++ b)).1 ∧
      Sim b b' (untilTailGo tail acc (q ++ b)).2 (untilTailGo tail acc (q ++ b')).2
  | [], acc, h => by
    cases b with
    | nil => rw [A.nil]; exact ⟨rfl, [], by simp [untilTailGo], by simp [untilTailGo]⟩
    | cons c t =>
      obtain ⟨t', rfl⟩ : ∃ t', b' = c :: t' := by
        have := A.head
        cases b' with
        | nil => simp at this
        | cons d t' => simp at this; exact ⟨t', by rw [this]⟩
      simp only [List.nil_append, untilTailGo] at h ⊢
      split
      · exact ⟨rfl, .refl _ _⟩
      · rw [if_neg ‹_›] at h
        have h1 := h.length_le
        have h2 : ∀ (x acc : Str), (untilTailGo tail acc x).2.length ≤ x.length := by
          intro x
          induction x with
          | nil => intro acc; simp [untilTailGo]
          | cons d x ih =>
            intro acc
            unfold untilTailGo
            split
            · simp
            · exact Nat.le_succ_of_le (ih _)
        have := h2 t (acc ++ [c])
        simp at h1
        omega
  | c :: q, acc, h => by
    simp only [List.cons_append, untilTailGo] at h ⊢
    split
    · exact ⟨rfl, c :: q, rfl, rfl⟩
    · rw [if_neg ‹_›] at h
      exact untilTailGo_sim A tail q (acc ++ [c]) h

theorem Sim.until (A : Agree b b') (tail : Str) (h : Sim b b' s s') (hb : b <:+ (untilTail tail s).2) :
    (untilTail tail s').1 = (untilTail tail s).1 ∧ Sim b b' (untilTail tail s).2 (untilTail tail s').2 := by
  obtain ⟨q, rfl, rfl⟩ := h
  exact untilTailGo_sim A tail q [] hb

theorem len_takeDrop (f : Char → Bool) (s : Str) : (s.takeWhile f).length + (s.dropWhile f).length = s.length := by
  rw [← List.length_append, List.takeWhile_append_dropWhile]

/-! ### The routines -/

variable {res : LexRes}

theorem lexNewlines_local (A : Agree b b') (hs : Sim b b' s s') (h : lexNewlines s = (res, b)) : lexNewlines s' = (res, b') := by
  unfold lexNewlines at h ⊢
  dsimp only at h ⊢
  have hb : b <:+ s.dropWhile (· == '\n') := by
    split at h <;> (obtain ⟨-, e⟩ := Prod.mk.inj h; exact sfx_of e)
  obtain ⟨e1, S1⟩ := hs.run A _ hb
  simp only [e1]
  split at h
  · obtain ⟨rfl, e⟩ := Prod.mk.inj h
    rw [if_pos ‹_›, S1.fin e]
  · obtain ⟨rfl, e⟩ := Prod.mk.inj h
    rw [if_neg ‹_›, S1.fin e]

theorem lexNumbers_local (A : Agree b b') (hs : Sim b b' s s') (h : lexNumbers s = (res, b)) : lexNumbers s' = (res, b') := by
  have h0 := hs.head A
  unfold lexNumbers at h
  split at h
  · rename_i c t
    obtain ⟨rfl, e⟩ := Prod.mk.inj h
    have hb : b <:+ t := by rw [← e]; exact dropWhile_suffix _ _
    obtain ⟨q, e1, e2⟩ := hs
    obtain ⟨w, hw⟩ := hb
    have : q = c :: '.' :: ' ' :: w := by
      rw [← hw] at e1
      exact (List.append_left_injective b (by simpa using e1)).symm
    subst this
    have St : Sim b b' t (w ++ b') := ⟨w, hw.symm, rfl⟩
    obtain ⟨e3, S3⟩ := St.run A (· != '\n') (sfx_of e)
    rw [e2]
    simp only [List.cons_append, lexNumbers]
    rw [e3, S3.fin e]
  · rename_i c t hne
    obtain ⟨rfl, rfl⟩ := Prod.mk.inj h
    obtain ⟨q, e1, e2⟩ := hs
    have : q = [c, '.'] := (List.append_left_injective t (by simpa using e1)).symm
    subst this
    rw [e2]
    have := A.head
    have hb : ∀ x, b' ≠ ' ' :: x := by
      rintro x rfl
      cases t with
      | nil => simp at this
      | cons d t => simp at this; exact hne t (by rw [this])
    simp only [List.cons_append, List.nil_append]
    cases b' with
    | nil => rfl
    | cons d x =>
      have hd : d ≠ ' ' := fun e => hb x (by rw [e])
      simp [lexNumbers]
  · rename_i c t h1 h2
    obtain ⟨rfl, rfl⟩ := Prod.mk.inj h
    obtain ⟨q, e1, e2⟩ := hs
    have : q = [c] := (List.append_left_injective t (by simpa using e1)).symm
    subst this
    rw [e2]
    have := A.head
    have hb : ∀ x, b' ≠ '.' :: x := by
      rintro x rfl
      cases t with
      | nil => simp at this
      | cons d t => simp at this; exact h2 t (by rw [this])
    simp only [List.cons_append, List.nil_append]
    cases b' with
    | nil => rfl
    | cons d x =>
      have hd : d ≠ '.' := fun e => hb x (by rw [e])
      simp [lexNumbers, hd]
  · obtain ⟨rfl, rfl⟩ := Prod.mk.inj h
    rw [A.nil]
    rw [A.nil] at hs
    have : s' = [] := by simpa using h0
    rw [this]; rfl

theorem lexBlockquotes_local (A : Agree b b') (hs : Sim b b' s s') (h : lexBlockquotes s = (res, b)) : lexBlockquotes s' = (res, b') := by
  unfold lexBlockquotes at h ⊢
  dsimp only at h ⊢
  have hb : b <:+ s.dropWhile (· == '>') := by
    split at h <;> (obtain ⟨-, e⟩ := Prod.mk.inj h; rw [← e]; sfx)
  obtain ⟨e1, S1⟩ := hs.run A _ hb
  simp only [e1, S1.head A]
  split at h
  · obtain ⟨rfl, e⟩ := Prod.mk.inj h
    obtain ⟨e2, S2⟩ := S1.run A (· != '\n') (by rw [← e]; sfx)
    have S3 := S2.skip A '\n' (sfx_of e)
    rw [if_pos ‹_›, e2, S3.fin e]
  · obtain ⟨rfl, e⟩ := Prod.mk.inj h
    rw [if_neg ‹_›, S1.fin e]

theorem lexEscaped_local (A : Agree b b') (hs : Sim b b' s s') (h : lexEscaped s = (res, b)) : lexEscaped s' = (res, b') := by
  have hb : b <:+ s.drop 1 := by
    unfold lexEscaped at h
    split at h
    · obtain ⟨-, e⟩ := Prod.mk.inj h; rw [← e]; exact List.nil_suffix
    · rename_i c t e0
      rw [e0]
      split at h
      · obtain ⟨-, e⟩ := Prod.mk.inj h; rw [← e]; sfx
      · obtain ⟨-, e⟩ := Prod.mk.inj h; rw [← e]; exact List.suffix_cons _ _
  have S1 := hs.drop1 A hb
  unfold lexEscaped at h ⊢
  split at h
  · rename_i e0
    rw [(S1.empty A).mpr e0]
    obtain ⟨rfl, rfl⟩ := Prod.mk.inj h
    rw [A.nil]
  · rename_i c t e0
    have hh := S1.head A
    rw [e0] at S1 hh
    obtain ⟨t', ht⟩ : ∃ t', s'.drop 1 = c :: t' := by
      generalize s'.drop 1 = x at hh
      cases x with
      | nil => simp at hh
      | cons d t' => simp at hh; exact ⟨t', by rw [hh]⟩
    rw [ht] at S1 ⊢
    simp only at h ⊢
    split at h
    · obtain ⟨rfl, e⟩ := Prod.mk.inj h
      obtain ⟨e2, S2⟩ := S1.run A (· == '#') (sfx_of e)
      rw [if_pos ‹_›, e2, S2.fin e]
    · obtain ⟨rfl, e⟩ := Prod.mk.inj h
      have S2 : Sim b b' t t' := S1.drop1 A (sfx_of (by simpa using e))
      rw [if_neg ‹_›, S2.fin e]

theorem lexTilde_local (A : Agree b b') (hs : Sim b b' s s') (h : lexTilde s = (res, b)) : lexTilde s' = (res, b') := by
  unfold lexTilde at h ⊢
  dsimp only at h ⊢
  have hb : b <:+ s.dropWhile (· == '~') := by
    repeat' split at h
    all_goals (obtain ⟨-, e⟩ := Prod.mk.inj h; rw [← e]; sfx)
  obtain ⟨e1, S1⟩ := hs.run A _ hb
  simp only [e1] at h ⊢
  split at h
  · obtain ⟨rfl, e⟩ := Prod.mk.inj h
    rw [if_pos ‹_›, S1.fin e]
  · rw [if_neg ‹_›]
    split at h
    · rw [if_pos ‹_›]
      obtain ⟨e2, S2⟩ := S1.run A (· != '~') (by split at h <;> (obtain ⟨-, e⟩ := Prod.mk.inj h; rw [← e]; sfx))
      obtain ⟨e3, S3⟩ := S2.run A (· == '~') (by split at h <;> (obtain ⟨-, e⟩ := Prod.mk.inj h; exact sfx_of e))
      simp only [e2, e3, hs.slice S3] at h ⊢
      split at h <;> obtain ⟨rfl, e⟩ := Prod.mk.inj h
      · rw [if_pos ‹_›, S3.fin e]
      · rw [if_neg ‹_›, S3.fin e]
    · obtain ⟨rfl, e⟩ := Prod.mk.inj h
      rw [if_neg ‹_›, S1.fin e]

/-- The end of a branch: the rest is `b`, so `b` is at the end of everything before it. -/
macro "rest" h:ident : tactic => `(tactic|
  (repeat' split at $h:ident
   all_goals (obtain ⟨-, e⟩ := Prod.mk.inj $h; rw [← e]; sfx)))

theorem lexAsteriskUnderscore_local (A : Agree b b') (hs : Sim b b' s s') (h : lexAsteriskUnderscore s = (res, b)) :
    lexAsteriskUnderscore s' = (res, b') := by
  unfold lexAsteriskUnderscore at h ⊢
  dsimp only at h ⊢
  obtain ⟨e1, S1⟩ := hs.run A (fun c => c == '*' || c == '_' || c == '\t') (by rest h)
  simp only [e1, S1.head A] at h ⊢
  split at h
  · rw [if_pos ‹_›]
    have S2 := S1.drop1 A (by rest h)
    obtain ⟨e3, S3⟩ := S2.run A (· != '\n') (by rest h)
    have S4 := S3.drop1 A (by rest h)
    obtain ⟨rfl, e⟩ := Prod.mk.inj h
    rw [e3, S4.fin e]
  rw [if_neg ‹_›]
  split at h
  · obtain ⟨rfl, e⟩ := Prod.mk.inj h
    rw [if_pos ‹_›, S1.fin e]
  rw [if_neg ‹_›]
  split at h
  · rw [if_pos ‹_›]
    obtain ⟨e2, S2⟩ := S1.run A (fun c => !isAU c) (by rest h)
    simp only [e2, S2.head A, hs.slice S2] at h ⊢
    split at h
    · rw [if_pos ‹_›]
      have S3 := S2.drop1 A (by rest h)
      obtain ⟨rfl, e⟩ := Prod.mk.inj h
      rw [S3.fin e]
    · obtain ⟨rfl, e⟩ := Prod.mk.inj h
      rw [if_neg ‹_›, S2.fin e]
  rw [if_neg ‹_›]
  split at h
  · rw [if_pos ‹_›]
    obtain ⟨e2, S2⟩ := S1.run A (fun c => !isAU c) (by rest h)
    obtain ⟨e3, S3⟩ := S2.run A isAU (by rest h)
    simp only [e2, e3, hs.slice S3] at h ⊢
    split at h <;> obtain ⟨rfl, e⟩ := Prod.mk.inj h
    · rw [if_pos ‹_›, S3.fin e]
    · rw [if_neg ‹_›, S3.fin e]
  rw [if_neg ‹_›]
  split at h
  · rw [if_pos ‹_›]
    obtain ⟨e2, S2⟩ := S1.run A (fun c => !isAU c) (by rest h)
    obtain ⟨e3, S3⟩ := S2.run A isAU (by rest h)
    simp only [e2, e3, hs.slice S3] at h ⊢
    split at h <;> obtain ⟨rfl, e⟩ := Prod.mk.inj h
    · rw [if_pos ‹_›, S3.fin e]
    · rw [if_neg ‹_›, S3.fin e]
  rw [if_neg ‹_›]
  split at h <;> obtain ⟨rfl, e⟩ := Prod.mk.inj h
  · rw [if_pos ‹_›, S1.fin e]
  · rw [if_neg ‹_›, S1.fin e]

theorem lexBackticks_local (A : Agree b b') (hs : Sim b b' s s') (h : lexBackticks s = (res, b)) : lexBackticks s' = (res, b') := by
  unfold lexBackticks at h ⊢
  dsimp only at h ⊢
  obtain ⟨e1, S1⟩ := hs.run A (· == '`') (by rest h)
  simp only [e1, S1.head A] at h ⊢
  split at h
  · rw [if_pos ‹_›]
    by_cases hh : (s.dropWhile (· == '`')).head? = some '\n'
    · simp only [hh, if_true] at h ⊢
      have S2 := S1.drop1 A (by rest h)
      obtain ⟨e3, S3⟩ := S2.run A (· != '`') (by rest h)
      obtain ⟨e4, S4⟩ := S3.run A (· == '`') (by rest h)
      simp only [e3, e4, hs.slice S4] at h ⊢
      split at h <;> obtain ⟨rfl, e⟩ := Prod.mk.inj h
      · rw [if_pos ‹_›, S4.fin e]
      · rw [if_neg ‹_›, S4.fin e]
    · simp only [hh, if_false] at h ⊢
      obtain ⟨e1', S1'⟩ := S1.run A (· != '\n') (by rest h)
      have S2 := S1'.drop1 A (by rest h)
      obtain ⟨e3, S3⟩ := S2.run A (· != '`') (by rest h)
      obtain ⟨e4, S4⟩ := S3.run A (· == '`') (by rest h)
      simp only [e1', e3, e4, hs.slice S4] at h ⊢
      split at h <;> obtain ⟨rfl, e⟩ := Prod.mk.inj h
      · rw [if_pos ‹_›, S4.fin e]
      · rw [if_neg ‹_›, S4.fin e]
  rw [if_neg ‹_›]
  obtain ⟨e2, S2⟩ := S1.until A (List.replicate (s.takeWhile (· == '`')).length '`') (by rest h)
  simp only [e2, hs.slice S2] at h ⊢
  split at h
  · obtain ⟨rfl, e⟩ := Prod.mk.inj h
    rw [if_pos ‹_›, S2.fin e]
  rw [if_neg ‹_›]
  split at h <;> obtain ⟨rfl, e⟩ := Prod.mk.inj h
  · rw [if_pos ‹_›, S2.fin e]
  · rw [if_neg ‹_›, S2.fin e]

theorem lexTabsSpacesGo_local (A : Agree b b') (last : Option Token) : ∀ (n n' : Nat) (s s' : Str) (res : LexRes), s.length ≤ n → s'.length ≤ n' →
    (∃ c t, s = c :: t ∧ (c = '\t' ∨ c = ' ')) → Sim b b' s s' → lexTabsSpacesGo last n s = (res, b) → lexTabsSpacesGo last n' s' = (res, b')
  | 0, _, s, _, _, hn, _, ⟨c, t, e, _⟩, _, _ => by subst e; simp at hn
  | n + 1, 0, s, s', _, _, hn', ⟨c, t, e, _⟩, hs, _ => by
    have := (hs.empty A).mp (List.length_eq_zero_iff.mp (by omega))
    subst e; cases this
  | n + 1, n' + 1, s, s', res, hn, hn', ⟨c, t, ec, hc⟩, hs, h => by
    have hlt : (s.dropWhile (fun c => c == '\t' || c == ' ')).length < s.length := by
      subst ec
      have := (dropWhile_tail (p := fun c => c == '\t' || c == ' ') (cs := t) (c := c) (by rcases hc with rfl | rfl <;> decide)).length_le
      simp only [List.length_cons]
      omega
    have hlen : ∀ x : Str, (untilTail c!"\n" x).2.length ≤ x.length := fun x => (untilTail_suffix c!"\n" x).length_le
    unfold lexTabsSpacesGo at h ⊢
    dsimp only at h ⊢
    by_cases c1 : (decide (1 ≤ (s.takeWhile (fun c => c == '\t' || c == ' ')).length) &&
        decide ((s.takeWhile (fun c => c == '\t' || c == ' ')).length ≤ 3) && !(s.takeWhile (fun c => c == '\t' || c == ' ')).contains '\t') = true
    · rw [if_pos c1] at h
      obtain ⟨rfl, e⟩ := Prod.mk.inj h
      obtain ⟨e1, S1⟩ := hs.run A _ (sfx_of e)
      simp only [e1]
      rw [if_pos c1, S1.fin e]
    by_cases c2 : (decide (2 ≤ (s.takeWhile (fun c => c == '\t' || c == ' ')).length) &&
        !(s.takeWhile (fun c => c == '\t' || c == ' ')).contains '\t' &&
        (s.dropWhile (fun c => c == '\t' || c == ' ')).head? == some '\n') = true
    · rw [if_neg c1, if_pos c2] at h
      obtain ⟨rfl, e⟩ := Prod.mk.inj h
      obtain ⟨e1, S1⟩ := hs.run A _ (sfx_of e)
      simp only [e1, S1.head A]
      rw [if_neg c1, if_pos c2, S1.fin e]
    rw [if_neg c1, if_neg c2] at h
    have hsuf : b <:+ (untilTail c!"\n" (s.dropWhile (fun c => c == '\t' || c == ' '))).2 := by
      split at h
      · rest h
      split at h
      · rest h
      split at h
      · rest h
      split at h
      · rest h
      split at h
      · rename_i hh
        generalize (untilTail c!"\n" (s.dropWhile (fun c => c == '\t' || c == ' '))).1 = y at *
        have hl := hlen (s.dropWhile (fun c => c == '\t' || c == ' '))
        generalize (untilTail c!"\n" (s.dropWhile (fun c => c == '\t' || c == ' '))).2 = y at *
        cases y with
        | nil => simp at hh
        | cons d w =>
          have := (lexTabsSpacesGo_shape ⟨fun _ => .panic, fun _ _ => .panic⟩ last n d w (by simpa using hh) (by omega)).2.1
          generalize lexTabsSpacesGo last n (d :: w) = x at *
          obtain ⟨a, s3⟩ := x
          have e3 : s3 = b := by
            split at h <;> (obtain ⟨-, e⟩ := Prod.mk.inj h; simp_all)
          subst e3
          exact this.trans (List.suffix_cons d w)
      · rest h
    obtain ⟨e1, S1⟩ := hs.run A (fun c => c == '\t' || c == ' ') (hsuf.trans (untilTail_suffix _ _))
    have hlt' : (s'.dropWhile (fun c => c == '\t' || c == ' ')).length < s'.length := by
      have h1 := len_takeDrop (fun c => c == '\t' || c == ' ') s
      have h2 := len_takeDrop (fun c => c == '\t' || c == ' ') s'
      rw [e1] at h2
      omega
    obtain ⟨e2, S2⟩ := S1.until A c!"\n" hsuf
    simp only [e1, e2, S1.head A, S2.head A, hs.slice S2] at h ⊢
    rw [if_neg c1, if_neg c2]
    split at h
    · obtain ⟨rfl, e⟩ := Prod.mk.inj h
      rw [if_pos ‹_›, S2.fin e]
    rw [if_neg ‹_›]
    split at h
    · obtain ⟨rfl, e⟩ := Prod.mk.inj h
      rw [if_pos ‹_›, S2.fin e]
    rw [if_neg ‹_›]
    split at h
    · obtain ⟨rfl, e⟩ := Prod.mk.inj h
      rw [if_pos ‹_›, S2.fin e]
    rw [if_neg ‹_›]
    split at h
    · obtain ⟨rfl, e⟩ := Prod.mk.inj h
      rw [if_pos ‹_›, S2.fin e]
    rw [if_neg ‹_›]
    split at h
    · rename_i hh
      rw [if_pos hh]
      generalize hx : lexTabsSpacesGo last n (untilTail c!"\n" (s.dropWhile (fun c => c == '\t' || c == ' '))).2 = x at h
      obtain ⟨a, s3⟩ := x
      have e3 : s3 = b := by
        split at h <;> (obtain ⟨-, e⟩ := Prod.mk.inj h; simp_all)
      rw [e3] at hx h
      have h1 := hlen (s.dropWhile (fun c => c == '\t' || c == ' '))
      have h2 := hlen (s'.dropWhile (fun c => c == '\t' || c == ' '))
      have ih := lexTabsSpacesGo_local A last n n' _ _ a (by omega) (by omega) (by
        generalize (untilTail c!"\n" (s.dropWhile (fun c => c == '\t' || c == ' '))).2 = y at hh
        cases y with
        | nil => simp at hh
        | cons d w => exact ⟨d, w, rfl, by simpa using hh⟩) S2 hx
      rw [ih]
      split at h
      · rename_i e; cases e
        obtain ⟨rfl, -⟩ := Prod.mk.inj h
        simp only [hs.slice (.refl _ _)]
      · rename_i e; cases e
        obtain ⟨rfl, -⟩ := Prod.mk.inj h
        rfl
      · rename_i hne e; cases e
        obtain ⟨rfl, -⟩ := Prod.mk.inj h
        split
        · rename_i e; cases e
          exact (hne _ _ rfl).elim
        · rename_i e; cases e
        · rename_i e; cases e
          rfl
    · obtain ⟨rfl, e⟩ := Prod.mk.inj h
      rw [if_neg ‹_›, S2.fin e]

theorem lexTabsSpaces_local (A : Agree b b') (last : Option Token) {c : Char} {t : Str} (hc : c = '\t' ∨ c = ' ') (hs : Sim b b' (c :: t) s')
    (h : lexTabsSpaces last (c :: t) = (res, b)) : lexTabsSpaces last s' = (res, b') :=
  lexTabsSpacesGo_local A last _ _ _ _ res (Nat.le_refl _) (Nat.le_refl _) ⟨c, t, rfl, hc⟩ hs h

end Smd.Gfm
