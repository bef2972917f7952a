import Mathlib.Data.List.TakeWhile
import Verif.Lemmas.Edit
import Verif.Lemmas.Leading
import Verif.Lemmas.Headings
import Verif.Spec.Trailing

/-! Line feeds after the last token of a document. -/

namespace Smd.Gfm
open Smd.Rs Smd.Spec

variable {r : Rec} {s t : Str} {k : Nat} {tok : Token}

/-- `k` line feeds. -/
abbrev nls (k : Nat) : Str := times k '\n'

theorem nls_mem {c : Char} (h : c ∈ nls k) : c = '\n' := (List.mem_replicate.mp h).2

theorem nls_drop1 (k : Nat) : (nls k).drop 1 = nls (k - 1) := by cases k <;> rfl

theorem nls_head (k : Nat) {c : Char} (hc : c ≠ '\n') : (nls k).head? ≠ some c := by
  cases k with
  | zero => simp [nls, times]
  | succ k => simp [nls, times, List.replicate_succ, eq_comm, hc]

theorem nls_skip (k : Nat) : skipIf '\n' (nls k) = nls (k - 1) := by cases k <;> simp [nls, times, List.replicate_succ, skipIf]

/-- A run that ends before a line feed is the same with line feeds after the text. -/
theorem run_nls {f : Char → Bool} (hf : f '\n' = false) (s : Str) :
    (s ++ nls k).takeWhile f = s.takeWhile f ∧ (s ++ nls k).dropWhile f = s.dropWhile f ++ nls k := by
  induction s with
  | nil => cases k <;> simp [nls, times, List.replicate_succ, hf]
  | cons c s ih =>
    rw [List.cons_append, List.takeWhile_cons, List.takeWhile_cons, List.dropWhile_cons, List.dropWhile_cons, ih.1, ih.2]
    split <;> simp

/-- A run that ends in the text is the same with anything after the text. -/
theorem run_more {f : Char → Bool} {y : Str} (h : s.dropWhile f ≠ []) :
    (s ++ y).takeWhile f = s.takeWhile f ∧ (s ++ y).dropWhile f = s.dropWhile f ++ y := by
  induction s with
  | nil => simp at h
  | cons c s ih =>
    rw [List.cons_append, List.takeWhile_cons, List.takeWhile_cons, List.dropWhile_cons, List.dropWhile_cons]
    rw [List.dropWhile_cons] at h
    split
    · rw [if_pos ‹_›] at h
      rw [(ih h).1, (ih h).2]
      simp
    · simp

theorem head_more {y : Str} (h : s ≠ []) : (s ++ y).head? = s.head? := by
  cases s with
  | nil => exact absurd rfl h
  | cons c s => rfl

theorem drop1_more {y : Str} (h : s ≠ []) : (s ++ y).drop 1 = s.drop 1 ++ y := by
  cases s with
  | nil => exact absurd rfl h
  | cons c s => rfl

theorem ne_of_head {c : Char} (h : s.head? = some c) : s ≠ [] := by rintro rfl; simp at h

theorem ne_of_take {f : Char → Bool} (h : 0 < (s.takeWhile f).length) : s ≠ [] := by rintro rfl; simp at h

/-- The last character of a text is that of every part at its end. -/
theorem last_suffix {u : Str} (h : u <:+ s) (hu : u ≠ []) : u.getLast? = s.getLast? := by
  obtain ⟨q, rfl⟩ := h
  rw [List.getLast?_append_of_ne_nil _ hu]

/-! ### The routines -/

theorem lexHeading_nls {l : Nat} {x : Str} {o : Option Str} (h : lexHeading r s = .ok (.ok (.header l x o), [])) :
    lexHeading r (s ++ nls k) = .ok (.ok (.header l x o), nls k) := by
  unfold lexHeading at h ⊢
  dsimp only at h ⊢
  obtain ⟨e1, e2⟩ := run_nls (k := k) (f := (· == '#')) (by decide) s
  rw [e1, e2]
  split at h
  · cases h
  rw [if_neg ‹_›]
  split at h
  · cases h
  rename_i s2 hs2
  have hs2' : headingSep (s.dropWhile (· == '#') ++ nls k) = some (s2 ++ nls k) := by
    generalize s.dropWhile (· == '#') = y at hs2
    unfold headingSep at hs2 ⊢
    split at hs2
    · obtain rfl := Option.some.inj hs2; rfl
    · obtain rfl := Option.some.inj hs2; rfl
    · obtain rfl := Option.some.inj hs2; rfl
    · cases hs2
  rw [hs2']
  dsimp only at h ⊢
  obtain ⟨e3, e4⟩ := run_nls (k := k) (f := (· != '\n')) (by decide) s2
  rw [e3, e4]
  obtain ⟨line, hl, h⟩ := Outcome.bind_ok' h
  rw [hl]
  show (if _ then _ else _) = _
  split at h
  · obtain ⟨h1, h2⟩ := Prod.mk.inj (Outcome.ok.inj h)
    rw [if_pos ‹_›, h1, h2]; rfl
  · rw [if_neg ‹_›]
    obtain ⟨html, hr, h⟩ := Outcome.bind_ok' h
    obtain ⟨h1, h2⟩ := Prod.mk.inj (Outcome.ok.inj h)
    rw [hr, ← h1, h2]; rfl

theorem lexNumbers_nls {x : Str} (h : lexNumbers s = (.ok (.orderedListEntry x), [])) :
    lexNumbers (s ++ nls k) = (.ok (.orderedListEntry x), nls k) := by
  unfold lexNumbers at h
  split at h
  · rename_i t
    obtain ⟨h1, h2⟩ := Prod.mk.inj h
    obtain ⟨e1, e2⟩ := run_nls (k := k) (f := (· != '\n')) (by decide) t
    show ((.ok (.orderedListEntry ((t ++ nls k).takeWhile (· != '\n'))) : LexRes), (t ++ nls k).dropWhile (· != '\n')) = _
    rw [e1, e2, h2, h1]; rfl
  all_goals cases (Prod.mk.inj h).1

theorem lexBlockquotes_nls {l : Nat} {x : Str} (h : lexBlockquotes s = (.ok (.blockQuote l x), [])) :
    ∃ j, lexBlockquotes (s ++ nls k) = (.ok (.blockQuote l x), nls j) := by
  unfold lexBlockquotes at h ⊢
  dsimp only at h ⊢
  obtain ⟨e1, e2⟩ := run_nls (k := k) (f := (· == '>')) (by decide) s
  rw [e1, e2]
  split at h
  · rename_i hc
    have hne : s.dropWhile (· == '>') ≠ [] := by rintro e; rw [e] at hc; simp at hc
    rw [head_more hne, if_pos hc]
    obtain ⟨e3, e4⟩ := run_nls (k := k) (f := (· != '\n')) (by decide) (s.dropWhile (· == '>'))
    rw [e3, e4]
    obtain ⟨h1, h2⟩ := Prod.mk.inj h
    rw [h1]
    generalize (s.dropWhile (· == '>')).dropWhile (· != '\n') = y at h2
    cases y with
    | nil => exact ⟨k - 1, by rw [List.nil_append, nls_skip]⟩
    | cons c y =>
      simp only [skipIf] at h2
      split at h2
      · subst h2
        refine ⟨k, ?_⟩
        simp [skipIf, *]
      · cases h2
  · cases (Prod.mk.inj h).1

theorem lexNewlines_nls (h : lexNewlines s = (.ok .newline, [])) : lexNewlines (s ++ nls k) = (.ok .newline, []) := by
  unfold lexNewlines at h ⊢
  dsimp only at h ⊢
  split at h
  · rename_i hc
    have hd := (Prod.mk.inj h).2
    have hs : s.takeWhile (· == '\n') = s := by
      have := List.takeWhile_append_dropWhile (p := (· == '\n')) (l := s)
      rw [hd, List.append_nil] at this
      exact this
    have ha : ∀ x ∈ s ++ nls k, (x == '\n') = true := by
      intro x hx
      rcases List.mem_append.mp hx with hx | hx
      · rw [← hs] at hx
        exact mem_takeWhile_true (· == '\n') _ _ hx
      · simp [nls_mem hx]
    have hn := takeWhile_all (· == '\n') (s ++ nls k) ha
    have hn2 := List.takeWhile_append_dropWhile (p := (· == '\n')) (l := s ++ nls k)
    rw [hn] at hn2 ⊢
    have : (s ++ nls k).dropWhile (· == '\n') = [] := by
      have := congrArg List.length hn2
      rw [List.length_append] at this
      exact List.length_eq_zero_iff.mp (by omega)
    rw [this, if_pos]
    rw [hs] at hc
    rw [List.length_append]
    omega
  · cases (Prod.mk.inj h).1

theorem lexTilde_nls {x : Str} (h : lexTilde s = (.ok (.strikethrough x), [])) :
    lexTilde (s ++ nls k) = (.ok (.strikethrough x), nls k) := by
  unfold lexTilde at h ⊢
  dsimp only at h ⊢
  obtain ⟨e1, e2⟩ := run_nls (k := k) (f := (· == '~')) (by decide) s
  rw [e1, e2]
  split at h
  · cases (Prod.mk.inj h).1
  rw [if_neg ‹_›]
  split at h
  swap
  · cases (Prod.mk.inj h).1
  rename_i h2
  rw [if_pos h2]
  split at h
  · cases (Prod.mk.inj h).1
  rename_i h3
  have h3 := not_ne_iff.mp h3
  have hne : (s.dropWhile (· == '~')).dropWhile (· != '~') ≠ [] := ne_of_take (f := (· == '~')) (by omega)
  obtain ⟨e3, e4⟩ := run_more (y := nls k) hne
  obtain ⟨e5, e6⟩ := run_nls (k := k) (f := (· == '~')) (by decide) ((s.dropWhile (· == '~')).dropWhile (· != '~'))
  rw [e3, e4, e5, e6, if_neg (by simpa using h3)]
  obtain ⟨h4, h5⟩ := Prod.mk.inj h
  rw [← h4, h5]
  rfl

/-- The tokens that `*` and `_` make, when they are closed. -/
theorem lexAU_nls (h : lexAsteriskUnderscore s = (.ok tok, []))
    (hi : ∀ x, tok = .italic x → 2 ≤ s.length ∧ (s.getLast? = some '*' ∨ s.getLast? = some '_')) :
    ∃ j, lexAsteriskUnderscore (s ++ nls k) = (.ok tok, nls j) := by
  unfold lexAsteriskUnderscore at h ⊢
  dsimp only at h ⊢
  obtain ⟨e1, e2⟩ := run_nls (k := k) (f := fun c => c == '*' || c == '_' || c == '\t') (by decide) s
  have hsp := List.takeWhile_append_dropWhile (p := fun c => c == '*' || c == '_' || c == '\t') (l := s)
  rw [e1, e2]
  generalize s.takeWhile (fun c => c == '*' || c == '_' || c == '\t') = au at *
  generalize s.dropWhile (fun c => c == '*' || c == '_' || c == '\t') = s1 at *
  have hsuf : s1 <:+ s := ⟨au, hsp⟩
  by_cases hs1 : s1 = []
  · subst hs1
    simp only [List.nil_append, List.head?_nil, List.takeWhile_nil, List.dropWhile_nil, reduceCtorEq, and_false, if_false, List.length_nil] at h ⊢
    have hsp' : ¬ (au.length = 1 ∧ (nls k).head? = some ' ') := fun hc => nls_head k (by decide) hc.2
    rw [if_neg hsp']
    split at h
    · -- one marker and nothing else
      rename_i ha
      simp only [ne_eq, reduceCtorEq, not_false_eq_true, or_self, if_true] at h
      obtain ⟨h1, -⟩ := Prod.mk.inj h
      have := (hi [] (Except.ok.inj h1).symm).1
      rw [← hsp, List.append_nil] at this
      omega
    rename_i ha
    split at h
    · simp at h
    rename_i hb
    split at h
    · simp at h
    rename_i hc
    split at h
    · rename_i hd
      obtain ⟨h1, -⟩ := Prod.mk.inj h
      rw [← h1, if_neg ha, if_neg hb, if_neg hc, if_pos hd]
      split
      · exact ⟨k, rfl⟩
      · exact ⟨k, rfl⟩
    · cases (Prod.mk.inj h).1
  · rw [head_more hs1]
    split at h
    · rename_i ha
      rw [if_pos ha, drop1_more hs1]
      obtain ⟨e3, e4⟩ := run_nls (k := k) (f := (· != '\n')) (by decide) (s1.drop 1)
      rw [e3, e4]
      obtain ⟨h1, h2⟩ := Prod.mk.inj h
      rw [h1]
      cases hy : (s1.drop 1).dropWhile (· != '\n') with
      | nil => exact ⟨k - 1, by rw [List.nil_append, nls_drop1]⟩
      | cons c y =>
        rw [hy] at h2
        have : y = [] := h2
        subst this
        exact ⟨k, rfl⟩
    rename_i ha
    rw [if_neg ha]
    split at h
    · rename_i hb
      exact absurd (Prod.mk.inj h).2 hs1
    rename_i hb
    rw [if_neg hb]
    split at h
    · rename_i hc
      rw [if_pos hc]
      have h0 : ∀ y : Str, y.head? ≠ some '*' ∨ y.head? ≠ some '_' := by
        intro y
        by_cases hy : y.head? = some '*'
        · right; rw [hy]; simp
        · left; exact hy
      rw [if_pos (h0 _)] at h ⊢
      obtain ⟨h1, h2⟩ := Prod.mk.inj h
      have hne : s1.dropWhile (fun c => !isAU c) ≠ [] := by
        intro he
        have hl := (hi _ (Except.ok.inj h1).symm).2
        rw [← last_suffix hsuf hs1] at hl
        have hall : ∀ x ∈ s1, isAU x = false := by
          have := List.takeWhile_append_dropWhile (p := fun c => !isAU c) (l := s1)
          rw [he, List.append_nil] at this
          intro x hx
          rw [← this] at hx
          simpa using mem_takeWhile_true (fun c => !isAU c) _ _ hx
        rcases hl with hl | hl <;> exact absurd (hall _ (List.mem_of_getLast? hl)) (by decide)
      obtain ⟨e3, e4⟩ := run_more (y := nls k) hne
      rw [e3, e4, drop1_more hne, h2, h1]
      exact ⟨k, rfl⟩
    rename_i hc
    rw [if_neg hc]
    split at h
    · rename_i hd
      rw [if_pos hd]
      split at h
      · rename_i hl
        have hne : s1.dropWhile (fun c => !isAU c) ≠ [] := ne_of_take (f := isAU) (by omega)
        obtain ⟨e3, e4⟩ := run_more (y := nls k) hne
        obtain ⟨e5, e6⟩ := run_nls (k := k) (f := isAU) (by decide) (s1.dropWhile (fun c => !isAU c))
        obtain ⟨h1, h2⟩ := Prod.mk.inj h
        rw [e3, e4, e5, e6, if_pos hl, h1, h2]
        exact ⟨k, rfl⟩
      · cases (Prod.mk.inj h).1
    rename_i hd
    rw [if_neg hd]
    split at h
    · rename_i hd
      rw [if_pos hd]
      split at h
      · rename_i hl
        have hne : s1.dropWhile (fun c => !isAU c) ≠ [] := ne_of_take (f := isAU) (by omega)
        obtain ⟨e3, e4⟩ := run_more (y := nls k) hne
        obtain ⟨e5, e6⟩ := run_nls (k := k) (f := isAU) (by decide) (s1.dropWhile (fun c => !isAU c))
        obtain ⟨h1, h2⟩ := Prod.mk.inj h
        rw [e3, e4, e5, e6, if_pos hl, h1, h2]
        exact ⟨k, rfl⟩
      · cases (Prod.mk.inj h).1
    rename_i he
    rw [if_neg he]
    split at h
    · exact absurd (Prod.mk.inj h).2 hs1
    · cases (Prod.mk.inj h).1

theorem untilTailGo_more {tail y : Str} : ∀ (s acc : Str), tail <:+ (untilTailGo tail acc s).1 →
    untilTailGo tail acc (s ++ y) = ((untilTailGo tail acc s).1, (untilTailGo tail acc s).2 ++ y)
  | [], acc, h => by
    have h' : tail.isSuffixOf acc = true := List.isSuffixOf_iff_suffix.mpr h
    cases y with
    | nil => rfl
    | cons c y => simp [untilTailGo, h']
  | c :: s, acc, h => by
    rw [List.cons_append]
    unfold untilTailGo at h ⊢
    split
    · rfl
    · rw [if_neg ‹_›] at h
      exact untilTailGo_more s _ h

theorem endsWith_suffix {p s : Str} : endsWith s p = true ↔ p <:+ s := by
  unfold endsWith
  exact List.isSuffixOf_iff_suffix

theorem slice_more {u y : Str} (h : u <:+ s) : slice (s ++ y) (u ++ y) = slice s u := by
  obtain ⟨q, rfl⟩ := h
  unfold slice
  simp only [List.length_append]
  rw [List.append_assoc, List.take_append_of_le_length (by omega), List.take_append_of_le_length (by omega)]
  congr 1
  omega

theorem lexBackticks_nls (h : lexBackticks s = (.ok tok, [])) : lexBackticks (s ++ nls k) = (.ok tok, nls k) := by
  unfold lexBackticks at h ⊢
  dsimp only at h ⊢
  obtain ⟨e1, e2⟩ := run_nls (k := k) (f := (· == '`')) (by decide) s
  rw [e1, e2]
  generalize s.dropWhile (· == '`') = s1 at *
  split at h
  · rename_i h3
    rw [if_pos h3]
    generalize hs2 : (if s1.head? = some '\n' then s1.drop 1 else (s1.dropWhile (· != '\n')).drop 1) = s2 at h
    split at h
    · cases (Prod.mk.inj h).1
    rename_i h4
    have h4 := not_ne_iff.mp h4
    have hn3 : s2.dropWhile (· != '`') ≠ [] := ne_of_take (f := (· == '`')) (by omega)
    have hn2 : s2 ≠ [] := by rintro rfl; exact hn3 rfl
    have hn1 : s1 ≠ [] := by rintro rfl; exact hn2 hs2.symm
    rw [head_more hn1]
    have hs2' : (if s1.head? = some '\n' then (s1 ++ nls k).drop 1 else ((s1 ++ nls k).dropWhile (· != '\n')).drop 1) = s2 ++ nls k := by
      split at hs2
      · rw [if_pos ‹_›, drop1_more hn1, hs2]
      · have : s1.dropWhile (· != '\n') ≠ [] := by intro e; rw [e] at hs2; exact hn2 hs2.symm
        rw [if_neg ‹_›, (run_more this).2, drop1_more this, hs2]
    rw [hs2']
    obtain ⟨e3, e4⟩ := run_more (y := nls k) hn3
    obtain ⟨e5, e6⟩ := run_nls (k := k) (f := (· == '`')) (by decide) (s2.dropWhile (· != '`'))
    obtain ⟨e7, -⟩ := run_nls (k := k) (f := (· != '\n')) (by decide) s1
    obtain ⟨h5, h6⟩ := Prod.mk.inj h
    rw [e3, e4, e5, e6, if_neg (by simpa using h4), e7, h5, h6]
    rfl
  · rename_i h3
    rw [if_neg h3]
    split at h
    · cases (Prod.mk.inj h).1
    rename_i h4
    have hu := untilTailGo_more (y := nls k) s1 [] (tail := List.replicate (s.takeWhile (· == '`')).length '`') (endsWith_suffix.mp (Bool.of_not_eq_false (by simpa [untilTail] using h4)))
    have hu : untilTail _ (s1 ++ nls k) = _ := hu
    rw [hu]
    dsimp only
    have e : ∀ x, untilTailGo x [] s1 = untilTail x s1 := fun _ => rfl
    simp only [e]
    rw [if_neg h4]
    split at h <;> obtain ⟨h5, h6⟩ := Prod.mk.inj h
    · rw [if_pos ‹_›, h5, h6]; rfl
    · rw [if_neg ‹_›, h5, h6]; rfl

/-! ### Links, images and footnotes -/

theorem footnoteLoop_nls : ∀ (n n' : Nat) (s : Str), s.length < n → (s ++ nls k).length < n' → footnoteLoop n s = (true, []) →
    ∃ j, j ≤ k ∧ footnoteLoop n' (s ++ nls k) = (true, nls j)
  | 0, _, _, hn, _, _ => by omega
  | _ + 1, 0, _, _, hn', _ => by omega
  | n + 1, n' + 1, s, hn, hn', h => by
    unfold footnoteLoop at h ⊢
    dsimp only at h ⊢
    have e2 := (run_nls (k := k) (f := (· != '\n')) (by decide) s).2
    rw [e2]
    have hlen := dropWhile_length_le (· != '\n') s
    have stop : ∀ j, ((nls j).head? ≠ some ' ' ∧ (nls j).head? ≠ some '\t') := fun j => ⟨nls_head j (by decide), nls_head j (by decide)⟩
    rw [List.length_append] at hn'
    cases hy : s.dropWhile (· != '\n') with
    | nil =>
      rw [List.nil_append, nls_drop1]
      simp only [if_pos (stop _)]
      exact ⟨k - 1, by omega, rfl⟩
    | cons c y =>
      rw [hy] at h hlen
      simp only [List.cons_append, List.drop_one, List.tail_cons, List.length_cons] at h hlen ⊢
      cases y with
      | nil =>
        simp only [List.nil_append, if_pos (stop _)]
        exact ⟨k, Nat.le_refl _, rfl⟩
      | cons d y =>
        simp only [List.cons_append, List.length_cons] at h hlen ⊢
        by_cases hc : (d :: y).head? ≠ some ' ' ∧ (d :: y).head? ≠ some '\t'
        · rw [if_pos hc] at h
          simp at h
        rw [if_neg hc] at h
        rw [if_neg (show ¬((d :: (y ++ nls k)).head? ≠ some ' ' ∧ (d :: (y ++ nls k)).head? ≠ some '\t') from hc)]
        by_cases hd : (d :: y).head? = some '\t'
        · rw [if_pos hd] at h
          rw [if_pos (show (d :: (y ++ nls k)).head? = some '\t' from hd)]
          exact footnoteLoop_nls n n' y (by omega) (by rw [List.length_append]; omega) h
        · rw [if_neg hd] at h
          rw [if_neg (show ¬(d :: (y ++ nls k)).head? = some '\t' from hd)]
          obtain ⟨e3, e4⟩ := run_nls (k := k) (f := (· == ' ')) (by decide) (d :: y)
          rw [List.cons_append] at e3 e4
          rw [e3, e4]
          split at h
          · rw [if_pos ‹_›]
            have hsp : d = ' ' := by
              by_contra hx
              exact hc ⟨fun e => hx (by simpa using e), hd⟩
            have hlt := (dropWhile_tail (p := (· == ' ')) (c := d) (cs := y) (by simp [hsp])).length_le
            exact footnoteLoop_nls n n' _ (by omega) (by rw [List.length_append]; omega) h
          · simp at h

theorem trim_nls (s : Str) (m : Nat) : trim (s ++ nls m) = trim s := by
  show trimEndP isWs ((s ++ nls m).dropWhile isWs) = trimEndP isWs (s.dropWhile isWs)
  by_cases h : s.dropWhile isWs = []
  · have hall : ∀ x ∈ s ++ nls m, isWs x = true := by
      have := List.takeWhile_append_dropWhile (p := isWs) (l := s)
      rw [h, List.append_nil] at this
      intro x hx
      rcases List.mem_append.mp hx with hx | hx
      · rw [← this] at hx
        exact mem_takeWhile_true isWs _ _ hx
      · rw [nls_mem hx]; decide
    have : (s ++ nls m).dropWhile isWs = [] := by
      rw [List.dropWhile_eq_nil_iff]
      exact hall
    rw [this, h]
  · rw [(run_more h).2]
    exact trimEndP_times (by decide) _ m

theorem slice_all (s : Str) : slice s [] = s := by simp [slice]

theorem slice_nls {j : Nat} (h : j ≤ k) : slice (s ++ nls k) (nls j) = s ++ nls (k - j) := by
  unfold slice
  have : nls k = nls (k - j) ++ nls j := by
    show List.replicate k _ = List.replicate _ _ ++ List.replicate _ _
    rw [← List.replicate_add]
    congr 1
    omega
  rw [this, ← List.append_assoc, List.length_append, Nat.add_sub_cancel, List.take_left']
  rfl

theorem lexLinks_nls (h : lexLinks s = (.ok tok, [])) (hl : ∀ l t o, tok = .link l t o → s.getLast? = some ')') :
    ∃ j, lexLinks (s ++ nls k) = (.ok tok, nls j) := by
  unfold lexLinks at h ⊢
  split at h
  · cases (Prod.mk.inj h).1
  rename_i h0
  have hs0 : s ≠ [] := ne_of_head (not_ne_iff.mp h0)
  rw [head_more hs0, if_neg h0]
  dsimp only at h ⊢
  rw [drop1_more hs0]
  have suf1 : s.drop 1 <:+ s := List.drop_suffix _ _
  generalize s.drop 1 = s1 at *
  split at h
  · cases (Prod.mk.inj h).1
  rename_i h2
  have hs2 : s1.dropWhile (· != ']') ≠ [] := ne_of_head (not_ne_iff.mp h2)
  obtain ⟨e2, e3⟩ := run_more (y := nls k) hs2
  rw [e2, e3, head_more hs2, if_neg h2, drop1_more hs2]
  have suf3 : (s1.dropWhile (· != ']')).drop 1 <:+ s := (List.drop_suffix _ _).trans ((dropWhile_suffix _ _).trans suf1)
  generalize (s1.dropWhile (· != ']')).drop 1 = s3 at *
  generalize s1.takeWhile (· != ']') = title at *
  split at h
  · rename_i h3
    have hs3 : s3 ≠ [] := ne_of_head h3.2
    rw [head_more hs3, if_pos h3, drop1_more hs3]
    split at h
    · cases (Prod.mk.inj h).1
    rename_i h4
    split at h
    · cases (Prod.mk.inj h).1
    rename_i h5
    obtain ⟨h6, h7⟩ := Prod.mk.inj h
    have hloop : footnoteLoop ((s3.drop 1).length + 1) (s3.drop 1) = (true, []) := by
      rw [← h7]
      have : (footnoteLoop ((s3.drop 1).length + 1) (s3.drop 1)).1 = true := by simpa using h4
      rw [← this]
    obtain ⟨j, hj, e5⟩ := footnoteLoop_nls (k := k) _ ((s3.drop 1 ++ nls k).length + 1) _ (Nat.lt_succ_self _) (Nat.lt_succ_self _) hloop
    rw [e5]
    refine ⟨j, ?_⟩
    rw [if_neg (by simp), if_neg h5, slice_nls hj, trim_nls]
    rw [h7, slice_all] at h6
    rw [h6]
  rename_i h3
  split at h
  · cases (Prod.mk.inj h).1
  rename_i h4
  have hs3 : s3 ≠ [] := ne_of_head (not_ne_iff.mp h4)
  rw [head_more hs3, if_neg h3, if_neg h4, drop1_more hs3]
  have suf4 : s3.drop 1 <:+ s := (List.drop_suffix _ _).trans suf3
  generalize s3.drop 1 = s4 at *
  split at h
  · cases (Prod.mk.inj h).1
  rename_i h5
  have hs5 : s4.dropWhile (fun c => c != ')' && c != ' ') ≠ [] := by
    intro e; rw [e] at h5; simp at h5
  obtain ⟨e6, e7⟩ := run_more (y := nls k) hs5
  rw [e6, e7, head_more hs5, if_neg h5]
  have suf5 : s4.dropWhile (fun c => c != ')' && c != ' ') <:+ s := (dropWhile_suffix _ _).trans suf4
  generalize s4.dropWhile (fun c => c != ')' && c != ' ') = s5 at *
  generalize s4.takeWhile (fun c => c != ')' && c != ' ') = link at *
  split at h
  · rename_i h6
    rw [if_pos h6, drop1_more hs5]
    split at h
    · obtain ⟨h7, h8⟩ := Prod.mk.inj h
      rw [h7, h8]
      exact ⟨k, rfl⟩
    · cases (Prod.mk.inj h).1
  · rename_i h6
    rw [if_neg h6]
    split at h
    · obtain ⟨h7, h8⟩ := Prod.mk.inj h
      have hlast := hl _ _ _ (Except.ok.inj h7).symm
      have hne : s5.dropWhile (· != ')') ≠ [] := by
        intro e
        rw [← last_suffix suf5 hs5] at hlast
        have : (')' != ')') = true := List.dropWhile_eq_nil_iff.mp e _ (List.mem_of_getLast? hlast)
        simp at this
      obtain ⟨e8, e9⟩ := run_more (y := nls k) hne
      have e10 := (run_nls (k := k) (f := (· != '\n')) (by decide) (s5.dropWhile (· != ')'))).2
      rw [e8, e9, e10, h7]
      have : (s5.dropWhile (· != ')')).dropWhile (· != '\n') = [] := by
        by_contra hx
        generalize hz : (s5.dropWhile (· != ')')).dropWhile (· != '\n') = z at *
        have hz1 : z.head? = some '\n' := by
          cases z with
          | nil => exact absurd rfl hx
          | cons d z =>
            have := List.head?_dropWhile_not (· != '\n') (s5.dropWhile (· != ')'))
            rw [hz] at this
            simpa using this
        cases z with
        | nil => exact hx rfl
        | cons d z =>
          simp at hz1 h8
          subst hz1 h8
          have : ['\n'] <:+ s := by
            rw [← hz]
            exact (dropWhile_suffix _ _).trans ((dropWhile_suffix _ _).trans suf5)
          have := last_suffix this (by simp)
          rw [hlast] at this
          simp at this
      rw [this, List.nil_append, nls_drop1]
      exact ⟨k - 1, rfl⟩
    · cases (Prod.mk.inj h).1

theorem lexImages_nls {l : Str} {t : Option Str} (h : lexImages s = (.ok (.image l t), [])) (hl : s.getLast? = some ')') :
    ∃ j, lexImages (s ++ nls k) = (.ok (.image l t), nls j) := by
  unfold lexImages at h ⊢
  split at h
  · cases (Prod.mk.inj h).1
  rename_i h0
  have hs0 : s ≠ [] := ne_of_head (not_ne_iff.mp h0)
  rw [head_more hs0, if_neg h0, drop1_more hs0]
  split at h
  · cases (Prod.mk.inj h).1
  · rename_i l' t' o' u hx
    obtain ⟨h1, rfl⟩ := Prod.mk.inj h
    have hne : s.drop 1 ≠ [] := by intro e; rw [e] at hx; simp [lexLinks] at hx
    obtain ⟨j, hj⟩ := lexLinks_nls (k := k) hx (fun _ _ _ _ => by rw [last_suffix (List.drop_suffix 1 s) hne, hl])
    rw [hj]
    exact ⟨j, by rw [← h1]⟩
  · cases (Prod.mk.inj h).1

theorem lexSideCarrot_nls {l : ValidURL} {t o : Option Str} (h : lexSideCarrot r s = .ok (.ok (.link l t o), [])) :
    lexSideCarrot r (s ++ nls k) = .ok (.ok (.link l t o), nls k) := by
  unfold lexSideCarrot at h ⊢
  split at h
  · cases h
  rename_i h0
  have hs0 : s ≠ [] := ne_of_head (not_ne_iff.mp h0)
  rw [head_more hs0, if_neg h0]
  dsimp only at h ⊢
  rw [drop1_more hs0]
  split at h
  swap
  · cases h
  rename_i h1
  have hs2 : (s.drop 1).dropWhile (· != '>') ≠ [] := ne_of_head h1
  obtain ⟨e2, e3⟩ := run_more (y := nls k) hs2
  rw [e2, e3, head_more hs2, if_pos h1, drop1_more hs2]
  split at h
  · exfalso
    split at h
    · unfold parseDetails at h
      dsimp only at h
      split at h
      · cases h
      split at h
      · cases h
      obtain ⟨x, hx, h⟩ := Outcome.bind_ok' h
      obtain ⟨ts, ht, h⟩ := Outcome.bind_ok' h
      cases h
    · cases h
  rename_i h2
  rw [if_neg h2]
  split at h
  swap
  · cases h
  rename_i h3
  rw [if_pos h3]
  split at h
  · cases h
  rename_i h4
  rw [if_neg h4]
  split at h
  · split at h
    · rename_i h5
      rw [if_pos h5]
      obtain ⟨h6, h7⟩ := Prod.mk.inj (Outcome.ok.inj h)
      rw [h6, h7]
      rfl
    · cases h
  · cases h

/-! ### Tables -/

theorem pipeLines_nls : ∀ (n n' : Nat) (s : Str), s.length ≤ n → (s ++ nls k).length ≤ n' → (pipeLines n s).2 = [] →
    (pipeLines n' (s ++ nls k)).1 = (pipeLines n s).1 ∧ ∃ j, (pipeLines n' (s ++ nls k)).2 = nls j := by
  have stop : ∀ n j, pipeLines n (nls j) = ([], nls j) := by
    intro n j
    cases n with
    | zero => rfl
    | succ n => rw [pipeLines, if_neg (nls_head j (by decide))]
  intro n
  induction n with
  | zero =>
    intro n' s hn _ _
    obtain rfl : s = [] := List.length_eq_zero_iff.mp (by omega)
    rw [List.nil_append, stop]
    exact ⟨rfl, k, rfl⟩
  | succ n ih =>
    intro n' s hn hn' h
    by_cases hp : s.head? = some '|'
    · cases s with
      | nil => simp at hp
      | cons c s =>
        obtain ⟨n', rfl⟩ : ∃ m, n' = m + 1 := ⟨n' - 1, by simp at hn'; omega⟩
        unfold pipeLines at h ⊢
        rw [List.cons_append] at hn' ⊢
        simp only [List.head?_cons, List.length_cons] at hp hn hn'
        simp only [List.head?_cons, hp, if_true, List.drop_one, List.tail_cons] at h ⊢
        obtain ⟨e1, e2⟩ := run_nls (k := k) (f := (· != '\n')) (by decide) s
        rw [e1, e2]
        have hlen := dropWhile_length_le (· != '\n') s
        have hlen' : (nls k).length = k := List.length_replicate
        rw [List.length_append] at hn'
        cases hy : s.dropWhile (· != '\n') with
        | nil =>
          have e3 : (List.nil ++ nls k).tail = nls (k - 1) := by rw [List.nil_append, ← List.drop_one, nls_drop1]
          rw [e3, stop]
          have e4 : pipeLines n ([] : Str).tail = ([], []) := by cases n <;> rfl
          rw [e4]
          exact ⟨rfl, k - 1, rfl⟩
        | cons d y =>
          rw [hy] at h hlen
          simp only [List.cons_append, List.tail_cons, List.length_cons] at h hlen ⊢
          obtain ⟨r1, r2⟩ := ih n' y (by omega) (by rw [List.length_append]; omega) h
          exact ⟨by rw [r1], r2⟩
    · have e : pipeLines (n + 1) s = ([], s) := by rw [pipeLines, if_neg hp]
      rw [e] at h ⊢
      have : s = [] := h
      subst this
      rw [List.nil_append, stop]
      exact ⟨rfl, k, rfl⟩

theorem lexPipes_nls (h : lexPipes r s = .ok (.ok tok, [])) : ∃ j, lexPipes r (s ++ nls k) = .ok (.ok tok, nls j) := by
  unfold lexPipes at h ⊢
  dsimp only at h ⊢
  have hend : (pipeLines s.length s).2 = [] := by
    split at h
    · cases h
    split at h
    · split at h
      · cases h
      · obtain ⟨x, hx, h⟩ := Outcome.bind_ok' h
        exact (Prod.mk.inj (Outcome.ok.inj h)).2
    · cases h
  obtain ⟨e1, j, e2⟩ := pipeLines_nls (k := k) s.length (s ++ nls k).length s (Nat.le_refl _) (Nat.le_refl _) hend
  rw [e1, e2]
  refine ⟨j, ?_⟩
  split at h
  · cases h
  rw [if_neg ‹_›]
  split at h
  · split at h
    · cases h
    rw [if_neg ‹_›]
    obtain ⟨x, hx, h⟩ := Outcome.bind_ok' h
    rw [hx]
    show Outcome.ok (_, _) = _
    rw [(Prod.mk.inj (Outcome.ok.inj h)).1]
  · cases h

/-! ### List entries -/

theorem contLines_nls : ∀ (n n' : Nat) (s : Str), s.length ≤ n → (s ++ nls k).length ≤ n' →
    contLines n' (s ++ nls k) = ((contLines n s).1, (contLines n s).2 ++ nls k) := by
  intro n
  induction n with
  | zero =>
    intro n' s hn hn'
    obtain rfl : s = [] := List.length_eq_zero_iff.mp (by omega)
    rw [List.nil_append, contLines_none (n := n')]
    · rfl
    · intro h
      have := h.subset (List.mem_cons_of_mem _ (List.mem_cons_of_mem _ (List.mem_cons_self (a := '\t') (l := []))))
      exact absurd (nls_mem this) (by decide)
  | succ n ih =>
    intro n' s hn hn'
    by_cases hp : c!"\n\n\t" <+: s
    · obtain ⟨y, rfl⟩ := hp
      obtain ⟨n', rfl⟩ : ∃ m, n' = m + 1 := ⟨n' - 1, by simp at hn'; omega⟩
      unfold contLines
      rw [startsWith_iff.mpr ⟨y ++ nls k, by simp⟩, startsWith_iff.mpr (List.prefix_append _ _)]
      simp only [if_true]
      have e0 : (c!"\n\n\t" ++ y ++ nls k).drop 3 = y ++ nls k := rfl
      have e0' : (c!"\n\n\t" ++ y).drop 3 = y := rfl
      rw [e0, e0']
      obtain ⟨e1, e2⟩ := run_nls (k := k) (f := (· != '\n')) (by decide) y
      have hlen := dropWhile_length_le (· != '\n') y
      rw [e1, e2, ih n' _ (by simp at hn; omega) (by simp at hn' ⊢; omega)]
    · rw [contLines_none hp, contLines_none]
      rintro ⟨z, hz⟩
      apply hp
      match s, hz with
      | [], hz =>
        have : '\t' ∈ nls k := by rw [List.nil_append] at hz; rw [← hz]; simp
        exact absurd (nls_mem this) (by decide)
      | [a], hz =>
        simp at hz
        have : '\t' ∈ nls k := by rw [← hz.2]; simp
        exact absurd (nls_mem this) (by decide)
      | [a, b], hz =>
        simp at hz
        have : '\t' ∈ nls k := by rw [← hz.2.2]; simp
        exact absurd (nls_mem this) (by decide)
      | a :: b :: c :: s, hz =>
        simp at hz
        exact ⟨s, by simp; exact ⟨hz.1, hz.2.1, hz.2.2.1⟩⟩

theorem lexPlusMinus_nls (h : lexPlusMinus r s = .ok (.ok tok, []))
    (hu : ∀ ts, tok = .unorderedListEntry ts → '\n' ∉ s ∨ s.getLast? = some '\n') :
    ∃ j, lexPlusMinus r (s ++ nls k) = .ok (.ok tok, nls j) := by
  unfold lexPlusMinus at h ⊢
  dsimp only at h ⊢
  obtain ⟨e1, e2⟩ := run_nls (k := k) (f := fun c => c == '-' || c == '+') (by decide) s
  rw [e1, e2]
  have suf1 := dropWhile_suffix (fun c => c == '-' || c == '+') s
  generalize s.dropWhile (fun c => c == '-' || c == '+') = s1 at *
  generalize s.takeWhile (fun c => c == '-' || c == '+') = run at *
  split at h
  · rw [if_pos ‹_›]
    obtain ⟨h1, h2⟩ := Prod.mk.inj (Outcome.ok.inj h)
    rw [h1, h2]
    exact ⟨k, rfl⟩
  rw [if_neg ‹_›]
  split at h
  · cases h
  rw [if_neg ‹_›]
  split at h
  swap
  · cases h
  rw [if_pos ‹_›]
  obtain ⟨e3, e4⟩ := run_nls (k := k) (f := (· != '\n')) (by decide) s1
  rw [e3, e4]
  have suf2 := dropWhile_suffix (· != '\n') s1
  have nil2 : '\n' ∉ s1 → s1.dropWhile (· != '\n') = [] := fun hx =>
    List.dropWhile_eq_nil_iff.mpr fun c hc => by
      have : c ≠ '\n' := by rintro rfl; exact hx hc
      simpa using this
  generalize s1.dropWhile (· != '\n') = s2 at *
  rw [contLines_nls s2.length (s2 ++ nls k).length s2 (Nat.le_refl _) (Nat.le_refl _)]
  have suf3 := (contLines_spec s2.length s2).1
  generalize (contLines s2.length s2).1 = more at *
  generalize (contLines s2.length s2).2 = s3 at *
  have hsl : slice (s1 ++ nls k) (s3 ++ nls k) = slice s1 s3 := slice_more (suf3.trans suf2)
  dsimp only
  rw [hsl]
  -- what is left after the entry
  have skip : s3 ≠ [] → skipIf '\n' (s3 ++ nls k) = skipIf '\n' s3 ++ nls k := by
    intro hne
    cases s3 with
    | nil => exact absurd rfl hne
    | cons c s3 => simp only [List.cons_append, skipIf]; split <;> rfl
  have done : skipIf '\n' s3 = [] → ∃ j, skipIf '\n' (s3 ++ nls k) = nls j := by
    intro he
    by_cases hne : s3 = []
    · subst hne; exact ⟨k - 1, by rw [List.nil_append, nls_skip]⟩
    · exact ⟨k, by rw [skip hne, he]; rfl⟩
  split at h
  · rw [if_pos ‹_›]
    obtain ⟨h1, h2⟩ := Prod.mk.inj (Outcome.ok.inj h)
    obtain ⟨j, hj⟩ := done h2
    exact ⟨j, by rw [h1, hj]⟩
  rw [if_neg ‹_›]
  split at h
  · rw [if_pos ‹_›]
    obtain ⟨h1, h2⟩ := Prod.mk.inj (Outcome.ok.inj h)
    obtain ⟨j, hj⟩ := done h2
    exact ⟨j, by rw [h1, hj]⟩
  rw [if_neg ‹_›]
  have plain : skipIf '\n' s3 = [] → ∀ {elems : List Token}, (∃ j, (match lineAhead (skipIf '\n' (s3 ++ nls k)) with
      | some (l, s5) =>
        if startsWith l c!"  " = true then r.lex l >>= fun ts => .ok (.ok (.unorderedListEntry (elems ++ ts)), s5)
        else if startsWith l c!"\t" = true then r.lex (l.drop 1) >>= fun ts => .ok (.ok (.unorderedListEntry (elems ++ ts)), s5)
        else .ok (.ok (.unorderedListEntry elems), skipIf '\n' (s3 ++ nls k))
      | none => .ok (.ok (.unorderedListEntry elems), skipIf '\n' (s3 ++ nls k)) : Outcome (LexRes × Str)) = .ok (.ok (.unorderedListEntry elems), nls j)) := by
    intro he elems
    obtain ⟨j, hj⟩ := done he
    rw [hj]
    refine ⟨j, ?_⟩
    split
    · rename_i l s5 hl
      obtain ⟨g1, g2⟩ := lineAhead_starts hl
      have n1 : startsWith (nls j) c!"  " = false := startsWith_false fun hp => by
        have := hp.subset (List.mem_cons_self)
        exact absurd (nls_mem this) (by decide)
      have n2 : startsWith (nls j) c!"\t" = false := startsWith_false fun hp => by
        have := hp.subset (List.mem_cons_self)
        exact absurd (nls_mem this) (by decide)
      rw [g1, g2, n1, n2]
      rfl
    · rfl
  have suf4 := skipIf_suffix '\n' s3
  split at h
  · rename_i l s5 hl
    have indented : ∀ {x : Str}, startsWith l x = true → x ≠ [] → (∃ ts, tok = .unorderedListEntry ts) → s5 = [] →
        lineAhead (skipIf '\n' (s3 ++ nls k)) = some (l, nls k) := by
      intro x hx hxn ⟨ts, ht⟩ he
      subst he
      have hl4 := lineAhead_parts hl
      rw [List.append_nil] at hl4
      have hln : l ≠ [] := by
        rintro rfl
        exact hxn (List.prefix_nil.mp (startsWith_iff.mp hx))
      have h3 : s3 ≠ [] := by rintro rfl; exact hln hl4.symm
      rw [skip h3, hl4]
      rw [hl4] at hl suf4
      have sufl : l <:+ s := suf4.trans (suf3.trans (suf2.trans suf1))
      have hnl : l.contains '\n' = true := by
        rcases hu ts ht with hu | hu
        · exfalso
          rw [nil2 fun hx => hu (suf1.subset hx)] at suf3
          exact h3 (List.suffix_nil.mp suf3)
        · rw [← last_suffix sufl hln] at hu
          simpa using List.mem_of_getLast? hu
      unfold lineAhead at hl ⊢
      rw [if_pos hnl] at hl
      rw [if_pos (by simp at hnl ⊢; exact .inl hnl)]
      obtain ⟨q1, q2⟩ := Prod.mk.inj (Option.some.inj hl)
      obtain ⟨e5, e6⟩ := run_nls (k := k) (f := (· != '\n')) (by decide) l
      have hne : l.dropWhile (· != '\n') ≠ [] := by
        intro e
        have : ('\n' != '\n') = true := List.dropWhile_eq_nil_iff.mp e _ (by simpa using hnl)
        simp at this
      rw [e5, e6, drop1_more hne, q1, q2]
      rfl
    split at h
    · rename_i hi
      obtain ⟨ts, ht, h⟩ := Outcome.bind_ok' h
      obtain ⟨h1, h2⟩ := Prod.mk.inj (Outcome.ok.inj h)
      rw [indented hi (by simp) ⟨_, (Except.ok.inj h1).symm⟩ h2]
      dsimp only
      rw [if_pos hi, ht]
      exact ⟨k, by rw [← h1]; rfl⟩
    rename_i hi
    split at h
    · rename_i hi'
      obtain ⟨ts, ht, h⟩ := Outcome.bind_ok' h
      obtain ⟨h1, h2⟩ := Prod.mk.inj (Outcome.ok.inj h)
      rw [indented hi' (by simp) ⟨_, (Except.ok.inj h1).symm⟩ h2]
      dsimp only
      rw [if_neg hi, if_pos hi', ht]
      exact ⟨k, by rw [← h1]; rfl⟩
    · obtain ⟨h1, h2⟩ := Prod.mk.inj (Outcome.ok.inj h)
      rw [← h1]
      exact plain h2
  · obtain ⟨h1, h2⟩ := Prod.mk.inj (Outcome.ok.inj h)
    rw [← h1]
    exact plain h2

/-! ### Code indented by spaces or a tab -/

theorem lexTabsSpaces_nls {last : Option Token} {x : Str} (h : lexTabsSpaces last s = (.ok (.code x), [])) (hl : s.getLast? = some '\n') :
    ∃ j, lexTabsSpaces last (s ++ nls k) = (.ok (.code x), nls j) := by
  unfold lexTabsSpaces at h ⊢
  obtain ⟨n, hn⟩ : ∃ n, s.length = n + 1 := ⟨s.length - 1, by
    have : s ≠ [] := by rintro rfl; simp at hl
    have := List.length_pos_iff.mpr this
    omega⟩
  obtain ⟨n', hn'⟩ : ∃ n, (s ++ nls k).length = n + 1 := ⟨n + (nls k).length, by rw [List.length_append]; omega⟩
  rw [hn] at h
  rw [hn']
  unfold lexTabsSpacesGo at h ⊢
  dsimp only at h ⊢
  obtain ⟨e1, e2⟩ := run_nls (k := k) (f := fun c => c == '\t' || c == ' ') (by decide) s
  rw [e1, e2]
  have suf1 := dropWhile_suffix (fun c => c == '\t' || c == ' ') s
  have hs1 : s.dropWhile (fun c => c == '\t' || c == ' ') ≠ [] := by
    intro e
    have := List.dropWhile_eq_nil_iff.mp e _ (List.mem_of_getLast? hl)
    simp at this
  generalize s.dropWhile (fun c => c == '\t' || c == ' ') = s1 at *
  generalize s.takeWhile (fun c => c == '\t' || c == ' ') = ws at *
  rw [head_more hs1]
  have hmem : '\n' ∈ s1 := by
    rw [← last_suffix suf1 hs1] at hl
    exact List.mem_of_getLast? hl
  have hcut : untilTail c!"\n" (s1 ++ nls k) = ((untilTail c!"\n" s1).1, (untilTail c!"\n" s1).2 ++ nls k) := by
    refine untilTailGo_more _ _ ?_
    rcases untilTail_cases (p := c!"\n") (by simp) s1 with ⟨hx, -⟩ | ⟨x, y, -, -, hx⟩
    · obtain ⟨a, b, rfl⟩ := List.append_of_mem hmem
      exact absurd ⟨a, b, by simp⟩ hx
    · show c!"\n" <:+ (untilTail c!"\n" s1).1
      rw [hx]
      exact List.suffix_append _ _
  rw [hcut]
  split at h
  · cases (Prod.mk.inj h).1
  rw [if_neg ‹_›]
  split at h
  · cases (Prod.mk.inj h).1
  rw [if_neg ‹_›]
  dsimp only at h ⊢
  split at h
  · cases (Prod.mk.inj h).1
  rw [if_neg ‹_›]
  split at h
  · cases (Prod.mk.inj h).1
  rw [if_neg ‹_›]
  split at h
  · obtain ⟨h1, h2⟩ := Prod.mk.inj h
    rw [if_pos ‹_›, h1, h2]
    exact ⟨k, rfl⟩
  rw [if_neg ‹_›]
  split at h
  · obtain ⟨h1, h2⟩ := Prod.mk.inj h
    rw [if_pos ‹_›, h1, h2]
    exact ⟨k, rfl⟩
  split at h
  · split at h
    · cases (Prod.mk.inj h).1
    · cases (Prod.mk.inj h).1
    · cases (Prod.mk.inj h).1
  · cases (Prod.mk.inj h).1

theorem lexTabsSpaces_kinds {last : Option Token} {u : Str} (h : lexTabsSpaces last s = (.ok tok, u)) :
    tok = .lineBreak ∨ (∃ x, tok = .code x) ∨ ∃ x y, tok = .codeBlock x y := by
  unfold lexTabsSpaces at h
  cases hn : s.length with
  | zero => rw [hn] at h; cases (Prod.mk.inj h).1
  | succ n =>
    rw [hn] at h
    unfold lexTabsSpacesGo at h
    dsimp only at h
    split at h
    · cases (Prod.mk.inj h).1
    split at h
    · exact .inl (Except.ok.inj (Prod.mk.inj h).1).symm
    split at h
    · cases (Prod.mk.inj h).1
    split at h
    · cases (Prod.mk.inj h).1
    split at h
    · exact .inr (.inl ⟨_, (Except.ok.inj (Prod.mk.inj h).1).symm⟩)
    split at h
    · exact .inr (.inl ⟨_, (Except.ok.inj (Prod.mk.inj h).1).symm⟩)
    split at h
    · split at h
      · exact .inr (.inr ⟨_, _, (Except.ok.inj (Prod.mk.inj h).1).symm⟩)
      · cases (Prod.mk.inj h).1
      · cases (Prod.mk.inj h).1
    · cases (Prod.mk.inj h).1

theorem lexSideCarrot_kinds {u : Str} (h : lexSideCarrot r s = .ok (.ok tok, u)) :
    (∃ l t o, tok = .link l t o) ∨ ∃ x y, tok = .detail x y := by
  unfold lexSideCarrot at h
  dsimp only at h
  split at h
  · cases h
  split at h
  swap
  · cases h
  split at h
  · split at h
    · unfold parseDetails at h
      dsimp only at h
      split at h
      · cases h
      split at h
      · cases h
      obtain ⟨x, hx, h⟩ := Outcome.bind_ok' h
      obtain ⟨ts, ht, h⟩ := Outcome.bind_ok' h
      exact .inr ⟨_, _, (Except.ok.inj (Prod.mk.inj (Outcome.ok.inj h)).1).symm⟩
    · cases h
  split at h
  · split at h
    · cases h
    · split at h
      · split at h
        · exact .inl ⟨_, _, _, (Except.ok.inj (Prod.mk.inj (Outcome.ok.inj h)).1).symm⟩
        · cases h
      · cases h
  · cases h

/-! ### Any token -/

theorem ite_more {α γ : Type} {p : Prop} [Decidable p] {x y v x' y' : α} {f : γ → α} (h : (if p then x else y) = v)
    (h1 : p → x = v → ∃ j, x' = f j) (h2 : ¬ p → y = v → ∃ j, y' = f j) : ∃ j, (if p then x' else y') = f j := by
  by_cases hp : p
  · rw [if_pos hp] at h ⊢; exact h1 hp h
  · rw [if_neg hp] at h ⊢; exact h2 hp h

theorem untilTail_sealed {tail : Str} (h : tail <:+ s) : tail <:+ (untilTail tail s).1 := by
  by_cases ht : tail = []
  · subst ht; exact List.nil_suffix
  rcases untilTail_cases ht s with ⟨h1, _⟩ | ⟨x, y, _, _, e⟩
  · exact absurd h.isInfix h1
  · rw [e]; exact List.suffix_append _ _

theorem untilTail_more {tail y : Str} (h : tail <:+ s) :
    untilTail tail (s ++ y) = ((untilTail tail s).1, (untilTail tail s).2 ++ y) :=
  untilTailGo_more s [] (untilTail_sealed h)

/-- Two occurrences of `</details>` do not overlap: what follows one in a text that ends with one is empty or ends with one. -/
theorem details_left {x y : Str} (h : c!"</details>" <:+ x ++ c!"</details>" ++ y) : y = [] ∨ c!"</details>" <:+ y := by
  rcases List.suffix_or_suffix_of_suffix h (List.suffix_append (x ++ c!"</details>") y) with e | e
  · exact .inr e
  · obtain ⟨q, e⟩ := e
    obtain ⟨x', h⟩ := h
    rw [← e, ← List.append_assoc] at h
    have h2 := List.append_cancel_right h
    by_cases hy : y = []
    · exact .inl hy
    by_cases hq : q = []
    · subst hq
      exact .inr (by rw [← e]; exact List.suffix_refl _)
    · exfalso
      have hl := congrArg List.length e
      have hy' := List.length_pos_iff.mpr hy
      simp only [List.length_append, List.length_cons, List.length_nil] at hl
      have h3 : q <:+ c!"</details>" := by
        refine List.suffix_of_suffix_length_le (l₃ := x ++ c!"</details>") ⟨x', ?_⟩ (List.suffix_append _ _) ?_
        · rw [h2, e]
        · simp only [List.length_cons, List.length_nil]; omega
      cases q with
      | nil => exact hq rfl
      | cons c q =>
        have hc : c = '<' := (List.cons.inj e).1
        obtain ⟨w, hw⟩ := h3
        cases w with
        | nil =>
          have := congrArg List.length hw
          simp at this hl
          omega
        | cons d w =>
          have h4 : '<' ∈ c!"/details>" := by
            have := (List.cons.inj hw).2
            rw [← this, hc]
            simp
          exact absurd h4 (by decide)

theorem untilTail_left (h : c!"</details>" <:+ s) :
    (untilTail c!"</details>" s).2 = [] ∨ c!"</details>" <:+ (untilTail c!"</details>" s).2 := by
  rcases untilTail_cases (p := c!"</details>") (by decide) s with ⟨_, e⟩ | ⟨x, y, hs, _, e⟩
  · rw [e]; exact .inl rfl
  · rw [e]
    exact details_left (x := x) (hs ▸ h)

theorem detailsLoop_more {start y rem : Str} : ∀ (fuel fuel' : Nat) (s : Str), fuel ≤ fuel' → s <:+ start → (s = [] ∨ c!"</details>" <:+ s) →
    detailsLoop start fuel s = .ok (rem, []) → detailsLoop (start ++ y) fuel' (s ++ y) = .ok (rem, y)
  | fuel, fuel', s, hf, hs, he, h => by
    unfold detailsLoop at h ⊢
    dsimp only at h ⊢
    rw [slice_more hs]
    split at h
    · rename_i hc
      rw [if_pos hc]
      obtain ⟨h1, h2⟩ := Prod.mk.inj (Outcome.ok.inj h)
      rw [h1, h2]
      rfl
    · rename_i hc
      rw [if_neg hc]
      cases fuel with
      | zero => cases h
      | succ fuel =>
        obtain ⟨fuel', rfl⟩ : ∃ m, fuel' = m + 1 := ⟨fuel' - 1, by omega⟩
        dsimp only at h ⊢
        split at h
        · cases h
        · rename_i hne
          have he' := he.resolve_left hne
          rw [if_neg (by simp [hne]), untilTail_more he']
          exact detailsLoop_more fuel fuel' _ (by omega) ((untilTail_suffix _ _).trans hs) (untilTail_left he') h

theorem skipIf_append {c : Char} {y : Str} (h : s ≠ []) : skipIf c (s ++ y) = skipIf c s ++ y := by
  cases s with
  | nil => exact absurd rfl h
  | cons d s => simp only [List.cons_append, skipIf]; split <;> rfl

theorem _root_.Smd.Outcome.bind_of_ok {α β : Type} {x : Outcome α} {f : α → Outcome β} {a : α} {b : Outcome β} (h : x = .ok a) (h2 : f a = b) : (x >>= f) = b := by
  subst h; exact h2

theorem parseDetails_more {x y : Str} {inner : List Token} (he : c!"</details>" <:+ s) (h : parseDetails r s = .ok (.ok (.detail x inner), [])) :
    parseDetails r (s ++ y) = .ok (.ok (.detail x inner), y) := by
  unfold parseDetails at h ⊢
  dsimp only at h ⊢
  split at h
  · cases h
  rename_i hg
  have hend : endsWith (s.takeWhile (fun c => c != '\n' && c != '\r')) c!"</summary>" = true := by
    simp only [Bool.or_eq_true, not_or, Bool.not_eq_true', Bool.not_eq_false] at hg
    exact hg.2
  have hend' : c!"</summary>" <:+ s.takeWhile (fun c => c != '\n' && c != '\r') := List.isSuffixOf_iff_suffix.mp hend
  have hnot : ∀ u, c!"</summary>" <:+ u → ¬ c!"</details>" <:+ u := by
    intro u h1 h2
    exact absurd (List.suffix_of_suffix_length_le h1 h2 (by decide)) (by decide)
  have hne : s.dropWhile (fun c => c != '\n' && c != '\r') ≠ [] := by
    intro e
    have := List.takeWhile_append_dropWhile (p := fun c => c != '\n' && c != '\r') (l := s)
    rw [e, List.append_nil] at this
    rw [this] at hend'
    exact hnot _ hend' he
  obtain ⟨e1, e2⟩ := run_more (y := y) hne
  rw [e1, e2, skipIf_append hne]
  rw [if_neg hg]
  have hs1 : c!"</details>" <:+ skipIf '\r' (s.dropWhile (fun c => c != '\n' && c != '\r')) := by
    have hsplit := List.takeWhile_append_dropWhile (p := fun c => c != '\n' && c != '\r') (l := s)
    have hd0 := List.head?_dropWhile_not (fun c => c != '\n' && c != '\r') s
    generalize s.dropWhile (fun c => c != '\n' && c != '\r') = d at *
    cases d with
    | nil => exact absurd rfl hne
    | cons c d =>
      simp only [List.head?_cons] at hd0
      have hc : c = '\n' ∨ c = '\r' := by
        by_contra hh
        simp only [not_or] at hh
        simp [hh.1, hh.2] at hd0
      have key : c!"</details>" <:+ d := by
        rw [← hsplit] at he
        rcases List.suffix_or_suffix_of_suffix he (List.suffix_append _ (c :: d)) with e | e
        · rcases List.suffix_cons_iff.mp e with e | e
          · rcases hc with rfl | rfl <;> exact absurd (List.cons.inj e).1 (by decide)
          · exact e
        · exfalso
          have : c ∈ c!"</details>" := e.subset (by simp)
          rcases hc with rfl | rfl <;> exact absurd this (by decide)
      simp only [skipIf]
      split
      · exact key
      · exact key.trans (List.suffix_cons _ _)
  generalize skipIf '\r' (s.dropWhile (fun c => c != '\n' && c != '\r')) = s1 at *
  split at h
  · cases h
  rename_i sum1 _
  rw [untilTail_more hs1]
  dsimp only
  obtain ⟨⟨rem, rest⟩, h1, h⟩ := Outcome.bind_ok' h
  obtain ⟨inn, h2, h⟩ := Outcome.bind_ok' h
  obtain ⟨h3, rfl⟩ := Prod.mk.inj (Outcome.ok.inj h)
  refine Outcome.bind_of_ok (a := (rem, y)) ?_ (Outcome.bind_of_ok h2 (by rw [h3]))
  split at h1
  · rename_i hcon
    rw [if_pos hcon]
    exact detailsLoop_more _ _ _ (by simp) (untilTail_suffix _ _) (untilTail_left hs1) h1
  · rename_i hcon
    rw [if_neg hcon]
    obtain ⟨h4, h5⟩ := Prod.mk.inj (Outcome.ok.inj h1)
    rw [h4, h5]
    rfl

theorem lexSideCarrot_detail_more {x y : Str} {inner : List Token} (he : c!"</details>" <:+ s) (h : lexSideCarrot r s = .ok (.ok (.detail x inner), [])) :
    lexSideCarrot r (s ++ y) = .ok (.ok (.detail x inner), y) := by
  unfold lexSideCarrot at h ⊢
  split at h
  · cases h
  rename_i h0
  have hs0 : s ≠ [] := ne_of_head (not_ne_iff.mp h0)
  rw [head_more hs0, if_neg h0]
  dsimp only at h ⊢
  rw [drop1_more hs0]
  split at h
  swap
  · cases h
  rename_i h1
  have hs2 : (s.drop 1).dropWhile (· != '>') ≠ [] := ne_of_head h1
  obtain ⟨e1, e2⟩ := run_more (y := y) hs2
  rw [e1, e2, head_more hs2, if_pos h1, drop1_more hs2]
  have hsuf : ((s.drop 1).dropWhile (· != '>')).drop 1 <:+ s :=
    ((List.drop_suffix _ _).trans (List.dropWhile_suffix _)).trans (List.drop_suffix _ _)
  generalize ((s.drop 1).dropWhile (· != '>')).drop 1 = s3 at *
  split at h
  · rename_i ht
    rw [if_pos ht]
    split at h
    · rename_i h4
      have hs4 : skipIf '\r' s3 ≠ [] := ne_of_head h4
      have hs3 : s3 ≠ [] := by rintro rfl; exact hs4 rfl
      rw [skipIf_append hs3, head_more hs4, if_pos h4, drop1_more hs4]
      refine parseDetails_more ?_ h
      have hsuf4 : skipIf '\r' s3 <:+ s := by
        refine List.IsSuffix.trans ?_ hsuf
        cases s3 with
        | nil => exact List.nil_suffix
        | cons c d => 
          simp only [skipIf]
          split
          · exact List.suffix_cons _ _
          · exact List.suffix_refl _
      generalize skipIf '\r' s3 = s4 at *
      cases s4 with
      | nil => exact absurd rfl hs4
      | cons c d =>
        obtain rfl : c = '\n' := by simpa using h4
        rcases List.suffix_or_suffix_of_suffix he hsuf4 with e | e
        · rcases List.suffix_cons_iff.mp e with e | e
          · exact absurd (List.cons.inj e).1 (by decide)
          · exact e
        · exact absurd (e.subset (List.mem_cons_self)) (by decide)
    · cases h
  · split at h
    · split at h
      · cases h
      split at h
      · split at h <;> cases h
      · cases h
    · cases h

theorem lexDispatch_nls {last : Option Token} {c : Char} {p : Str} (hc : Sealed (c :: p) tok) (hp : ∀ x, tok ≠ .plaintext x)
    (h : lexDispatch r [] last c (c :: p) = .ok (.ok tok, [])) : ∃ j, lexDispatch r [] last c (c :: p ++ nls k) = .ok (.ok tok, nls j) := by
  have pure : ∀ {x y : LexRes × Str}, (x = (.ok tok, []) → ∃ j, y = (.ok tok, nls j)) → (.ok x : Outcome _) = .ok (.ok tok, []) →
      ∃ j, (.ok y : Outcome (LexRes × Str)) = .ok (.ok tok, nls j) := by
    intro x y f e
    obtain ⟨j, hj⟩ := f (Outcome.ok.inj e)
    exact ⟨j, by rw [hj]⟩
  unfold lexDispatch at h ⊢
  refine ite_more h (fun hcc h => ?_) fun n1 h => ?_
  · obtain ⟨l, x, o, rfl⟩ : ∃ l x o, tok = .header l x o := by
      unfold lexHeading at h
      dsimp only at h
      split at h
      · cases h
      split at h
      · cases h
      obtain ⟨line, hx, h⟩ := Outcome.bind_ok' h
      split at h
      · exact ⟨_, _, _, (Except.ok.inj (Prod.mk.inj (Outcome.ok.inj h)).1).symm⟩
      · obtain ⟨html, hy, h⟩ := Outcome.bind_ok' h
        exact ⟨_, _, _, (Except.ok.inj (Prod.mk.inj (Outcome.ok.inj h)).1).symm⟩
    exact ⟨k, lexHeading_nls h⟩
  refine ite_more h (fun hcc h => pure (fun h => ?_) h) fun n2 h => ?_
  · obtain rfl : tok = .newline := by
      unfold lexNewlines at h
      dsimp only at h
      split at h
      · exact (Except.ok.inj (Prod.mk.inj h).1).symm
      · cases (Prod.mk.inj h).1
    exact ⟨0, lexNewlines_nls h⟩
  refine ite_more h (fun hcc h => pure (fun h => ?_) h) fun n3 h => ?_
  · rcases lexTabsSpaces_kinds h with rfl | ⟨x, rfl⟩ | ⟨x, y, rfl⟩
    · exact hc.elim
    · refine lexTabsSpaces_nls h ?_
      rcases hc with hc | hc
      · rcases hcc with rfl | rfl <;> simp at hc
      · exact hc
    · exfalso
      have hc : (c :: p).head? = some '`' := hc
      rcases hcc with rfl | rfl <;> simp at hc
  refine ite_more h (fun hcc h => pure (fun h => ?_) h) fun n4 h => ?_
  · obtain ⟨x, rfl⟩ : ∃ x, tok = .orderedListEntry x := by
      unfold lexNumbers at h
      split at h <;> cases (Prod.mk.inj h).1
      exact ⟨_, rfl⟩
    exact ⟨k, lexNumbers_nls h⟩
  refine ite_more h (fun hcc h => pure (fun h => lexAU_nls h ?_) h) fun n5 h => ?_
  · rintro x rfl
    exact hc
  refine ite_more h (fun hcc h => lexPlusMinus_nls h ?_) fun n6 h => ?_
  · rintro x rfl
    exact hc
  refine ite_more h (fun hcc h => pure (fun h => ?_) h) fun n7 h => ?_
  · obtain ⟨l, x, rfl⟩ : ∃ l x, tok = .blockQuote l x := by
      unfold lexBlockquotes at h
      dsimp only at h
      split at h <;> cases (Prod.mk.inj h).1
      exact ⟨_, _, rfl⟩
    exact lexBlockquotes_nls h
  refine ite_more h (fun hcc h => pure (fun h => ?_) h) fun n8 h => ?_
  · obtain ⟨x, rfl⟩ : ∃ x, tok = .strikethrough x := by
      unfold lexTilde at h
      dsimp only at h
      split at h
      · cases (Prod.mk.inj h).1
      split at h
      · split at h <;> cases (Prod.mk.inj h).1
        exact ⟨_, rfl⟩
      · cases (Prod.mk.inj h).1
    exact ⟨k, lexTilde_nls h⟩
  refine ite_more h (fun hcc h => pure (fun h => ⟨k, lexBackticks_nls h⟩) h) fun n9 h => ?_
  refine ite_more h (fun hcc h => pure (fun h => lexLinks_nls h ?_) h) fun n10 h => ?_
  · rintro l t o rfl
    rcases hc with hc | hc
    · simp [hcc] at hc
    · exact hc
  refine ite_more h (fun hcc h => pure (fun h => ?_) h) fun n11 h => ?_
  · obtain ⟨l, t, rfl⟩ : ∃ l t, tok = .image l t := by
      unfold lexImages at h
      split at h
      · cases (Prod.mk.inj h).1
      split at h <;> cases (Prod.mk.inj h).1
      exact ⟨_, _, rfl⟩
    exact lexImages_nls h hc
  refine ite_more h (fun hcc h => ?_) fun n12 h => ?_
  · subst hcc
    rcases lexSideCarrot_kinds h with ⟨l, t, o, rfl⟩ | ⟨x, y, rfl⟩
    · exact ⟨k, lexSideCarrot_nls h⟩
    · exact ⟨k, lexSideCarrot_detail_more hc h⟩
  refine ite_more h (fun hcc h => lexPipes_nls h) fun n13 h => ?_
  refine ite_more h (fun hcc h => pure (fun h => ?_) h) fun n14 h => ?_
  · exfalso
    unfold lexEscaped at h
    split at h
    · cases (Prod.mk.inj h).1
    split at h
    · exact hp _ (Except.ok.inj (Prod.mk.inj h).1).symm
    · exact hp _ (Except.ok.inj (Prod.mk.inj h).1).symm
  · exact absurd (Except.ok.inj (Prod.mk.inj (Outcome.ok.inj h)).1).symm (hp _)

theorem nextToken_more {last : Option Token} {p : Str} (hc : Sealed p tok) (hnl : p ≠ ['\n']) (h : nextToken r [] last p = .ok (some (tok, []))) :
    ∃ j, nextToken r [] last (p ++ nls k) = .ok (some (tok, nls j)) := by
  by_cases hp : ∀ x, tok ≠ .plaintext x
  · cases p with
    | nil => simp [nextToken] at h
    | cons c p =>
      simp only [nextToken] at h
      obtain ⟨⟨res, u⟩, hx, h⟩ := Outcome.bind_ok' h
      obtain ⟨h1, rfl⟩ := Prod.mk.inj (Option.some.inj (Outcome.ok.inj h))
      cases res with
      | error e => exact absurd h1.symm (hp e)
      | ok t =>
        have h1 : t = tok := h1
        subst h1
        obtain ⟨j, hj⟩ := lexDispatch_nls (k := k) hc hp hx
        rw [List.cons_append] at hj ⊢
        simp only [nextToken]
        rw [hj]
        exact ⟨j, rfl⟩
  · obtain ⟨x, rfl⟩ : ∃ x, tok = .plaintext x := by simpa using hp
    obtain ⟨c, rfl, hn⟩ := hc
    refine ⟨k, ?_⟩
    simp only [List.mem_cons, List.not_mem_nil, or_false, not_or] at hn
    obtain ⟨n1, n3, n4, n5, n6, n7, n8, n9, n10, n11, n12⟩ := hn
    have n2 : c ≠ '\n' := fun e => hnl (by rw [e])
    suffices key : ∀ j, lexDispatch r [] last c (c :: nls j) = .ok (.error [c], nls j) ∨ lexDispatch r [] last c (c :: nls j) = .ok (.ok (.plaintext [c]), nls j) by
      have key' : ∀ j, nextToken r [] last (c :: nls j) = .ok (some (.plaintext [c], nls j)) := by
        intro j
        simp only [nextToken]
        rcases key j with e | e <;> rw [e] <;> rfl
      have h0 : nextToken r [] last [c] = .ok (some (.plaintext [c], [])) := key' 0
      rw [h0] at h
      obtain ⟨h1, -⟩ := Prod.mk.inj (Option.some.inj (Outcome.ok.inj h))
      rw [← h1]
      exact key' k
    intro j
    have run0 : ∀ {f : Char → Bool}, f '\n' = false → f c = true → (c :: nls j).takeWhile f = [c] ∧ (c :: nls j).dropWhile f = nls j := by
      intro f hf hc
      obtain ⟨e1, e2⟩ := run_nls (k := j) hf [c]
      rw [List.cons_append, List.nil_append] at e1 e2
      rw [e1, e2]
      simp [hc]
    unfold lexDispatch
    simp only [n1, n2, n3, n4, n5, n6, n7, n8, n9, n10, n11, n12, false_and, if_false, or_false, or_self]
    split
    · rename_i hc
      subst hc
      left
      obtain ⟨e1, e2⟩ := run0 (f := fun c => c == '\t' || c == ' ') (by decide) (by decide)
      simp [lexTabsSpaces, lexTabsSpacesGo, e1, e2]
    split
    · left
      cases j with
      | zero => simp [lexNumbers, nls, times]
      | succ j => simp [lexNumbers, nls, times, List.replicate_succ]
    split
    · rename_i hc
      subst hc
      left
      obtain ⟨e1, e2⟩ := run0 (f := (· == '>')) (by decide) (by decide)
      simp [lexBlockquotes, e1, e2, nls_head]
    split
    · rename_i hc
      subst hc
      left
      obtain ⟨e1, e2⟩ := run0 (f := (· == '~')) (by decide) (by decide)
      simp [lexTilde, e1, e2]
    split
    · rename_i hc
      subst hc
      left
      have : lexLinks (nls j) = (.error [], nls j) := by
        unfold lexLinks
        rw [if_pos (nls_head j (by decide))]
      simp [lexImages, this, slice]
    · right
      rfl

/-! ### The end of the document -/

theorem agree_more {p : Str} (hp : p ≠ []) (k : Nat) : Agree p (p ++ nls k) := by
  match p, hp with
  | [x], _ =>
    cases k with
    | zero => exact ⟨rfl, by simp [nls, times], by simp [nls, times]⟩
    | succ k => exact ⟨rfl, by simp [nls, times, List.replicate_succ], by simp [nls, times, List.replicate_succ]⟩
  | x :: y :: p, _ => exact .of_take rfl

/-- Line feeds at the end of a document make a token that changes nothing. -/
theorem finish_newline (st : PState) : ∃ st', parseTok r .newline st = .ok st' ∧ finish st' = finish st := by
  refine ⟨_, rfl, ?_⟩
  cases h1 : st.inPara <;> cases h2 : st.inOl <;> cases h3 : st.inUl <;> cases h4 : st.inTask <;>
    simp [step1, isBlankPlain, isTab, staysInList, staysInTask, opensPara, closesPara, staysInQuote, isCode, h1, h2, h3, h4, finish, PState.push]

theorem parseDoc_newline (ts : List Token) : parseDoc r (ts ++ [.newline]) = parseDoc r ts := by
  unfold parseDoc
  rw [parseToks_append]
  cases parseToks r ts {} with
  | ok st =>
    obtain ⟨st', h1, h2⟩ := finish_newline (r := r) st
    simp only [Outcome.bind, parseToks, h1, h2]
  | _ => rfl

theorem parseDoc_blank (ts : List Token) {x : Str} (h : trim x = []) : parseDoc r (ts ++ [.plaintext x]) = parseDoc r ts := by
  unfold parseDoc
  rw [parseToks_append]
  cases parseToks r ts {} with
  | ok st => simp only [Outcome.bind, parseToks, parseTok_blank r st h]
  | _ => rfl

theorem trim_all_nls (k : Nat) : trim (nls k) = [] := by
  have := trim_nls [] k
  simpa [trim, trimStartP, trimEndP] using this

theorem parseDoc_nlTok (ts : List Token) (k : Nat) : parseDoc r (ts ++ [nlTok k]) = parseDoc r ts := by
  unfold nlTok
  split
  · exact parseDoc_newline ts
  · exact parseDoc_blank ts (trim_all_nls k)

/-- Line feeds lex to one token or none. -/
theorem lexes_nls (last : Option Token) (j : Nat) : LexesUpTo r [] [] last (nls j) (if j = 0 then [] else [nlTok j]) := by
  cases j with
  | zero => exact .nil _
  | succ j =>
    have := nextToken_nls (r := r) (ig := []) (last := last) j (d := []) (by simp)
    rw [List.append_nil] at this
    exact .cons _ _ _ _ _ this (.nil _)

theorem lexes_render {s : Str} {ts : List Token} (h : Lexes self [] none s ts) : render s = parseDoc self ts := by
  rw [render_unfold, (lexWith_ok_iff _ _ _ _).mpr h]
  rfl

end Smd.Gfm
