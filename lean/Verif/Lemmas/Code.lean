import Verif.Lemmas.Blocks

/-! Code between backticks. -/

namespace Smd.Gfm
open Smd.Rs Smd.Spec

variable {stop : Str}

variable {r : Rec} {ig : List Char} {rest : Str} {ts : List Token}

theorem untilTailGo_first (tail : Str) : ∀ (u acc rest : Str), tail <:+ acc ++ u →
    (∀ a, a <+: acc ++ u → a ≠ acc ++ u → ¬ tail <:+ a) → untilTailGo tail acc (u ++ rest) = (acc ++ u, rest)
  | [], acc, rest, hs, _ => by
    rw [List.append_nil] at hs ⊢
    cases rest with
    | nil => rfl
    | cons c cs =>
      simp only [List.nil_append, untilTailGo]
      rw [if_pos (List.isSuffixOf_iff_suffix.mpr hs)]
  | c :: u, acc, rest, hs, hn => by
    have h1 : ¬ tail <:+ acc := hn acc (List.prefix_append _ _) (by simp)
    have e : acc ++ c :: u = (acc ++ [c]) ++ u := by simp
    rw [e] at hs hn ⊢
    simp only [List.cons_append, untilTailGo]
    rw [if_neg (by simpa [List.isSuffixOf_iff_suffix] using h1)]
    exact untilTailGo_first tail u _ rest hs hn

theorem untilTail_first {tail u rest : Str} (hs : tail <:+ u) (hn : ∀ a, a <+: u → a ≠ u → ¬ tail <:+ a) :
    untilTail tail (u ++ rest) = (u, rest) := by
  have := untilTailGo_first tail u [] rest (by simpa using hs) (by simpa using hn)
  simpa [untilTail] using this

/-- The closing backticks are the first ones. -/
theorem ticks_first {n : Nat} {t rest : Str} (ht : CodeText n t) :
    untilTail (times n '`') (t ++ times n '`' ++ rest) = (t ++ times n '`', rest) := by
  refine untilTail_first (List.suffix_append _ _) ?_
  intro a ha hne hs
  obtain ⟨b, hb⟩ := ha
  rcases List.append_eq_append_iff.mp hb with ⟨w, h1, h2⟩ | ⟨w, h1, h2⟩
  · exact ht.inside (h1 ▸ hs.isInfix.trans (List.prefix_append a w).isInfix)
  · obtain ⟨k, l, rfl, rfl⟩ : ∃ k l, w = times k '`' ∧ b = times l '`' := by
      have : ∀ x ∈ w ++ b, x = '`' := by rw [← h2]; simp +contextual [List.mem_replicate]
      exact ⟨w.length, b.length, List.eq_replicate_iff.mpr ⟨rfl, fun x hx => this x (by simp [hx])⟩,
        List.eq_replicate_iff.mpr ⟨rfl, fun x hx => this x (by simp [hx])⟩⟩
    have hkl : n = k + l := by simpa using congrArg List.length h2
    have hl : l ≠ 0 := by rintro rfl; exact hne (by rw [h1]; simp at h2; rw [h2])
    rcases List.eq_nil_or_concat t with rfl | ⟨u, x, rfl⟩
    · exact ht.nonempty rfl
    · have hx : x ≠ '`' := by simpa using ht.stop
      obtain ⟨p, hp⟩ := hs
      obtain ⟨l, rfl⟩ : ∃ m, l = m + 1 := ⟨l - 1, by omega⟩
      have e : times n '`' = times l '`' ++ '`' :: times k '`' := by
        rw [hkl, show k + (l + 1) = l + (k + 1) by omega]
        simp [times, List.replicate_add, List.replicate_succ]
      have e2 : (p ++ times l '`') ++ ['`'] = u ++ [x] := by
        have : (p ++ times l '`' ++ ['`']) ++ times k '`' = (u ++ [x]) ++ times k '`' := by
          rw [h1, e] at hp; simpa using hp
        exact List.append_cancel_right this
      have := List.append_inj_right' e2 rfl
      simp at this
      exact hx this.symm

theorem trimEndStr_once {p t : Str} (hp : p ≠ []) (ht : ¬ p <:+ t) : trimEndStr p (t ++ p) = t := by
  obtain ⟨c, q, rfl⟩ : ∃ c q, p = c :: q := by cases p with | nil => exact absurd rfl hp | cons c q => exact ⟨c, q, rfl⟩
  unfold trimEndStr
  rw [show (t ++ c :: q).length = (t.length + q.length) + 1 by simp; omega, trimEndStrGo,
    if_pos (List.isSuffixOf_iff_suffix.mpr (List.suffix_append _ _))]
  have : (t ++ c :: q).take (t.length + q.length + 1 - (c :: q).length) = t := by
    rw [show t.length + q.length + 1 - (c :: q).length = t.length by simp]
    simp
  rw [List.length_append, List.length_cons, show t.length + (q.length + 1) - (q.length + 1) = t.length by omega, List.take_left']
  · cases hn : t.length + q.length with
    | zero => rfl
    | succ m =>
      rw [trimEndStrGo, if_neg (by simpa [List.isSuffixOf_iff_suffix] using ht)]
  · rfl

theorem startsWith_one (c : Char) (t : Str) : startsWith t [c] = decide (t.head? = some c) := by
  cases t with
  | nil => rfl
  | cons x t => simp only [startsWith, List.isPrefixOf, Bool.and_true, List.head?_cons, Option.some.injEq, eq_comm (a := x), beq_eq_decide]

theorem endsWith_one (c : Char) (t : Str) : endsWith t [c] = decide (t.getLast? = some c) := by
  rcases List.eq_nil_or_concat t with rfl | ⟨u, x, rfl⟩
  · simp [endsWith, List.isSuffixOf]
  · simp [endsWith, List.isSuffixOf, List.isPrefixOf, eq_comm (a := x), beq_eq_decide]

theorem lexBackticks_code {n : Nat} {t rest : Str} (h1 : 1 ≤ n) (h3 : n ≠ 3) (ht : CodeText n t) :
    lexBackticks (times n '`' ++ t ++ times n '`' ++ rest) = (.ok (.code (codeShown t)), rest) := by
  have hsplit := times_split (c := '`') (n := n) (rest := t ++ (times n '`' ++ rest)) (by
    have := ht.start
    have := ht.nonempty
    cases t <;> simp_all)
  have hs : ¬ times n '`' <:+ t := fun h => ht.inside h.isInfix
  have hn : times n '`' ≠ [] := by obtain ⟨k, rfl⟩ : ∃ k, n = k + 1 := ⟨n - 1, by omega⟩; simp
  have e := ticks_first (rest := rest) ht
  rw [List.append_assoc] at e
  unfold lexBackticks
  rw [List.append_assoc, List.append_assoc]
  simp only [hsplit.1, hsplit.2, List.length_replicate, if_neg h3]
  simp only [times] at e hs hn
  simp only [e, trimEndStr_once hn hs, startsWith_one, endsWith_one]
  rw [if_neg (by simp [endsWith, List.isSuffixOf_iff_suffix]), codeShown]
  simp only [trimEndP, trimStartP, Bool.and_eq_true, decide_eq_true_eq]
  split <;> rfl

theorem nextToken_tick {last : Option Token} {s : Str} :
    nextToken r ig last ('`' :: s) = .ok (some (resToken (lexBackticks ('`' :: s)).1, (lexBackticks ('`' :: s)).2)) := by
  unfold nextToken lexDispatch
  simp

theorem LexTo.code {n : Nat} {t : Str} (h1 : 1 ≤ n) (h3 : n ≠ 3) (ht : CodeText n t) (hr : LexTo (stop := stop) r ig rest ts) :
    LexTo (stop := stop) r ig (times n '`' ++ t ++ times n '`' ++ rest) (.code (codeShown t) :: ts) := by
  refine .cons (fun last => ?_) hr
  have e := lexBackticks_code (rest := rest) h1 h3 ht
  obtain ⟨u, hu⟩ := times_head (c := '`') h1 (t ++ (times n '`' ++ rest))
  simp only [List.append_assoc] at e ⊢
  rw [hu] at e ⊢
  rw [nextToken_tick, e]
  rfl

theorem parseTok_code_clean (r : Rec) (t h : Str) :
    parseTok r (.code t) (clean h) = .ok { html := h ++ c!"<pre><code>" ++ escape t, inCode := true } := by
  simp [parseTok, step1, step2, isBlankPlain, isTab, staysInList, staysInTask, opensPara, closesPara, staysInQuote, isCode,
    PState.push, sanitize_eq_escape]

theorem parseTok_code_inP (r : Rec) (t h : Str) :
    parseTok r (.code t) (inP h) = .ok (inP (h ++ c!"<pre><code>" ++ escape t) true) := by
  simp [parseTok, step1, step2, isBlankPlain, isTab, staysInList, staysInTask, opensPara, closesPara, staysInQuote, isCode,
    PState.push, sanitize_eq_escape]

theorem endNl_eq (h : Str) : endNl h = endLine h := by
  unfold endNl endLine
  rcases List.eq_nil_or_concat h with rfl | ⟨u, x, rfl⟩
  · simp
  · by_cases hx : x = '\n' <;> simp [hx]

theorem endLine_last (h : Str) : (endLine h).getLast? = some '\n' := by
  unfold endLine
  split <;> simp_all

theorem endLine_idem (h : Str) : endLine (endLine h) = endLine h := by
  rw [endLine, if_pos (endLine_last h)]

theorem endLine_append {a : Str} (t : Str) (ha : a.getLast? ≠ some '\n') : endLine (a ++ t) = a ++ endLine t := by
  unfold endLine
  rcases List.eq_nil_or_concat t with rfl | ⟨u, x, rfl⟩
  · simp [ha]
  · by_cases hx : x = '\n' <;> simp [hx]

/-- The end of a document in which nothing but code is open. -/
theorem finish_code (h t : Str) : finish { html := h ++ c!"<pre><code>" ++ t, inCode := true } =
    h ++ c!"<pre><code>" ++ endLine t ++ c!"</code></pre>" := by
  have e : endLine (h ++ c!"<pre><code>" ++ t) = h ++ c!"<pre><code>" ++ endLine t := endLine_append t (by simp)
  simp only [finish, rep, endNl_eq]
  simp [endLine_idem, ← e]

theorem finish_code_inP (h : Str) : finish (inP h true) = h ++ c!"</p>\n</code></pre>" := by
  simp [finish, rep, endNl]

/-! ### Three backticks -/

theorem lexBackticks_fence {lang body rest : Str} (h1 : '\n' ∉ lang) (h2 : '`' ∉ lang) (h3 : '`' ∉ body) (h4 : rest.head? ≠ some '`') :
    lexBackticks (c!"```" ++ lang ++ '\n' :: (body ++ (c!"```" ++ rest))) = (.ok (.codeBlock body lang), rest) := by
  have hsplit := times_split (c := '`') (n := 3) (rest := lang ++ '\n' :: (body ++ (c!"```" ++ rest))) (by
    cases lang <;> simp_all [eq_comm])
  have hclose := times_split (c := '`') (n := 3) (rest := rest) h4
  have hb := ne_split (c := '`') (t := body) (u := c!"``" ++ rest) h3
  have hl := ne_split (c := '\n') (t := lang) (u := body ++ (c!"```" ++ rest)) h1
  simp only [times, List.replicate_succ, List.replicate_zero, List.cons_append, List.nil_append] at hsplit hclose
  unfold lexBackticks
  simp only [List.cons_append, List.nil_append, hsplit.1, hsplit.2, List.length_cons, List.length_nil, Nat.zero_add, if_true]
  cases lang with
  | nil =>
    simp only [List.nil_append, List.head?_cons, if_true, List.drop_one, List.tail_cons]
    simp only [List.cons_append, List.nil_append] at hb
    simp [hb, hclose]
  | cons c lang =>
    have hc : c ≠ '\n' := by simp at h1; exact fun e => h1.1 e.symm
    simp only [List.cons_append, List.nil_append] at hb hl
    simp only [List.cons_append, List.head?_cons, Option.some.injEq, hc, if_false, hl]
    simp [hb, hclose]

end Smd.Gfm
