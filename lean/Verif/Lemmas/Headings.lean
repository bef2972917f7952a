import Verif.Lemmas.Corollaries

/-! Headings with a tab, closing hashes, hashes inside, and headings whose text is lost. -/

namespace Smd.Gfm
open Smd.Rs Smd.Spec

variable {stop : Str}

variable {r : Rec} {ig : List Char} {rest : Str} {ts : List Token}

theorem two_infix_append {x y : Char} : ∀ {a b : Str}, [x, y] <:+: a ++ b →
    [x, y] <:+: a ∨ (a.getLast? = some x ∧ b.head? = some y) ∨ [x, y] <:+: b
  | [], b, h => .inr (.inr h)
  | c :: a, b, h => by
    rcases List.infix_cons_iff.mp h with h | h
    · cases a with
      | nil =>
        rw [List.cons_prefix_cons] at h
        refine .inr (.inl ⟨by rw [h.1]; rfl, ?_⟩)
        cases b with
        | nil => simp at h
        | cons d b =>
          have h2 : [y] <+: d :: b := h.2
          rw [List.cons_prefix_cons] at h2
          rw [h2.1]; rfl
      | cons d a =>
        rw [List.cons_prefix_cons] at h
        have h2 : [y] <+: d :: (a ++ b) := h.2
        rw [List.cons_prefix_cons] at h2
        exact .inl ⟨[], a, by rw [h.1, h2.1]; rfl⟩
    · rcases two_infix_append h with h | ⟨h1, h2⟩ | h
      · exact .inl (List.infix_cons h)
      · refine .inr (.inl ⟨?_, h2⟩)
        cases a with
        | nil => cases h1
        | cons d a => rw [List.getLast?_cons_cons]; exact h1
      · exact .inr (.inr h)

/-- The last character is not white space and not a hash: nothing is cut off. -/
theorem headingTrim_last {s : Str} {a : Char} {u : Str} (h : s = u ++ [a]) (ha : isWs a = false) (hh : a ≠ '#') : headingTrim s = s := by
  unfold headingTrim
  have e : trimEnd s = s := trimEnd_id h ha
  rw [e]
  split
  · next l t ht =>
    have e2 := rsplit_right ht
    rw [if_neg]
    intro hall
    rw [List.all_eq_true] at hall
    rcases List.eq_nil_or_concat t with rfl | ⟨t, d, rfl⟩
    · rw [h] at e2
      have := congrArg List.getLast? e2
      simp at this
      subst this
      revert ha; decide
    · have hd : d = '#' := by simpa using hall d (by simp)
      rw [h] at e2
      have := congrArg List.getLast? e2
      rw [List.concat_eq_append, ← List.cons_append, ← List.append_assoc] at this
      simp only [List.getLast?_append, List.getLast?_singleton, Option.some_or] at this
      injection this with this
      exact hh (this.trans hd)
  · rfl

theorem times_succ' (n : Nat) (c : Char) : times (n + 1) c = times n c ++ [c] := List.replicate_succ'

theorem trimEndP_times {p : Char → Bool} {c : Char} (hc : p c = true) (s : Str) : ∀ m : Nat, trimEndP p (s ++ times m c) = trimEndP p s
  | 0 => by simp
  | m + 1 => by
    have e : s ++ times (m + 1) c = (s ++ times m c) ++ [c] := by rw [times_succ', List.append_assoc]
    rw [e, ← trimEndP_times hc s m]
    simp [trimEndP, hc]

theorem rsplitOnce_append {c : Char} {a b : Str} (h : c ∉ b) : rsplitOnce c (a ++ c :: b) = some (a, b) := by
  unfold rsplitOnce
  rw [if_pos (by simp)]
  have e : (a ++ c :: b).reverse = b.reverse ++ c :: a.reverse := by simp
  rw [e, (ne_split (by simpa using h)).1, (ne_split (by simpa using h)).2]
  simp

/-- Closing hashes and the spaces around them are cut off. -/
theorem heading_closed {line : Str} (he : Ends line) (hh : '#' ∉ line) {j k : Nat} (m : Nat) (hjk : 1 ≤ j ∨ k = 0) :
    trimEndP (fun c => c == ' ' || c == '\t') (headingTrim (line ++ times j ' ' ++ times k '#' ++ times m ' ')) = line := by
  obtain ⟨_, a, u, e, ha⟩ := he
  have hs : a ≠ ' ' := by rintro rfl; revert ha; decide
  have ht : a ≠ '\t' := by rintro rfl; revert ha; decide
  have hid : trimEndP (fun c => c == ' ' || c == '\t') line = line := trimEnd_id e (by simp [hs, ht])
  have hid2 : trimEndP isWs line = line := trimEnd_id e ha
  by_cases hk : k = 0
  · subst hk
    have e1 : headingTrim (line ++ times j ' ' ++ times 0 '#' ++ times m ' ') = line ++ times j ' ' ++ times 0 '#' ++ times m ' ' := by
      unfold headingTrim trimEnd
      rw [trimEndP_times (by decide), show times 0 '#' = [] from rfl, List.append_nil, trimEndP_times (by decide), hid2]
      split
      · next l t hr =>
        rw [if_neg]
        intro hall
        rw [List.all_eq_true] at hall
        have e2 := rsplit_right hr
        cases t with
        | nil =>
          rw [e] at e2
          have := congrArg List.getLast? e2
          simp at this
          exact hs this
        | cons d t =>
          have hd : d = '#' := by simpa using hall d (by simp)
          exact hh (by rw [e2, hd]; simp)
      · rfl
    rw [e1, trimEndP_times (by decide), show times 0 '#' = [] from rfl, List.append_nil, trimEndP_times (by decide), hid]
  · obtain ⟨i, rfl⟩ : ∃ i, j = i + 1 := ⟨j - 1, by omega⟩
    obtain ⟨l, rfl⟩ : ∃ l, k = l + 1 := ⟨k - 1, by omega⟩
    have e1 : trimEnd (line ++ times (i + 1) ' ' ++ times (l + 1) '#' ++ times m ' ') = (line ++ times i ' ') ++ ' ' :: times (l + 1) '#' := by
      unfold trimEnd
      rw [trimEndP_times (by decide)]
      rw [trimEnd_id (a := '#') (u := line ++ times (i + 1) ' ' ++ times l '#') (by rw [times_succ' l]; simp only [List.append_assoc]) (by decide)]
      rw [times_succ' i]
      simp
    unfold headingTrim
    rw [e1, rsplitOnce_append (by simp [List.mem_replicate])]
    simp only
    rw [if_pos (by simp), trimEndP_times (by decide), hid]

theorem heading_closed_label {line : Str} (hh : '#' ∉ line) {j k : Nat} (m : Nat) (hjk : 1 ≤ j ∨ k = 0) :
    headingLabel (line ++ times j ' ' ++ times k '#' ++ times m ' ') = .ok (line ++ times j ' ' ++ times k '#' ++ times m ' ') := by
  refine headingLabel_none (.inl fun hi => ?_)
  rw [List.append_assoc] at hi
  rcases two_infix_append hi with h | ⟨h1, h2⟩ | h
  · have := h.subset (by simp : '#' ∈ c!"{#")
    simp [hh, List.mem_replicate] at this
  · rcases hjk with hj | rfl
    · obtain ⟨u, hu⟩ := times_last hj ' ' line
      rw [hu] at h1
      simp at h1
    · have h2 : (times 0 '#' ++ times m ' ').head? = some '#' := h2
      cases m with
      | zero => cases h2
      | succ m => revert h2; simp [List.replicate_succ]
  · have := h.subset (by simp : '{' ∈ c!"{#")
    simp [List.mem_replicate] at this

/-- A heading line whose label and closing hashes leave `line`. -/
theorem lexHeading_trim {n : Nat} {sep : Char} {line0 line html x : Str} (h6 : n ≤ 6) (hsep : sep = ' ' ∨ sep = '\t') (hn : '\n' ∉ line0)
    (hr : AtEol rest) (hl : headingLabel line0 = .ok line0) (hne : ∃ c ∈ line0, c ≠ '#')
    (ht : trimEndP (fun c => c == ' ' || c == '\t') (headingTrim line0) = line) (hrender : r.render ['#'] line = .ok html)
    (hx : headingPost html = x) :
    lexHeading r (times n '#' ++ sep :: (line0 ++ rest)) = .ok (.ok (.header n x none), rest) := by
  rw [lexHeading_line r n sep line0 rest h6 hsep hn hr, hl]
  simp only [Outcome.ok_bind]
  rw [if_neg, ht, hrender]
  · simp only [Outcome.ok_bind]
    rw [hx]
  · intro hall
    rw [List.all_eq_true] at hall
    obtain ⟨c, hc, hne⟩ := hne
    exact hne (by simpa using hall c hc)

theorem LexTo.header {n : Nat} {s x : Str} (h1 : 1 ≤ n)
    (e : lexHeading r (times n '#' ++ s) = .ok (.ok (.header n x none), rest)) (h : LexTo (stop := stop) r [] rest ts) :
    LexTo (stop := stop) r [] (times n '#' ++ s) (.header n x none :: ts) := by
  refine .cons (fun last => ?_) h
  obtain ⟨k, rfl⟩ : ∃ k, n = k + 1 := ⟨n - 1, by omega⟩
  rw [times_succ_append] at e ⊢
  rw [nextToken_hash rfl, e]
  rfl

theorem finish_header (n : Nat) (x : Str) : finish (clean (elem ('h' :: dec n) x ++ c!"\n")) = elem ('h' :: dec n) x ++ c!"\n" :=
  finish_clean (List.suffix_append ..)

/-- A heading by itself. -/
theorem render_header {n : Nat} {s x : Str} (h1 : 1 ≤ n) (e : lexHeading self (times n '#' ++ s) = .ok (.ok (.header n x none), [])) :
    render (times n '#' ++ s) = .ok (elem ('h' :: dec n) x ++ c!"\n") := by
  have hp := parseTok_header_clean self n x []
  rw [List.nil_append] at hp
  rw [render_of (LexTo.header h1 e LexTo.nil) (parseToks_one hp), finish_header]

/-! ### A heading whose text does not render to a paragraph is shown empty -/

theorem headingPost_open {h : Str} (hp : ¬ c!"<p>" <+: h) : headingPost h = [] := by
  unfold headingPost
  cases e : stripPrefix c!"<p>" h with
  | none => rfl
  | some t =>
    refine absurd ?_ hp
    unfold stripPrefix at e
    split at e
    · next hs => exact startsWith_iff.mp hs
    · cases e

theorem headingPost_close {h : Str} (hp : ¬ c!"</p>\n" <:+ h) : headingPost h = [] := by
  unfold headingPost
  cases e : stripPrefix c!"<p>" h with
  | none => rfl
  | some t =>
    have ht : ¬ c!"</p>\n" <:+ t := by
      intro hs
      refine hp (hs.trans ?_)
      unfold stripPrefix at e
      split at e
      · injection e with e; rw [← e]; exact List.drop_suffix _ _
      · cases e
    rw [Option.getD_some]
    cases e2 : stripSuffix c!"</p>\n" t with
    | none => rfl
    | some u =>
      refine absurd ?_ ht
      unfold stripSuffix at e2
      split at e2
      · next hs => simpa [endsWith] using hs
      · cases e2

/-! ### Hashes inside a heading -/

theorem LexTo.ignoredHashes : ∀ n : Nat, LexTo (stop := stop) r ['#'] rest ts →
    LexTo (stop := stop) r ['#'] (times n '#' ++ rest) ((times n '#').map (fun c => Token.plaintext [c]) ++ ts)
  | 0, h => h
  | n + 1, h => by
    rw [times_succ_append, show times (n + 1) '#' = '#' :: times n '#' from rfl, List.map_cons, List.cons_append]
    refine .cons (fun last => ?_) (LexTo.ignoredHashes n h)
    unfold nextToken lexDispatch
    simp [resToken]

theorem adds_hashes : ∀ n : Nat, Adds ((times n '#').map (fun c => Token.plaintext [c])) (times n '#')
  | 0 => fun r h c => by simp [parseToks]
  | n + 1 => fun r h c => by
    have hs := shows_plain (shown_single (c := '#') (by decide))
    rw [escape_single (by decide)] at hs
    have := parseToks_two (hs.adds r h c) (adds_hashes n r _ c)
    simpa [List.replicate_succ] using this

theorem renderIgnore_hashes {is js : List Inline} {k : Nat} (hi : InlineGood (some '#') is) (hj : InlineGood none js) (hk : 1 ≤ k)
    (hv : ∃ i, is.head? = some i ∧ i.Visible) :
    renderIgnore ['#'] (inlineSrc is ++ times k '#' ++ inlineSrc js) =
      .ok (c!"<p>" ++ (inlineHtml is ++ times k '#' ++ inlineHtml js) ++ c!"</p>\n") := by
  obtain ⟨t1, hl1, _, ho1⟩ := inlines_sem hi
  obtain ⟨t2, hl2, ha2, _⟩ := inlines_sem hj
  have l2 := hl2 self ['#'] [] [] hj LexTo.nil
  rw [List.append_nil, List.append_nil] at l2
  have l1 := hl1 self ['#'] (times k '#' ++ inlineSrc js) _ (by
    obtain ⟨u, hu⟩ := times_head (c := '#') hk (inlineSrc js)
    rw [hu]; exact hi) (LexTo.ignoredHashes k l2)
  have hp := parseToks_two ((ho1 hv).clean self []) (parseToks_two (adds_hashes k self _ false) (ha2 self _ false))
  rw [List.append_assoc]
  rw [renderIgnore_of l1 hp, finish_inP]
  simp

end Smd.Gfm
