import Verif.Lemmas.Inside
import Verif.Lemmas.Headings
import Verif.Lemmas.Blocks
import Verif.Props.Contexts

/-! Closing hashes of headings: C211, and tabs in headings: C71. -/

namespace Smd.Gfm
open Smd.Rs Smd.Spec

/-- **C211, negated** With a tab in front of the closing hashes the text of the heading is lost. -/
theorem C211_refuted : render c!"# a\t#" = .ok c!"<h1></h1>\n" := by decide +kernel

/-- A tab in front of the last hashes is no space. -/
private theorem headingTrim_tab (t : Str) (k : Nat) : headingTrim (t ++ '\t' :: times (k + 1) '#') = t ++ '\t' :: times (k + 1) '#' := by
  have e0 : t ++ '\t' :: times (k + 1) '#' = (t ++ '\t' :: times k '#') ++ ['#'] := by simp [times, List.replicate_succ']
  have e : trimEnd (t ++ '\t' :: times (k + 1) '#') = t ++ '\t' :: times (k + 1) '#' := trimEnd_id e0 (by decide)
  unfold headingTrim
  rw [e]
  split
  · next l w hw =>
    rw [if_neg]
    intro hall
    have e2 := congrArg (fun x => (x.reverse.dropWhile (· == '#')).head?) (rsplit_right hw)
    have d : ∀ (y : Str) (c : Char) (x : Str), (∀ z ∈ y, z = '#') → c ≠ '#' → ((x ++ c :: y).reverse.dropWhile (· == '#')).head? = some c := by
      intro y c x hy hc
      rw [List.reverse_append, List.reverse_cons, List.append_assoc, List.dropWhile_append_of_pos (by simpa using hy)]
      simp [hc]
    have e3 := d (times (k + 1) '#') '\t' t (by simp [times]) (by decide)
    have e4 := d w ' ' l (by simpa using hall) (by decide)
    rw [e3, e4] at e2
    revert e2; decide
  · rfl

/-- What does not end as a paragraph does is dropped. -/
private theorem headingPost_lost (x : Str) : headingPost (x ++ c!"</pre>") = [] := by
  have : ∀ y : Str, y <:+ x ++ c!"</pre>" → stripSuffix c!"</p>\n" y = none := fun y hy => stripSuffix_none fun h => by
    have := h.trans hy
    obtain ⟨u, hu⟩ := this
    have := congrArg List.getLast? hu
    simp at this
  unfold headingPost
  cases h : stripPrefix c!"<p>" (x ++ c!"</pre>") with
  | none => rfl
  | some y =>
    have hy : y <:+ x ++ c!"</pre>" := by
      have := stripPrefix_some h
      exact ⟨_, this.symm⟩
    simp only [Option.getD_some, this y hy]
    rfl

/-- A heading with a tab and more in its text. -/
private theorem render_tab {n : Nat} {is : List Inline} {t : Str} (h1 : 1 ≤ n) (h6 : n ≤ 6) (hi : InlineGood (some '\t') is)
    (hv : ∃ i, is.head? = some i ∧ i.Visible) (hn : '\n' ∉ inlineSrc is) (ht : '\n' ∉ t) (t1 : t.head? ≠ some ' ') (t2 : t.head? ≠ some '\t')
    (hl : ¬ c!"{#" <:+: inlineSrc is ++ '\t' :: t ∨ '}' ∉ inlineSrc is ++ '\t' :: t) (htrim : headingTrim (inlineSrc is ++ '\t' :: t) = inlineSrc is ++ '\t' :: t)
    (hlast : ∃ u a, t = u ++ [a] ∧ isWs a = false) :
    render (times n '#' ++ ' ' :: (inlineSrc is ++ '\t' :: t)) = .ok (elem ('h' :: dec n) [] ++ c!"\n") := by
  have hr : renderIgnore ['#'] (inlineSrc is ++ '\t' :: t) =
      .ok ((c!"<p>" ++ inlineHtml is ++ c!"<pre><code>" ++ escape t ++ c!"</p>\n</code>") ++ c!"</pre>") := by
    have hu := untilTail_none (p := c!"\n") (s := t) (by simp) (fun h => ht (infix_single h))
    have hc : LexTo self ['#'] (c!"\t" ++ t) [.code t] := by
      have := LexTo.indented (r := self) (ig := ['#']) (ts := []) (t := t) (p := c!"\t") (show _ ∨ _ ∨ _ from .inl rfl) t1 t2
        (fun e => ht (List.mem_of_mem_head? e)) (fun e => by cases e) (by rw [hu]; exact LexTo.nil)
      rwa [hu] at this
    obtain ⟨ts, hl1, _, ho1⟩ := inlines_sem hi
    have := hl1 self ['#'] (c!"\t" ++ t) _ hi hc
    rw [show inlineSrc is ++ '\t' :: t = inlineSrc is ++ (c!"\t" ++ t) from rfl,
      renderIgnore_of this (parseToks_two ((ho1 hv).clean self []) (parseToks_one (parseTok_code_inP self _ _))), finish_code_inP]
    simp
  obtain ⟨u, a, rfl, ha⟩ := hlast
  have e := lexHeading_trim (r := self) (rest := []) h6 (.inl rfl) (by simpa using ⟨hn, by simpa using ht⟩) (.inl rfl) (headingLabel_none hl) ⟨'\t', by simp, by decide⟩
    (by
      rw [htrim]
      have a1 : a ≠ ' ' := by rintro rfl; revert ha; decide
      have a2 : a ≠ '\t' := by rintro rfl; revert ha; decide
      exact trimEnd_id (u := inlineSrc is ++ '\t' :: u) (a := a) (by simp) (by simp [a1, a2])) hr (headingPost_lost _)
  rw [List.append_nil] at e
  exact render_header h1 e

/-- So is every text in front of a tab and hashes. -/
theorem C211_refuted_always (n k : Nat) (is : List Inline) (h1 : 1 ≤ n) (h6 : n ≤ 6) (hk : 1 ≤ k) (hi : InlineGood (some '\t') is)
    (hv : ∃ i, is.head? = some i ∧ i.Visible) (hn : '\n' ∉ inlineSrc is) (hl : ¬ c!"{#" <:+: inlineSrc is ∨ '}' ∉ inlineSrc is) :
    render (times n '#' ++ ' ' :: (inlineSrc is ++ '\t' :: times k '#')) = .ok (elem ('h' :: dec n) [] ++ c!"\n") := by
  obtain ⟨k, rfl⟩ : ∃ m, k = m + 1 := ⟨k - 1, by omega⟩
  have hl2 : ¬ c!"{#" <:+: inlineSrc is ++ '\t' :: times (k + 1) '#' ∨ '}' ∉ inlineSrc is ++ '\t' :: times (k + 1) '#' := by
    rcases hl with hl | hl
    · refine .inl fun h => ?_
      rcases two_infix_append h with h | ⟨_, h⟩ | h
      · exact hl h
      · simp at h
      · have := h.subset (by simp : '{' ∈ c!"{#")
        simp [times] at this
    · exact .inr (by simp [times, hl])
  exact render_tab h1 h6 hi hv hn (by simp [times]) (by simp [times, List.replicate_succ]) (by simp [times, List.replicate_succ]) hl2 (headingTrim_tab _ _)
    ⟨times k '#', '#', by simp [times, List.replicate_succ'], by decide⟩

example : render c!"## Use *it*\t##" = .ok c!"<h2></h2>\n" :=
  C211_refuted_always 2 2 [.word c!"Use", .space 1, .em '*' c!"it"] (by decide) (by decide) (by decide)
    ⟨word_check (by decide), ⟨by decide, by decide, by decide, by decide⟩, ⟨.inl rfl, ⟨_, _, rfl, by decide⟩, by decide, by decide⟩, trivial⟩ ⟨_, rfl, trivial⟩
    (by decide) (.inr (by decide))

/-- **C71, negated** The whole text of a heading is lost if there is a tab inside it. -/
theorem C71_refuted_tab (n : Nat) (is : List Inline) (u : Str) (a : Char) (h1 : 1 ≤ n) (h6 : n ≤ 6) (hi : InlineGood (some '\t') is)
    (hv : ∃ i, is.head? = some i ∧ i.Visible) (hn : '\n' ∉ inlineSrc is ++ u ++ [a]) (hs : ∀ c, (u ++ [a]).head? = some c → isWs c = false)
    (ha : isWs a = false) (hh : a ≠ '#') (hl : '}' ∉ inlineSrc is ++ u ++ [a]) :
    render (times n '#' ++ ' ' :: (inlineSrc is ++ '\t' :: (u ++ [a]))) = .ok (elem ('h' :: dec n) [] ++ c!"\n") := by
  simp only [List.mem_append, not_or] at hn hl
  refine render_tab h1 h6 hi hv hn.1.1 (by simpa using ⟨hn.1.2, by simpa using hn.2⟩) (fun e => ?_) (fun e => ?_) (.inr ?_)
    (headingTrim_last (u := inlineSrc is ++ '\t' :: u) (by simp) ha hh) ⟨u, a, rfl, ha⟩
  · have := hs _ e; revert this; decide
  · have := hs _ e; revert this; decide
  · have h3 := hl.2
    simp only [List.mem_singleton] at h3
    simp [hl.1.1, hl.1.2, h3]

example : render c!"# Usage\tof *it*" = .ok c!"<h1></h1>\n" :=
  C71_refuted_tab 1 [.word c!"Usage"] c!"of *it" '*' (by decide) (by decide) ⟨word_check (by decide), trivial⟩ ⟨_, rfl, trivial⟩ (by decide) (by simp; decide)
    (by decide) (by decide) (by decide)

/-- The heading line with closing hashes. -/
private theorem lexHeading_closing {n k : Nat} {sep a : Char} {u gap ws rest : Str} (h6 : n ≤ 6) (hsep : sep = ' ' ∨ sep = '\t') (hn : '\n' ∉ u ++ [a])
    (ha : isWs a = false) (hh : a ≠ '#') (hg : ∀ c ∈ gap, c = ' ' ∨ c = '\t') (hw : ∀ c ∈ ws, c = ' ' ∨ c = '\t') (hr : AtEol rest) (hl : ¬ c!"{#" <:+: u ++ [a] ∨ '}' ∉ u ++ [a]) :
    lexHeading r (times n '#' ++ sep :: (u ++ [a] ++ (gap ++ c!" ") ++ times (k + 1) '#' ++ ws ++ rest)) =
      lexHeading r (times n '#' ++ sep :: (u ++ [a] ++ rest)) := by
  generalize ht : u ++ [a] = t at hn hl ⊢
  have hwn : ∀ c, c ≠ ' ' → c ≠ '\t' → c ∉ ws := fun c h1 h2 hc => by rcases hw c hc with h | h <;> contradiction
  have hgn : ∀ c, c ≠ ' ' → c ≠ '\t' → c ∉ gap := fun c h1 h2 hc => by rcases hg c hc with h | h <;> contradiction
  have hat : a ∈ t := by simp [← ht]
  have hl2 : ¬ c!"{#" <:+: t ++ (gap ++ c!" ") ++ times (k + 1) '#' ++ ws ∨ '}' ∉ t ++ (gap ++ c!" ") ++ times (k + 1) '#' ++ ws := by
    rcases hl with hl | hl
    · refine .inl fun hi => ?_
      rcases two_infix_append hi with h | ⟨h, h2⟩ | h
      · rcases two_infix_append h with h | ⟨h, _⟩ | h
        · rcases two_infix_append h with h | ⟨_, h⟩ | h
          · exact hl h
          · have := List.mem_of_mem_head? h
            simp [hgn '#' (by decide) (by decide)] at this
          · have := h.subset (by simp : '{' ∈ c!"{#")
            simp [hgn '{' (by decide) (by decide)] at this
        · have := List.mem_of_getLast? h
          rw [List.getLast?_append] at h
          simp at h
        · have := h.subset (by simp : '{' ∈ c!"{#")
          simp [times] at this
      · exact hwn '#' (by decide) (by decide) (List.mem_of_mem_head? h2)
      · exact hwn '#' (by decide) (by decide) (h.subset (by simp))
    · exact .inr (by simp [times, hl, hgn '}' (by decide) (by decide), hwn '}' (by decide) (by decide)])
  have e1 := lexHeading_line r n sep (t ++ (gap ++ c!" ") ++ times (k + 1) '#' ++ ws) rest h6 hsep
    (by simp [times, hn, hgn '\n' (by decide) (by decide), hwn '\n' (by decide) (by decide)]) hr
  have e2 := lexHeading_line r n sep t rest h6 hsep hn hr
  rw [headingLabel_none hl2] at e1
  rw [headingLabel_none hl] at e2
  have a1 : ¬ (t ++ (gap ++ c!" ") ++ times (k + 1) '#' ++ ws).all (· == '#') = true := by
    rw [List.all_eq_true]
    intro h
    exact hh (by simpa using h a (by simp [hat]))
  have a2 : ¬ t.all (· == '#') = true := by
    rw [List.all_eq_true]
    intro h
    exact hh (by simpa using h a hat)
  have b0 : trimEnd (t ++ (gap ++ c!" ") ++ times (k + 1) '#' ++ ws) = (t ++ gap) ++ ' ' :: times (k + 1) '#' := by
    have b1 : trimEnd (t ++ (gap ++ c!" ") ++ times (k + 1) '#' ++ ws) = trimEnd (t ++ (gap ++ c!" ") ++ times (k + 1) '#') :=
      trimEndP_blank (fun c hc => by rcases hw c hc with rfl | rfl <;> decide) _
    have b2 : t ++ (gap ++ c!" ") ++ times (k + 1) '#' = (t ++ gap ++ ' ' :: times k '#') ++ ['#'] := by
      simp [times, List.replicate_succ']
    have b3 : trimEnd (t ++ (gap ++ c!" ") ++ times (k + 1) '#') = t ++ (gap ++ c!" ") ++ times (k + 1) '#' := trimEnd_id b2 (by decide)
    rw [b1, b3, b2]
    simp [times, List.replicate_succ']
  have c1 : headingTrim (t ++ (gap ++ c!" ") ++ times (k + 1) '#' ++ ws) = t ++ gap := by
    unfold headingTrim
    rw [b0, rsplitOnce_append (by simp [times])]
    simp [times]
  have c2 : headingTrim t = t := headingTrim_last ht.symm ha hh
  have c3 : trimEndP (fun c => c == ' ' || c == '\t') (t ++ gap) = trimEndP (fun c => c == ' ' || c == '\t') t :=
    trimEndP_blank (fun c hc => by rcases hg c hc with rfl | rfl <;> decide) t
  simp only [Outcome.ok_bind] at e1 e2
  rw [if_neg a1, c1, c3] at e1
  rw [if_neg a2, c2] at e2
  show lexHeading r (List.replicate n '#' ++ sep :: (t ++ (gap ++ c!" ") ++ times (k + 1) '#' ++ ws ++ rest)) = lexHeading r (List.replicate n '#' ++ sep :: (t ++ rest))
  rw [e1, e2]

/-- **C211, the part that holds** Hashes at the end of a heading, after spaces and tabs of which the last is a space, change nothing in the whole document, however many they are and whatever spaces
and tabs follow them. -/
theorem C211_partial (n k : Nat) (sep a : Char) (u gap ws rest : Str) (h1 : 1 ≤ n) (h6 : n ≤ 6) (hs : sep = ' ' ∨ sep = '\t') (hn : '\n' ∉ u ++ [a])
    (ha : isWs a = false) (hh : a ≠ '#') (hl : ¬ c!"{#" <:+: u ++ [a] ∨ '}' ∉ u ++ [a]) (hk : 1 ≤ k)
    (hg : ∀ c ∈ gap, c = ' ' ∨ c = '\t') (hw : ∀ c ∈ ws, c = ' ' ∨ c = '\t')
    (hr : rest = [] ∨ rest.head? = some '\n') :
    render (times n '#' ++ sep :: (u ++ [a] ++ (gap ++ c!" ") ++ times k '#' ++ ws ++ rest)) = render (times n '#' ++ sep :: (u ++ [a] ++ rest)) := by
  refine render_first ?_
  have hr : AtEol rest := hr.imp_right fun h => by
    cases rest with
    | nil => simp at h
    | cons c u => exact ⟨u, by simp at h; rw [h]⟩
  obtain ⟨k, rfl⟩ : ∃ m, k = m + 1 := ⟨k - 1, by omega⟩
  have e := lexHeading_closing (r := self) (k := k) h6 hs hn ha hh hg hw hr hl
  obtain ⟨m, rfl⟩ : ∃ m, n = m + 1 := ⟨n - 1, by omega⟩
  rw [show times (m + 1) '#' = '#' :: times m '#' from rfl, List.cons_append, List.cons_append] at e ⊢
  rw [nextToken_hash rfl, nextToken_hash rfl, e]

example : render c!"## a *b*\t ### \t\n- c" = render c!"## a *b*\n- c" :=
  C211_partial 2 3 ' ' '*' c!"a *b" c!"\t" c!" \t" c!"\n- c" (by decide) (by decide) (.inl rfl) (by decide) (by decide) (by decide) (.inr (by decide))
    (by decide) (by decide) (by decide) (.inr rfl)

example : render c!"## a *b*\t ### \t\n- c" = .ok c!"<h2>a<em>b</em></h2>\n<ul>\n<li>\n<p>c</p>\n</li>\n</ul>\n" ∧ render c!"# C#" = .ok c!"<h1>C#</h1>\n" := by
  decide +kernel

end Smd.Gfm
