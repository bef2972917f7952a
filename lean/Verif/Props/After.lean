import Verif.Lemmas.After
import Verif.Props.Entries
import Verif.Props.Forms

/-!
Indented lines after lists and quotes (C135), and what the asterisk as list marker does not do (C76, C103, C136).
-/

namespace Smd.Gfm
open Smd.Rs Smd.Spec

/-- The last line of code. -/
private theorem last_code {p t : Str} (h : CodeLine (p, t)) : LexTo self [] (p ++ t) [.code t] := by
  obtain ⟨h1, h2, h3, h4, h5, h6⟩ := h
  have hu := untilTail_none (p := c!"\n") (s := t) (by simp) (fun h => h3 (infix_single h))
  have := LexTo.indented (r := self) (ig := []) (ts := []) h1 h4 h5 (fun e => h3 (List.mem_of_mem_head? e)) (by rw [hu]; exact h6)
    (by rw [hu]; exact LexTo.nil)
  rwa [hu] at this

/-! ### C76, C103 Further lines of a list entry, with an asterisk -/

/-- **C76, negated** With an asterisk as marker, a paragraph indented by a tab is not in the entry. -/
theorem C76_refuted : render c!"* a\n\n\tb" = .ok c!"<ul>\n<li>\n<p>a</p>\n</li>\n</ul>\n<p>b</p>\n" := by
  decide +kernel

/-- It never is: the list ends before it, and its markup is not interpreted. -/
theorem C76_refuted_always (is : List Inline) (t : Str) (hg : InlineGood none is) (hn : '\n' ∉ inlineSrc is)
    (hv : ∃ i, is.head? = some i ∧ i.Visible) (ht : CodeLine (c!"\t", t)) :
    render (c!"* " ++ inlineSrc is ++ c!"\n\n\t" ++ t) =
      .ok (elem c!"ul" (c!"\n" ++ elem c!"li" (c!"\n" ++ elem c!"p" (inlineHtml is) ++ c!"\n") ++ c!"\n") ++ c!"\n" ++
        elem c!"p" (escape t) ++ c!"\n") := by
  have hl := LexTo.star (n := 2) hn (.inl (by omega)) (by simp) (last_code ht)
  obtain ⟨⟨a, u, e, ha⟩, _⟩ := head_ends hg hv
  have h1 := parseTok_bullet (b := false) (c := '*') self [] (by rw [e]; simp; rintro rfl; revert ha; decide)
    (by rw [e]; simp; rintro rfl; revert ha; decide) (renderIgnore_inlines [] hg hv) (para_noPre hg)
  have h2 := parseToks_cons h1 (parseToks_two (parseToks_gaps_ul self 1 _)
    (parseToks_one (parseTok_code_list self (l := .bullets []) (by intro i hi; cases hi) t _)))
  have e1 : c!"* " ++ inlineSrc is ++ c!"\n\n\t" ++ t = '*' :: ' ' :: inlineSrc is ++ (times 2 '\n' ++ (c!"\t" ++ t)) := by
    simp [List.replicate]
  rw [e1, render_of hl h2, finish_inP]
  simp [elem, ulOpen, Ending.close]

example : render c!"* see *this*\n\n\tand *that*" =
    .ok c!"<ul>\n<li>\n<p>see<em>this</em></p>\n</li>\n</ul>\n<p>and *that*</p>\n" :=
  C76_refuted_always [.word c!"see", .space 1, .em '*' c!"this"] c!"and *that*"
    ⟨word_check (by decide), ⟨by decide, by decide, by decide, by decide⟩, ⟨.inl rfl, ⟨_, _, rfl, by decide⟩, by decide, by decide⟩, trivial⟩
    (by decide) ⟨_, rfl, trivial⟩ ⟨.inl rfl, by decide, by decide, by decide, by decide, by decide⟩

/-- **C103, negated** With an asterisk as marker a further line ends the list, and the list does not go on after it. -/
theorem C103_refuted : render c!"* a\n\n\tb\n* c" = .ok c!"<ul>\n<li>\n<p>a</p>\n</li>\n</ul>\n<p>b\n<ul>\n<li>\n<p>c</p>\n</li>\n</p>\n</ul>\n" := by
  decide +kernel

/-! ### C135 Indented code after any block -/

/-- **C135, negated** After a list, an indented line is a paragraph. -/
theorem C135_refuted : render c!"- a\n\n    b" = .ok c!"<ul>\n<li>\n<p>a</p>\n</li>\n</ul>\n<p>b</p>\n" := by
  decide +kernel

/-- It always is, after any list and a blank line. -/
theorem C135_refuted_lists (l : Ending) (p t : Str) (hg : l.Good fun s x => render s = .ok x) (hs : l.Spaced) (ha : l.Apart)
    (ht : CodeLine (p, t)) (hp : p ≠ c!"\t") :
    render (l.src ++ (p ++ t)) = .ok (l.opened ++ l.close ++ (elem c!"p" (escape t) ++ c!"\n")) := by
  obtain ⟨toks, h1, h2⟩ := lists_behind hg hs ha
  have hhead : (p ++ t).head? = some ' ' := by
    rcases ht.indent with e | e | e
    · exact absurd e hp
    · simp only at e; rw [e]; rfl
    · simp only at e; rw [e]; rfl
  have hl := h1 _ _ (by rw [hhead]; decide) (by rw [hhead]; decide) (last_code ht)
  rw [render_of hl (parseToks_two (h2 []) (parseToks_one (parseTok_code_list self hs t _))), finish_inP]
  simp [elem]

example : render c!"1. a\n2. b\n\n    c < d" = .ok c!"<ol>\n<li>\na</li>\n<li>\nb</li>\n</ol>\n<p>c &lt; d</p>\n" :=
  C135_refuted_lists (.ordered [('1', c!"a", 1), ('2', c!"b", 2)]) c!"    " c!"c < d" ⟨by decide, by decide, by decide⟩
    (by show ∀ i ∈ _, _; decide) (by show ∀ i ∈ _, _; decide) (codeLine_check (by decide)) (by decide)

/-- After a quote it is code, but the quote is closed inside it. -/
theorem C135_refuted_quotes (lines : List (QuoteLine × Str)) (ls : List (Str × Str)) (p t : Str)
    (hg : (Ending.quotes lines).Good fun s x => render s = .ok x) (hq : ∀ l ∈ lines, 1 ≤ l.1.ends) (hl : ∀ l ∈ ls, CodeLine l)
    (ht : CodeLine (p, t)) :
    render ((Ending.quotes lines).src ++ (ls.flatMap (fun l => l.1 ++ l.2 ++ c!"\n") ++ (p ++ t))) =
      .ok (quoteHtml 0 lines ++ c!"<pre><code>" ++ (ls.flatMap fun l => escape l.2 ++ c!"\n") ++ escape t ++
        copies (quoteEnd 0 lines) c!"</blockquote>\n" ++ c!"</code></pre>") := by
  obtain ⟨hne, hgap, hok⟩ := hg
  obtain ⟨toks, h1, h2⟩ := quotes_sem (r := self) (stop := []) lines 0 hok hgap
  have more : ∀ (ys : List Str) (h : Str) (q : Nat), parseToks self (ys.map Token.code) { html := h, quoteLevel := q, inCode := true } =
      .ok { html := h ++ ys.flatMap escape, quoteLevel := q, inCode := true } := by
    intro ys
    induction ys with
    | nil => intro h q; simp [parseToks]
    | cons y ys ih =>
      intro h q
      have hy : parseTok self (.code y) { html := h, quoteLevel := q, inCode := true } =
          .ok { html := h ++ escape y, quoteLevel := q, inCode := true } := by
        simp [parseTok, step1, step2, isBlankPlain, isTab, staysInList, staysInTask, opensPara, closesPara, staysInQuote, isCode,
          PState.push, sanitize_eq_escape]
      rw [List.map_cons, parseToks_cons hy (ih _ q)]
      simp
  have hlex := LexTo.codeLines hl (last_code ht)
  have hnl : (ls.flatMap (fun l => l.1 ++ l.2 ++ c!"\n") ++ (p ++ t)).head? ≠ some '\n' := by
    have hi : ∀ (p : Str) (s : Str), IsIndent p → (p ++ s).head? ≠ some '\n' := by
      rintro p s (rfl | rfl | rfl) <;> simp
    cases ls with
    | nil => exact hi p t ht.indent
    | cons l ls =>
      rw [List.flatMap_cons]
      simp only [List.append_assoc]
      exact hi _ _ (hl l (by simp)).indent
  have hq1 : 1 ≤ quoteEnd 0 lines := by
    rcases List.eq_nil_or_concat lines with rfl | ⟨a, x, rfl⟩
    · exact absurd rfl hne
    · have := (hok x (by simp)).1.level.1
      simpa [quoteEnd] using this
  obtain ⟨ys, y, hys, e⟩ : ∃ ys y, ls.map (fun l => Token.code (l.2 ++ c!"\n")) ++ [.code t] = Token.code y :: ys.map Token.code ∧
      (y :: ys).flatMap escape = (ls.flatMap fun l => escape l.2 ++ c!"\n") ++ escape t := by
    cases ls with
    | nil => exact ⟨[], t, rfl, by simp⟩
    | cons l ls =>
      refine ⟨ls.map (fun l => l.2 ++ c!"\n") ++ [t], l.2 ++ c!"\n", by simp, ?_⟩
      simp [List.flatMap_map, escape_append, show escape c!"\n" = c!"\n" from rfl]
  have hp := parseToks_two (h2 []) (parseToks_cons (parseTok_code_inQ self y _ _) (more ys _ _))
  have hl2 := h1 [] _ _ hnl (.inr hq) hlex
  rw [hys] at hl2
  have hfin : ∀ (x : Str) (q : Nat), 1 ≤ q → finish { html := x, quoteLevel := q, inCode := true } =
      x ++ copies q c!"</blockquote>\n" ++ c!"</code></pre>" := by
    intro x q hq
    have h3 := finish_inQ x q (.inr hq)
    have h4 : finish { html := x, quoteLevel := q, inCode := true } = endNl (finish (inQ x q)) ++ c!"</code></pre>" := by
      simp [finish]
    rw [h4, h3]
    obtain ⟨m, rfl⟩ : ∃ m, q = m + 1 := ⟨q - 1, by omega⟩
    simp [copies, List.replicate_succ', endNl]
  have ee : (lines.flatMap fun l => l.1.src) = (Ending.quotes lines).src := rfl
  rw [← ee, render_of hl2 hp, hfin _ _ hq1]
  simp only [List.flatMap_cons] at e
  simp [← e]

example : render c!"> a\n\n    b\n\tc" = .ok c!"<blockquote>\n<p>a</p>\n<pre><code>b\nc</blockquote>\n</code></pre>" :=
  C135_refuted_quotes [(⟨1, 1, c!"a", 2⟩, c!"<p>a</p>\n")] [(c!"    ", c!"b")] c!"\t" c!"c"
    ⟨by decide, by decide, fun l hl => by
      rw [List.mem_singleton] at hl
      subst hl
      exact ⟨⟨by decide, by decide, by decide, by decide⟩, c!"<p>a</p>\n", by decide +kernel, by decide⟩⟩
    (by decide) (fun l hl => by rw [List.mem_singleton] at hl; subst hl; exact codeLine_check (by decide)) (codeLine_check (by decide))

/-- **C135, the part that holds** Indented lines are code after blocks of the other kinds. -/
theorem C135_partial (bs : List (Block × Nat)) (ls : List (Str × Str)) (p t : Str) (hg : DocGood (fun s x => render s = .ok x) bs)
    (hgap : ∀ b, bs.getLast? = some b → (if b.1.isPara then 2 else 1) ≤ b.2) (hl : ∀ l ∈ ls, CodeLine l) (ht : CodeLine (p, t)) :
    render (docSrc bs ++ (ls.flatMap (fun l => l.1 ++ l.2 ++ c!"\n") ++ (p ++ t))) =
      .ok (docHtml bs ++ elem c!"pre" (elem c!"code" (endLine ((ls.flatMap fun l => escape l.2 ++ c!"\n") ++ escape t)))) := by
  by_cases hb : bs = []
  · subst hb
    simpa [docSrc, docHtml] using C73_partial_last ls p t hl ht
  have hlex := LexTo.codeLines hl (last_code ht)
  have hi : ∀ (p : Str) (s : Str), IsIndent p → (p ++ s).head? ≠ some '\n' ∧ (p ++ s).head? ≠ some '|' ∧ p ++ s ≠ [] := by
    rintro p s (rfl | rfl | rfl) <;> simp
  obtain ⟨hnl, hbar, hne⟩ : (ls.flatMap (fun l => l.1 ++ l.2 ++ c!"\n") ++ (p ++ t)).head? ≠ some '\n' ∧
      (ls.flatMap (fun l => l.1 ++ l.2 ++ c!"\n") ++ (p ++ t)).head? ≠ some '|' ∧
      ls.flatMap (fun l => l.1 ++ l.2 ++ c!"\n") ++ (p ++ t) ≠ [] := by
    cases ls with
    | nil => exact hi p t ht.indent
    | cons l ls =>
      rw [List.flatMap_cons]
      simp only [List.append_assoc]
      exact hi _ _ (hl l (by simp)).indent
  obtain ⟨toks, h1, h2⟩ := blocks_sem hnl hbar hlex bs hg hb (.inr hgap)
  have more : ∀ (ys : List Str) (h : Str), parseToks self (ys.map Token.code) { html := h, inCode := true } =
      .ok { html := h ++ ys.flatMap escape, inCode := true } := by
    intro ys
    induction ys with
    | nil => intro h; simp [parseToks]
    | cons y ys ih =>
      intro h
      rw [List.map_cons, parseToks_cons (parseTok_code_more self y h) (ih _)]
      simp
  obtain ⟨ys, y, hys, e⟩ : ∃ ys y, ls.map (fun l => Token.code (l.2 ++ c!"\n")) ++ [.code t] = Token.code y :: ys.map Token.code ∧
      (y :: ys).flatMap escape = (ls.flatMap fun l => escape l.2 ++ c!"\n") ++ escape t := by
    cases ls with
    | nil => exact ⟨[], t, rfl, by simp⟩
    | cons l ls =>
      refine ⟨ls.map (fun l => l.2 ++ c!"\n") ++ [t], l.2 ++ c!"\n", by simp, ?_⟩
      simp [List.flatMap_map, escape_append, show escape c!"\n" = c!"\n" from rfl]
  rw [hys] at h1
  have hc := (h2 (clean []) [] (.inl rfl)).resolve_right (fun h => hne h.1)
  have hp := parseToks_two hc (parseToks_cons (parseTok_code_clean self y _) (more ys _))
  have hf := finish_code (docHtml bs) (escape y ++ ys.flatMap escape)
  rw [List.nil_append, List.append_assoc] at hp
  rw [render_of h1 hp, hf, ← e]
  simp [elem]

example : render c!"# a\n\nb\n\n    c\n\td" = .ok c!"<h1>a</h1>\n<p>b</p>\n<pre><code>c\nd\n</code></pre>" :=
  C135_partial [(.heading 1 [.word c!"a"], 2), (.para [.word c!"b"], 2)] [(c!"    ", c!"c")] c!"\t" c!"d"
    ⟨⟨by decide, by decide, ⟨word_check (by decide), trivial⟩, by decide, by decide, ⟨_, rfl, trivial⟩, ⟨_, rfl, trivial⟩⟩, by decide,
      ⟨⟨word_check (by decide), trivial⟩, ⟨_, rfl, trivial⟩⟩⟩
    (by simp [Block.isPara])
    (fun l hl => by rw [List.mem_singleton] at hl; subst hl; exact codeLine_check (by decide)) (codeLine_check (by decide))

/-! ### C136 Task lists with any marker -/

/-- **C136, negated** After an asterisk a box is text. -/
theorem C136_refuted : render c!"* [x] a" = .ok c!"<ul>\n<li>\n<p>&lbrack;x&rbrack;a</p>\n</li>\n</ul>\n" := by
  decide +kernel

/-- It always is. -/
theorem C136_refuted_always (x : Char) (is : List Inline) (hx : x ∈ c!" xX") (hg : InlineGood none (.brackets [x] :: .space 1 :: is))
    (hn : '\n' ∉ inlineSrc is) :
    render (c!"* [" ++ x :: c!"] " ++ inlineSrc is) =
      .ok (elem c!"ul" (c!"\n" ++ elem c!"li" (c!"\n" ++ elem c!"p" (escape ['[', x, ']'] ++ inlineHtml is) ++ c!"\n") ++ c!"\n") ++ c!"\n") := by
  have e : inlineSrc (.brackets [x] :: .space 1 :: is) = '[' :: x :: ']' :: ' ' :: inlineSrc is := by
    simp [inlineSrc, Inline.src]
  have hn' : '\n' ∉ inlineSrc (.brackets [x] :: .space 1 :: is) := by
    rw [e]
    rcases (by simpa using hx : x = ' ' ∨ x = 'x' ∨ x = 'X') with rfl | rfl | rfl <;> simp [hn]
  have hv : ∃ i, (Inline.brackets [x] :: .space 1 :: is).head? = some i ∧ i.Visible := ⟨_, rfl, trivial⟩
  have hl := LexTo.star (r := self) (ig := []) (n := 0) (rest := []) (ts := []) hn' (.inr rfl) (by simp) LexTo.nil
  have h1 := parseTok_bullet (b := false) (c := '*') self [] (by rw [e]; simp) (by rw [e]; simp) (renderIgnore_inlines [] hg hv) (para_noPre hg)
  rw [e] at hl h1
  have := render_of (by simpa [gapToks] using hl) (parseToks_one h1)
  rw [finish_ul] at this
  simpa [elem, ulOpen, inlineHtml, Inline.html] using this

example : render c!"* [ ] buy *milk*" = .ok c!"<ul>\n<li>\n<p>&lbrack; &rbrack;buy<em>milk</em></p>\n</li>\n</ul>\n" :=
  C136_refuted_always ' ' [.word c!"buy", .space 1, .em '*' c!"milk"] (by decide)
    ⟨⟨by decide, by decide, by decide, by decide, by decide⟩, ⟨by decide, by decide, by decide, by decide⟩, word_check (by decide),
      ⟨by decide, by decide, by decide, by decide⟩, ⟨.inl rfl, ⟨_, _, rfl, by decide⟩, by decide, by decide⟩, trivial⟩ (by decide)

/-- **C136, the part that holds** A line with a hyphen or a plus sign and a box is a task, as in C30. -/
theorem C136_partial (c x : Char) (t : Str) (hc : c = '-' ∨ c = '+') (hx : x ∈ c!" xX") (ht : '\n' ∉ t) :
    render (c :: ' ' :: '[' :: x :: ']' :: ' ' :: t) =
      .ok (c!"<ul class=\"contains-task-list\">" ++ taskHtml (decide (x ≠ ' ')) t ++ c!"</ul>\n") := by
  have := render_doc (d := { before := 0, blocks := [], ending := .tasks [(c, x, t, 0)] })
    ⟨trivial, ⟨by simp, by simp, by simpa using ⟨hc, by simpa using hx, ht⟩⟩, .inr (by simp)⟩
  simpa [Doc.src, Doc.html, Ending.src, Ending.html, docSrc, docHtml] using this

example : render c!"+ [X] a&b" = .ok c!"<ul class=\"contains-task-list\"><li class=\"task-list-item\"><input type=\"checkbox\" class=\"task-list-item-checkbox\" checked=\"\">a&amp;b</li></ul>\n" :=
  C136_partial '+' 'X' c!"a&b" (.inr rfl) (by decide) (by decide)

end Smd.Gfm
