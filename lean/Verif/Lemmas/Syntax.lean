import Verif.Lemmas.Windows
import Verif.Lemmas.Corners
import Verif.Lemmas.Nested
import Verif.Lemmas.Quoted
import Verif.Lemmas.Exact

/-! Forms of Markdown that are not known to the lexer. -/

namespace Smd.Gfm
open Smd.Rs Smd.Spec

variable {r : Rec} {ig : List Char} {rest : Str} {ts : List Token} {stop : Str}

/-- A piece of running text between others. -/
theorem render_piece {is js : List Inline} {i : Inline} (hi : InlineGood (i.src ++ inlineSrc js).head? is) (hg : i.Good (inlineSrc js).head?)
    (hj : InlineGood none js) (hv : is = [] ∨ ∃ i, is.head? = some i ∧ i.Visible) (hvi : i.Visible) :
    render (inlineSrc is ++ i.src ++ inlineSrc js) = .ok (elem c!"p" (inlineHtml is ++ i.html ++ inlineHtml js) ++ c!"\n") := by
  have h2 : InlineGood none (i :: js) := ⟨by simpa using hg, hj⟩
  have h3 : InlineGood none (is ++ i :: js) := inlineGood_append h2 (by simpa [inlineSrc] using hi)
  have := render_inlines h3 (by
    rcases hv with rfl | ⟨k, hk, hv⟩
    · exact ⟨i, rfl, hvi⟩
    · refine ⟨k, ?_, hv⟩
      rw [List.head?_append, hk]
      rfl)
  simpa [inlineSrc, inlineHtml] using this

/-! ### Lines with bars -/

/-- Lines of running text, a bar and anything. -/
theorem bars_sem : ∀ {rows : List (List Inline × Str)}, (∀ x ∈ rows, InlineGood (some '|') x.1 ∧ (∃ i, x.1.head? = some i ∧ i.Visible) ∧
      (inlineSrc x.1).head? ≠ some '|' ∧ '\n' ∉ x.2 ∧ '[' ∉ x.2) →
    ∃ toks, LexTo self [] (rows.flatMap fun x => inlineSrc x.1 ++ '|' :: x.2 ++ c!"\n") toks ∧
      ∀ h, parseToks self toks (inP h) = .ok (inP (h ++ rows.flatMap fun x => inlineHtml x.1 ++ escape ('|' :: x.2)))
  | [], _ => ⟨[], LexTo.nil, fun h => by simp [parseToks]⟩
  | x :: rows, hg => by
    obtain ⟨toks, hl, hp⟩ := bars_sem (rows := rows) fun y hy => hg y (List.mem_cons_of_mem x hy)
    obtain ⟨h1, h2, h3, h4, h5⟩ := hg x (by simp)
    obtain ⟨t1, l1, a1, _⟩ := inlines_sem h1
    have hh : (rows.flatMap fun x => inlineSrc x.1 ++ '|' :: x.2 ++ c!"\n").head? ≠ some '|' := by
      cases rows with
      | nil => simp
      | cons y rows =>
        obtain ⟨g1, g2, g3, _⟩ := hg y (by simp)
        obtain ⟨⟨a, u, e, _⟩, _⟩ := head_ends g1 g2
        rw [e] at g3
        simpa [e] using g3
    have ht : ShowsTok (.plaintext ('|' :: x.2 ++ c!"\n")) (escape ('|' :: x.2)) := by
      refine shows_of_plainOut ⟨'|', by simp, by decide⟩ (plainOut_of_trim (plainTrim_blank (s := '|' :: x.2) (w := []) (by simp) (by simp) ?_)
        (.inl (by simpa using h5)) (by simp))
      rintro ⟨u, hu⟩
      have : '\n' ∈ '|' :: x.2 := by rw [← hu]; simp
      simp at this
      exact h4 this
    refine ⟨t1 ++ .plaintext ('|' :: x.2 ++ c!"\n") :: toks, ?_, fun h => ?_⟩
    · have := l1 self [] _ _ (by simpa using h1) (LexTo.cons (fun last => pipe_then (r := self) (ig := []) h4 hh last) hl)
      simpa using this
    · rw [parseToks_two (a1 self h false) (parseToks_cons (ht.1 self _ false) (hp _))]
      simp

/-- No such line starts with a bar. -/
theorem bars_head {rows : List (List Inline × Str)} (hg : ∀ x ∈ rows, InlineGood (some '|') x.1 ∧ (∃ i, x.1.head? = some i ∧ i.Visible) ∧
      (inlineSrc x.1).head? ≠ some '|' ∧ '\n' ∉ x.2 ∧ '[' ∉ x.2) :
    (rows.flatMap fun x => inlineSrc x.1 ++ '|' :: x.2 ++ c!"\n").head? ≠ some '|' := by
  cases rows with
  | nil => simp
  | cons y rows =>
    obtain ⟨g1, g2, g3, _⟩ := hg y (by simp)
    obtain ⟨⟨a, u, e, _⟩, _⟩ := head_ends g1 g2
    rw [e] at g3
    simpa [e] using g3

theorem shows_bar {t : Str} (h : '\n' ∉ t) (hb : '[' ∉ t) : ShowsTok (.plaintext ('|' :: t ++ c!"\n")) (escape ('|' :: t)) := by
  refine shows_of_plainOut ⟨'|', by simp, by decide⟩ (plainOut_of_trim (plainTrim_blank (s := '|' :: t) (w := []) (by simp) (by simp) ?_)
    (.inl (by simpa using hb)) (by simp))
  rintro ⟨u, hu⟩
  have : '\n' ∈ '|' :: t := by rw [← hu]; simp
  simp at this
  exact h this

/-- The same at the start of a document. -/
theorem bars_open {x : List Inline × Str} {rows : List (List Inline × Str)} (hg : ∀ y ∈ x :: rows, InlineGood (some '|') y.1 ∧
      (∃ i, y.1.head? = some i ∧ i.Visible) ∧ (inlineSrc y.1).head? ≠ some '|' ∧ '\n' ∉ y.2 ∧ '[' ∉ y.2) :
    ∃ toks, LexTo self [] ((x :: rows).flatMap fun x => inlineSrc x.1 ++ '|' :: x.2 ++ c!"\n") toks ∧
      ∀ h, parseToks self toks (clean h) = .ok (inP (h ++ c!"<p>" ++ (x :: rows).flatMap fun x => inlineHtml x.1 ++ escape ('|' :: x.2))) := by
  obtain ⟨toks, hl, hp⟩ := bars_sem fun y hy => hg y (List.mem_cons_of_mem x hy)
  obtain ⟨h1, h2, h3, h4, h5⟩ := hg x (by simp)
  have hh := bars_head fun y hy => hg y (List.mem_cons_of_mem x hy)
  obtain ⟨t1, l1, _, o1⟩ := inlines_sem h1
  refine ⟨t1 ++ .plaintext ('|' :: x.2 ++ c!"\n") :: toks, ?_, fun h => ?_⟩
  · have := l1 self [] _ _ (by simpa using h1) (LexTo.cons (fun last => pipe_then (r := self) (ig := []) h4 hh last) hl)
    simpa using this
  · rw [parseToks_two ((o1 h2).clean self h) (parseToks_cons ((shows_bar h4 h5).1 self _ false) (hp _))]
    simp

/-- As many bars as there are. -/
theorem countStr_count : ∀ s : Str, countStr c!"|" s = s.count '|'
  | [] => rfl
  | a :: s => by
    have ih := countStr_count s
    unfold countStr at ih ⊢
    rw [countGo, List.count_cons]
    by_cases h : a = '|'
    · subst h
      simp [List.isPrefixOf, ih]
    · have : ¬ '|' = a := fun e => h e.symm
      simp [List.isPrefixOf, ih, h, this]

/-- Lines that start with a bar but have different numbers of bars are text. -/
theorem lexPipes_text {l0 : Str} {ls : List Str} (hn : ∀ l ∈ l0 :: ls, '\n' ∉ l) (hc : ls.length < 2 ∨ ∃ l ∈ ls, l.count '|' ≠ l0.count '|') :
    lexPipes r ('|' :: (l0 ++ (ls.flatMap fun x => '\n' :: '|' :: x))) = .ok (.error ('|' :: (l0 ++ (ls.flatMap fun x => '\n' :: '|' :: x))), []) := by
  have hp := pipeLines_eq (rest := []) (n := 0) (.inr rfl) (.inr (by simp)) ls l0
    ('|' :: (l0 ++ ((ls.flatMap fun x => '\n' :: '|' :: x) ++ (times 0 '\n' ++ [])))).length (by
      have : ∀ l : List Str, l.length ≤ (l.flatMap fun x => '\n' :: '|' :: x).length := by
        intro l
        induction l with
        | nil => simp
        | cons a l ih => simp only [List.flatMap_cons, List.length_append, List.length_cons] at ih ⊢; omega
      have := this ls
      simp only [List.length_cons, List.length_append] at this ⊢
      omega) (hn l0 (by simp)) (fun x hx => hn x (by simp [hx]))
  simp only [List.replicate_zero, List.append_nil, times, Nat.zero_sub] at hp
  have hsl := slice_self_append ('|' :: (l0 ++ (ls.flatMap fun x => '\n' :: '|' :: x))) []
  rw [List.append_nil] at hsl
  unfold lexPipes
  simp only [hp, hsl]
  by_cases h3 : ls.length < 2
  · rw [if_pos (by simp; omega)]
  · rw [if_neg (by simp; omega)]
    obtain ⟨l, hl, hne⟩ := hc.resolve_left h3
    cases ls with
    | nil => simp at h3
    | cons l1 body =>
      simp only
      rw [if_pos]
      simp only [Bool.not_eq_true', List.all_eq_false]
      exact ⟨l, by simp [List.mem_cons.mp hl], by simpa [countStr_count] using hne⟩

theorem LexTo.bars {l0 : Str} {ls : List Str} (hn : ∀ l ∈ l0 :: ls, '\n' ∉ l) (hc : ls.length < 2 ∨ ∃ l ∈ ls, l.count '|' ≠ l0.count '|') :
    LexTo r ig ('|' :: (l0 ++ ls.flatMap fun x => '\n' :: '|' :: x)) [.plaintext ('|' :: (l0 ++ ls.flatMap fun x => '\n' :: '|' :: x))] := by
  refine LexTo.cons (s' := []) (fun last => ?_) LexTo.nil
  rw [nextToken_pipe, lexPipes_text (r := r) hn hc]
  rfl

theorem plainTrim_bars {l0 : Str} {ls : List Str} (hn : ∀ l ∈ l0 :: ls, '\n' ∉ l) :
    plainTrim ('|' :: (l0 ++ ls.flatMap fun x => '\n' :: '|' :: x)) = '|' :: (l0 ++ ls.flatMap fun x => '\n' :: '|' :: x) := by
  rcases List.eq_nil_or_concat ls with rfl | ⟨ls, l, rfl⟩
  · have h0 : '\n' ∉ '|' :: l0 := by simpa using hn l0 (by simp)
    have e : afterLast '\n' ('|' :: l0) = none := by unfold afterLast; rw [if_neg (by simpa using h0)]
    simp [plainTrim, e]
  · have := plainTrim_full (s := '|' :: (l0 ++ ls.flatMap fun x => '\n' :: '|' :: x)) (w := '|' :: l) ⟨'|', by simp, by decide⟩ (by simpa using hn l (by simp))
    simpa using this

/-! ### Empty headings -/

theorem LexTo.emptyHeading {n : Nat} (h1 : 1 ≤ n) (h6 : n ≤ 6) (h : LexTo (stop := stop) r [] ('\n' :: rest) ts) :
    LexTo (stop := stop) r [] (times n '#' ++ '\n' :: rest) (.header n [] none :: ts) := by
  refine LexTo.header h1 ?_ h
  have hs := run_split (· == '#') (s := times n '#') (rest := '\n' :: rest) (by intro x hx; rw [(List.mem_replicate.mp hx).2]; decide)
    (by intro c hc; simp at hc; subst hc; decide)
  unfold lexHeading
  simp only [hs, List.length_replicate]
  rw [if_neg (by omega)]
  simp only [headingSep]
  have e1 : ('\n' :: rest).takeWhile (· != '\n') = [] := by simp
  have e2 : ('\n' :: rest).dropWhile (· != '\n') = '\n' :: rest := by simp
  simp only [e1, e2, headingLabel_none (line := []) (.inr (by simp)), Outcome.ok_bind]
  simp

/-! ### Signs with spaces between them -/

/-- Signs with spaces between them are entries of lists in entries of lists. -/
theorem render_signs {c : Char} (hc : c = '-' ∨ c = '+') : ∀ k, render ((List.replicate k [c, ' ']).flatten ++ [c]) =
    .ok (copies (k + 1) c!"<ul>\n<li>\n" ++ c!"\n" ++ copies (k + 1) c!"</li>\n</ul>\n")
  | 0 => by
    have := render_tight (w := []) (a := []) (x := c!"\n") hc (by simp) (by simp) (by simp) (by simp) rfl (by decide +kernel)
    simpa [copies, show pad c!"\n" = c!"\n" from by decide] using this
  | k + 1 => by
    have ih := render_signs hc k
    have hd : ∀ w : Str, ((List.replicate k [c, ' ']).flatten ++ [c]).head? = some c := fun _ => by cases k <;> simp [List.replicate_succ]
    have hd := hd []
    have h := render_entry (c := c) (w := (List.replicate k [c, ' ']).flatten ++ [c]) (by rcases hc with h | h <;> simp [h]) (by
      rcases hc with rfl | rfl <;> simp [List.mem_flatten, List.mem_replicate]) (by rw [hd]; rcases hc with rfl | rfl <;> decide)
      (bulletText_arg (by rw [hd]; rcases hc with rfl | rfl <;> decide) (by rw [hd]; rcases hc with rfl | rfl <;> decide)) ih
    have hpad : ∀ (j : Nat) (s : Str), pad (copies j c!"<ul>\n<li>\n" ++ s) = copies j c!"<ul>\n<li>\n" ++ pad s := by
      intro j s
      induction j with
      | zero => simp [copies]
      | succ j ih =>
        have e : copies (j + 1) c!"<ul>\n<li>\n" ++ s = c!"<ul>\n<li>\n" ++ (copies j c!"<ul>\n<li>\n" ++ s) := by simp [copies, List.replicate_succ]
        rw [e, pad_open, ih]
        simp [copies, List.replicate_succ]
    have hpad2 : ∀ j : Nat, pad (copies j c!"</li>\n</ul>\n") = copies j c!"</li>\n</ul>\n" := by
      intro j
      induction j with
      | zero => rfl
      | succ j ih =>
        have e : copies (j + 1) c!"</li>\n</ul>\n" = c!"</li>\n</ul>\n" ++ copies j c!"</li>\n</ul>\n" := by simp [copies, List.replicate_succ]
        rw [e, pad_close, ih]
    rw [List.append_assoc (copies (k + 1) _), hpad, pad_text _ (by decide), hpad2] at h
    have e : (List.replicate (k + 1) [c, ' ']).flatten ++ [c] = c :: ' ' :: ((List.replicate k [c, ' ']).flatten ++ [c]) := by
      simp [List.replicate_succ]
    rw [e, h]
    have e2 : ∀ (x : Str), copies (k + 1) x ++ x = x ++ copies (k + 1) x := fun x => by
      have : ∀ j, copies j x ++ x = x ++ copies j x := fun j => by
        induction j with
        | zero => simp [copies]
        | succ j ih => simp only [copies, List.replicate_succ, List.flatten_cons, List.append_assoc] at ih ⊢; rw [ih]
      exact this _
    have e3 : ∀ x : Str, copies (k + 1 + 1) x = x ++ copies (k + 1) x := fun x => by simp [copies, List.replicate_succ]
    rw [e3, e3, ← e2 c!"</li>\n</ul>\n"]
    simp

/-! ### Lines of white space -/

theorem tab_line {w : Str} (hw : w = c!"\t" ∨ w = c!"\t\t" ∨ w = c!"  \t") (last : Option Token) :
    nextToken r ig last (w ++ '\n' :: rest) = .ok (some (.code ((if w = c!"\t\t" then c!"\t" else []) ++ c!"\n"), rest)) := by
  have e := untilTail_nl (t := []) (rest := rest) (by simp)
  simp only [List.nil_append] at e
  rcases hw with rfl | rfl | rfl <;>
    simp [nextToken, lexDispatch, lexTabsSpaces, lexTabsSpacesGo, e, resToken]

theorem parseTok_break_clean (r : Rec) (n : Nat) (h : Str) : parseTok r (breakTok n) (clean h) = .ok (clean h) := by
  unfold breakTok
  split
  · exact parseTok_blank r _ (trim_spaces n)
  · simp [parseTok, step1, step2, isBlankPlain, isTab, staysInList, staysInTask, opensPara, closesPara, staysInQuote, isCode]

theorem LexTo.blanks : ∀ {s : Str}, (∀ c ∈ s, isWs c = true ∧ c ∉ c!" \t\n") → LexTo r ig rest ts →
    LexTo r ig (s ++ rest) (s.map (fun c => Token.plaintext [c]) ++ ts)
  | [], _, h => h
  | c :: s, hs, h => by
    have ih := LexTo.blanks (s := s) (fun x hx => hs x (by simp [hx])) h
    refine LexTo.cons (fun last => ?_) ih
    have hc := hs c (by simp)
    have : ∀ x ∈ controlChars, x ∉ c!" \t\n" → isWs x = false := by decide
    refine nextToken_plain r ig last _ ?_
    intro hm
    exact absurd (this c hm hc.2) (by simp [hc.1])

/-! ### Images with titles -/

theorem LexTo.imageTitle {text target title after : Str} {u : ValidURL} (h1 : ']' ∉ text) (h2 : ')' ∉ target) (h3 : ' ' ∉ target)
    (h4 : ')' ∉ title) (hu : validateLink target = .ok u) (ha : '\n' ∉ after) (hr : LexTo r ig rest ts) :
    LexTo r ig (c!"![" ++ text ++ c!"](" ++ target ++ c!" " ++ title ++ c!")" ++ after ++ c!"\n" ++ rest) (.image u.content (some text) :: ts) := by
  refine LexTo.cons (s' := rest) (fun last => ?_) hr
  have e := lexLinks_title (after := after ++ '\n' :: rest) h1 h2 h3 h4 hu
  rw [(ne_split ha).2] at e
  have e' : c!"![" ++ text ++ c!"](" ++ target ++ c!" " ++ title ++ c!")" ++ after ++ c!"\n" ++ rest =
      '!' :: (c!"[" ++ text ++ c!"](" ++ target ++ c!" " ++ title ++ c!")" ++ (after ++ '\n' :: rest)) := by simp
  rw [e']
  have el : lexImages ('!' :: (c!"[" ++ text ++ c!"](" ++ target ++ c!" " ++ title ++ c!")" ++ (after ++ '\n' :: rest))) =
      (.ok (.image u.content (some text)), rest) := by
    unfold lexImages
    rw [if_neg (by simp), List.drop_one, List.tail_cons, e]
    rfl
  generalize c!"[" ++ text ++ c!"](" ++ target ++ c!" " ++ title ++ c!")" ++ (after ++ '\n' :: rest) = z at el
  unfold nextToken lexDispatch
  simp [el, resToken]

/-! ### A footnote behind an exclamation mark -/

theorem nextToken_bang_note {d : NoteDef} (h : d.Good) (he : d.ends ≤ 1) (last : Option Token) :
    nextToken r ig last ('!' :: d.src) = .ok (some (.plaintext c!"Non link token returned from lex_links", [])) := by
  have e := lexLinks_note (rest := []) h (.inr rfl) .nil
  rw [List.append_nil, List.append_nil, show d.ends - 1 = 0 by omega] at e
  have el : lexImages ('!' :: d.src) = (.error c!"Non link token returned from lex_links", []) := by
    unfold lexImages
    rw [if_neg (by simp), List.drop_one, List.tail_cons, e]
    rfl
  generalize d.src = z at el
  unfold nextToken lexDispatch
  simp [el, resToken]

end Smd.Gfm
