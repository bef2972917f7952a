import Verif.Lemmas.Documents
import Verif.Lemmas.Forms
import Verif.Lemmas.Edit

/-! Quotes, backticks and asterisks behind text, and white space at the end of headings. -/

namespace Smd.Gfm
open Smd.Rs Smd.Spec

variable {r : Rec} {ig : List Char} {rest : Str} {ts : List Token}

/-! ### Quotes behind text -/

/-- A quoted line ends the paragraph before it. -/
theorem parseTok_quote_inP (r : Rec) (n : Nat) (t h : Str) :
    parseTok r (.blockQuote n t) (inP h) = parseTok r (.blockQuote n t) (clean (h ++ c!"</p>")) := by
  simp [parseTok, step1, step2, quoteStep, isBlankPlain, isTab, staysInList, staysInTask, opensPara, closesPara, staysInQuote, isCode, PState.push]

/-- Quoted lines behind text, and something after them. -/
theorem quotes_inP : ∀ (lines : List (QuoteLine × Str)), lines ≠ [] →
    (∀ l ∈ lines, l.1.Good ∧ ∃ x, self.render [] (escape l.1.text) = .ok x ∧ l.2 = detab x) → (∀ l ∈ lines.dropLast, 1 ≤ l.1.ends) →
    ∃ toks, LexTo self [] (lines.flatMap fun l => l.1.src) toks ∧
      ∀ h, parseToks self toks (inP h) = .ok (inQ (h ++ c!"</p>" ++ quoteHtml 0 lines) (quoteEnd 0 lines))
  | [], hne, _, _ => absurd rfl hne
  | l :: ls, _, hok, hn => by
    obtain ⟨hg, x, hx, hl⟩ := hok l (by simp)
    obtain ⟨toks, h1, h2⟩ := quotes_sem (r := self) (stop := []) ls l.1.level (fun m hm => hok m (by simp [hm])) (by
      intro m hm
      refine hn m ?_
      cases ls with
      | nil => simp at hm
      | cons a b => simp [hm])
    refine ⟨.blockQuote (l.1.level % 256) (times l.1.spaces ' ' ++ l.1.text) :: (gapToks (l.1.ends - 1) ++ toks), ?_, ?_⟩
    · have h3 := h1 [] [] [] (by simp) (.inl rfl) LexTo.nil
      rw [List.append_nil, List.append_nil] at h3
      have hend : 1 ≤ l.1.ends ∨ (ls.flatMap fun l => l.1.src) = [] := by
        cases ls with
        | nil => exact .inr rfl
        | cons a b => exact .inl (hn l (by simp))
      have hnl : (ls.flatMap fun l => l.1.src).head? ≠ some '\n' := by
        cases ls with
        | nil => simp
        | cons a b =>
          rw [List.flatMap_cons, quoteLine_head (hok a (by simp)).1]
          decide
      have := LexTo.quote hg.level.1 hg.spaces hg.oneLine hend hnl h3
      rw [List.flatMap_cons, QuoteLine.src]
      simpa using this
    · intro h
      have hlev : l.1.level % 256 = l.1.level := Nat.mod_eq_of_lt (by have := hg.level.2; omega)
      rw [hlev]
      refine parseToks_cons ((parseTok_quote_inP self _ _ h).trans (parseTok_quote (q := 0) _ hg.spaces hg.start hx)) ?_
      refine parseToks_two (parseToks_gaps_inQ self _ _ _) ?_
      rw [h2, quoteEnd_cons]
      simp [quoteHtml, hl]

theorem inlineGood_append {next : Option Char} {js : List Inline} (hj : InlineGood next js) :
    ∀ {is : List Inline}, InlineGood ((inlineSrc js).head?.or next) is → InlineGood next (is ++ js)
  | [], _ => hj
  | i :: is, h => by
    refine ⟨?_, inlineGood_append hj h.2⟩
    have e : (inlineSrc (is ++ js)).head?.or next = (inlineSrc is).head?.or ((inlineSrc js).head?.or next) := by
      simp [inlineSrc, List.head?_append, Option.or_assoc]
    show Inline.Good ((inlineSrc (is ++ js)).head?.or next) i
    rw [e]
    exact h.1

/-! ### White space at the end of a heading -/

theorem trimEndP_blank {p : Char → Bool} {ws : Str} (h : ∀ c ∈ ws, p c = true) (t : Str) : trimEndP p (t ++ ws) = trimEndP p t := by
  unfold trimEndP
  rw [List.reverse_append, List.dropWhile_append_of_pos (by simpa using h)]

/-- Spaces and tabs at the end of a heading line. -/
theorem lexHeading_blank {n : Nat} {sep : Char} {t ws : Str} (h6 : n ≤ 6) (hsep : sep = ' ' ∨ sep = '\t') (hn : '\n' ∉ t)
    (hw : ∀ c ∈ ws, c = ' ' ∨ c = '\t') (hr : AtEol rest) (hl : ¬ c!"{#" <:+: t ∨ '}' ∉ t) (hne : ∃ c ∈ t, c ≠ '#') :
    lexHeading r (times n '#' ++ sep :: (t ++ ws ++ rest)) = lexHeading r (times n '#' ++ sep :: (t ++ rest)) := by
  have hwn : ∀ c, c ≠ ' ' → c ≠ '\t' → c ∉ ws := fun c h1 h2 hc => by rcases hw c hc with h | h <;> contradiction
  have hl2 : ¬ c!"{#" <:+: t ++ ws ∨ '}' ∉ t ++ ws := by
    rcases hl with hl | hl
    · refine .inl fun hi => ?_
      rcases two_infix_append hi with h | ⟨_, h⟩ | h
      · exact hl h
      · exact hwn '#' (by decide) (by decide) (List.mem_of_mem_head? h)
      · exact hwn '#' (by decide) (by decide) (h.subset (by simp))
    · exact .inr (by simp [hl, hwn '}' (by decide) (by decide)])
  have e1 := lexHeading_line r n sep (t ++ ws) rest h6 hsep (by simp [hn, hwn '\n' (by decide) (by decide)]) hr
  have e2 := lexHeading_line r n sep t rest h6 hsep hn hr
  rw [headingLabel_none hl2] at e1
  rw [headingLabel_none hl] at e2
  obtain ⟨c, hc, hcne⟩ := hne
  have a1 : ¬ (t ++ ws).all (· == '#') = true := by
    rw [List.all_eq_true]
    intro h
    exact hcne (by simpa using h c (by simp [hc]))
  have a2 : ¬ t.all (· == '#') = true := by
    rw [List.all_eq_true]
    intro h
    exact hcne (by simpa using h c hc)
  have ht : trimEndP (fun c => c == ' ' || c == '\t') (headingTrim (t ++ ws)) = trimEndP (fun c => c == ' ' || c == '\t') (headingTrim t) := by
    have b1 : trimEnd (t ++ ws) = trimEnd t := trimEndP_blank (fun c hc => by rcases hw c hc with rfl | rfl <;> decide) t
    unfold headingTrim
    rw [b1]
    cases rsplitOnce ' ' (trimEnd t) with
    | none => exact trimEndP_blank (fun c hc => by rcases hw c hc with rfl | rfl <;> decide) t
    | some x =>
      obtain ⟨a, b⟩ := x
      dsimp only
      split
      · rfl
      · exact trimEndP_blank (fun c hc => by rcases hw c hc with rfl | rfl <;> decide) t
  simp only [Outcome.ok_bind] at e1 e2
  rw [if_neg a1, ht] at e1
  rw [if_neg a2] at e2
  show lexHeading r (List.replicate n '#' ++ sep :: (t ++ ws ++ rest)) = lexHeading r (List.replicate n '#' ++ sep :: (t ++ rest))
  rw [e1, e2]

/-- Documents whose first tokens and remaining texts are the same. -/
theorem render_first {s s' : Str} (h : nextToken self [] none s = nextToken self [] none s') : render s = render s' := by
  rw [render_unfold, render_unfold]
  congr 1
  unfold lexWith lexLoop
  rw [show ([] : List Token).getLast? = none from rfl, h]
  cases hx : nextToken self [] none s' with
  | ok a =>
    cases a with
    | none => rfl
    | some p =>
      obtain ⟨t, u⟩ := p
      have h1 := (nextToken_shape self [] _ s u t (h.trans hx)).2.2
      have h2 := (nextToken_shape self [] _ s' u t hx).2.2
      exact lexLoop_fuel _ _ _ _ (by omega) (by omega)
  | panic => rfl
  | hang => rfl
  | fuelOut => rfl

/-! ### Three backticks in a line -/

/-- Three backticks on both sides of a text in a line, and no more backticks: all of it is text. -/
theorem inline_fence {t u : Str} (hne : t ≠ []) (h1 : '\n' ∉ t) (h2 : '`' ∉ t) (h3 : '`' ∉ u) (last : Option Token) :
    nextToken r ig last (c!"```" ++ t ++ c!"```" ++ u) = .ok (some (.plaintext (c!"```" ++ t ++ c!"```" ++ u), [])) := by
  obtain ⟨c, v, rfl⟩ : ∃ c v, t = c :: v := by
    cases t with
    | nil => exact absurd rfl hne
    | cons c v => exact ⟨c, v, rfl⟩
  have hc : c ≠ '`' := fun e => h2 (by simp [e])
  have hcn : c ≠ '\n' := fun e => h1 (by simp [e])
  have hs := times_split (c := '`') (n := 3) (rest := c :: v ++ (c!"```" ++ u)) (by simpa using hc)
  have hno : '`' ∉ ((c :: v ++ (c!"```" ++ u)).dropWhile (· != '\n')).drop 1 := by
    have hn : ∀ x ∈ c :: v ++ c!"```", (x != '\n') = true := by
      intro x hx
      simp only [bne_iff_ne, ne_eq]
      rintro rfl
      rcases List.mem_append.mp hx with h | h
      · exact h1 h
      · revert h; decide
    rw [← List.append_assoc, List.dropWhile_append_of_pos hn]
    intro h
    exact h3 ((List.dropWhile_suffix _).subset ((List.drop_suffix _ _).subset h))
  have e : lexBackticks (c!"```" ++ (c :: v ++ (c!"```" ++ u))) = (.error (c!"```" ++ (c :: v ++ (c!"```" ++ u))), []) := by
    have hd : ∀ s : Str, '`' ∉ s → s.dropWhile (· != '`') = [] := fun s hs =>
      by simpa using List.dropWhile_append_of_pos (l₂ := []) (p := (· != '`')) (l₁ := s) (fun x hx => by simp only [bne_iff_ne, ne_eq]; rintro rfl; exact hs hx)
    simp only [times, List.replicate_succ, List.replicate_zero, List.cons_append, List.nil_append] at hs hno
    unfold lexBackticks
    simp only [List.cons_append, List.nil_append, hs.1, hs.2, List.length_cons, List.length_nil, Nat.zero_add, if_true,
      List.head?_cons, Option.some.injEq, hcn, if_false, hd _ hno, List.takeWhile_nil, List.dropWhile_nil, slice]
    simp
    exact List.take_of_length_le (by simp)
  have e2 : c!"```" ++ c :: v ++ c!"```" ++ u = '`' :: (c!"``" ++ (c :: v ++ (c!"```" ++ u))) := by simp
  have e3 : c!"```" ++ (c :: v ++ (c!"```" ++ u)) = '`' :: (c!"``" ++ (c :: v ++ (c!"```" ++ u))) := by simp
  rw [e3] at e
  rw [e2, nextToken_tick, e]
  rfl

/-- Three backticks behind a text in a line are no closing fence; the next ones are. -/
theorem inline_fence_lost {t u v : Str} (hne : t ≠ []) (h1 : '\n' ∉ t ++ u) (h2 : '`' ∉ t) (h3 : '`' ∉ v) (h4 : rest.head? ≠ some '`')
    (last : Option Token) :
    nextToken r ig last (c!"```" ++ t ++ c!"```" ++ u ++ '\n' :: (v ++ (c!"```" ++ rest))) =
      .ok (some (.codeBlock v (t ++ c!"```" ++ u), rest)) := by
  obtain ⟨c, w, rfl⟩ : ∃ c v, t = c :: v := by
    cases t with
    | nil => exact absurd rfl hne
    | cons c v => exact ⟨c, v, rfl⟩
  have hc : c ≠ '`' := fun e => h2 (by simp [e])
  have hcn : c ≠ '\n' := fun e => h1 (by simp [e])
  simp only [List.mem_append, not_or] at h1
  have hs := times_split (c := '`') (n := 3) (rest := c :: w ++ c!"```" ++ u ++ '\n' :: (v ++ (c!"```" ++ rest))) (by simpa using hc)
  have hclose := times_split (c := '`') (n := 3) (rest := rest) h4
  have hb := ne_split (c := '`') (t := v) (u := c!"``" ++ rest) h3
  have hl := ne_split (c := '\n') (t := c :: w ++ c!"```" ++ u) (u := v ++ (c!"```" ++ rest)) (by
    simp only [List.mem_append, not_or]
    exact ⟨⟨h1.1, by decide⟩, h1.2⟩)
  have e : lexBackticks (c!"```" ++ (c :: w ++ c!"```" ++ u ++ '\n' :: (v ++ (c!"```" ++ rest)))) =
      (.ok (.codeBlock v (c :: w ++ c!"```" ++ u)), rest) := by
    simp only [times, List.replicate_succ, List.replicate_zero, List.cons_append, List.nil_append] at hs hclose hl hb
    unfold lexBackticks
    simp only [List.cons_append, List.nil_append, hs.1, hs.2, List.length_cons, List.length_nil, Nat.zero_add, if_true,
      List.head?_cons, Option.some.injEq, hcn, if_false, hl]
    simp [hb, hclose]
  have e2 : c!"```" ++ c :: w ++ c!"```" ++ u ++ '\n' :: (v ++ (c!"```" ++ rest)) =
      '`' :: (c!"``" ++ (c :: w ++ c!"```" ++ u ++ '\n' :: (v ++ (c!"```" ++ rest)))) := by simp
  have e3 : c!"```" ++ (c :: w ++ c!"```" ++ u ++ '\n' :: (v ++ (c!"```" ++ rest))) =
      '`' :: (c!"``" ++ (c :: w ++ c!"```" ++ u ++ '\n' :: (v ++ (c!"```" ++ rest)))) := by simp
  rw [e3] at e
  rw [e2, nextToken_tick, e]
  rfl

/-! ### Asterisks at the end of a line -/

theorem LexTo.stars {n : Nat} (hn : 1 ≤ n) (ht : LexTo r ig ('\n' :: rest) ts) :
    LexTo r ig (times n '*' ++ '\n' :: rest) (.horizontalRule :: ts) := by
  refine .cons (fun last => ?_) ht
  have hs := run_split (fun c => c == '*' || c == '_' || c == '\t') (s := times n '*') (rest := '\n' :: rest)
    (by intro x hx; rw [(List.mem_replicate.mp hx).2]; decide) (by intro c hc; simp at hc; subst hc; decide)
  have e : lexAsteriskUnderscore (times n '*' ++ '\n' :: rest) = (.ok .horizontalRule, '\n' :: rest) := by
    unfold lexAsteriskUnderscore
    simp only [hs]
    rw [if_neg (by simp), if_pos]
    exact ⟨List.all_eq_true.mpr fun x hx => by rw [(List.mem_replicate.mp hx).2]; decide, rfl⟩
  obtain ⟨u, hu⟩ := times_head (c := '*') hn ('\n' :: rest)
  rw [hu] at e ⊢
  rw [nextToken_au (.inl rfl), e]
  rfl

/-- Two or three markers at the end of a document. -/
theorem last_markers {n : Nat} {m : Char} (hm : m = '*' ∨ m = '_') (hn : n = 2 ∨ n = 3) (last : Option Token) :
    nextToken r ig last (times n m) = .ok (some (.plaintext (times n m), [])) := by
  rcases hm with rfl | rfl <;> rcases hn with rfl | rfl <;> rfl

end Smd.Gfm
