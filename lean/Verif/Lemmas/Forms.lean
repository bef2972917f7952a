import Verif.Lemmas.Headings

/-! Line breaks, indented lines, unfinished markup and other forms. -/

namespace Smd.Gfm
open Smd.Rs Smd.Spec

variable {r : Rec} {ig : List Char} {rest : Str} {ts : List Token}

/-! ### White space -/

theorem nextToken_ws {last : Option Token} {c : Char} {s : Str} (h : c = ' ' ∨ c = '\t') :
    nextToken r ig last (c :: s) = .ok (some (resToken (lexTabsSpaces last (c :: s)).1, (lexTabsSpaces last (c :: s)).2)) := by
  unfold nextToken lexDispatch
  rcases h with rfl | rfl <;> simp

theorem lexTabsSpaces_succ (last : Option Token) {s : Str} (h : s ≠ []) :
    ∃ f, lexTabsSpaces last s = lexTabsSpacesGo last (f + 1) s := by
  unfold lexTabsSpaces
  cases s with
  | nil => exact absurd rfl h
  | cons c s => exact ⟨s.length, rfl⟩

theorem ws_split {w : Str} (hw : ∀ c ∈ w, c = ' ' ∨ c = '\t') (h1 : rest.head? ≠ some ' ') (h2 : rest.head? ≠ some '\t') :
    (w ++ rest).takeWhile (fun c => c == '\t' || c == ' ') = w ∧ (w ++ rest).dropWhile (fun c => c == '\t' || c == ' ') = rest := by
  refine run_split _ (fun c hc => ?_) (fun c hc => ?_)
  · rcases hw c hc with rfl | rfl <;> rfl
  · have h1 : c ≠ ' ' := fun e => h1 (e ▸ hc)
    have h2 : c ≠ '\t' := fun e => h2 (e ▸ hc)
    simp [h1, h2]

/-- The token of spaces at the end of a line does nothing inside a paragraph. -/
def breakTok (n : Nat) : Token := if n ≤ 3 then .plaintext (times n ' ') else .lineBreak

theorem trim_spaces (n : Nat) : trim (times n ' ') = [] := by
  unfold trim
  have : trimEndP isWs (trimStartP isWs (times n ' ')) = [] := by
    have e : trimStartP isWs (times n ' ') = [] := by
      unfold trimStartP
      exact dropWhile_all _ _ (by intro x hx; rw [(List.mem_replicate.mp hx).2]; decide)
    rw [e]; rfl
  exact this

theorem parseTok_break (r : Rec) (n : Nat) (h : Str) (c : Bool) : parseTok r (breakTok n) (inP h c) = .ok (inP h c) := by
  unfold breakTok
  split
  · exact parseTok_blank r _ (trim_spaces n)
  · simp [parseTok, step1, step2, isBlankPlain, isTab, staysInList, staysInTask, opensPara, closesPara, staysInQuote, isCode]

theorem LexTo.break {n : Nat} (hn : 1 ≤ n) (h : LexTo r ig ('\n' :: rest) ts) :
    LexTo r ig (times n ' ' ++ '\n' :: rest) (breakTok n :: ts) := by
  refine .cons (fun last => ?_) h
  obtain ⟨u, hu⟩ := times_head (c := ' ') hn ('\n' :: rest)
  have hs := ws_split (w := times n ' ') (rest := '\n' :: rest) (fun c hc => .inl (List.mem_replicate.mp hc).2) (by simp) (by simp)
  have e : lexTabsSpaces last (times n ' ' ++ '\n' :: rest) =
      (if n ≤ 3 then .error (times n ' ') else .ok .lineBreak, '\n' :: rest) := by
    obtain ⟨f, hf⟩ := lexTabsSpaces_succ last (s := times n ' ' ++ '\n' :: rest) (by simp)
    rw [hf]
    unfold lexTabsSpacesGo
    simp only [hs, List.length_replicate]
    by_cases h3 : n ≤ 3
    · rw [if_pos, if_pos h3]
      simp [List.mem_replicate, h3]; omega
    · rw [if_neg (by simp [h3]), if_pos, if_neg h3]
      simp [List.mem_replicate]; omega
  rw [hu] at e ⊢
  rw [nextToken_ws (.inl rfl), e]
  unfold breakTok
  split <;> rfl

/-! ### Text that ends a document -/

/-- Running text and a last token. -/
theorem render_inlines_token {is : List Inline} {s x : Str} {t : Token} (hg : InlineGood s.head? is)
    (hv : is = [] ∨ ∃ i, is.head? = some i ∧ i.Visible) (h : ∀ last, nextToken self [] last s = .ok (some (t, []))) (ht : ShowsTok t x) :
    render (inlineSrc is ++ s) = .ok (elem c!"p" (inlineHtml is ++ x) ++ c!"\n") := by
  rcases hv with rfl | hv
  · exact render_token h ht
  · obtain ⟨t1, hl1, _, ho1⟩ := inlines_sem hg
    have hl := hl1 self [] s [t] hg (LexTo.cons h LexTo.nil)
    rw [render_of hl (parseToks_two ((ho1 hv).clean self []) (parseToks_one (ht.1 self _ false))), finish_inP, elem_p]
    simp

/-- Running text, something that is blank, and running text. -/
theorem render_blank_between {is js : List Inline} {s : Str} {toks : List Token} (hi : InlineGood (s ++ inlineSrc js).head? is)
    (hj : InlineGood none js) (hv : ∃ i, is.head? = some i ∧ i.Visible) (hp : Adds toks [])
    (hl : ∀ ts, LexTo self [] (inlineSrc js) ts → LexTo self [] (s ++ inlineSrc js) (toks ++ ts)) :
    render (inlineSrc is ++ s ++ inlineSrc js) = .ok (elem c!"p" (inlineHtml is ++ inlineHtml js) ++ c!"\n") := by
  obtain ⟨t1, hl1, _, ho1⟩ := inlines_sem hi
  obtain ⟨t2, hl2, ha2, _⟩ := inlines_sem hj
  have l2 := hl2 self [] [] [] hj LexTo.nil
  rw [List.append_nil, List.append_nil] at l2
  have l1 := hl1 self [] (s ++ inlineSrc js) _ hi (hl _ l2)
  have h := parseToks_two ((ho1 hv).clean self []) (parseToks_two (hp self _ false) (ha2 self _ false))
  rw [List.append_assoc, render_of l1 h, finish_inP, elem_p]
  simp

theorem adds_cons {t : Token} {toks : List Token} {x : Str} (h1 : ∀ r h c, parseTok r t (inP h c) = .ok (inP h c)) (h2 : Adds toks x) :
    Adds (t :: toks) x := fun r h c => parseToks_cons (h1 r h c) (h2 r h c)

theorem adds_nil : Adds [] [] := fun r h c => by simp [parseToks]

/-! ### Carriage returns -/

theorem nextToken_cr (r : Rec) (ig : List Char) (last : Option Token) (s : Str) :
    nextToken r ig last ('\r' :: s) = .ok (some (.plaintext c!"\r", s)) :=
  nextToken_plain r ig last s (by decide)

/-- `k` line ends of Windows. -/
def crlf (k : Nat) : Str := (List.replicate k c!"\r\n").flatten

theorem LexTo.crlf : ∀ k, rest.head? ≠ some '\n' → LexTo r ig rest ts →
    LexTo r ig (crlf k ++ rest) ((List.replicate k [Token.plaintext c!"\r", Token.plaintext c!"\n"]).flatten ++ ts)
  | 0, _, h => h
  | k + 1, hr, h => by
    have ih := LexTo.crlf k hr h
    have e : Gfm.crlf (k + 1) ++ rest = '\r' :: '\n' :: (Gfm.crlf k ++ rest) := by simp [Gfm.crlf, List.replicate_succ]
    have e2 : (List.replicate (k + 1) [Token.plaintext c!"\r", Token.plaintext c!"\n"]).flatten ++ ts =
        .plaintext c!"\r" :: .plaintext c!"\n" :: ((List.replicate k [Token.plaintext c!"\r", Token.plaintext c!"\n"]).flatten ++ ts) := by
      simp [List.replicate_succ]
    rw [e, e2]
    refine .cons (fun last => nextToken_cr r ig last _) ?_
    refine LexTo.gap (n := 1) (by omega) ?_ ih
    cases k with
    | zero => simpa [Gfm.crlf] using hr
    | succ k => simp [Gfm.crlf, List.replicate_succ]

theorem adds_crlf : ∀ k, Adds (List.replicate k [Token.plaintext c!"\r", Token.plaintext c!"\n"]).flatten []
  | 0 => adds_nil
  | k + 1 => by
    rw [List.replicate_succ, List.flatten_cons]
    exact adds_cons (fun r h c => parseTok_blank r _ (by decide)) (adds_cons (fun r h c => parseTok_blank r _ (by decide)) (adds_crlf k))

/-! ### Indented lines -/

/-- The first line of `t ++ rest`. -/
theorem untilTail_nl {t : Str} (h : '\n' ∉ t) : untilTail c!"\n" (t ++ '\n' :: rest) = (t ++ c!"\n", rest) := by
  have := untilTail_first (tail := c!"\n") (u := t ++ c!"\n") (rest := rest) (List.suffix_append _ _) ?_
  · simpa using this
  · intro a ha hne hs
    rcases List.prefix_concat_iff.mp ha with e | e
    · exact hne e
    · exact h (e.subset (hs.subset (by simp)))

theorem untilTail_none {p s : Str} (hp : p ≠ []) (h : ¬ p <:+: s) : untilTail p s = (s, []) := by
  rcases untilTail_cases hp s with ⟨_, h1⟩ | ⟨x, y, h1, _⟩
  · exact h1
  · exact absurd ⟨x, y, h1.symm⟩ h

theorem infix_single {c : Char} {s : Str} (h : [c] <:+: s) : c ∈ s := h.subset (by simp)

/-- A line indented by a tab, four spaces, or two spaces and a tab. -/
def IsIndent (p : Str) : Prop := p = c!"\t" ∨ p = c!"    " ∨ p = c!"  \t"

theorem IsIndent.ws {p : Str} (h : IsIndent p) : (∀ c ∈ p, c = ' ' ∨ c = '\t') ∧ p ≠ [] := by
  rcases h with rfl | rfl | rfl <;> refine ⟨?_, by simp⟩ <;> decide

theorem lexTabsSpaces_code (last : Option Token) {p t : Str} (hp : IsIndent p) (h1 : t.head? ≠ some ' ') (h2 : t.head? ≠ some '\t')
    (h3 : t.head? ≠ some '\n') (hh : p = c!"    " → '#' ∉ (untilTail c!"\n" t).1) :
    lexTabsSpaces last (p ++ t) = (.ok (.code (untilTail c!"\n" t).1), (untilTail c!"\n" t).2) := by
  obtain ⟨f, hf⟩ := lexTabsSpaces_succ last (s := p ++ t) (by simp [hp.ws.2])
  rw [hf]
  unfold lexTabsSpacesGo
  simp only [ws_split hp.ws.1 h1 h2]
  rw [if_neg (by rcases hp with rfl | rfl | rfl <;> simp), if_neg (by rcases hp with rfl | rfl | rfl <;> simp [h3]), if_neg, if_neg, if_pos (show _ ∨ _ ∨ _ from hp)]
  · rintro ⟨e, _, hc⟩
    exact hh e (by simpa using hc)
  · rintro ⟨e, _, hc⟩
    exact hh e (by simpa using hc)

theorem LexTo.indented {p t : Str} (hp : IsIndent p) (h1 : t.head? ≠ some ' ') (h2 : t.head? ≠ some '\t')
    (h3 : t.head? ≠ some '\n') (hh : p = c!"    " → '#' ∉ (untilTail c!"\n" t).1) (h : LexTo r ig (untilTail c!"\n" t).2 ts) :
    LexTo r ig (p ++ t) (.code (untilTail c!"\n" t).1 :: ts) := by
  refine .cons (fun last => ?_) h
  have e := lexTabsSpaces_code last hp h1 h2 h3 hh
  have hc : ∃ c u, p = c :: u ∧ (c = ' ' ∨ c = '\t') := by
    rcases hp with rfl | rfl | rfl
    · exact ⟨_, _, rfl, .inr rfl⟩
    · exact ⟨_, _, rfl, .inl rfl⟩
    · exact ⟨_, _, rfl, .inl rfl⟩
  obtain ⟨c, u, rfl, hc⟩ := hc
  rw [List.cons_append] at e ⊢
  rw [nextToken_ws hc, e]
  rfl

theorem parseTok_code_more (r : Rec) (t h : Str) :
    parseTok r (.code t) { html := h, inCode := true } = .ok { html := h ++ escape t, inCode := true } := by
  simp [parseTok, step1, step2, isBlankPlain, isTab, staysInList, staysInTask, opensPara, closesPara, staysInQuote, isCode,
    PState.push, sanitize_eq_escape]

/-- An indented line of code with its indentation. -/
structure CodeLine (l : Str × Str) : Prop where
  indent : IsIndent l.1
  nonempty : l.2 ≠ []
  oneLine : '\n' ∉ l.2
  noSpace : l.2.head? ≠ some ' '
  noTab : l.2.head? ≠ some '\t'
  noHash : l.1 = c!"    " → '#' ∉ l.2

theorem LexTo.codeLine {l : Str × Str} (hl : CodeLine l) (h : LexTo r ig rest ts) :
    LexTo r ig (l.1 ++ l.2 ++ c!"\n" ++ rest) (.code (l.2 ++ c!"\n") :: ts) := by
  obtain ⟨p, t⟩ := l
  obtain ⟨h1, h2, h3, h4, h5, h6⟩ := hl
  simp only at *
  obtain ⟨c, u, rfl⟩ : ∃ c u, t = c :: u := by
    cases t with
    | nil => exact absurd rfl h2
    | cons c u => exact ⟨c, u, rfl⟩
  have e := untilTail_nl (rest := rest) h3
  have hl := LexTo.indented (r := r) (ig := ig) (ts := ts) (p := p) (t := c :: u ++ '\n' :: rest) h1 h4 h5
    (fun e => h3 (by simp at e; simp [e])) (by
      rw [e]; intro hp; simpa using h6 hp) (by rw [e]; exact h)
  rw [e] at hl
  simpa using hl

theorem LexTo.codeLines : ∀ {ls : List (Str × Str)}, (∀ l ∈ ls, CodeLine l) → LexTo r ig rest ts →
    LexTo r ig (ls.flatMap (fun l => l.1 ++ l.2 ++ c!"\n") ++ rest) (ls.map (fun l => Token.code (l.2 ++ c!"\n")) ++ ts)
  | [], _, h => h
  | l :: ls, hl, h => by
    have ih := LexTo.codeLines (ls := ls) (fun x hx => hl x (by simp [hx])) h
    have := LexTo.codeLine (hl l (by simp)) ih
    simpa using this

/-- Code tokens alone. -/
theorem render_codes {d : Str} {ys : List Str} (hne : ys ≠ []) (h : LexTo self [] d (ys.map Token.code)) :
    render d = .ok (c!"<pre><code>" ++ endLine (ys.flatMap escape) ++ c!"</code></pre>") := by
  have more : ∀ (ys : List Str) (h : Str), parseToks self (ys.map Token.code) { html := h, inCode := true } =
      .ok { html := h ++ ys.flatMap escape, inCode := true } := by
    intro ys
    induction ys with
    | nil => intro h; simp [parseToks]
    | cons y ys ih =>
      intro h
      rw [List.map_cons, parseToks_cons (parseTok_code_more self y h) (ih _)]
      simp
  cases ys with
  | nil => exact absurd rfl hne
  | cons y ys =>
    have hp := parseToks_cons (parseTok_code_clean self y []) (more ys _)
    have hf := finish_code [] (escape y ++ ys.flatMap escape)
    rw [List.append_assoc] at hp
    rw [render_of h hp, hf]
    simp

/-- Many spaces before the last line. -/
theorem deep_indent {n : Nat} {t : Str} (hn : 5 ≤ n) (ht : '\n' ∉ t) (h1 : t.head? ≠ some ' ') (h2 : t.head? ≠ some '\t') (hne : t ≠ [])
    (last : Option Token) : nextToken r ig last (times n ' ' ++ t) = .ok (some (.plaintext (times n ' ' ++ t), [])) := by
  have hs := ws_split (w := times n ' ') (rest := t) (fun c hc => .inl (List.mem_replicate.mp hc).2) h1 h2
  obtain ⟨u, hu⟩ := times_head (c := ' ') (n := n) (by omega) t
  have hu1 := untilTail_none (p := c!"\n") (s := t) (by simp) (fun h => ht (infix_single h))
  have hsl : slice (times n ' ' ++ t) [] = times n ' ' ++ t := by
    have := slice_self_append (times n ' ' ++ t) []
    rwa [List.append_nil] at this
  have hlen : ∀ w : Str, times n ' ' = w → w.length = n := by rintro w rfl; simp
  have hn4 : times n ' ' ≠ c!"    " := fun e => by have := hlen _ e; simp at this; omega
  have hn1 : times n ' ' ≠ c!"\t" := fun e => by have := hlen _ e; simp at this; omega
  have hn3 : times n ' ' ≠ c!"  \t" := fun e => by have := hlen _ e; simp at this; omega
  have hn2 : times n ' ' ≠ c!"\t\t" := fun e => by have := hlen _ e; simp at this; omega
  have e : lexTabsSpaces last (times n ' ' ++ t) = (.error (times n ' ' ++ t), []) := by
    obtain ⟨f, hf⟩ := lexTabsSpaces_succ last (s := times n ' ' ++ t) (by simp [hne])
    rw [hf]
    unfold lexTabsSpacesGo
    simp only [hs, List.length_replicate, hu1, hsl]
    rw [if_neg (by simp; omega), if_neg, if_neg (fun h => hn4 h.1), if_neg (fun h => hn4 h.1), if_neg (by simp [hn1, hn4, hn3]),
      if_neg hn2, if_neg (by simp)]
    intro h
    simp only [Bool.and_eq_true, beq_iff_eq] at h
    have := h.2
    exact ht (List.mem_of_mem_head? this)
  rw [hu] at e ⊢
  rw [nextToken_ws (.inl rfl), e]
  rfl

/-! ### Unfinished markup -/

theorem open_bracket {t : Str} (h : ']' ∉ t) (last : Option Token) :
    nextToken r ig last ('[' :: t) = .ok (some (.plaintext ('[' :: t), [])) := by
  have e1 : t.takeWhile (· != ']') = t := takeWhile_all _ _ (by intro x hx; simp; rintro rfl; exact h hx)
  have e2 : t.dropWhile (· != ']') = [] := dropWhile_all _ _ (by intro x hx; simp; rintro rfl; exact h hx)
  have hsl : slice ('[' :: t) [] = '[' :: t := by
    have := slice_self_append ('[' :: t) []
    rwa [List.append_nil] at this
  have e : lexLinks ('[' :: t) = (.error ('[' :: t), []) := by
    unfold lexLinks
    simp [e2, hsl]
  rw [nextToken_bracket, e]
  rfl

theorem open_ticks {n : Nat} {t : Str} (hn : 1 ≤ n) (h : '`' ∉ t) (last : Option Token) :
    nextToken r ig last (times n '`' ++ t) = .ok (some (.plaintext (times n '`' ++ t), [])) := by
  have hd : t.head? ≠ some '`' := fun e => h (List.mem_of_mem_head? e)
  have hs := times_split (c := '`') (n := n) (rest := t) hd
  have hsl : slice (times n '`' ++ t) [] = times n '`' ++ t := by
    have := slice_self_append (times n '`' ++ t) []
    rwa [List.append_nil] at this
  obtain ⟨u, hu⟩ := times_head (c := '`') hn t
  have e : lexBackticks (times n '`' ++ t) = (.error (times n '`' ++ t), []) := by
    have hmem : ∀ {s : Str}, s <:+ t → '`' ∉ s := fun hs hm => h (hs.subset hm)
    have hall : ∀ {s : Str}, s <:+ t → s.dropWhile (· != '`') = [] := fun hs =>
      dropWhile_all _ _ (by intro x hx; simp; rintro rfl; exact hmem hs hx)
    unfold lexBackticks
    simp only [hs, List.length_replicate]
    split
    · next h3 =>
      subst h3
      have hsuf : (if t.head? = some '\n' then t.drop 1 else (t.dropWhile (· != '\n')).drop 1) <:+ t := by
        split
        · exact List.drop_suffix _ _
        · exact (List.drop_suffix _ _).trans (List.dropWhile_suffix _)
      simp only [hall hsuf, List.takeWhile_nil, List.dropWhile_nil, hsl]
      rw [if_pos (by simp)]
    · have hp : List.replicate n '`' ≠ [] := by
        intro e
        have := congrArg List.length e
        simp at this
        omega
      have hno : ¬ List.replicate n '`' <:+: t := fun hi => h (hi.subset (by rw [List.mem_replicate]; exact ⟨by omega, rfl⟩))
      simp only [untilTail_none hp hno, hsl]
      rw [if_pos]
      simp only [Bool.not_eq_true', endsWith]
      cases e : List.isSuffixOf (List.replicate n '`') t with
      | false => rfl
      | true => exact absurd (List.isSuffixOf_iff_suffix.mp e).isInfix hno
  rw [hu] at e ⊢
  rw [nextToken_tick, e]
  rfl

theorem open_angle {t : Str} (h : '>' ∉ t) (last : Option Token) :
    nextToken r ig last ('<' :: t) = .ok (some (.plaintext t, [])) := by
  have e1 : t.takeWhile (· != '>') = t := takeWhile_all _ _ (by intro x hx; simp; rintro rfl; exact h hx)
  have e2 : t.dropWhile (· != '>') = [] := dropWhile_all _ _ (by intro x hx; simp; rintro rfl; exact h hx)
  have e : lexSideCarrot r ('<' :: t) = .ok (.error t, []) := by
    unfold lexSideCarrot
    simp [e1, e2]
  rw [nextToken_lt, e]
  rfl

/-- A single marker emphasises everything up to the end. -/
theorem open_marker {m : Char} {t : Str} (hm : m = '*' ∨ m = '_') (ht : Inline.EmText t) (last : Option Token) :
    nextToken r ig last (m :: t) = .ok (some (.italic t, [])) := by
  have h1 := au_split 1 hm ht (rest := [])
  have h2 : t.takeWhile (fun c => !isAU c) = t ∧ t.dropWhile (fun c => !isAU c) = [] := by
    have := run_split (fun c => !isAU c) (s := t) (rest := []) (by
      intro x hx
      have h1 : x ≠ '*' := fun e => ht.2.1 (e ▸ hx)
      have h2 : x ≠ '_' := fun e => ht.2.2 (e ▸ hx)
      simp [isAU, h1, h2]) (by simp)
    simpa using this
  have e : lexAsteriskUnderscore (m :: t) = (.ok (.italic t), []) := by
    have hh := emText_head ht []
    rw [List.append_nil] at h1 hh
    simp only [times, List.replicate_succ, List.replicate_zero, List.cons_append, List.nil_append] at h1
    unfold lexAsteriskUnderscore
    simp only [h1, h2]
    rw [if_neg (fun h => hh.1 h.2), if_neg (fun h => hh.2 h.2), if_pos (by simp), if_pos (by simp)]
    rfl
  rw [nextToken_au hm, e]
  rfl

/-- A pipe takes the rest of the line with it. -/
theorem pipe_line {t : Str} (h : '\n' ∉ t) (last : Option Token) :
    nextToken r ig last ('|' :: t) = .ok (some (.plaintext ('|' :: t), [])) := by
  have e2 : t.dropWhile (· != '\n') = [] := dropWhile_all _ _ (by intro x hx; simp; rintro rfl; exact h hx)
  have hpl : ∀ n, pipeLines n [] = ([], []) := fun n => by cases n <;> simp [pipeLines]
  have hsl : slice ('|' :: t) [] = '|' :: t := by
    have := slice_self_append ('|' :: t) []
    rwa [List.append_nil] at this
  have e : lexPipes r ('|' :: t) = .ok (.error ('|' :: t), []) := by
    unfold lexPipes
    rw [List.length_cons]
    simp [pipeLines, e2, hpl, hsl]
  rw [nextToken_pipe, e]
  rfl

/-! ### Entries with several paragraphs -/

theorem contLines_all : ∀ (ps : List Str) (n : Nat), ps.length ≤ n → (∀ p ∈ ps, '\n' ∉ p) →
    contLines n (ps.flatMap fun p => c!"\n\n\t" ++ p) = (ps, [])
  | [], n, _, _ => contLines_none (by simp)
  | p :: ps, n, hn, hp => by
    obtain ⟨m, rfl⟩ : ∃ m, n = m + 1 := ⟨n - 1, by simp at hn; omega⟩
    have ih := contLines_all ps m (by simp at hn; omega) (fun q hq => hp q (by simp [hq]))
    have heol : AtEol (ps.flatMap fun p => c!"\n\n\t" ++ p) := by
      cases ps with
      | nil => exact .inl rfl
      | cons q qs => exact .inr ⟨'\n' :: '\t' :: (q ++ qs.flatMap fun p => c!"\n\n\t" ++ p), by simp⟩
    have e : ((p :: ps).flatMap fun p => c!"\n\n\t" ++ p) = '\n' :: '\n' :: '\t' :: (p ++ ps.flatMap fun p => c!"\n\n\t" ++ p) := by simp
    rw [e]
    unfold contLines
    rw [if_pos (startsWith_iff.mpr (by simp))]
    have hd : ('\n' :: '\n' :: '\t' :: (p ++ ps.flatMap fun p => c!"\n\n\t" ++ p)).drop 3 = p ++ ps.flatMap fun p => c!"\n\n\t" ++ p := rfl
    rw [hd]
    simp only [takeWhile_eol (hp p (by simp)) heol, dropWhile_eol (hp p (by simp)) heol, ih]

theorem prefix_box {x : Char} {w v : Str} (hx : x ≠ '\n') (hv : AtEol v) (h : ['[', x, ']', ' '] <+: w ++ v) : ['[', x, ']', ' '] <+: w := by
  obtain ⟨u, hu⟩ := h
  rcases List.append_eq_append_iff.mp hu with ⟨a, h1, h2⟩ | ⟨a, h1, h2⟩
  · exact ⟨a, h1.symm⟩
  · cases a with
    | nil => rw [List.append_nil] at h1; exact ⟨[], by rw [List.append_nil]; exact h1⟩
    | cons d a =>
      rcases hv with rfl | ⟨t, rfl⟩
      · simp at h2
      · have hd : d = '\n' := by simp at h2; exact h2.1.symm
        have : '\n' ∈ ['[', x, ']', ' '] := by rw [h1, hd]; simp
        simp [Ne.symm hx] at this

theorem lexPlusMinus_paras (r : Rec) {c : Char} {w : Str} {ps : List Str} (hc : c = '-' ∨ c = '+') (hw : '\n' ∉ w)
    (hp : ∀ p ∈ ps, '\n' ∉ p) (hb : ∀ x ∈ c!" xX", ¬ ['[', x, ']', ' '] <+: w) :
    lexPlusMinus r ((c :: ' ' :: w) ++ ps.flatMap fun p => c!"\n\n\t" ++ p) =
      .ok (.ok (.unorderedListEntry (((' ' :: w) :: ps).map Token.plaintext)), []) := by
  have hw' : '\n' ∉ ' ' :: w := by simp [hw]
  have heol : AtEol (ps.flatMap fun p => c!"\n\n\t" ++ p) := by
    cases ps with
    | nil => exact .inl rfl
    | cons q qs => exact .inr ⟨'\n' :: '\t' :: (q ++ qs.flatMap fun p => c!"\n\n\t" ++ p), by simp⟩
  have hlen : ps.length ≤ (ps.flatMap fun p => c!"\n\n\t" ++ p).length := by
    clear hp heol
    induction ps with
    | nil => simp
    | cons q qs ih => simp at ih ⊢; omega
  have hno : ∀ x ∈ c!" xX", startsWith (slice (' ' :: (w ++ ps.flatMap fun p => c!"\n\n\t" ++ p)) []) [' ', '[', x, ']', ' '] = false := by
    intro x hx
    have e : slice (' ' :: (w ++ ps.flatMap fun p => c!"\n\n\t" ++ p)) [] = ' ' :: (w ++ ps.flatMap fun p => c!"\n\n\t" ++ p) := by
      have := slice_self_append (' ' :: (w ++ ps.flatMap fun p => c!"\n\n\t" ++ p)) []
      rwa [List.append_nil] at this
    rw [e]
    refine startsWith_false fun h => hb x hx (prefix_box ?_ heol (List.cons_prefix_cons.mp h).2)
    rintro rfl
    revert hx; decide
  have e : ' ' :: (w ++ ps.flatMap fun p => c!"\n\n\t" ++ p) = (' ' :: w) ++ ps.flatMap fun p => c!"\n\n\t" ++ p := rfl
  unfold lexPlusMinus
  rw [(bullet_split hc).1, (bullet_split hc).2]
  have t1 := takeWhile_eol hw' heol
  have t2 := dropWhile_eol hw' heol
  rw [← e] at t1 t2
  simp only [t1, t2, contLines_all ps _ hlen hp]
  rw [if_neg (by simp), if_neg (by simp), if_pos (by simp), hno ' ' (by decide), hno 'x' (by decide), hno 'X' (by decide)]
  rfl

theorem entryOut_paras (r : Rec) : ∀ (ps : List (Str × Str)), (∀ p ∈ ps, p.1.head? ≠ some ' ' ∧ p.1.head? ≠ some '\t' ∧
      r.render [] p.1 = .ok p.2 ∧ ¬ c!"<pre><code>" <:+: p.2) →
    entryOut r (ps.map fun p => .plaintext p.1) = .ok (ps.flatMap Prod.snd)
  | [], _ => rfl
  | p :: ps, h => by
    obtain ⟨h1, h2, h3, h4⟩ := h p (by simp)
    have hb := bulletText_arg (c := '*') h1 h2
    rw [show bulletText '*' p.1 = p.1 from rfl] at hb
    rw [List.map_cons]
    simp only [entryOut, hb, h3, Outcome.ok_bind, replaceStr_none h4, entryOut_paras r ps (fun q hq => h q (by simp [hq])),
      List.flatMap_cons]

/-- An entry whose tokens are all text. -/
theorem parseTok_entry (r : Rec) {toks : List Token} {x : Str} (h : Str) (b : Bool) (ht : toks.all isPlaintext = true) (hx : entryOut r toks = .ok x) :
    parseTok r (.unorderedListEntry toks) (ulSt b h) = .ok (ulSt true (h ++ ulOpen b ++ (c!"<li>\n" ++ x ++ c!"</li>\n"))) := by
  cases b
  · simp [parseTok, step1, step2, isBlankPlain, isTab, staysInList, staysInTask, opensPara, closesPara, staysInQuote, isCode, hx,
      ht, PState.push, ulOpen]
  · simp [parseTok, step1, step2, isBlankPlain, isTab, staysInList, hx, ht, PState.push, ulOpen]

theorem parseTok_entry_mixed (r : Rec) {toks : List Token} {x : Str} (h : Str) (b : Bool) (ht : toks.all isPlaintext = false) (hx : entryOut r toks = .ok x) :
    parseTok r (.unorderedListEntry toks) (ulSt b h) = .ok (ulSt true (h ++ ulOpen b ++ (c!"<li>" ++ x ++ c!"</li>\n"))) := by
  cases b
  · simp [parseTok, step1, step2, isBlankPlain, isTab, staysInList, staysInTask, opensPara, closesPara, staysInQuote, isCode, hx,
      ht, PState.push, ulOpen]
  · simp [parseTok, step1, step2, isBlankPlain, isTab, staysInList, hx, ht, PState.push, ulOpen]

/-! ### Lists in lists -/

theorem lexPlusMinus_nested {c : Char} {w l : Str} {toks : List Token} (hc : c = '-' ∨ c = '+') (hw : '\n' ∉ w) (hl : '\n' ∉ l)
    (hb : ∀ x ∈ c!" xX", ¬ ['[', x, ']', ' '] <+: w) (hx : r.lex (c!"  " ++ l) = .ok toks) :
    lexPlusMinus r ((c :: ' ' :: w) ++ '\n' :: (c!"  " ++ l)) = .ok (.ok (.unorderedListEntry (.plaintext (' ' :: w) :: toks)), []) := by
  have hw' : '\n' ∉ ' ' :: w := by simp [hw]
  have heol : AtEol ('\n' :: (c!"  " ++ l)) := .inr ⟨_, rfl⟩
  have e : ' ' :: (w ++ '\n' :: (c!"  " ++ l)) = (' ' :: w) ++ '\n' :: (c!"  " ++ l) := rfl
  have hla : lineAhead (c!"  " ++ l) = some (c!"  " ++ l, []) := by
    unfold lineAhead
    rw [if_neg (by simp [hl]), if_neg (by simp)]
  unfold lexPlusMinus
  rw [(bullet_split hc).1, (bullet_split hc).2, e]
  simp only [takeWhile_eol hw' heol, dropWhile_eol hw' heol, contLines_none (s := '\n' :: (c!"  " ++ l)) (by simp), slice_self_append]
  rw [if_neg (by simp), if_neg (by simp), if_pos (by simp)]
  rw [startsWith_false (p := c!" [ ] ") (by simpa using hb ' ' (by decide)), startsWith_false (p := c!" [x] ") (by simpa using hb 'x' (by decide)),
    startsWith_false (p := c!" [X] ") (by simpa using hb 'X' (by decide))]
  have hsk : skipIf '\n' ('\n' :: (c!"  " ++ l)) = c!"  " ++ l := rfl
  simp only [hsk, hla]
  rw [startsWith_iff.mpr (List.prefix_append c!"  " l)]
  simp only [Bool.false_eq_true, if_false, Bool.or_self, if_true, hx, Outcome.ok_bind, List.map_cons, List.map_nil]
  rfl

theorem lex_nested {c : Char} {w : Str} (hc : c = '-' ∨ c = '+') (hw : '\n' ∉ w) (hb : ∀ x ∈ c!" xX", ¬ ['[', x, ']', ' '] <+: w) :
    lex (c!"  " ++ (c :: ' ' :: w)) = .ok [.plaintext c!"  ", .unorderedListEntry [.plaintext (' ' :: w)]] := by
  have hc' : c = '-' ∨ c = '+' ∨ c = '*' := by rcases hc with h | h <;> simp [h]
  have h := LexTo.bullet (r := self) (ig := []) (rest := []) (n := 0) hc' hw (hb ' ' (by decide)) (hb 'x' (by decide)) (hb 'X' (by decide))
    (.inr rfl) NextLine.nil LexTo.nil
  have hne : c ≠ '*' := by rcases hc with rfl | rfl <;> decide
  have h2 : LexTo self [] (c :: ' ' :: w) [.unorderedListEntry [.plaintext (' ' :: w)]] := by
    simpa [gapToks, bulletText, hne] using h
  exact lex_of (LexTo.spaces (n := 2) (by omega) (by omega) (by rcases hc with rfl | rfl <;> simp) (by rcases hc with rfl | rfl <;> simp) h2)

theorem render_nil : render [] = .ok c!"\n" := by decide +kernel

/-! ### Running text and something else -/

/-- Running text and other tokens. -/
theorem render_inlines_then {is : List Inline} {s : Str} {ts : List Token} {st : PState} (hg : InlineGood s.head? is)
    (hv : ∃ i, is.head? = some i ∧ i.Visible) (h : LexTo self [] s ts)
    (hp : parseToks self ts (inP (c!"<p>" ++ inlineHtml is)) = .ok st) : render (inlineSrc is ++ s) = .ok (finish st) := by
  obtain ⟨t1, hl1, _, ho1⟩ := inlines_sem hg
  have hl := hl1 self [] s ts hg h
  exact render_of hl (parseToks_two ((ho1 hv).clean self []) hp)

theorem parseTok_ordered_inP (r : Rec) (w h : Str) : parseTok r (.orderedListEntry w) (inP h) =
    .ok { html := h ++ c!"<ol>\n<li>\n" ++ escape w ++ c!"</li>\n", inPara := true, inOl := true } := by
  simp [parseTok, step1, step2, isBlankPlain, isTab, staysInList, staysInTask, opensPara, closesPara, staysInQuote, isCode, PState.push,
    sanitize_eq_escape]

theorem parseTok_task_inP (r : Rec) (x : TaskBox) (w h : Str) : parseTok r (.taskListItem x w) (inP h) =
    .ok { html := h ++ c!"<ul class=\"contains-task-list\">" ++ taskHtml (decide (x = .checked)) w, inPara := true, inTask := true } := by
  rw [← taskOut_eq]
  simp [parseTok, step1, step2, isBlankPlain, isTab, staysInList, staysInTask, opensPara, closesPara, staysInQuote, isCode, PState.push]

theorem parseTok_bullet_inP (r : Rec) {c : Char} {w x : Str} (h : Str) (h1 : w.head? ≠ some ' ')
    (h2 : w.head? ≠ some '\t') (hx : r.render [] w = .ok x) (hp : ¬ c!"<pre><code>" <:+: x) :
    parseTok r (.unorderedListEntry [.plaintext (bulletText c w)]) (inP h) =
      .ok { html := h ++ c!"<ul>\n<li>\n" ++ x ++ c!"</li>\n", inPara := true, inUl := true } := by
  have e : entryOut r [.plaintext (bulletText c w)] = .ok x := by
    simp only [entryOut, bulletText_arg h1 h2, hx, Outcome.ok_bind, replaceStr_none hp, List.append_nil]
  simp [parseTok, step1, step2, isBlankPlain, isTab, staysInList, staysInTask, opensPara, closesPara, staysInQuote, isCode, e,
    isPlaintext, PState.push]

theorem parseTok_image_inP (r : Rec) (l t h : Str) : parseTok r (.image l (some t)) (inP h) = .ok (inP (h ++ imageOut l (some t))) := by
  simp [parseTok, step1, step2, isBlankPlain, isTab, staysInList, staysInTask, opensPara, closesPara, staysInQuote, isCode, PState.push]

theorem parseTok_rule_inP (r : Rec) (h : Str) : parseTok r .horizontalRule (inP h) = .ok (inP (h ++ c!"<hr />\n")) := by
  simp [parseTok, step1, step2, isBlankPlain, isTab, staysInList, staysInTask, opensPara, closesPara, staysInQuote, isCode, PState.push]

theorem finish_ul_inP (h : Str) : finish { html := h, inPara := true, inUl := true } = h ++ c!"</p>\n</ul>\n" := by
  simp [finish, rep, endNl]

theorem finish_ol_inP (h : Str) : finish { html := h, inPara := true, inOl := true } = h ++ c!"</p>\n</ol>\n" := by
  simp [finish, rep, endNl]

theorem finish_task_inP (h : Str) : finish { html := h, inPara := true, inTask := true } = h ++ c!"</p>\n</ul>\n" := by
  simp [finish, rep, endNl]

theorem finish_ul_ol (h : Str) : finish { html := h, inUl := true, inOl := true } = h ++ c!"</ul></ol>\n" := by
  simp [finish, rep, endNl]

theorem finish_quote (h : Str) (q : Nat) (hq : 1 ≤ q) : finish { html := h, quoteLevel := q } = h ++ copies q c!"</blockquote>\n" :=
  finish_inQ h q (.inr hq)

/-! ### Tables with empty cells -/

theorem cells_some {xs : List Str} (h : ∀ x ∈ xs, '|' ∉ x) : cells (xs.flatMap (· ++ c!"|")) = xs.filter (fun x => decide (x ≠ [])) := by
  unfold cells
  rw [splitStr_pieces xs h, List.filter_append]
  simp

theorem filter_cells : ∀ (xs : List Str), (∀ x ∈ xs, x = [] ∨ ∃ c : Cell, c.Good ∧ x = c.src) →
    ∃ cs : List Cell, xs.filter (fun x => decide (x ≠ [])) = cs.map Cell.src ∧ (∀ c ∈ cs, c.Good)
  | [], _ => ⟨[], rfl, by simp⟩
  | x :: xs, h => by
    obtain ⟨cs, h1, h2⟩ := filter_cells xs fun y hy => h y (by simp [hy])
    rcases h x (by simp) with rfl | ⟨c, hc, rfl⟩
    · exact ⟨cs, by simpa using h1, h2⟩
    · have : c.src ≠ [] := hc.nonempty
      exact ⟨c :: cs, by rw [List.filter_cons_of_pos (by simpa using this), h1]; rfl, by
        intro d hd
        rcases List.mem_cons.mp hd with rfl | hd
        · exact hc
        · exact h2 d hd⟩

theorem filter_shorter {xs : List Str} (h : [] ∈ xs) : (xs.filter (fun x => decide (x ≠ []))).length < xs.length := by
  refine Nat.lt_of_le_of_ne (List.length_filter_le _ _) fun e => ?_
  have := List.length_filter_eq_length_iff.mp e [] h
  simp at this

theorem table_empty {head delims row : List Str} (hh : ∀ x ∈ head ++ delims, x ≠ [] ∧ '|' ∉ x ∧ '\n' ∉ x)
    (hc : ∀ x ∈ row, x = [] ∨ ∃ c : Cell, c.Good ∧ x = c.src) (he : [] ∈ row)
    (h1 : delims.length = head.length) (h2 : row.length = head.length) :
    ∃ tok, (∀ last, nextToken self [] last (rowSrc head ++ c!"\n" ++ rowSrc delims ++ c!"\n" ++ rowSrc row) = .ok (some (tok, []))) ∧
      ∀ h, parseTok self tok (clean h) = .ok (clean h) := by
  obtain ⟨cs, e, hcs⟩ := filter_cells row hc
  obtain ⟨rt, h3, h4, _⟩ := row_sem hcs
  have hlt : cs.length < head.length := by
    have := filter_shorter he
    rw [e, List.length_map] at this
    omega
  have hr : ∀ x ∈ row, '|' ∉ x ∧ '\n' ∉ x := by
    intro x hx
    rcases hc x hx with rfl | ⟨c, hc, rfl⟩
    · simp
    · exact hc.chars
  let line : List Str → Str := fun cs => cs.flatMap (· ++ c!"|")
  have hsrc : rowSrc head ++ c!"\n" ++ rowSrc delims ++ c!"\n" ++ rowSrc row =
      '|' :: (line head ++ (([line delims, line row].flatMap fun x => '\n' :: '|' :: x) ++ (times 0 '\n' ++ []))) := by
    simp [rowSrc, line]
  have hd : ∀ x ∈ head, x ≠ [] ∧ '|' ∉ x ∧ '\n' ∉ x := fun x hx => hh x (by simp [hx])
  have hd' : ∀ x ∈ delims, x ≠ [] ∧ '|' ∉ x ∧ '\n' ∉ x := fun x hx => hh x (by simp [hx])
  have hp := fun fuel hf => pipeLines_eq (n := 0) (rest := []) (.inr rfl) (.inr (by simp)) [line delims, line row] (line head) fuel hf
    (row_no_nl fun x hx => (hd x hx).2.2) (by
      intro x hx
      simp only [List.mem_cons, List.not_mem_nil, or_false] at hx
      rcases hx with rfl | rfl
      · exact row_no_nl fun x hx => (hd' x hx).2.2
      · exact row_no_nl fun x hx => (hr x hx).2)
  refine ⟨.table ((delims.map cellAlign).zip (head.map trim)) [(delims.map cellAlign).zip rt], fun last => ?_, fun h => ?_⟩
  · rw [hsrc]
    have hp := hp ('|' :: (line head ++ (([line delims, line row].flatMap fun x => '\n' :: '|' :: x) ++ (times 0 '\n' ++ [])))).length (by
      simp only [List.length_cons, List.length_append, List.flatMap_cons, List.length_nil]
      omega)
    have e1 : countStr c!"|" (line head) = head.length := countStr_pieces head fun x hx => (hd x hx).2.1
    have e2 : countStr c!"|" (line delims) = head.length := h1 ▸ countStr_pieces delims fun x hx => (hd' x hx).2.1
    have e3 : countStr c!"|" (line row) = head.length := h2 ▸ countStr_pieces row fun x hx => (hr x hx).1
    have el : lexPipes self ('|' :: (line head ++ (([line delims, line row].flatMap fun x => '\n' :: '|' :: x) ++ (times 0 '\n' ++ [])))) =
        .ok (.ok (.table ((delims.map cellAlign).zip (head.map trim)) [(delims.map cellAlign).zip rt]), []) := by
      unfold lexPipes
      simp only [hp]
      rw [if_neg (by simp), if_neg (by simp [e1, e2, e3])]
      rw [show cells (line head) = head from cells_row fun x hx => ⟨(hd x hx).1, (hd x hx).2.1⟩,
        show cells (line delims) = delims from cells_row fun x hx => ⟨(hd' x hx).1, (hd' x hx).2.1⟩]
      refine bind_eq.mpr ⟨_, ?_, rfl⟩
      show (rowTokens self ((cells (line row)).map trim) >>= fun row => _) = _
      rw [show cells (line row) = cs.map Cell.src from (cells_some fun x hx => (hr x hx).1).trans e]
      exact bind_eq.mpr ⟨rt, h3, rfl⟩
    rw [nextToken_pipe, el]
    rfl
  · have hstep : step1 (.table ((delims.map cellAlign).zip (head.map trim)) [(delims.map cellAlign).zip rt]) (clean h) = clean h := by
      simp [step1, isBlankPlain, isTab, staysInList, staysInTask, opensPara, closesPara, staysInQuote, isCode]
    simp only [parseTok, hstep]
    rw [if_pos (by simp only [List.length_zip, List.length_map]; omega)]

/-! ### Lists followed by something else -/

/-- The lines of a list of bullets with anything that starts a line after them. -/
theorem bullets_then (r : Rec) (ig : List Char) {R : Str} {tsR : List Token} (hR : NextLine R) (hl : LexTo r ig R tsR) :
    ∀ items : List (Char × Str × Nat × Str),
    (∀ i ∈ items, BulletOk i.1 i.2.1 ∧ r.render [] i.2.1 = .ok i.2.2.2 ∧ ¬ c!"<pre><code>" <:+: i.2.2.2) → (∀ i ∈ items, 1 ≤ i.2.2.1) →
    NextLine ((items.flatMap fun i => i.1 :: ' ' :: i.2.1 ++ times i.2.2.1 '\n') ++ R) ∧
    ∃ toks, LexTo r ig ((items.flatMap fun i => i.1 :: ' ' :: i.2.1 ++ times i.2.2.1 '\n') ++ R) (toks ++ tsR) ∧
      (∀ h, parseToks r toks (ulSt true h) = .ok (ulSt true (h ++ items.flatMap fun i => c!"<li>\n" ++ i.2.2.2 ++ c!"</li>\n"))) ∧
      (items ≠ [] → ∀ h, parseToks r toks (ulSt false h) =
        .ok (ulSt true (h ++ c!"<ul>\n" ++ items.flatMap fun i => c!"<li>\n" ++ i.2.2.2 ++ c!"</li>\n")))
  | [], _, _ => ⟨hR, [], hl, fun h => by simp [parseToks], fun h => absurd rfl h⟩
  | i :: is, hok, hn => by
    obtain ⟨hnext, toks, h1, h2, _⟩ := bullets_then r ig hR hl is (fun j hj => hok j (by simp [hj])) (fun j hj => hn j (by simp [hj]))
    obtain ⟨hb, hx, hpc⟩ := hok i (by simp)
    have hone : ∀ b h, parseToks r (.unorderedListEntry [.plaintext (bulletText i.1 i.2.1)] :: gapToks (i.2.2.1 - 1)) (ulSt b h) =
        .ok (ulSt true (h ++ (if b then [] else c!"<ul>\n") ++ (c!"<li>\n" ++ i.2.2.2 ++ c!"</li>\n"))) := by
      intro b h
      refine parseToks_cons (parseTok_bullet r h hb.noSpace hb.noTab hx hpc) ?_
      rw [parseToks_gaps_ul]
      rfl
    refine ⟨?_, .unorderedListEntry [.plaintext (bulletText i.1 i.2.1)] :: gapToks (i.2.2.1 - 1) ++ toks, ?_, fun h => ?_, fun _ h => ?_⟩
    · have := hb.marker
      rw [List.flatMap_cons]
      rcases this with e | e | e <;> simp [NextLine, e]
    · have := LexTo.bullet (n := i.2.2.1) hb.marker hb.oneLine (hb.noBox ' ' (by decide)) (hb.noBox 'x' (by decide))
        (hb.noBox 'X' (by decide)) (.inl (hn i (by simp))) hnext h1
      simpa using this
    · refine parseToks_two (hone true h) ?_
      rw [h2]; simp
    · refine parseToks_two (hone false h) ?_
      rw [h2]; simp

/-- An ordered list after a list of bullets. -/
theorem ordered_inUl (r : Rec) (ig : List Char) (items : List (Char × Str × Nat))
    (hok : ∀ i ∈ items, i.1 ∈ c!"0123456789" ∧ '\n' ∉ i.2.1) (hn : ∀ i ∈ items.dropLast, 1 ≤ i.2.2) :
    ∃ toks, LexTo r ig (items.flatMap fun i => i.1 :: '.' :: ' ' :: i.2.1 ++ times i.2.2 '\n') toks ∧
      (items ≠ [] → ∀ h, parseToks r toks (ulSt true h) =
        .ok { html := h ++ c!"<ol>\n" ++ items.flatMap fun i => c!"<li>\n" ++ escape i.2.1 ++ c!"</li>\n", inUl := true, inOl := true }) := by
  refine Exists.elim (list_sem r ig (fun i : Char × Str × Nat => i.1 :: '.' :: ' ' :: i.2.1 ++ times i.2.2 '\n')
    (fun i => .orderedListEntry i.2.1 :: gapToks i.2.2) (fun i => c!"<li>\n" ++ escape i.2.1 ++ c!"</li>\n")
    (fun b h => { html := h, inUl := true, inOl := b }) c!"<ol>\n" items ?_ ?_) (fun toks h => ⟨toks, h.1, h.2.2⟩)
  · intro i is his ts hts
    have hb := hok i (his.subset (by simp))
    have hnext : (is.flatMap fun i => i.1 :: '.' :: ' ' :: i.2.1 ++ times i.2.2 '\n').head? ≠ some '\n' := by
      cases is with
      | nil => simp
      | cons j js =>
        have := (hok j (his.subset (by simp))).1
        rw [List.flatMap_cons]
        simp
        rintro e
        rw [e] at this
        revert this; decide
    have := LexTo.ordered (r := r) (ig := ig) hb.1 hb.2 (last_empty (gap := fun i => i.2.2) his hn) hnext hts
    simpa using this
  · intro i hi b h
    refine parseToks_cons (st' := { html := h ++ (if b then [] else c!"<ol>\n") ++ (c!"<li>\n" ++ escape i.2.1 ++ c!"</li>\n"), inUl := true, inOl := true }) ?_ ?_
    · cases b <;> simp [parseTok, step1, step2, isBlankPlain, isTab, staysInList, staysInTask, opensPara, closesPara, staysInQuote, isCode,
        PState.push, sanitize_eq_escape]
    · unfold gapToks gapTok
      split
      · rfl
      · refine parseToks_one ?_
        split
        · exact parseTok_blank r _ (by decide)
        · simp [parseTok, step1, step2, isBlankPlain, isTab, staysInList]

/-! ### A heading after a quote -/

theorem parseTok_header_inQ (r : Rec) (n : Nat) (x h : Str) (q : Nat) :
    parseTok r (.header n x none) (inQ h q) = .ok (inQ (h ++ (elem ('h' :: dec n) x ++ c!"\n")) q) := by
  rw [← headerHtml]
  simp [parseTok, step1, step2, isBlankPlain, isTab, staysInList, staysInTask, opensPara, closesPara, staysInQuote, isCode, PState.push]

/-! ### Letters -/

theorem alpha_plain {c : Char} (h : c.isAlpha = true) : c ∉ controlChars ∧ isWs c = false ∧ c ∉ escSpecial := by
  refine ⟨?_, ?_, ?_⟩
  · intro hm
    have : ∀ c ∈ controlChars, c.isAlpha = false := by decide
    rw [this c hm] at h; cases h
  · have h : (65 ≤ c.toNat ∧ c.toNat ≤ 90) ∨ (97 ≤ c.toNat ∧ c.toNat ≤ 122) := by
      simp only [Char.isAlpha, Char.isUpper, Char.isLower, Bool.or_eq_true, Bool.and_eq_true, decide_eq_true_eq, ge_iff_le,
        UInt32.le_iff_toNat_le] at h
      exact h
    simp only [isWs, Bool.or_eq_false_iff, Bool.and_eq_false_iff, decide_eq_false_iff_not, beq_eq_false_iff_ne]
    omega
  · intro hm
    have : ∀ c ∈ escSpecial, c.isAlpha = false := by decide
    rw [this c hm] at h; cases h

end Smd.Gfm
