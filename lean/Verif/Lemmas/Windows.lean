import Verif.Lemmas.Signs
import Verif.Lemmas.Leading
import Verif.Lemmas.Fail
import Verif.Lemmas.Headings
import Verif.Lemmas.Inside

/-! Carriage returns at the ends of lines. -/

namespace Smd.Gfm
open Smd.Rs Smd.Spec

variable {r : Rec} {ig : List Char} {rest : Str} {ts : List Token} {stop : Str}

/-! ### Documents that differ in front of a common rest -/

/-- If two texts are lexed up to the same rest, to tokens that do the same, they are rendered alike. -/
theorem render_over {s s' : Str} {ts' : List Token} (h : LexTo (stop := stop) self [] s ts) (h' : LexTo (stop := stop) self [] s' ts')
    (hn : nextToken self [] ts.getLast? stop = nextToken self [] ts'.getLast? stop) (hp : parseToks self ts {} = parseToks self ts' {}) :
    render s = render s' := by
  have e := (h none).loop (s.length + 1) [] rfl (by omega)
  have e' := (h' none).loop (s'.length + 1) [] rfl (by omega)
  have ho := lexLoop_over (r := self) (ig := []) (pre := ts) (pre' := ts') (stop.length + 1) (stop.length + 1) [] stop (by omega) (by omega) (fun _ => hn)
  rw [List.nil_append] at e e'
  rw [List.append_nil, List.append_nil] at ho
  rw [render_unfold, render_unfold]
  unfold lexWith
  rw [e, e']
  cases hx : lexLoop self [] (stop.length + 1) ts stop with
  | ok out =>
    obtain ⟨u, rfl, _⟩ := lexLoop_ok _ _ _ _ _ _ hx
    cases hy : lexLoop self [] (stop.length + 1) ts' stop with
    | ok out' =>
      obtain ⟨u', rfl, _⟩ := lexLoop_ok _ _ _ _ _ _ hy
      rw [hx, hy] at ho
      have hu : u = u' := by simpa using ho
      subst hu
      simp only [Outcome.ok_bind, parseDoc]
      rw [parseToks_append, parseToks_append, hp]
    | panic => rw [hx, hy] at ho; cases ho
    | hang => rw [hx, hy] at ho; cases ho
    | fuelOut => rw [hx, hy] at ho; cases ho
  | panic =>
    rw [hx] at ho
    cases hy : lexLoop self [] (stop.length + 1) ts' stop with
    | panic => rfl
    | ok out' => rw [hy] at ho; cases ho
    | hang => rw [hy] at ho; cases ho
    | fuelOut => rw [hy] at ho; cases ho
  | hang =>
    rw [hx] at ho
    cases hy : lexLoop self [] (stop.length + 1) ts' stop with
    | hang => rfl
    | ok out' => rw [hy] at ho; cases ho
    | panic => rw [hy] at ho; cases ho
    | fuelOut => rw [hy] at ho; cases ho
  | fuelOut =>
    rw [hx] at ho
    cases hy : lexLoop self [] (stop.length + 1) ts' stop with
    | fuelOut => rfl
    | ok out' => rw [hy] at ho; cases ho
    | hang => rw [hy] at ho; cases ho
    | panic => rw [hy] at ho; cases ho

/-- The same behind blocks. -/
theorem render_blocks_over {bs : List (Block × Nat)} {s s' : Str} {ts' : List Token} (hg : DocGood RendersTo bs)
    (hgap : ∀ b, bs.getLast? = some b → endGap b.1 ≤ b.2) (hs : ∃ c u, s = c :: u ∧ c ≠ '\n' ∧ c ≠ '|') (hs' : ∃ c u, s' = c :: u ∧ c ≠ '\n' ∧ c ≠ '|')
    (h : LexTo (stop := stop) self [] s ts) (h' : LexTo (stop := stop) self [] s' ts')
    (hn : ∀ l l', nextToken self [] l stop = nextToken self [] l' stop) (hp : ∀ x, parseToks self ts (clean x) = parseToks self ts' (clean x)) :
    render (docSrc bs ++ s) = render (docSrc bs ++ s') := by
  by_cases hb : bs = []
  · subst hb
    exact render_over h h' (hn _ _) (hp [])
  · obtain ⟨c, u, rfl, h1, h2⟩ := hs
    obtain ⟨c', u', rfl, h1', h2'⟩ := hs'
    obtain ⟨toks, hl, ht⟩ := blocks_sem (rest := c :: u) (by simpa using h1) (by simpa using h2) h bs hg hb (.inr hgap)
    obtain ⟨toks', hl', ht'⟩ := blocks_sem (rest := c' :: u') (by simpa using h1') (by simpa using h2') h' bs hg hb (.inr hgap)
    refine render_over hl hl' (hn _ _) ?_
    have e := ht {} [] (.inl rfl)
    have e' := ht' {} [] (.inl rfl)
    rcases e with e | ⟨e, _⟩
    · rcases e' with e' | ⟨e', _⟩
      · rw [parseToks_append, parseToks_append, e, e']
        exact hp _
      · cases e'
    · cases e

theorem nextToken_nl_any (s : Str) (l l' : Option Token) : nextToken self [] l ('\n' :: s) = nextToken self [] l' ('\n' :: s) := by
  rw [nextToken_nl, nextToken_nl]

/-- A carriage return in front of a line feed does nothing. -/
theorem LexTo.cr {s : Str} : LexTo (stop := '\n' :: s) r ig ('\r' :: '\n' :: s) [.plaintext c!"\r"] :=
  .cons (fun last => nextToken_cr r ig last _) (LexTo.stop _)

theorem parse_cr (a : List Token) (st : PState) : parseToks self (a ++ [.plaintext c!"\r"]) st = parseToks self a st := by
  rw [parseToks_append]
  cases h : parseToks self a st with
  | ok x =>
    show parseToks self [.plaintext c!"\r"] x = _
    exact parseToks_one (parseTok_blank self x (by decide))
  | panic => rfl
  | hang => rfl
  | fuelOut => rfl

/-- Running text. -/
theorem inlines_cr {is : List Inline} (h : InlineGood (some '\r') is) (h' : InlineGood (some '\n') is) (s : Str) : ∃ toks,
    LexTo (stop := '\n' :: s) self [] (inlineSrc is ++ '\r' :: '\n' :: s) (toks ++ [.plaintext c!"\r"]) ∧
    LexTo (stop := '\n' :: s) self [] (inlineSrc is ++ '\n' :: s) toks := by
  obtain ⟨toks, hl, _, _⟩ := inlines_sem h
  refine ⟨toks, hl self [] _ _ h LexTo.cr, ?_⟩
  have := hl self [] ('\n' :: s) [] h' (LexTo.stop _)
  rwa [List.append_nil] at this

/-- Running text with a carriage return at the end of the document. -/
theorem renderIgnore_cr {is : List Inline} (ig : List Char) (h : InlineGood (some '\r') is) (hv : ∃ i, is.head? = some i ∧ i.Visible) :
    renderIgnore ig (inlineSrc is ++ c!"\r") = .ok (c!"<p>" ++ inlineHtml is ++ c!"</p>\n") := by
  obtain ⟨toks, hl, _, ho⟩ := inlines_sem h
  have := hl self ig c!"\r" [.plaintext c!"\r"] h (LexTo.cons (fun last => nextToken_cr self ig last []) LexTo.nil)
  rw [renderIgnore_of this (by rw [parse_cr]; exact (ho hv).clean self []), finish_inP]
  simp

theorem render_cr {is : List Inline} (h : InlineGood (some '\r') is) (hv : ∃ i, is.head? = some i ∧ i.Visible) :
    render (inlineSrc is ++ c!"\r") = .ok (elem c!"p" (inlineHtml is) ++ c!"\n") := by
  rw [elem_p]
  exact renderIgnore_cr [] h hv

/-! ### Headings -/

theorem headingTrim_cr {s : Str} {a : Char} {u : Str} (h : s = u ++ [a]) (ha : isWs a = false) (hh : '#' ∉ s) :
    headingTrim (s ++ c!"\r") = s ++ c!"\r" := by
  have e0 := headingTrim_id h ha hh
  have e : trimEnd (s ++ c!"\r") = trimEnd s := trimEndP_blank (by decide) s
  have e1 : trimEnd s = s := trimEnd_id h ha
  unfold headingTrim
  rw [e, e1]
  split
  · next l t ht =>
    have e2 := rsplit_right ht
    rw [if_neg]
    intro hall
    rw [List.all_eq_true] at hall
    cases t with
    | nil =>
      rw [h] at e2
      have := congrArg List.getLast? e2
      simp at this
      subst this
      revert ha; decide
    | cons d t =>
      have hd : d = '#' := by simpa using hall d (by simp)
      exact hh (by rw [e2, hd]; simp)
  · rfl

theorem LexTo.headingCr {n : Nat} {sep : Char} {line x s : Str} (h1 : 1 ≤ n) (h6 : n ≤ 6) (hsep : sep = ' ' ∨ sep = '\t') (hn : '\n' ∉ line) (hh : '#' ∉ line)
    (he : Ends line) (hx : Ends x) (hrender : r.render ['#'] (line ++ c!"\r") = .ok (c!"<p>" ++ x ++ c!"</p>\n")) :
    LexTo (stop := '\n' :: s) r [] (times n '#' ++ sep :: (line ++ c!"\r" ++ '\n' :: s)) [.header n x none] := by
  obtain ⟨⟨a, u, e1, ha⟩, b, v, e2, hb⟩ := he
  refine LexTo.header h1 (lexHeading_trim h6 hsep (by simpa using hn) (.inr ⟨s, rfl⟩) (headingLabel_none (.inl fun hi => ?_)) ⟨a, by simp [e1], ?_⟩ ?_ hrender
    (headingPost_p hx)) (LexTo.stop _)
  · have := hi.subset (by simp : '#' ∈ c!"{#")
    simp [hh] at this
  · rintro rfl
    exact hh (by simp [e1])
  · rw [headingTrim_cr e2 hb hh]
    exact trimEnd_id (u := line) (a := '\r') rfl (by decide)

theorem LexTo.headingNl {n : Nat} {sep : Char} {line x s : Str} (h1 : 1 ≤ n) (h6 : n ≤ 6) (hsep : sep = ' ' ∨ sep = '\t') (hn : '\n' ∉ line) (hh : '#' ∉ line)
    (he : Ends line) (hx : Ends x) (hrender : r.render ['#'] line = .ok (c!"<p>" ++ x ++ c!"</p>\n")) :
    LexTo (stop := '\n' :: s) r [] (times n '#' ++ sep :: (line ++ '\n' :: s)) [.header n x none] := by
  obtain ⟨⟨a, u, e1, ha⟩, b, v, e2, hb⟩ := he
  refine LexTo.header h1 (lexHeading_trim h6 hsep hn (.inr ⟨s, rfl⟩) (headingLabel_none (.inl fun hi => ?_)) ⟨a, by simp [e1], ?_⟩ ?_ hrender
    (headingPost_p hx)) (LexTo.stop _)
  · exact hh (hi.subset (by simp : '#' ∈ c!"{#"))
  · rintro rfl
    exact hh (by simp [e1])
  · rw [headingTrim_id e2 hb hh]
    refine trimEnd_id e2 ?_
    have e1 : b ≠ ' ' := by rintro rfl; revert hb; decide
    have e2 : b ≠ '\t' := by rintro rfl; revert hb; decide
    simp [e1, e2]

/-! ### Tables -/

theorem splitGo_last {c : Char} : ∀ (x : Str), c ∉ x → splitGo [c] 0 x = [x]
  | [], _ => rfl
  | a :: x, h => by
    have h1 : c ≠ a := fun e => h (by simp [e])
    rw [splitGo, if_neg (by simp [List.isPrefixOf, h1]), splitGo_last x (fun hm => h (List.mem_cons_of_mem a hm))]
    rfl

theorem countGo_last {c : Char} : ∀ (x : Str), c ∉ x → countGo [c] 0 x = 0
  | [], _ => rfl
  | a :: x, h => by
    have h1 : c ≠ a := fun e => h (by simp [e])
    rw [countGo, if_neg (by simp [List.isPrefixOf, h1]), countGo_last x (fun hm => h (List.mem_cons_of_mem a hm))]

theorem split_then {c : Char} {e : Str} (he : c ∉ e) : ∀ (xs : List Str), (∀ x ∈ xs, c ∉ x) →
    splitStr [c] (xs.flatMap (· ++ [c]) ++ e) = xs ++ [e] ∧ countStr [c] (xs.flatMap (· ++ [c]) ++ e) = xs.length
  | [], _ => ⟨splitGo_last e he, countGo_last e he⟩
  | x :: xs, h => by
    have ih := split_then he xs (fun y hy => h y (by simp [hy]))
    unfold splitStr countStr at ih ⊢
    rw [List.flatMap_cons, List.append_assoc, List.append_assoc, List.singleton_append, splitGo_piece _ _ (h x (by simp)), ih.1,
      countGo_piece _ _ (h x (by simp)), ih.2]
    exact ⟨rfl, rfl⟩

/-- The cells of a line with something after the last bar. -/
theorem cells_then {xs : List Str} {e : Str} (h : ∀ x ∈ xs, x ≠ [] ∧ '|' ∉ x) (he : '|' ∉ e) :
    cells (xs.flatMap (· ++ c!"|") ++ e) = xs ++ (if e = [] then [] else [e]) := by
  unfold cells
  rw [(split_then he xs fun x hx => (h x hx).2).1, List.filter_append]
  have : xs.filter (fun x => decide (x ≠ [])) = xs := List.filter_eq_self.mpr fun x hx => by simp [(h x hx).1]
  rw [this]
  by_cases hn : e = [] <;> simp [hn]

/-- The lines of a table. -/
theorem lexPipes_gen {n : Nat} {l0 l1 : Str} {body : List Str} (hb : body ≠ []) (hn : ∀ l ∈ l0 :: l1 :: body, '\n' ∉ l)
    (hc : ∀ l ∈ l1 :: body, countStr c!"|" l = countStr c!"|" l0) (hn1 : 1 ≤ n ∨ rest = []) (hr : 2 ≤ n ∨ rest.head? ≠ some '|') :
    lexPipes r ('|' :: (l0 ++ (((l1 :: body).flatMap fun x => '\n' :: '|' :: x) ++ (times n '\n' ++ rest)))) =
      (tableRows r ((cells l1).map cellAlign) body >>= fun rows =>
        .ok (.ok (.table (((cells l1).map cellAlign).zip ((cells l0).map trim)) rows), times (n - 1) '\n' ++ rest)) := by
  have hp := pipeLines_eq (rest := rest) (n := n) hn1 hr (l1 :: body) l0
    ('|' :: (l0 ++ (((l1 :: body).flatMap fun x => '\n' :: '|' :: x) ++ (times n '\n' ++ rest)))).length (by
      have : ∀ l : List Str, l.length ≤ (l.flatMap fun x => '\n' :: '|' :: x).length := by
        intro l
        induction l with
        | nil => simp
        | cons a l ih => simp only [List.flatMap_cons, List.length_append, List.length_cons] at ih ⊢; omega
      have := this (l1 :: body)
      simp only [List.length_cons, List.length_append] at this ⊢
      omega) (hn l0 (by simp)) (fun x hx => hn x (by simp [List.mem_cons.mp hx]))
  unfold lexPipes
  simp only [hp]
  have hl : 1 ≤ body.length := List.length_pos_iff.mpr hb
  rw [if_neg (by simp; omega), if_neg (by
    simp only [Bool.not_eq_true', Bool.not_eq_false, List.all_eq_true, beq_iff_eq]
    intro l hl
    rcases List.mem_cons.mp hl with rfl | hl
    · rfl
    · exact hc l hl)]

theorem lexPipes_lines {l0 l1 : Str} {body : List Str} (hb : body ≠ []) (hn : ∀ l ∈ l0 :: l1 :: body, '\n' ∉ l)
    (hc : ∀ l ∈ l1 :: body, countStr c!"|" l = countStr c!"|" l0) (hr : rest.head? ≠ some '|') :
    lexPipes r ('|' :: (l0 ++ (((l1 :: body).flatMap fun x => '\n' :: '|' :: x) ++ ('\n' :: rest)))) =
      (tableRows r ((cells l1).map cellAlign) body >>= fun rows =>
        .ok (.ok (.table (((cells l1).map cellAlign).zip ((cells l0).map trim)) rows), rest)) :=
  lexPipes_gen (n := 1) hb hn hc (.inl (by omega)) (.inr hr)

/-- Lines one after the other. -/
theorem pipe_lines {α : Type} (f : α → Str) (ls : List α) (x : α) (rest : Str) :
    ((x :: ls).flatMap fun x => '|' :: f x ++ c!"\n") ++ rest = '|' :: (f x ++ (((ls.map f).flatMap fun x => '\n' :: '|' :: x) ++ ('\n' :: rest))) := by
  have more : ∀ (ls : List α) (x : Str), x ++ (c!"\n" ++ (ls.flatMap fun x => '|' :: f x ++ c!"\n") ++ rest) =
      x ++ (((ls.map f).flatMap fun x => '\n' :: '|' :: x) ++ ('\n' :: rest)) := by
    intro ls
    induction ls with
    | nil => intro x; simp
    | cons l ls ih =>
      intro x
      have := ih (x ++ '\n' :: '|' :: f l)
      simpa using this
  have := more ls ('|' :: f x)
  simpa using this

/-- The rows depend on the cells without white space around them. -/
theorem tableRows_trim {α : Type} {as : List Alignment} {f g : α → Str} : ∀ (xs : List α), (∀ x ∈ xs, (cells (f x)).map trim = (cells (g x)).map trim) →
    tableRows r as (xs.map f) = tableRows r as (xs.map g)
  | [], _ => rfl
  | x :: xs, h => by
    simp only [List.map_cons, tableRows]
    rw [h x (by simp), tableRows_trim xs fun y hy => h y (by simp [hy])]

theorem rowTokens_last (hl : r.lex [] = .ok []) : ∀ es : List Str, rowTokens r (es ++ [[]]) = rowTokens r es >>= fun row => .ok (row ++ [[]])
  | [] => by
    simp only [List.nil_append, rowTokens, hl]
    rfl
  | e :: es => by
    simp only [List.cons_append, rowTokens, rowTokens_last hl es]
    cases r.lex e with
    | ok ts =>
      simp only [Outcome.ok_bind]
      cases rowTokens r es with
      | ok row => rfl
      | panic => rfl
      | hang => rfl
      | fuelOut => rfl
    | panic => rfl
    | hang => rfl
    | fuelOut => rfl

theorem rowTokens_length : ∀ {es : List Str} {row : List (List Token)}, rowTokens r es = .ok row → row.length = es.length
  | [], row, h => by cases h; rfl
  | e :: es, row, h => by
    simp only [rowTokens] at h
    obtain ⟨ts, _, h⟩ := bind_eq.mp h
    obtain ⟨row', h', h⟩ := bind_eq.mp h
    cases h
    simp [rowTokens_length h']

/-- An empty cell more than there are columns is dropped. -/
theorem tableRows_more {α : Type} (hl : r.lex [] = .ok []) {as : List Alignment} {f g : α → Str} : ∀ (xs : List α),
    (∀ x ∈ xs, (cells (g x)).length = as.length ∧ ((cells (f x)).map trim = (cells (g x)).map trim ∨ (cells (f x)).map trim = (cells (g x)).map trim ++ [[]])) →
    tableRows r as (xs.map f) = tableRows r as (xs.map g)
  | [], _ => rfl
  | x :: xs, h => by
    have ih := tableRows_more hl (as := as) (f := f) (g := g) xs fun y hy => h y (by simp [hy])
    simp only [List.map_cons, tableRows]
    rw [ih]
    obtain ⟨h1, h2 | h2⟩ := h x (by simp)
    · rw [h2]
    · rw [h2, rowTokens_last hl]
      cases hx : rowTokens r ((cells (g x)).map trim) with
      | ok row =>
        have hlen := rowTokens_length hx
        rw [List.length_map, h1] at hlen
        have hz : as.zip (row ++ [[]]) = as.zip row := by
          have := List.zip_append (l₁ := as) (r₁ := []) (l₂ := row) (r₂ := [[]]) hlen.symm
          simpa using this
        simp only [Outcome.ok_bind, hz]
      | panic => rfl
      | hang => rfl
      | fuelOut => rfl

end Smd.Gfm
