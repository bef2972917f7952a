import Verif.Lemmas.Fuel
import Verif.Props.Links
import Verif.Spec.Tokens

/-!
What the lexer can produce, at any depth: C06 for documents, C21 to C23; and C20, how the output ends.
`lexWith self ig d` is `Parser::lex(d, ig)`; `lex d` is `Parser::lex(d, &[])`.
-/

namespace Smd.Gfm
open Smd.Rs Smd.Spec

theorem found_of_tokAll {Q : Token → Prop} {ts : List Token} (h : ∀ t ∈ ts, TokAll Q t) {t : Token} (hf : Found ts t) : Q t := by
  suffices TokAll Q t from this.head
  induction hf with
  | here t ht => exact h t ht
  | item l t _ ht ih => exact ih.sub t ht
  | detail sum l t _ ht ih => exact ih.sub t ht
  | cell heads rows row c t _ hr hc ht ih => exact ih.sub t (mem_subToks_table.mpr ⟨row, hr, c, hc, ht⟩)

theorem found_shape {ig : List Char} {d : Str} {ts : List Token} {t : Token} (h : lexWith self ig d = .ok ts)
    (hf : Found ts t) : ∃ m s', s' <:+: d ∧ Shape (recF m) s' t := by
  obtain ⟨m, s', _, h1, h2⟩ := found_of_tokAll (deep_shape _ _ _ _ (lexWith_self_recF h)) hf
  exact ⟨m, s', h1, h2⟩

/-! ### C06 for documents -/

/-- **C06.** No link of any document is given an `href` with the scheme `javascript`. -/
theorem C06_no_javascript_in_documents (ig : List Char) (d : Str) (ts : List Token) (h : lexWith self ig d = .ok ts)
    (u : ValidURL) (title hover : Option Str) (hf : Found ts (.link u title hover)) :
    ¬ eqIgnoreCase (urlScheme u.display) c!"javascript" := by
  obtain ⟨m, s', _, hsh⟩ := found_shape h hf
  cases hsh with
  | link l title hover u hv => exact C06_no_javascript l u hv
  | autolink l u hv => exact C06_no_javascript l u hv

/-! ### C21 -/

/-- **C21.** Every heading has a level from 1 to 6. It comes from a run of that many `#` followed by a space, a tab or
the end of the line. -/
theorem C21_levels (ig : List Char) (d : Str) (ts : List Token) (h : lexWith self ig d = .ok ts) (l : Nat) (t : Str)
    (lbl : Option Str) (hf : Found ts (.header l t lbl)) :
    1 ≤ l ∧ l ≤ 6 ∧ ∃ a c b, c ∈ c!" \t\n" ∧ d = a ++ List.replicate l '#' ++ c :: b := by
  obtain ⟨m, s', hs', hsh⟩ := found_shape h hf
  have key : ∀ n, n = (s'.takeWhile (· == '#')).length → HeadSep s' →
      ∃ a c b, c ∈ c!" \t\n" ∧ d = a ++ List.replicate n '#' ++ c :: b := by
    rintro n hn ⟨c, hc, hh⟩
    obtain ⟨x, y, hxy⟩ := hs'
    have e : s'.takeWhile (· == '#') = List.replicate n '#' := by
      rw [List.eq_replicate_iff]
      refine ⟨hn.symm, fun c hc => ?_⟩
      simpa using mem_takeWhile_true _ _ _ hc
    refine ⟨x, c, (s'.dropWhile (· == '#')).tail ++ y, hc, ?_⟩
    have e2 : s' = List.replicate n '#' ++ c :: (s'.dropWhile (· == '#')).tail := by
      conv => lhs; rw [← split_while (· == '#') s', e]
      congr 1
      cases hd : s'.dropWhile (· == '#') with
      | nil => rw [hd] at hh; cases hh
      | cons a b => rw [hd] at hh; injection hh with hh; subst hh; rfl
    rw [← hxy]
    conv => lhs; rw [e2]
    simp
  cases hsh with
  | headerEmpty n h h1 h6 hsep => exact ⟨h1, h6, key _ h hsep⟩
  | header n arg html h h1 h6 ha hr hsep => exact ⟨h1, h6, key _ h hsep⟩

/-- A run of seven or more `#` is taken as text, whatever follows. -/
theorem C21_seven (r : Rec) (last : Option Token) (n : Nat) (rest : Str) (hn : 7 ≤ n) (hr : rest.head? ≠ some '#') :
    nextToken r [] last (List.replicate n '#' ++ rest) = .ok (some (.plaintext (List.replicate n '#'), rest)) := by
  obtain ⟨k, rfl⟩ : ∃ k, n = k + 1 := ⟨n - 1, by omega⟩
  have e1 : (List.replicate (k + 1) '#' ++ rest).takeWhile (· == '#') = List.replicate (k + 1) '#' := by
    cases rest with
    | nil => rw [List.append_nil]; exact takeWhile_all _ _ (by simp +contextual [List.mem_replicate])
    | cons c cs =>
      exact takeWhile_append_stop _ _ _ (by simpa using hr) _ (by simp +contextual [List.mem_replicate])
  have e2 : (List.replicate (k + 1) '#' ++ rest).dropWhile (· == '#') = rest := by
    cases rest with
    | nil => rw [List.append_nil]; exact dropWhile_all _ _ (by simp +contextual [List.mem_replicate])
    | cons c cs =>
      exact dropWhile_append_stop _ _ _ (by simpa using hr) _ (by simp +contextual [List.mem_replicate])
  have e3 : lexHeading r (List.replicate (k + 1) '#' ++ rest) = .ok (.error (List.replicate (k + 1) '#'), rest) := by
    unfold lexHeading
    simp only [e1, e2]
    rw [if_pos (by simp; omega)]
  have e4 : List.replicate (k + 1) '#' ++ rest = '#' :: (List.replicate k '#' ++ rest) := rfl
  rw [e4] at e3 ⊢
  unfold nextToken lexDispatch
  dsimp only
  rw [if_pos ⟨rfl, rfl⟩, e3]
  rfl

example : ∃ ts, lex c!"## a\n- x\n\t### b\n" = .ok ts ∧ Found ts (.header 2 c!"a" none) ∧ Found ts (.header 3 c!"b" none) := by
  refine ⟨[.header 2 c!"a" none, .plaintext c!"\n",
    .unorderedListEntry [.plaintext c!" x", .header 3 c!"b" none, .plaintext c!"\n"]], by with_unfolding_all rfl, ?_, ?_⟩
  · exact .here _ (by simp)
  · exact .item [.plaintext c!" x", .header 3 c!"b" none, .plaintext c!"\n"] _ (.here _ (by simp)) (by simp)

/-! ### C22 -/

/-- **C22.** Every table has at least one body row, and its header and rows take their alignments, column by column, from
one alignment row (so none has more cells than that). -/
theorem C22_shape (ig : List Char) (d : Str) (ts : List Token) (h : lexWith self ig d = .ok ts)
    (heads : List (Alignment × Str)) (rows : List (List (Alignment × List Token))) (hf : Found ts (.table heads rows)) :
    rows ≠ [] ∧ ∃ aligns : List Alignment, heads.map Prod.fst <+: aligns ∧ ∀ row ∈ rows, row.map Prod.fst <+: aligns := by
  obtain ⟨m, s', hs', hsh⟩ := found_shape h hf
  cases hsh with
  | table heads aligns body rows hh hb hne hp hrows =>
    have pre : ∀ {α : Type} (as : List Alignment) (l : List α), (as.zip l).map Prod.fst <+: as := by
      intro α as
      induction as with
      | nil => intro l; simp
      | cons a as ih =>
        intro l
        cases l with
        | nil => simp
        | cons x l => simpa using ih l
    refine ⟨?_, aligns, pre _ _, ?_⟩
    · rintro rfl
      cases hrows
      exact hne rfl
    · intro row hrow
      clear hb hne hf
      induction hrows with
      | nil => simp at hrow
      | cons h _ ih =>
        rcases List.mem_cons.mp hrow with rfl | hrow
        · obtain ⟨toks, _, rfl⟩ := h
          exact pre _ _
        · exact ih hrow

/-- A table is written only if its first row has as many cells as the header. -/
theorem C22_rendered (r : Rec) (heads : List (Alignment × Str)) (r0 : List (Alignment × List Token))
    (rows : List (List (Alignment × List Token))) (st st' : PState)
    (h : parseTok r (.table heads (r0 :: rows)) st = .ok st') :
    ∃ x, st'.html = st.html ++ x ∧ (c!"<table" <:+: x → heads.length = r0.length) := by
  have h1 : ∃ x, (step1 (.table heads (r0 :: rows)) st).html = st.html ++ x ∧ ¬ c!"<table" <:+: x := by
    obtain ⟨html, q, a, b, c, d, e, f⟩ := st
    cases a <;> cases b <;> cases c <;> cases d <;>
      simp [step1, isBlankPlain, isTab, staysInList, staysInTask, opensPara, closesPara, staysInQuote, isCode,
        PState.ensurePara, PState.push] <;> decide
  obtain ⟨x, h1, h2⟩ := h1
  simp only [parseTok] at h
  by_cases hne : heads.length = r0.length
  · rw [if_neg (by simpa using hne)] at h
    obtain ⟨b0, _, h⟩ := Outcome.bind_ok h
    obtain ⟨bs, _, h⟩ := Outcome.bind_ok h
    injection h with h
    subst h
    have hp : ∀ (s : PState) y, (s.push y).html = s.html ++ y := fun _ _ => rfl
    rw [hp, h1]
    exact ⟨_, List.append_assoc _ _ _, fun _ => hne⟩
  · rw [if_pos hne] at h
    injection h with h
    subst h
    exact ⟨x, h1, fun hx => absurd hx h2⟩

/-- The two cases: a table whose first row fits, and one whose first row has an empty cell; the second is left out. -/
example : render c!"|a|b|\n|-|-|\n|c|d|\n" = .ok (c!"<table class=\"table table-bordered\">\n\t<thead>\n\t<tr>\n" ++
    c!"\t\t<th style=\"text-align: left\">a</th>\t\t<th style=\"text-align: left\">b</th>\t</tr>\n\t</thead>\n\t<tbody>" ++
    c!"\n\t<tr>\n\t\t<td style=\"text-align: left\">c</td>\n\t\t<td style=\"text-align: left\">d</td>\n\t</tr>" ++
    c!"\n\t</tbody>\n</table>\n") := by decide +kernel

example : render c!"|a|b|\n|-|-|\n|c||\n" = .ok c!"\n" := by decide +kernel

/-! ### C23 -/

/-- **C23.** Table cells contain only text, emphasis, code and links. -/
theorem C23_cells_inline (ig : List Char) (d : Str) (ts : List Token) (h : lexWith self ig d = .ok ts)
    (heads : List (Alignment × Str)) (rows : List (List (Alignment × List Token))) (hf : Found ts (.table heads rows))
    (row : List (Alignment × List Token)) (hrow : row ∈ rows) (c : Alignment × List Token) (hc : c ∈ row) (t : Token)
    (ht : t ∈ c.2) :
    (∃ x, t = .plaintext x) ∨ (∃ x, t = .italic x) ∨ (∃ x, t = .bold x) ∨ (∃ x, t = .boldItalic x) ∨ (∃ x, t = .code x) ∨
      ∃ u title hover, t = .link u title hover := by
  obtain ⟨m, s', hs', hsh⟩ := found_shape h hf
  have key : ∀ (l : List Str) (toks : List (List Token)), rowTokens (recF m) l = .ok toks →
      ∀ y ∈ toks, ∀ t ∈ y, t.isUsableInTable = true := by
    intro l
    induction l with
    | nil => intro toks h; injection h with h; subst h; simp
    | cons x xs ih =>
      intro toks h
      unfold rowTokens at h
      obtain ⟨ts, h1, h⟩ := Outcome.bind_ok' h
      obtain ⟨rest, h2, h⟩ := Outcome.bind_ok' h
      injection h with h
      subst h
      intro y hy t ht
      rcases List.mem_cons.mp hy with rfl | hy
      · exact (List.mem_filter.mp ht).2
      · exact ih rest h2 y hy t ht
  have hu : t.isUsableInTable = true := by
    cases hsh with
    | table heads aligns body rows hh hb hne hp hrows =>
      clear hb hne hf
      induction hrows with
      | nil => simp at hrow
      | cons h _ ih =>
        rcases List.mem_cons.mp hrow with rfl | hrow
        · obtain ⟨toks, h1, rfl⟩ := h
          exact key _ _ h1 _ (List.of_mem_zip (a := c.1) (b := c.2) hc).2 t ht
        · exact ih hrow
  cases t <;> simp [Token.isUsableInTable] at hu <;> simp

/-- A table with emphasis, code and a link, inside a details block. -/
example : ∃ ts, lex c!"<details>\n<summary>s</summary>\n|a|b|\n|:-|-:|\n|*c*|`d`|\n</details>" = .ok ts ∧
    Found ts (.table [(.left, c!"a"), (.right, c!"b")] [[(.left, [.italic c!"c"]), (.right, [.code c!"d"])]]) := by
  refine ⟨[.detail c!"s" [.plaintext c!"\n", .table [(.left, c!"a"), (.right, c!"b")]
    [[(.left, [.italic c!"c"]), (.right, [.code c!"d"])]]]], by with_unfolding_all rfl, ?_⟩
  exact .detail c!"s" _ _ (.here _ (List.mem_singleton.mpr rfl)) (by simp)

/-! ### C20 -/

theorem endNl_ends (h : Str) : c!"\n" <:+ endNl h := by
  unfold endNl
  split
  · exact List.suffix_append _ _
  · next hl =>
    rcases List.eq_nil_or_concat h with rfl | ⟨l, a, rfl⟩
    · simp at hl
    · simp at hl
      subst hl
      exact ⟨l, by simp⟩

/-- **C20.** Rendered output is never empty and ends with a newline or with `</code></pre>`. -/
theorem C20_output_ends (d html : Str) (h : render d = .ok html) :
    html ≠ [] ∧ (c!"\n" <:+ html ∨ c!"</code></pre>" <:+ html) := by
  have key : c!"\n" <:+ html ∨ c!"</code></pre>" <:+ html := by
    rw [render_unfold] at h
    obtain ⟨ts, _, h⟩ := Outcome.bind_ok' h
    unfold parseDoc at h
    obtain ⟨st, _, h⟩ := Outcome.bind_ok h
    injection h with h
    subst h
    unfold finish
    dsimp only
    split
    · exact .inl ((show c!"\n" <:+ c!"</div>\n" from ⟨c!"</div>", rfl⟩).trans (List.suffix_append _ _))
    · split
      · exact .inr (List.suffix_append _ _)
      · exact .inl (endNl_ends _)
  refine ⟨?_, key⟩
  rintro rfl
  rcases key with h | h <;> simp at h

example : render [] = .ok c!"\n" := by decide +kernel
example : render c!"`a`" = .ok c!"<pre><code>a\n</code></pre>" := by decide +kernel

end Smd.Gfm
