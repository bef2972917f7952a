import Verif.Lemmas.Windows
import Verif.Props.Forms
import Verif.Props.Failures

/-!
Documents from Windows: lines that end with carriage return and line feed (headings C157, tables C158, other lines C159),
and a byte order mark at the beginning (C160).
-/

namespace Smd.Gfm
open Smd.Rs Smd.Spec

/-! ### C157 Headings -/

/-- **C157, negated** A heading with a label panics if its line ends with carriage return and line feed. -/
theorem C157_refuted : render c!"# a {#b}\r\n" = .panic ∧ render c!"# a {#b}\n" = .ok c!"<h1>b</h1>\n" := by decide +kernel

/-- Every heading with a label does, behind any blocks and whatever follows. -/
theorem C157_refuted_always (bs : List (Block × Nat)) (hg : DocGood (fun s x => render s = .ok x) bs)
    (hgap : ∀ b, bs.getLast? = some b → 2 ≤ b.2) (n : Nat) (text label rest : Str) (h1 : 1 ≤ n) (h6 : n ≤ 6) (hn : '\n' ∉ text ++ label) :
    render (docSrc bs ++ (times n '#' ++ ' ' :: (text ++ c!"{#" ++ label ++ c!"}" ++ c!"\r\n" ++ rest))) = .panic := by
  have := C11_refuted_behind bs hg hgap n (text ++ c!"{#" ++ label ++ c!"}\r") ('\n' :: rest) h1 h6 (by simpa using hn) (.inr ⟨_, rfl⟩)
    ⟨text, label ++ c!"}\r", by simp⟩ (by simp) (by
      rintro ⟨a, b, _, h⟩
      have e1 : (text ++ c!"{#" ++ label ++ c!"}\r").getLast? = some '\r' := by rw [List.getLast?_append]; rfl
      rw [h, List.getLast?_append] at e1
      exact absurd (show some '}' = some '\r' from e1) (by decide))
  simpa using this

example : render c!"# a\n\n## b {#c}\r\nd\r\n" = .panic :=
  C157_refuted_always [(.heading 1 [.word c!"a"], 2)] ⟨by decide, by decide, ⟨word_check (by decide), trivial⟩, by decide,
    by decide, ⟨_, rfl, trivial⟩, ⟨_, rfl, trivial⟩⟩ (by simp) 2 c!"b " c!"c" c!"d\r\n" (by omega) (by omega) (by decide)

/-- **C157, the part that holds** Without a label the carriage return changes nothing, behind any blocks and whatever follows. -/
theorem C157_partial (bs : List (Block × Nat)) (hg : DocGood (fun s x => render s = .ok x) bs)
    (hgap : ∀ b, bs.getLast? = some b → (if b.1.isPara then 2 else 1) ≤ b.2) (n : Nat) (is : List Inline) (rest : Str)
    (h : (Block.heading n is).Good fun s x => render s = .ok x) (hr : InlineGood (some '\r') is) :
    render (docSrc bs ++ (times n '#' ++ ' ' :: (inlineSrc is ++ c!"\r\n" ++ rest))) =
      render (docSrc bs ++ (times n '#' ++ ' ' :: (inlineSrc is ++ c!"\n" ++ rest))) := by
  obtain ⟨h1, h6, hi, hn, hh, hv, hlast⟩ := h
  have he := head_ends hi hv
  have hl := last_ends hi hlast
  have a := LexTo.headingCr (r := self) (sep := ' ') (s := rest) h1 h6 (.inl rfl) hn hh ⟨he.1, hl.1⟩ ⟨he.2, hl.2⟩ (renderIgnore_cr ['#'] hr hv)
  have b := LexTo.headingNl (r := self) (sep := ' ') (s := rest) h1 h6 (.inl rfl) hn hh ⟨he.1, hl.1⟩ ⟨he.2, hl.2⟩ (renderIgnore_inlines ['#'] (inlineGood_none hi) hv)
  obtain ⟨m, rfl⟩ : ∃ m, n = m + 1 := ⟨n - 1, by omega⟩
  have := render_blocks_over hg hgap ⟨'#', _, rfl, by decide, by decide⟩ ⟨'#', _, rfl, by decide, by decide⟩ a b (nextToken_nl_any rest) fun _ => rfl
  rw [List.append_assoc (inlineSrc is), List.append_assoc (inlineSrc is)] at *
  exact this

example : render c!"# *a* b\r\nc" = render c!"# *a* b\nc" :=
  C157_partial [] trivial (by simp) 1 [.em '*' c!"a", .space 1, .word c!"b"] c!"c"
    ⟨by decide, by decide, ⟨⟨.inl rfl, ⟨_, _, rfl, by decide⟩, by decide, by decide⟩, ⟨by decide, by decide, by decide, by decide⟩,
      word_check (by decide), trivial⟩, by decide, by decide, ⟨_, rfl, trivial⟩, ⟨_, rfl, trivial⟩⟩
    ⟨⟨.inl rfl, ⟨_, _, rfl, by decide⟩, by decide, by decide⟩, ⟨by decide, by decide, by decide, by decide⟩, word_check (by decide), trivial⟩

/-! ### C158 Tables -/

/-- **C158, negated** A table has a column too many, or is not shown. -/
theorem C158_refuted : render c!"|a|\r\n|-|\r\n|b|\r\n" = render c!"|a| |\n|-| |\n|b| |\n" ∧ render c!"|a|\r\n|-|\r\n|b|" = .ok c!"\n" := by
  decide +kernel

/-- Every table with carriage returns is the table with an empty column more, whatever follows. -/
theorem C158_refuted_always (head delims : List Str) (rows : List (List Str)) (rest : Str) (hr : rows ≠ [])
    (hc : ∀ l ∈ head :: delims :: rows, l.length = head.length ∧ ∀ c ∈ l, c ≠ [] ∧ '|' ∉ c ∧ '\n' ∉ c) (hrest : rest.head? ≠ some '|') :
    render (((head :: delims :: rows).flatMap fun l => rowSrc l ++ c!"\r\n") ++ rest) =
      render (((head :: delims :: rows).flatMap fun l => rowSrc (l ++ [c!" "]) ++ c!"\n") ++ rest) := by
  let f : List Str → Str := fun l => l.flatMap (· ++ c!"|") ++ c!"\r"
  let g : List Str → Str := fun l => (l ++ [c!" "]).flatMap (· ++ c!"|")
  have hf : ∀ l ∈ head :: delims :: rows, cells (f l) = l ++ [c!"\r"] := fun l hl => by
    have := cells_then (e := c!"\r") (fun x hx => ⟨((hc l hl).2 x hx).1, ((hc l hl).2 x hx).2.1⟩) (by decide)
    simpa using this
  have hgc : ∀ l ∈ head :: delims :: rows, ∀ x ∈ l ++ [c!" "], x ≠ [] ∧ '|' ∉ x ∧ '\n' ∉ x := fun l hl x hx => by
    rcases List.mem_append.mp hx with hx | hx
    · exact (hc l hl).2 x hx
    · rw [List.mem_singleton.mp hx]; decide
  have hg : ∀ l ∈ head :: delims :: rows, cells (g l) = l ++ [c!" "] := fun l hl =>
    cells_row fun x hx => ⟨(hgc l hl x hx).1, (hgc l hl x hx).2.1⟩
  have cf : ∀ l ∈ head :: delims :: rows, countStr c!"|" (f l) = head.length := fun l hl =>
    (split_then (by decide) l fun x hx => ((hc l hl).2 x hx).2.1).2.trans (hc l hl).1
  have cg : ∀ l ∈ head :: delims :: rows, countStr c!"|" (g l) = head.length + 1 := fun l hl =>
    (countStr_pieces _ fun x hx => (hgc l hl x hx).2.1).trans (by simp [(hc l hl).1])
  have nf : ∀ l ∈ head :: delims :: rows, '\n' ∉ f l := fun l hl => by
    simp only [f, List.mem_append, not_or]
    exact ⟨row_no_nl fun x hx => ((hc l hl).2 x hx).2.2, by decide⟩
  have ng : ∀ l ∈ head :: delims :: rows, '\n' ∉ g l := fun l hl => row_no_nl fun x hx => (hgc l hl x hx).2.2
  have pf := lexPipes_lines (r := self) (l0 := f head) (l1 := f delims) (body := rows.map f) (rest := rest) (by simpa using hr)
    (by simpa using nf) (by
      intro l hl
      rw [cf head (by simp)]
      rcases List.mem_cons.mp hl with rfl | hl
      · exact cf delims (by simp)
      · obtain ⟨x, hx, rfl⟩ := List.mem_map.mp hl
        exact cf x (by simp [hx])) hrest
  have pg := lexPipes_lines (r := self) (l0 := g head) (l1 := g delims) (body := rows.map g) (rest := rest) (by simpa using hr)
    (by simpa using ng) (by
      intro l hl
      rw [cg head (by simp)]
      rcases List.mem_cons.mp hl with rfl | hl
      · exact cg delims (by simp)
      · obtain ⟨x, hx, rfl⟩ := List.mem_map.mp hl
        exact cg x (by simp [hx])) hrest
  have ht : ∀ l ∈ head :: delims :: rows, (cells (f l)).map trim = (cells (g l)).map trim := fun l hl => by
    rw [hf l hl, hg l hl, List.map_append, List.map_append]
    rfl
  have ha : (cells (f delims)).map cellAlign = (cells (g delims)).map cellAlign := by
    rw [hf delims (by simp), hg delims (by simp), List.map_append, List.map_append]
    rfl
  rw [ht head (by simp), ha, tableRows_trim (f := f) (g := g) rows fun x hx => ht x (by simp [hx]), ← pg] at pf
  have ef := pipe_lines f (delims :: rows) head rest
  have eg := pipe_lines g (delims :: rows) head rest
  have e1 : ((head :: delims :: rows).flatMap fun l => rowSrc l ++ c!"\r\n") ++ rest =
      ((head :: delims :: rows).flatMap fun x => '|' :: f x ++ c!"\n") ++ rest := by simp [rowSrc, f]
  have e2 : ((head :: delims :: rows).flatMap fun l => rowSrc (l ++ [c!" "]) ++ c!"\n") ++ rest =
      ((head :: delims :: rows).flatMap fun x => '|' :: g x ++ c!"\n") ++ rest := by simp [rowSrc, g]
  rw [e1, e2, ef, eg, List.map_cons, List.map_cons]
  refine render_first ?_
  rw [nextToken_pipe, nextToken_pipe, pf]

example : render c!"|a|b|\r\n|-|-:|\r\n|c|*d*|\r\ne" = render c!"|a|b| |\n|-|-:| |\n|c|*d*| |\ne" :=
  C158_refuted_always [c!"a", c!"b"] [c!"-", c!"-:"] [[c!"c", c!"*d*"]] c!"e" (by simp) (by decide) (by decide)

/-- A table of one row is not shown at all if there is no line end after it. -/
theorem C158_refuted_last (head delims : List Str) (row : List Cell)
    (hc : ∀ l ∈ [head, delims], l.length = row.length ∧ ∀ c ∈ l, c ≠ [] ∧ '|' ∉ c ∧ '\n' ∉ c) (hr : ∀ c ∈ row, c.Good) :
    render (rowSrc head ++ c!"\r\n" ++ rowSrc delims ++ c!"\r\n" ++ rowSrc (row.map Cell.src)) = .ok c!"\n" := by
  have hcell : ∀ c ∈ row.map Cell.src, c ≠ [] ∧ '|' ∉ c ∧ '\n' ∉ c := fun x hx => by
    obtain ⟨c, hc', rfl⟩ := List.mem_map.mp hx
    exact ⟨(hr c hc').nonempty, (hr c hc').chars⟩
  let f : List Str → Str := fun l => l.flatMap (· ++ c!"|") ++ c!"\r"
  have hf : ∀ l ∈ [head, delims], cells (f l) = l ++ [c!"\r"] ∧ countStr c!"|" (f l) = row.length ∧ '\n' ∉ f l := fun l hl => by
    refine ⟨?_, (split_then (by decide) l fun x hx => ((hc l hl).2 x hx).2.1).2.trans (hc l hl).1, ?_⟩
    · have := cells_then (e := c!"\r") (fun x hx => ⟨((hc l hl).2 x hx).1, ((hc l hl).2 x hx).2.1⟩) (by decide)
      rwa [if_neg (by simp)] at this
    · simp only [f, List.mem_append, not_or]
      exact ⟨row_no_nl fun x hx => ((hc l hl).2 x hx).2.2, by decide⟩
  have c0 : cells ((row.map Cell.src).flatMap (· ++ c!"|")) = row.map Cell.src := cells_row fun x hx => ⟨(hcell x hx).1, (hcell x hx).2.1⟩
  have c1 : countStr c!"|" ((row.map Cell.src).flatMap (· ++ c!"|")) = row.length := by
    rw [countStr_pieces _ fun x hx => (hcell x hx).2.1, List.length_map]
  have lines := lexPipes_gen (r := self) (rest := []) (n := 0) (l0 := f head) (l1 := f delims) (body := [(row.map Cell.src).flatMap (· ++ c!"|")]) (by simp)
    (by
      intro l hl
      simp only [List.mem_cons, List.not_mem_nil, or_false] at hl
      rcases hl with rfl | rfl | rfl
      · exact (hf head (by simp)).2.2
      · exact (hf delims (by simp)).2.2
      · exact row_no_nl fun x hx => (hcell x hx).2.2)
    (by
      intro l hl
      simp only [List.mem_cons, List.not_mem_nil, or_false] at hl
      rw [(hf head (by simp)).2.1]
      rcases hl with rfl | rfl
      · exact (hf delims (by simp)).2.1
      · exact c1) (.inr rfl) (.inr (by simp))
  obtain ⟨toks, h1, h2, _⟩ := row_sem hr
  have ht : tableRows self ((delims ++ [c!"\r"]).map cellAlign) [(row.map Cell.src).flatMap (· ++ c!"|")] = .ok [((delims ++ [c!"\r"]).map cellAlign).zip toks] := by
    simp only [tableRows, c0]
    exact bind_eq.mpr ⟨toks, h1, rfl⟩
  rw [(hf head (by simp)).1, (hf delims (by simp)).1, ht] at lines
  have hlex : LexTo self [] (rowSrc head ++ c!"\r\n" ++ rowSrc delims ++ c!"\r\n" ++ rowSrc (row.map Cell.src)) [_] :=
    LexTo.cons (fun last => by
      have := nextToken_pipe (r := self) (ig := []) (last := last) (s := (f head ++ (([f delims, (row.map Cell.src).flatMap (· ++ c!"|")].flatMap fun x => '\n' :: '|' :: x) ++ (times 0 '\n' ++ []))))
      rw [lines] at this
      simpa [rowSrc, f] using this) LexTo.nil
  have := render_of hlex (st := clean []) (by
    rw [parseToks_one]
    simp only [resToken]
    have hstep : ∀ hs rows, step1 (.table hs rows) (clean []) = clean [] := fun hs rows => by
      simp [step1, isBlankPlain, isTab, staysInList, staysInTask, opensPara, closesPara, staysInQuote, isCode]
    have hd := (hc delims (by simp)).1
    have hh := (hc head (by simp)).1
    show parseTok self _ (clean []) = _
    simp only [parseTok, hstep]
    rw [if_pos (by simp [h2, hd, hh])])
  exact this

example : render c!"|a|\r\n|-|\r\n| *b* |" = .ok c!"\n" :=
  C158_refuted_last [c!"a"] [c!"-"] [⟨1, [.em '*' c!"b"], 1⟩] (by decide) fun c hc => by
    rw [List.mem_singleton] at hc
    subst hc
    exact ⟨by decide, by decide, ⟨⟨.inl rfl, ⟨_, _, rfl, by decide⟩, by decide, by decide⟩, trivial⟩, by
      intro i hi
      rw [List.mem_singleton] at hi
      subst hi
      trivial, .inr ⟨⟨_, rfl, trivial⟩, ⟨_, rfl, trivial⟩⟩⟩

/-- **C158, the part that holds** Carriage returns after rows change nothing if there are none after the heading and the
delimiter row, whatever follows. -/
theorem C158_partial (head delims : List Str) (rows : List (List Str × Bool)) (rest : Str) (hr : rows ≠ [])
    (hc : ∀ l ∈ head :: delims :: rows.map Prod.fst, l.length = head.length ∧ ∀ c ∈ l, c ≠ [] ∧ '|' ∉ c ∧ '\n' ∉ c) (hrest : rest.head? ≠ some '|') :
    render (rowSrc head ++ c!"\n" ++ (rowSrc delims ++ c!"\n") ++ (rows.flatMap fun l => rowSrc l.1 ++ (if l.2 then c!"\r\n" else c!"\n")) ++ rest) =
      render (rowSrc head ++ c!"\n" ++ (rowSrc delims ++ c!"\n") ++ (rows.flatMap fun l => rowSrc l.1 ++ c!"\n") ++ rest) := by
  let f : List Str × Bool → Str := fun l => l.1.flatMap (· ++ c!"|") ++ (if l.2 then c!"\r" else [])
  let g : List Str × Bool → Str := fun l => l.1.flatMap (· ++ c!"|")
  let all : List (List Str × Bool) := (head, false) :: (delims, false) :: rows
  have hc : ∀ l ∈ all, l.1.length = head.length ∧ ∀ c ∈ l.1, c ≠ [] ∧ '|' ∉ c ∧ '\n' ∉ c := by
    intro l hl
    simp only [all, List.mem_cons] at hl
    rcases hl with rfl | rfl | hl
    · exact hc _ (by simp)
    · exact hc delims (by simp)
    · exact hc l.1 (by simp only [List.mem_cons, List.mem_map]; exact .inr (.inr ⟨l, hl, rfl⟩))
  have hg : ∀ l ∈ all, cells (g l) = l.1 := fun l hl => cells_row fun x hx => ⟨((hc l hl).2 x hx).1, ((hc l hl).2 x hx).2.1⟩
  have hf : ∀ l ∈ all, cells (f l) = l.1 ++ if l.2 then [c!"\r"] else [] := fun l hl => by
    have := cells_then (e := if l.2 then c!"\r" else []) (fun x hx => ⟨((hc l hl).2 x hx).1, ((hc l hl).2 x hx).2.1⟩) (by cases l.2 <;> decide)
    rw [show cells (f l) = _ from this]
    cases l.2 <;> rfl
  have cf : ∀ l ∈ all, countStr c!"|" (f l) = head.length := fun l hl =>
    (split_then (by cases l.2 <;> decide) l.1 fun x hx => ((hc l hl).2 x hx).2.1).2.trans (hc l hl).1
  have cg : ∀ l ∈ all, countStr c!"|" (g l) = head.length := fun l hl => (countStr_pieces _ fun x hx => ((hc l hl).2 x hx).2.1).trans (hc l hl).1
  have ng : ∀ l ∈ all, '\n' ∉ g l := fun l hl => row_no_nl fun x hx => ((hc l hl).2 x hx).2.2
  have nf : ∀ l ∈ all, '\n' ∉ f l := fun l hl => by
    simp only [f, List.mem_append, not_or]
    exact ⟨ng l hl, by cases l.2 <;> decide⟩
  have lines : ∀ h : List Str × Bool → Str, (∀ l ∈ all, '\n' ∉ h l) → (∀ l ∈ all, countStr c!"|" (h l) = head.length) → _ := fun h h1 h2 =>
    lexPipes_lines (r := self) (l0 := h (head, false)) (l1 := h (delims, false)) (body := rows.map h) (rest := rest) (by simpa using hr)
      (by
        intro l hl
        simp only [List.mem_cons] at hl
        rcases hl with rfl | rfl | hl
        · exact h1 _ (by simp [all])
        · exact h1 _ (by simp [all])
        · obtain ⟨x, hx, rfl⟩ := List.mem_map.mp hl
          exact h1 x (by simp [all, hx])) (by
        intro l hl
        rw [h2 (head, false) (by simp [all])]
        rcases List.mem_cons.mp hl with rfl | hl
        · exact h2 _ (by simp [all])
        · obtain ⟨x, hx, rfl⟩ := List.mem_map.mp hl
          exact h2 x (by simp [all, hx])) hrest
  have pf := lines f nf cf
  have pg := lines g ng cg
  have same : ∀ l : List Str, f (l, false) = g (l, false) := fun l => by simp [f, g]
  rw [same, same, tableRows_more (f := f) (g := g) (lex_of LexTo.nil) rows ?_, ← pg, ← same, ← same] at pf
  · have ef := pipe_lines f ((delims, false) :: rows) (head, false) rest
    have eg := pipe_lines g ((delims, false) :: rows) (head, false) rest
    have e1 : rowSrc head ++ c!"\n" ++ (rowSrc delims ++ c!"\n") ++ (rows.flatMap fun l => rowSrc l.1 ++ (if l.2 then c!"\r\n" else c!"\n")) ++ rest =
        (all.flatMap fun x => '|' :: f x ++ c!"\n") ++ rest := by
      have : (rows.flatMap fun l => rowSrc l.1 ++ (if l.2 then c!"\r\n" else c!"\n")) = rows.flatMap fun x => '|' :: f x ++ c!"\n" := by
        congr 1
        funext l
        cases h : l.2 <;> simp [rowSrc, f, h]
      rw [this]
      simp [all, rowSrc, f]
    have e2 : rowSrc head ++ c!"\n" ++ (rowSrc delims ++ c!"\n") ++ (rows.flatMap fun l => rowSrc l.1 ++ c!"\n") ++ rest =
        (all.flatMap fun x => '|' :: g x ++ c!"\n") ++ rest := by
      simp [all, rowSrc, g]
    rw [e1, e2, ef, eg]
    refine render_first ?_
    rw [nextToken_pipe, nextToken_pipe]
    simp only [List.map_cons] at *
    rw [pf, same, same]
  · intro x hx
    rw [hg x (by simp [all, hx]), hf x (by simp [all, hx]), hg (delims, false) (by simp [all])]
    refine ⟨by simp [(hc x (by simp [all, hx])).1, (hc (delims, false) (by simp [all])).1], ?_⟩
    cases x.2
    · exact .inl (by simp)
    · exact .inr (by rw [if_pos rfl, List.map_append]; rfl)

example : render c!"|a|\n|-|\n|b|\r\n|c|\nd" = render c!"|a|\n|-|\n|b|\n|c|\nd" :=
  C158_partial [c!"a"] [c!"-"] [([c!"b"], true), ([c!"c"], false)] c!"d" (by simp) (by decide) (by decide)

/-! ### C159 Other lines -/

/-- **C159** A carriage return at the end of a line of running text changes nothing, behind any blocks and whatever follows. -/
theorem C159_text (bs : List (Block × Nat)) (hg : DocGood (fun s x => render s = .ok x) bs)
    (hgap : ∀ b, bs.getLast? = some b → (if b.1.isPara then 2 else 1) ≤ b.2) (is : List Inline) (rest : Str)
    (h : InlineGood (some '\r') is) (h' : InlineGood (some '\n') is) (hv : ∃ i, is.head? = some i ∧ i.Visible) (hp : (inlineSrc is).head? ≠ some '|') :
    render (docSrc bs ++ (inlineSrc is ++ c!"\r\n" ++ rest)) = render (docSrc bs ++ (inlineSrc is ++ c!"\n" ++ rest)) := by
  obtain ⟨toks, a, b⟩ := inlines_cr h h' rest
  obtain ⟨⟨y, u, e, hy⟩, _⟩ := head_ends h hv
  have hy1 : y ≠ '\n' := by rintro rfl; revert hy; decide
  have hy2 : y ≠ '|' := by rintro rfl; exact hp (by rw [e]; rfl)
  have := render_blocks_over hg hgap ⟨y, u ++ '\r' :: '\n' :: rest, by rw [e]; rfl, hy1, hy2⟩ ⟨y, u ++ '\n' :: rest, by rw [e]; rfl, hy1, hy2⟩ a b
    (nextToken_nl_any rest) fun x => parse_cr toks _
  rw [List.append_assoc (inlineSrc is), List.append_assoc (inlineSrc is)]
  exact this

example : render c!"# a\nb *c*\r\nd\r\n" = render c!"# a\nb *c*\nd\r\n" :=
  C159_text [(.heading 1 [.word c!"a"], 1)] ⟨by decide, by decide, ⟨word_check (by decide), trivial⟩, by decide,
    by decide, ⟨_, rfl, trivial⟩, ⟨_, rfl, trivial⟩⟩ (by simp [Block.isPara]) [.word c!"b", .space 1, .em '*' c!"c"] c!"d\r\n"
    ⟨word_check (by decide), ⟨by decide, by decide, by decide, by decide⟩, ⟨.inl rfl, ⟨_, _, rfl, by decide⟩, by decide, by decide⟩, trivial⟩
    ⟨word_check (by decide), ⟨by decide, by decide, by decide, by decide⟩, ⟨.inl rfl, ⟨_, _, rfl, by decide⟩, by decide, by decide⟩, trivial⟩
    ⟨_, rfl, trivial⟩ (by decide)

/-- **C159** The same at the end of a thematic break. -/
theorem C159_rule (bs : List (Block × Nat)) (hg : DocGood (fun s x => render s = .ok x) bs)
    (hgap : ∀ b, bs.getLast? = some b → (if b.1.isPara then 2 else 1) ≤ b.2) (n : Nat) (c : Char) (rest : Str)
    (h : (c = '-' ∨ c = '+') ∧ 3 ≤ n ∨ (c = '*' ∨ c = '_') ∧ 4 ≤ n) :
    render (docSrc bs ++ (times n c ++ c!"\r\n" ++ rest)) = render (docSrc bs ++ (times n c ++ c!"\n" ++ rest)) := by
  have a : LexTo (stop := '\n' :: rest) self [] (times n c ++ '\r' :: '\n' :: rest) ([.horizontalRule] ++ [.plaintext c!"\r"]) :=
    LexTo.ruleIn (by
      rcases h with ⟨h1, h2⟩ | ⟨h1, h2⟩
      · exact .inl ⟨h1, h2, by simp, by simp⟩
      · exact .inr ⟨h1, h2, by simp, by simp, by simp⟩) LexTo.cr
  have b : LexTo (stop := '\n' :: rest) self [] (times n c ++ '\n' :: rest) [.horizontalRule] := LexTo.rule h (.inr ⟨rest, rfl⟩) (LexTo.stop _)
  obtain ⟨m, rfl⟩ : ∃ m, n = m + 1 := ⟨n - 1, by omega⟩
  have hc : c ≠ '\n' ∧ c ≠ '|' := by
    rcases h with ⟨rfl | rfl, _⟩ | ⟨rfl | rfl, _⟩ <;> decide
  have := render_blocks_over hg hgap ⟨c, _, rfl, hc⟩ ⟨c, _, rfl, hc⟩ a b (nextToken_nl_any rest) fun x => parse_cr [.horizontalRule] _
  rw [List.append_assoc (times _ c), List.append_assoc (times _ c)]
  exact this

example : render c!"a\n\n---\r\nb" = render c!"a\n\n---\nb" :=
  C159_rule [(.para [.word c!"a"], 2)] ⟨⟨word_check (by decide), trivial⟩, ⟨_, rfl, trivial⟩⟩ (by simp [Block.isPara]) 3 '-' c!"b" (.inl ⟨.inl rfl, by omega⟩)

/-- **C159** A list of bullets with carriage returns at the ends of some or all of its lines is shown as without. -/
theorem C159_bullets (items : List (Char × List Inline × Bool)) (hne : items ≠ []) (hm : ∀ i ∈ items, i.1 = '-' ∨ i.1 = '+' ∨ i.1 = '*')
    (hg : ∀ i ∈ items, InlineGood (some '\r') i.2.1 ∧ InlineGood none i.2.1 ∧ ∃ j, i.2.1.head? = some j ∧ j.Visible) (hn : ∀ i ∈ items, '\n' ∉ inlineSrc i.2.1)
    (hb : ∀ i ∈ items, ∀ x ∈ c!" xX", ¬ ['[', x, ']', ' '] <+: inlineSrc i.2.1) :
    render (items.flatMap fun i => i.1 :: ' ' :: inlineSrc i.2.1 ++ (if i.2.2 then c!"\r\n" else c!"\n")) =
      .ok (elem c!"ul" (c!"\n" ++ items.flatMap fun i => elem c!"li" (c!"\n" ++ elem c!"p" (inlineHtml i.2.1) ++ c!"\n") ++ c!"\n") ++ c!"\n") := by
  have := C28_bullets 0 (items.map fun i => (i.1, inlineSrc i.2.1 ++ (if i.2.2 then c!"\r" else []), 1, elem c!"p" (inlineHtml i.2.1) ++ c!"\n")) (by simpa using hne)
    (by rintro _ hi; obtain ⟨j, hj, rfl⟩ := List.mem_map.mp hi; exact hm j hj)
    (by
      rintro _ hi
      obtain ⟨j, hj, rfl⟩ := List.mem_map.mp hi
      simp only [List.mem_append, not_or]
      exact ⟨hn j hj, by cases j.2.2 <;> decide⟩) (by
      intro i hi
      obtain ⟨j, hj, rfl⟩ := List.mem_map.mp hi
      obtain ⟨⟨y, u, e, hy⟩, _⟩ := head_ends (hg j hj).1 (hg j hj).2.2
      refine ⟨?_, ?_, fun x hx hp => ?_⟩
      · show (inlineSrc j.2.1 ++ _).head? ≠ _
        rw [e]
        simp only [List.cons_append, List.head?_cons, ne_eq, Option.some.injEq]
        rintro rfl
        revert hy
        decide
      · show (inlineSrc j.2.1 ++ _).head? ≠ _
        rw [e]
        simp only [List.cons_append, List.head?_cons, ne_eq, Option.some.injEq]
        rintro rfl
        revert hy
        decide
      · refine hb j hj x hx ?_
        cases hr : j.2.2 with
        | false => simpa [hr] using hp
        | true =>
          simp only [hr, if_true] at hp
          rcases List.prefix_concat_iff.mp hp with hp | hp
          · have := congrArg List.getLast? hp
            simp at this
          · exact hp) (by
      intro i hi
      obtain ⟨j, _, rfl⟩ := List.mem_map.mp (List.mem_of_mem_dropLast hi)
      exact Nat.le_refl 1) (by
      intro i hi
      obtain ⟨j, hj, rfl⟩ := List.mem_map.mp hi
      cases hr : j.2.2 with
      | false => simpa [hr] using render_inlines (hg j hj).2.1 (hg j hj).2.2
      | true => simpa [hr] using render_cr (hg j hj).1 (hg j hj).2.2) (by
      intro i hi
      obtain ⟨j, hj, rfl⟩ := List.mem_map.mp hi
      rw [elem_p]
      exact para_noPre (hg j hj).1)
  rw [List.flatMap_map] at this
  have e : (items.flatMap fun i => i.1 :: ' ' :: inlineSrc i.2.1 ++ (if i.2.2 then c!"\r\n" else c!"\n")) =
      items.flatMap fun i => i.1 :: ' ' :: (inlineSrc i.2.1 ++ (if i.2.2 then c!"\r" else [])) ++ times 1 '\n' := by
    congr 1
    funext i
    cases i.2.2 <;> simp
  rw [e]
  simpa [elem, List.flatMap_map] using this

example : render c!"- a\r\n* *b*\n+ c\r\n" = .ok c!"<ul>\n<li>\n<p>a</p>\n</li>\n<li>\n<p><em>b</em></p>\n</li>\n<li>\n<p>c</p>\n</li>\n</ul>\n" :=
  C159_bullets [('-', [.word c!"a"], true), ('*', [.em '*' c!"b"], false), ('+', [.word c!"c"], true)] (by simp) (by decide) (by
    intro i hi
    simp only [List.mem_cons, List.not_mem_nil, or_false] at hi
    rcases hi with rfl | rfl | rfl
    · exact ⟨⟨word_check (by decide), trivial⟩, ⟨word_check (by decide), trivial⟩, _, rfl, trivial⟩
    · exact ⟨⟨⟨.inl rfl, ⟨_, _, rfl, by decide⟩, by decide, by decide⟩, trivial⟩,
        ⟨⟨.inl rfl, ⟨_, _, rfl, by decide⟩, by decide, by decide⟩, trivial⟩, _, rfl, trivial⟩
    · exact ⟨⟨word_check (by decide), trivial⟩, ⟨word_check (by decide), trivial⟩, _, rfl, trivial⟩) (by decide) (by decide)

/-- **C159** Quoted lines with carriage returns at their ends are shown as without. -/
theorem C159_quotes (lines : List (QuoteLine × List Inline)) (hne : lines ≠ []) (hgood : ∀ l ∈ lines, l.1.Good) (hgap : ∀ l ∈ lines, 1 ≤ l.1.ends)
    (hi : ∀ l ∈ lines, escape l.1.text = inlineSrc l.2 ∧ InlineGood (some '\r') l.2 ∧ InlineGood none l.2 ∧ ∃ j, l.2.head? = some j ∧ j.Visible) :
    render (lines.flatMap fun l => times l.1.level '>' ++ times l.1.spaces ' ' ++ l.1.text ++ c!"\r" ++ times l.1.ends '\n') =
      render (lines.flatMap fun l => times l.1.level '>' ++ times l.1.spaces ' ' ++ l.1.text ++ times l.1.ends '\n') := by
  let out : QuoteLine × List Inline → Str := fun l => detab (elem c!"p" (inlineHtml l.2) ++ c!"\n")
  have drop : ∀ {α : Type} (f : QuoteLine × List Inline → α) (P : α → Prop), (∀ l ∈ lines, P (f l)) → ∀ x ∈ lines.map f, P x := fun f P h x hx => by
    obtain ⟨l, hl, rfl⟩ := List.mem_map.mp hx
    exact h l hl
  have a := C35_lines 0 (lines.map fun l => ((⟨l.1.level, l.1.spaces, l.1.text ++ c!"\r", l.1.ends⟩ : QuoteLine), out l)) (by simpa using hne)
    (drop _ (fun x : QuoteLine × Str => x.1.Good) fun l hl => by
      obtain ⟨h1, h2, h3, h4⟩ := hgood l hl
      obtain ⟨he, hr, _, hv⟩ := hi l hl
      refine ⟨h1, h2, by simpa using h3, ?_⟩
      cases ht : l.1.text with
      | nil => simp
      | cons y u => simpa [ht] using h4)
    (fun x hx => drop _ (fun x : QuoteLine × Str => 1 ≤ x.1.ends) hgap x (List.mem_of_mem_dropLast hx))
    (drop _ (fun x : QuoteLine × Str => ∃ y, render (escape x.1.text) = .ok y ∧ x.2 = detab y) fun l hl => by
      obtain ⟨he, hr, _, hv⟩ := hi l hl
      refine ⟨_, ?_, rfl⟩
      show render (escape (l.1.text ++ c!"\r")) = _
      rw [escape_append, he]
      exact render_cr hr hv)
  have b := C35_lines 0 (lines.map fun l => (l.1, out l)) (by simpa using hne) (drop _ (fun x : QuoteLine × Str => x.1.Good) hgood)
    (fun x hx => drop _ (fun x : QuoteLine × Str => 1 ≤ x.1.ends) hgap x (List.mem_of_mem_dropLast hx))
    (drop _ (fun x : QuoteLine × Str => ∃ y, render (escape x.1.text) = .ok y ∧ x.2 = detab y) fun l hl => by
      obtain ⟨he, _, hr, hv⟩ := hi l hl
      refine ⟨_, ?_, rfl⟩
      show render (escape l.1.text) = _
      rw [he]
      exact render_inlines hr hv)
  have e1 : ∀ (ls : List (QuoteLine × List Inline)) q, quoteHtml q (ls.map fun l => ((⟨l.1.level, l.1.spaces, l.1.text ++ c!"\r", l.1.ends⟩ : QuoteLine), out l)) =
      quoteHtml q (ls.map fun l => (l.1, out l)) := by
    intro ls
    induction ls with
    | nil => intro q; rfl
    | cons l ls ih => intro q; simp only [List.map_cons, quoteHtml, ih]
  have e2 : quoteEnd 0 (lines.map fun l => ((⟨l.1.level, l.1.spaces, l.1.text ++ c!"\r", l.1.ends⟩ : QuoteLine), out l)) =
      quoteEnd 0 (lines.map fun l => (l.1, out l)) := by
    simp only [quoteEnd, List.getLast?_map, Option.map_map]
    rfl
  rw [e1, e2, ← b] at a
  simpa [List.flatMap_map, QuoteLine.src] using a

example : render c!"> a\r\n>> b\r\n" = render c!"> a\n>> b\n" :=
  C159_quotes [(⟨1, 1, c!"a", 1⟩, [.word c!"a"]), (⟨2, 1, c!"b", 1⟩, [.word c!"b"])] (by simp) (by
    intro l hl
    simp only [List.mem_cons, List.not_mem_nil, or_false] at hl
    rcases hl with rfl | rfl <;> constructor <;> decide) (by decide) (by
    intro l hl
    simp only [List.mem_cons, List.not_mem_nil, or_false] at hl
    rcases hl with rfl | rfl
    · exact ⟨by decide, ⟨word_check (by decide), trivial⟩, ⟨word_check (by decide), trivial⟩, _, rfl, trivial⟩
    · exact ⟨by decide, ⟨word_check (by decide), trivial⟩, ⟨word_check (by decide), trivial⟩, _, rfl, trivial⟩)

/-! ### C160 The byte order mark -/

/-- **C160, negated** The mark is shown, and what is behind it is not at the beginning of a line. -/
theorem C160_refuted : render c!"\uFEFFa" = .ok c!"<p>\uFEFFa</p>\n" ∧ render c!"\uFEFF# a" = .ok c!"<p>\uFEFF</p>\n<h1>a</h1>\n" ∧
    render c!"\uFEFF- a" = .ok c!"<p>\uFEFF<ul>\n<li>\n<p>a</p>\n</li>\n</p>\n</ul>\n" := by decide +kernel

/-- In front of every running text. -/
theorem C160_refuted_always (is : List Inline) (h : InlineGood none is) :
    render ('\uFEFF' :: inlineSrc is) = .ok (elem c!"p" ('\uFEFF' :: inlineHtml is) ++ c!"\n") := by
  have := render_inlines (is := .word c!"\uFEFF" :: is) ⟨word_check (by decide), h⟩ ⟨_, rfl, trivial⟩
  have e : inlineHtml (.word c!"\uFEFF" :: is) = '\uFEFF' :: inlineHtml is := by
    show escape c!"\uFEFF" ++ inlineHtml is = _
    rw [show escape c!"\uFEFF" = c!"\uFEFF" by decide]
    rfl
  rw [e] at this
  exact this

example : render c!"\uFEFFa *b*" = .ok c!"<p>\uFEFFa<em>b</em></p>\n" :=
  C160_refuted_always [.word c!"a", .space 1, .em '*' c!"b"] ⟨word_check (by decide), ⟨by decide, by decide, by decide, by decide⟩,
    ⟨.inl rfl, ⟨_, _, rfl, by decide⟩, by decide, by decide⟩, trivial⟩

/-- In front of every heading it is a paragraph of its own. -/
theorem C160_refuted_heading (n : Nat) (is : List Inline) (h : (Block.heading n is).Good fun s x => render s = .ok x) :
    render ('\uFEFF' :: (times n '#' ++ ' ' :: inlineSrc is)) = .ok (elem c!"p" c!"\uFEFF" ++ c!"\n" ++ (elem ('h' :: dec n) (inlineHtml is) ++ c!"\n")) :=
  C75_refuted_always n [.word c!"\uFEFF"] is ⟨word_check (by decide), trivial⟩ ⟨_, rfl, trivial⟩ h

example : render c!"\uFEFF## a" = .ok c!"<p>\uFEFF</p>\n<h2>a</h2>\n" :=
  C160_refuted_heading 2 [.word c!"a"] ⟨by decide, by decide, ⟨word_check (by decide), trivial⟩, by decide, by decide, ⟨_, rfl, trivial⟩, ⟨_, rfl, trivial⟩⟩

end Smd.Gfm
