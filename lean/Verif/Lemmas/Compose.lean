import Verif.Lemmas.Trailing
import Verif.Lemmas.Leading

/-! Documents one after the other: the renderer at rest goes on as from the start. -/

namespace Smd.Gfm
open Smd.Rs Smd.Spec

variable {r : Rec}

/-- The same state with `h` in front of what has been written. -/
def PState.pre (h : Str) (st : PState) : PState := { st with html := h ++ st.html }

theorem pre_push (h x : Str) (st : PState) : (st.pre h).push x = (st.push x).pre h := by
  simp [PState.pre, PState.push]

theorem pre_ite (h : Str) {p : Prop} [Decidable p] (x y : PState) : (if p then x.pre h else y.pre h) = (if p then x else y).pre h := by
  split <;> rfl

theorem pre_para (h : Str) (st : PState) : (st.pre h).ensurePara = st.ensurePara.pre h := by
  unfold PState.ensurePara
  show (if (!st.inPara) = true then _ else _) = _
  split
  · exact pre_push h _ { st with inPara := true }
  · rfl

theorem step1_pre (h : Str) (t : Token) (st : PState) : step1 t (st.pre h) = (step1 t st).pre h := by
  unfold step1
  simp only [← pre_ite, ← pre_para, ← pre_push]
  rfl

theorem step2_pre (h : Str) (t : Token) (st : PState) : step2 r t (st.pre h) = (step2 r t st).bind fun s => .ok (s.pre h) := by
  cases t with
  | plaintext t => unfold step2; dsimp only; split <;> simp [Outcome.bind, PState.pre, PState.push]
  | blockQuote l t =>
    obtain ⟨html, q, task, para, ol, ul, code, refs⟩ := st
    cases para <;> simp only [step2, quoteStep, PState.pre, if_true, if_false, Bool.false_eq_true] <;> split
    all_goals first
      | (simp only [Outcome.bind, PState.push, List.append_assoc]; done)
      | (show Outcome.bind _ _ = Outcome.bind (Outcome.bind _ _) _
         cases r.render [] (sanitize (trimStartP (· == ' ') t)) <;> simp only [Outcome.bind, PState.push, List.append_assoc])
  | unorderedListEntry toks =>
    obtain ⟨html, q, task, para, ol, ul, code, refs⟩ := st
    cases ul <;> simp only [step2, PState.pre, Bool.not_true, Bool.not_false, if_true, if_false, Bool.false_eq_true] <;> split
    all_goals
      show Outcome.bind _ _ = Outcome.bind (Outcome.bind _ _) _
      cases entryOut r toks <;> simp only [Outcome.bind, PState.push, List.append_assoc]
  | orderedListEntry t =>
    obtain ⟨html, q, task, para, ol, ul, code, refs⟩ := st
    cases ol <;> simp only [step2, PState.pre, Bool.not_true, Bool.not_false, if_true, if_false, Bool.false_eq_true, Outcome.bind, PState.push, List.append_assoc]
  | taskListItem c t =>
    obtain ⟨html, q, task, para, ol, ul, code, refs⟩ := st
    cases task <;> simp only [step2, PState.pre, Bool.not_true, Bool.not_false, if_true, if_false, Bool.false_eq_true, Outcome.bind, PState.push, List.append_assoc]
  | _ => simp [step2, Outcome.bind, PState.pre, PState.push]

theorem Outcome.bind_assoc' {α β γ : Type} (x : Outcome α) (f : α → Outcome β) (g : β → Outcome γ) :
    (x.bind f).bind g = x.bind fun a => (f a).bind g := by
  cases x <;> rfl

theorem parseTok_pre (h : Str) (t : Token) (st : PState) : parseTok r t (st.pre h) = (parseTok r t st).bind fun s => .ok (s.pre h) := by
  cases t with
  | detail s i =>
    simp only [parseTok, step1_pre, Outcome.bind_assoc']
    congr 1
    funext a
    simp only [Outcome.bind]
    generalize step1 (Token.detail s i) st = st1
    congr 1
    cases h1 : st1.inPara <;> simp [PState.pre, PState.push, h1]
  | table hs rows =>
    cases rows with
    | nil => simp [parseTok, Outcome.bind]
    | cons r0 rs =>
      simp only [parseTok, step1_pre]
      split
      · rfl
      · simp only [Outcome.bind_assoc']
        congr 1
        funext a
        congr 1
        funext b
        simp only [Outcome.bind, pre_push]
  | _ =>
    rw [parseTok, parseTok, step1_pre, step2_pre]
    all_goals simp

theorem parseToks_pre (h : Str) : ∀ (ts : List Token) (st : PState), parseToks r ts (st.pre h) = (parseToks r ts st).bind fun s => .ok (s.pre h)
  | [], st => rfl
  | t :: ts, st => by
    simp only [parseToks, parseTok_pre, Outcome.bind_assoc']
    congr 1
    funext a
    simp only [Outcome.bind]
    exact parseToks_pre h ts a

theorem endNl_append (x : Str) {g : Str} (hg : g ≠ []) : endNl (x ++ g) = x ++ endNl g := by
  unfold endNl
  have : (x ++ g).getLast? = g.getLast? := by
    rw [List.getLast?_append]
    cases h : g.getLast? with
    | none => exact absurd (List.getLast?_eq_none_iff.mp h) hg
    | some a => rfl
  rw [this]
  split
  · rw [List.append_assoc]
  · rfl

/-- The output with the tags that are still open closed, but those of code. -/
def PState.closed (st : PState) : Str :=
  let h := st.html
  let h := if st.inPara then h ++ c!"</p>\n" else h
  let h := h ++ rep st.quoteLevel c!"</blockquote>\n"
  let h := if st.inTask || st.inUl then h ++ c!"</ul>" else h
  if st.inOl then h ++ c!"</ol>" else h

/-- The end of the document after the closing tags: line feed, code, footnotes. -/
def sealOff (code : Bool) (refs : List (Str × Str)) (h : Str) : Str :=
  let h := endNl h
  let h := if code then endNl h ++ c!"</code></pre>" else h
  if refs.length > 0 then
    h ++ c!"<div class=\"footnotes\" role=\"doc-endnotes\">\n" ++ c!"\t<ol>\n" ++ refs.flatMap noteOut ++
      c!"\t</ol>\n" ++ c!"</div>\n"
  else h

theorem finish_eq (st : PState) : finish st = sealOff st.inCode st.refs st.closed := rfl

theorem closed_pre (x : Str) (st : PState) : (st.pre x).closed = x ++ st.closed := by
  obtain ⟨H, q, task, para, ol, ul, code, refs⟩ := st
  cases task <;> cases para <;> cases ol <;> cases ul <;> simp [PState.pre, PState.closed]

/-- What is written at the end does not depend on what was written before the last part, unless this part is empty. -/
theorem finish_pre (x : Str) (st : PState) (hx : (finish st).head? ≠ some '\n') : finish (st.pre x) = x ++ finish st := by
  rw [finish_eq, finish_eq, closed_pre]
  rw [finish_eq] at hx
  show sealOff st.inCode st.refs _ = _
  revert hx
  generalize st.closed = g
  intro hx
  by_cases hg : g = []
  · exfalso
    apply hx
    rw [hg]
    unfold sealOff
    cases st.inCode <;> dsimp only <;> split <;> rfl
  have hn : endNl g ≠ [] := by
    intro e
    have := endNl_prefix g
    rw [e] at this
    exact hg (List.prefix_nil.mp this)
  unfold sealOff
  dsimp only
  rw [endNl_append x hg, endNl_append x hn]
  cases st.inCode <;> split <;> simp only [List.append_assoc, if_true, if_false, Bool.false_eq_true]

theorem endNl_length (g : Str) : g.length ≤ (endNl g).length ∧ (endNl g).length ≤ g.length + 1 := by
  unfold endNl
  split <;> simp

theorem rep_length (n : Nat) (x : Str) : (rep n x).length = n * x.length := by
  simp [rep]

/-- If a one-letter paragraph shows up as one, nothing is open. -/
theorem rest_of_probe {st st' : PState} {x : Str} (h1 : finish st = x) (h2 : parseTok r (.plaintext c!"x") st = .ok st')
    (h3 : finish st' = x ++ c!"<p>x</p>\n") : st = { html := x } := by
  obtain ⟨H, q, task, para, ol, ul, code, refs⟩ := st
  have hp : plainOut c!"x" = c!"x" := by decide
  have ht : (trim c!"x").isEmpty = false := by decide
  have hend : c!"<p>x</p>\n" <:+ finish st' := ⟨x, h3.symm⟩
  have hlen : (finish st').length = (finish ⟨H, q, task, para, ol, ul, code, refs⟩).length + 9 := by rw [h3, h1]; simp
  have suf : ∀ {A l : Str}, c!"<p>x</p>\n" <:+ A ++ l → l.length ≤ 9 → l <:+ c!"<p>x</p>\n" := fun h hl =>
    List.suffix_of_suffix_length_le (List.suffix_append _ _) h (by simpa using hl)
  have hb : isBlankPlain (.plaintext c!"x") = false := by decide
  rw [parseTok] at h2
  rotate_left
  · simp
  · simp
  simp only [step2, ht, Bool.false_eq_true, if_false, hp] at h2
  obtain rfl := Outcome.ok.inj h2
  clear h2
  have hs : ((step1 (Token.plaintext c!"x") ⟨H, q, task, para, ol, ul, code, refs⟩).push c!"x").inCode = code ∧
      ((step1 (Token.plaintext c!"x") ⟨H, q, task, para, ol, ul, code, refs⟩).push c!"x").refs = refs := by
    cases para <;> cases ol <;> cases ul <;> cases task <;>
      simp [step1, hb, isTab, staysInList, staysInTask, opensPara, closesPara, staysInQuote, isCode, PState.push, PState.ensurePara]
  rw [finish_eq] at hend hlen
  rw [hs.1, hs.2] at hend hlen
  -- footnotes and code come last
  have hr : refs = [] := by
    cases refs with
    | nil => rfl
    | cons a as =>
      exfalso
      unfold sealOff at hend
      rw [if_pos (by simp)] at hend
      exact absurd (suf hend (by simp)) (by decide)
  subst hr
  have hc : code = false := by
    cases code with
    | false => rfl
    | true =>
      exfalso
      unfold sealOff at hend
      dsimp only at hend
      rw [if_neg (by simp), if_pos rfl] at hend
      have := List.suffix_of_suffix_length_le hend (List.suffix_append _ _) (by simp)
      exact absurd this (by decide)
  subst hc
  rw [finish_eq] at hlen h1
  have hq : (rep q c!"</blockquote>").length = 13 * q ∧ (rep q c!"</blockquote>\n").length = 14 * q := by
    rw [rep_length, rep_length]
    simp
    omega
  simp only [sealOff, List.length_nil, Nat.lt_irrefl, gt_iff_lt, if_false, Bool.false_eq_true] at hend hlen h1
  cases para with
  | true =>
    exfalso
    have : ((step1 (Token.plaintext c!"x") ⟨H, q, task, true, ol, ul, false, []⟩).push c!"x").closed.length ≤
        (PState.closed ⟨H, q, task, true, ol, ul, false, []⟩).length + 7 := by
      cases ol <;> cases ul <;> cases task <;>
        simp [step1, hb, isTab, staysInList, staysInTask, opensPara, closesPara, staysInQuote, isCode, PState.push, PState.ensurePara, PState.closed] <;>
        omega
    have h4 := endNl_length ((step1 (Token.plaintext c!"x") ⟨H, q, task, true, ol, ul, false, []⟩).push c!"x").closed
    have h5 := endNl_length (PState.closed ⟨H, q, task, true, ol, ul, false, []⟩)
    omega
  | false =>
    have e : (step1 (Token.plaintext c!"x") ⟨H, q, task, false, ol, ul, false, []⟩).push c!"x" =
        ⟨H ++ rep q c!"</blockquote>" ++ c!"<p>x", 0, task, true, ol, ul, false, []⟩ := by
      simp [step1, hb, isTab, staysInList, staysInTask, opensPara, PState.push]
    rw [e] at hend hlen
    have hol : ol = false := by
      cases ol with
      | false => rfl
      | true =>
        exfalso
        have : endNl (PState.closed ⟨H ++ rep q c!"</blockquote>" ++ c!"<p>x", 0, task, true, true, ul, false, []⟩) =
            (if task || ul then H ++ rep q c!"</blockquote>" ++ c!"<p>x" ++ c!"</p>\n" ++ rep 0 c!"</blockquote>\n" ++ c!"</ul>" else
              H ++ rep q c!"</blockquote>" ++ c!"<p>x" ++ c!"</p>\n" ++ rep 0 c!"</blockquote>\n") ++ c!"</ol>\n" := by
          unfold endNl PState.closed
          simp
        rw [this] at hend
        exact absurd (suf hend (by simp)) (by decide)
    subst hol
    have hul : (task || ul) = false := by
      cases h : (task || ul) with
      | false => rfl
      | true =>
        exfalso
        have : endNl (PState.closed ⟨H ++ rep q c!"</blockquote>" ++ c!"<p>x", 0, task, true, false, ul, false, []⟩) =
            H ++ rep q c!"</blockquote>" ++ c!"<p>x" ++ c!"</p>\n" ++ rep 0 c!"</blockquote>\n" ++ c!"</ul>\n" := by
          unfold endNl PState.closed
          simp [h, rep]
        rw [this] at hend
        exact absurd (suf hend (by simp)) (by decide)
    obtain ⟨rfl, rfl⟩ : task = false ∧ ul = false := by simpa using hul
    have e1 : endNl (PState.closed ⟨H ++ rep q c!"</blockquote>" ++ c!"<p>x", 0, false, true, false, false, false, []⟩) =
        H ++ rep q c!"</blockquote>" ++ c!"<p>x</p>\n" := by
      simp [endNl, PState.closed, rep]
    have e2 : PState.closed ⟨H, q, false, false, false, false, false, []⟩ = H ++ rep q c!"</blockquote>\n" := by
      simp [PState.closed]
    rw [e1, e2] at hlen
    rw [e2] at h1
    have h4 := endNl_length (H ++ rep q c!"</blockquote>\n")
    simp only [List.length_append, hq.1, hq.2] at hlen h4
    simp at hlen
    obtain rfl : q = 0 := by omega
    have : H = x := by
      rw [← h1]
      unfold endNl at hlen ⊢
      simp only [rep, List.replicate_zero, List.flatten_nil, List.append_nil] at hlen ⊢
      split
      · next h => rw [if_pos h] at hlen; simp at hlen
      · rfl
    rw [this]

/-- The document `s` ends with `j` line feeds that are read as a token of their own. -/
def EndsWithBreak (s : Str) (j : Nat) : Prop :=
  1 ≤ j ∧ ∃ (ts : List Token) (t : Token) (ps : List Str), Cut self [] none (ts ++ [t]) (ps ++ [times j '\n']) ∧ ps.length = ts.length ∧
    (ps ++ [times j '\n']).flatten = s

theorem agree_break {j : Nat} (hj : 1 ≤ j) {b : Str} (hb : 2 ≤ j ∨ b.head? ≠ some '\t') : Agree (times j '\n') (times j '\n' ++ b) := by
  match j, hj with
  | 1, _ =>
    refine ⟨rfl, by simp [times], ?_⟩
    simp only [times, List.replicate_one, List.singleton_append]
    rw [cons_prefix, cons_prefix]
    have : b.head? ≠ some '\t' := hb.resolve_left (by omega)
    simp [this]
  | j + 2, _ => exact .of_take rfl

/-- Reading goes on after the line feeds as it does behind line feeds at the start. -/
theorem render_after {s : Str} {j : Nat} (h : EndsWithBreak s j) : ∃ ts, (∀ b, b.head? ≠ some '\n' → (2 ≤ j ∨ b.head? ≠ some '\t') →
    render (s ++ b) = (lexLoop self [] (b.length + 1) [nlTok 1] b >>= fun us => .ok (us.drop 1)) >>= fun us => parseDoc self (ts ++ us)) := by
  obtain ⟨hj, ts, t, ps, hc, hl, hf⟩ := h
  have hup : LexesUpTo self [] (times j '\n') none (ps.flatten ++ times j '\n') ts := by simpa using hc.upTo hl
  have hs : s = ps.flatten ++ times j '\n' := by rw [← hf]; simp
  refine ⟨ts ++ [nlTok j], fun b hb hA => ?_⟩
  have h1 := hup.local (agree_break hj hA) _ rfl
  obtain ⟨i, rfl⟩ : ∃ i, j = i + 1 := ⟨j - 1, by omega⟩
  have h2 : LexesUpTo self [] b none (s ++ b) (ts ++ [nlTok (i + 1)]) := by
    rw [hs, List.append_assoc]
    exact h1.append fun l _ => .cons _ _ _ _ _ (nextToken_nls i hb) (.nil _)
  rw [render_unfold]
  have e : lexWith self [] (s ++ b) = lexLoop self [] (b.length + 1) (ts ++ [nlTok (i + 1)]) b := by
    unfold lexWith
    rw [h2.loop _ [] rfl (by omega)]
    rfl
  have e2 := lexLoop_over (r := self) (ig := []) (pre := ts ++ [nlTok (i + 1)]) (pre' := [nlTok 1]) (b.length + 1)
    (b.length + 1) [] b (by omega) (by omega) (fun _ => by
      rw [List.getLast?_append]
      exact nextToken_either (by simp [isPN_nlTok]))
  simp only [List.append_nil, List.length_singleton] at e2
  rw [← e2, e]
  cases hx : lexLoop self [] (b.length + 1) (ts ++ [nlTok (i + 1)]) b with
  | ok us =>
    obtain ⟨us', rfl, _⟩ := lexLoop_ok _ _ _ _ _ _ hx
    simp only [Outcome.ok_bind, List.drop_left]
  | panic => rfl
  | hang => rfl
  | fuelOut => rfl

/-- What is rendered after a document at rest. -/
theorem render_rest {s x : Str} {j : Nat} (h : EndsWithBreak s j) (hx : render s = .ok x) (hp : render (s ++ c!"x") = .ok (x ++ c!"<p>x</p>\n"))
    {b : Str} (hb : b.head? ≠ some '\n') (hA : 2 ≤ j ∨ b.head? ≠ some '\t') :
    (∀ y, render ('\n' :: b) = .ok y → y.head? ≠ some '\n' → render (s ++ b) = .ok (x ++ y)) ∧
      ((∀ y, render ('\n' :: b) ≠ .ok y) → render (s ++ b) = render ('\n' :: b)) := by
  obtain ⟨ts, hts⟩ := render_after h
  have h0 := hts [] (by simp) (.inr (by simp))
  have e0 : lexLoop self [] (([] : Str).length + 1) [nlTok 1] [] = .ok [nlTok 1] := by
    unfold lexLoop
    rfl
  rw [List.append_nil, hx, e0] at h0
  simp only [Outcome.ok_bind, List.drop_one, List.tail_cons, List.append_nil] at h0
  have h1 := hts c!"x" (by decide) (.inr (by decide))
  have e1 : lexLoop self [] ((c!"x").length + 1) [nlTok 1] c!"x" = .ok [nlTok 1, .plaintext c!"x"] := by
    unfold lexLoop
    rfl
  rw [hp, e1] at h1
  simp only [Outcome.ok_bind, List.drop_one, List.tail_cons] at h1
  unfold parseDoc at h0 h1
  obtain ⟨st, hst, hfin⟩ := Outcome.bind_ok h0.symm
  rw [parseToks_append, hst] at h1
  obtain ⟨st', hst', hfin'⟩ := Outcome.bind_ok h1.symm
  have h2 : parseTok self (.plaintext c!"x") st = .ok st' := by
    change parseToks self [Token.plaintext c!"x"] st = .ok st' at hst'
    rw [parseToks] at hst'
    obtain ⟨a, ha, hb⟩ := Outcome.bind_ok hst'
    rw [ha]
    exact hb
  obtain rfl := rest_of_probe (Outcome.ok.inj hfin) h2 (Outcome.ok.inj hfin')
  have hn := render_nls 0 hb
  rw [show times (0 + 1) '\n' ++ b = '\n' :: b from rfl] at hn
  rw [hts b hb hA, hn]
  cases hL : (lexLoop self [] (b.length + 1) [nlTok 1] b >>= fun us => Outcome.ok (us.drop 1)) with
  | ok us =>
    simp only [Outcome.ok_bind]
    have e3 : parseDoc self (ts ++ us) = (parseToks self us {}).bind fun s' => .ok (finish (s'.pre x)) := by
      unfold parseDoc
      rw [parseToks_append, hst]
      show (parseToks self us { html := x }).bind _ = _
      have : ({ html := x } : PState) = PState.pre x {} := by simp [PState.pre]
      rw [this, parseToks_pre, Outcome.bind_assoc']
      rfl
    rw [e3]
    unfold parseDoc
    cases parseToks self us {} with
    | ok s' =>
      refine ⟨fun y hy hy' => ?_, fun hno => absurd rfl (hno (finish s'))⟩
      have hy : finish s' = y := Outcome.ok.inj hy
      show Outcome.ok (finish (s'.pre x)) = _
      rw [finish_pre x s' (hy ▸ hy'), hy]
    | _ => exact ⟨fun y hy => by simp [Outcome.bind] at hy, fun _ => rfl⟩
  | _ => exact ⟨fun y hy => by simp at hy, fun _ => rfl⟩

end Smd.Gfm
