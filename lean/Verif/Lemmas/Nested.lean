import Verif.Lemmas.Corners
import Verif.Spec.Nested

/-! Code in entries of lists. -/

namespace Smd.Gfm
open Smd.Rs Smd.Spec

/-- What an entry does to the HTML of its text. -/
abbrev pad (x : Str) : Str := replaceStr c!"<pre><code>" c!"<pre><code>  " x

theorem pad_code (s : Str) : pad (c!"<pre><code>" ++ s) = c!"<pre><code>  " ++ pad s := replaceStr_match _ _ (by simp)

theorem pad_text {b : Str} (s : Str) (h : '<' ∉ b) : pad (b ++ s) = b ++ pad s := replaceStr_pass _ rfl s h

theorem pad_open (s : Str) : pad (c!"<ul>\n<li>\n" ++ s) = c!"<ul>\n<li>\n" ++ pad s := by
  have h1 := replaceStr_nomatch (p := c!"<pre><code>") c!"<pre><code>  " (c := '<') (s := c!"ul>\n" ++ (c!"<li>\n" ++ s)) (by simp)
  have h2 := replaceStr_nomatch (p := c!"<pre><code>") c!"<pre><code>  " (c := '<') (s := c!"li>\n" ++ s) (by simp)
  have h3 := pad_text (b := c!"ul>\n") (c!"<li>\n" ++ s) (by decide)
  have h4 := pad_text (b := c!"li>\n") s (by decide)
  have e : c!"<ul>\n<li>\n" ++ s = '<' :: (c!"ul>\n" ++ (c!"<li>\n" ++ s)) := rfl
  have e2 : c!"<li>\n" ++ s = '<' :: (c!"li>\n" ++ s) := rfl
  unfold pad at *
  rw [e, h1, h3, e2, h2, h4]
  rfl

theorem pad_close (s : Str) : pad (c!"</li>\n</ul>\n" ++ s) = c!"</li>\n</ul>\n" ++ pad s := by
  have h1 := replaceStr_nomatch (p := c!"<pre><code>") c!"<pre><code>  " (c := '<') (s := c!"/li>\n" ++ (c!"</ul>\n" ++ s)) (by simp)
  have h2 := replaceStr_nomatch (p := c!"<pre><code>") c!"<pre><code>  " (c := '<') (s := c!"/ul>\n" ++ s) (by simp)
  have h3 := pad_text (b := c!"/li>\n") (c!"</ul>\n" ++ s) (by decide)
  have h4 := pad_text (b := c!"/ul>\n") s (by decide)
  have e : c!"</li>\n</ul>\n" ++ s = '<' :: (c!"/li>\n" ++ (c!"</ul>\n" ++ s)) := rfl
  have e2 : c!"</ul>\n" ++ s = '<' :: (c!"/ul>\n" ++ s) := rfl
  unfold pad at *
  rw [e, h1, h3, e2, h2, h4]
  rfl

theorem pad_end (s : Str) : pad (c!"</code></pre>" ++ s) = c!"</code></pre>" ++ pad s := by
  have h1 := replaceStr_nomatch (p := c!"<pre><code>") c!"<pre><code>  " (c := '<') (s := c!"/code>" ++ (c!"</pre>" ++ s)) (by simp)
  have h2 := replaceStr_nomatch (p := c!"<pre><code>") c!"<pre><code>  " (c := '<') (s := c!"/pre>" ++ s) (by simp)
  have h3 := pad_text (b := c!"/code>") (c!"</pre>" ++ s) (by decide)
  have h4 := pad_text (b := c!"/pre>") s (by decide)
  have e : c!"</code></pre>" ++ s = '<' :: (c!"/code>" ++ (c!"</pre>" ++ s)) := rfl
  have e2 : c!"</pre>" ++ s = '<' :: (c!"/pre>" ++ s) := rfl
  unfold pad at *
  rw [e, h1, h3, e2, h2, h4]
  rfl

theorem escape_no_lt (t : Str) : '<' ∉ escape t := (escape_no_delim t).1

theorem escape_nl {t : Str} (h : '\n' ∈ escape t) : '\n' ∈ t := by
  obtain ⟨c, hc, hx⟩ := List.mem_flatMap.mp h
  have hc := (List.mem_filter.mp hc).1
  have ht : ∀ e ∈ entityTable, '\n' ∉ e.1 := by decide
  split at hx
  · next e he => exact absurd hx (ht e (List.mem_of_find?_eq_some he))
  · rw [List.mem_singleton] at hx
    rw [hx]; exact hc

/-- Entries of a list behind code. -/
theorem finish_code_ul (h : Str) : finish { html := h, inUl := true, inCode := true } = h ++ c!"</ul>\n</code></pre>" := by
  have e : ∀ x : Str, endNl (x ++ c!"</ul>") = x ++ c!"</ul>\n" := fun x => by simp [endNl]
  have e2 : ∀ x : Str, endNl (x ++ c!"</ul>\n") = x ++ c!"</ul>\n" := fun x => by simp [endNl]
  simp [finish, rep, e, e2]

theorem spaces_succ (m : Nat) (s : Str) : c!"  " ++ (times (2 * m) ' ' ++ s) = times (2 * (m + 1)) ' ' ++ s := by
  rw [show 2 * (m + 1) = 2 * m + 1 + 1 by omega]
  simp [times, List.replicate_succ]

theorem pad_nest : ∀ (x : CodeNest) (m : Nat) (s : Str), pad (x.html m ++ s) = x.html (m + 1) ++ pad s
  | .code t, m, s => by
    simp only [CodeNest.html, List.append_assoc]
    rw [pad_code, pad_text _ (by simp [List.mem_replicate]), pad_text _ (escape_no_lt t),
      show c!"\n</code></pre>" ++ s = c!"\n" ++ (c!"</code></pre>" ++ s) from rfl, pad_text _ (by decide), pad_end,
      show c!"<pre><code>  " = c!"<pre><code>" ++ c!"  " from rfl, List.append_assoc, spaces_succ]
    rfl
  | .entry c x, m, s => by
    simp only [CodeNest.html, List.append_assoc]
    rw [pad_open, pad_nest x, pad_close]
  | .both t c x, m, s => by
    simp only [CodeNest.html, List.append_assoc]
    rw [pad_code, pad_text _ (by simp [List.mem_replicate]), pad_text _ (escape_no_lt t), pad_open, pad_nest x,
      show c!"</li>\n</ul>\n</code></pre>" ++ s = c!"</li>\n</ul>\n" ++ (c!"</code></pre>" ++ s) from rfl, pad_close, pad_end,
      show c!"<pre><code>  " = c!"<pre><code>" ++ c!"  " from rfl, List.append_assoc, spaces_succ]
    rfl

theorem pad_nest_nil (x : CodeNest) (m : Nat) : pad (x.html m) = x.html (m + 1) := by
  have := pad_nest x m []
  simpa [show pad [] = [] from rfl] using this

theorem goodCode_text {t : Str} (h : CodeNest.GoodCode t) : CodeText 1 t :=
  ⟨h.1, fun e => h.2.1 (List.mem_of_mem_head? e), fun e => h.2.1 (List.mem_of_getLast? e), fun ⟨a, b, e⟩ => h.2.1 (by rw [← e]; simp)⟩

theorem LexTo.goodCode {r : Rec} {ig : List Char} {t rest : Str} {ts : List Token} (h : CodeNest.GoodCode t) (hr : LexTo r ig rest ts) :
    LexTo r ig (c!"`" ++ t ++ c!"`" ++ rest) (.code t :: ts) := by
  have := LexTo.code (n := 1) (by omega) (by omega) (goodCode_text h) hr
  rwa [show codeShown t = t from if_neg fun e => h.2.2.2 e.1] at this

theorem nest_src : ∀ {x : CodeNest}, x.Good → '\n' ∉ x.src ∧ ∃ a u, x.src = a :: u ∧ a ∈ c!"`-+"
  | .code t, h => ⟨by simp [CodeNest.src, h.2.2.1], '`', t ++ c!"`", rfl, by decide⟩
  | .entry c x, h => by
    obtain ⟨h1, h2⟩ := h
    have := (nest_src h2).1
    refine ⟨?_, c, _, rfl, by rcases h1 with rfl | rfl <;> decide⟩
    rcases h1 with rfl | rfl <;> simp [CodeNest.src, this]
  | .both t c x, h => by
    obtain ⟨h0, h1, h2⟩ := h
    have := (nest_src h2).1
    refine ⟨?_, '`', _, rfl, by decide⟩
    rcases h1 with rfl | rfl <;> simp [CodeNest.src, this, h0.2.2.1]

theorem LexTo.nest {r : Rec} {ig : List Char} {c : Char} {x : CodeNest} (hc : c = '-' ∨ c = '+') (h : x.Good) :
    LexTo r ig (c :: ' ' :: x.src) [.unorderedListEntry [.plaintext (' ' :: x.src)]] := by
  obtain ⟨h1, a, u, e, ha⟩ := nest_src h
  have hb : ∀ y : Str, ¬ '[' :: y <+: x.src := by
    intro y hp
    rw [e, List.cons_prefix_cons] at hp
    rw [← hp.1] at ha
    revert ha; decide
  have hne : c ≠ '*' := by rcases hc with rfl | rfl <;> decide
  have := LexTo.bullet (r := r) (ig := ig) (rest := []) (n := 0) (c := c) (by rcases hc with h | h <;> simp [h]) h1 (hb _) (hb _) (hb _) (.inr rfl) NextLine.nil
    LexTo.nil
  simpa [gapToks, bulletText, hne] using this

theorem entryOut_nest {x : CodeNest} (h : x.Good) (hx : render x.src = .ok (x.html 0)) :
    entryOut self [.plaintext (' ' :: x.src)] = .ok (x.html 1) := by
  obtain ⟨_, a, u, e, ha⟩ := nest_src h
  have h1 : x.src.head? ≠ some ' ' := by rw [e]; intro h; simp at h; subst h; revert ha; decide
  have h2 : x.src.head? ≠ some '\t' := by rw [e]; intro h; simp at h; subst h; revert ha; decide
  have hbt := bulletText_arg (c := '-') h1 h2
  rw [show bulletText '-' x.src = ' ' :: x.src from rfl] at hbt
  have hx : self.render [] x.src = .ok (x.html 0) := hx
  simp only [entryOut, hbt, hx, Outcome.ok_bind, List.append_nil]
  rw [← pad_nest_nil x 0]

theorem render_nest : ∀ {x : CodeNest}, x.Good → render x.src = .ok (x.html 0)
  | .code t, h => by
    have hl : LexTo self [] (c!"`" ++ t ++ c!"`") [.code t] := by
      have := LexTo.goodCode (r := self) (ig := []) h LexTo.nil
      rwa [List.append_nil] at this
    have := render_codes (ys := [t]) (by simp) hl
    rw [show (CodeNest.code t).src = c!"`" ++ t ++ c!"`" from rfl, this]
    have e2 : endLine (escape t) = escape t ++ c!"\n" := by
      refine if_neg fun e => h.2.2.1 ?_
      exact escape_nl (List.mem_of_getLast? e)
    simp [CodeNest.html, e2]
  | .entry c x, h => by
    obtain ⟨h1, h2⟩ := h
    have hp := parseTok_entry self [] false (by simp [isPlaintext]) (entryOut_nest h2 (render_nest h2))
    rw [show (CodeNest.entry c x).src = c :: ' ' :: x.src from rfl, render_of (LexTo.nest h1 h2) (parseToks_one hp), finish_ul]
    simp [CodeNest.html, ulOpen]
  | .both t c x, h => by
    obtain ⟨h0, h1, h2⟩ := h
    have he := entryOut_nest h2 (render_nest h2)
    have hp : parseTok self (.unorderedListEntry [.plaintext (' ' :: x.src)])
        { html := [] ++ c!"<pre><code>" ++ escape t, inCode := true } =
        .ok { html := c!"<pre><code>" ++ escape t ++ c!"<ul>\n" ++ c!"<li>" ++ c!"\n" ++ x.html 1 ++ c!"</li>\n", inCode := true, inUl := true } := by
      simp [parseTok, step1, step2, isBlankPlain, isTab, staysInList, staysInTask, opensPara, closesPara, staysInQuote, isCode, he,
        isPlaintext, PState.push]
    rw [show (CodeNest.both t c x).src = c!"`" ++ t ++ c!"`" ++ (c :: ' ' :: x.src) from rfl,
      render_of (LexTo.goodCode h0 (LexTo.nest h1 h2)) (parseToks_cons (parseTok_code_clean self t []) (parseToks_one hp)), finish_code_ul]
    simp [CodeNest.html]

end Smd.Gfm
