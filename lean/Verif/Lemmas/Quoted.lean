import Verif.Lemmas.Nested

/-! Escaped texts: where they begin and which characters they have; copies of texts. -/

namespace Smd.Gfm
open Smd.Rs Smd.Spec

theorem escape_head {t : Str} {c : Char} (hb : '\\' ∉ t) (hc : c ≠ '&') (h : (escape t).head? = some c) : t.head? = some c := by
  cases t with
  | nil => cases h
  | cons d t =>
    have hd : d ≠ '\\' := fun e => hb (by simp [e])
    have ht : ∀ e ∈ entityTable, e.1.head? = some '&' := by decide
    rw [show d :: t = [d] ++ t from rfl, escape_append] at h
    simp only [escape, List.filter_cons, List.filter_nil] at h
    rw [if_pos (by simpa using hd), List.flatMap_cons, List.flatMap_nil, List.append_nil] at h
    split at h
    · next e he =>
      have := ht e (List.mem_of_find?_eq_some he)
      rw [List.head?_append, this] at h
      simp at h
      exact absurd h.symm hc
    · simpa using h

theorem escape_ne_nil {t : Str} (hb : '\\' ∉ t) (h : t ≠ []) : escape t ≠ [] := by
  cases t with
  | nil => exact absurd rfl h
  | cons d t =>
    have hd : d ≠ '\\' := fun e => hb (by simp [e])
    have ht : ∀ e ∈ entityTable, e.1 ≠ [] := by decide
    rw [show d :: t = [d] ++ t from rfl, escape_append]
    simp only [escape, List.filter_cons, List.filter_nil]
    rw [if_pos (by simpa using hd), List.flatMap_cons]
    split
    · next e he => simp [ht e (List.mem_of_find?_eq_some he)]
    · simp

theorem escape_tick {t : Str} (h : '`' ∈ escape t) : '`' ∈ t := by
  obtain ⟨c, hc, hx⟩ := List.mem_flatMap.mp h
  have hc := (List.mem_filter.mp hc).1
  have ht : ∀ e ∈ entityTable, '`' ∉ e.1 := by decide
  split at hx
  · next e he => exact absurd hx (ht e (List.mem_of_find?_eq_some he))
  · rw [List.mem_singleton] at hx
    rw [hx]; exact hc

theorem copies_succ (n : Nat) (x : Str) : copies (n + 1) x = x ++ copies n x := by simp [copies, List.replicate_succ]

theorem escape_copies {x y : Str} (h : escape x = y) : ∀ n, escape (copies n x) = copies n y
  | 0 => rfl
  | n + 1 => by rw [copies_succ, escape_append, escape_copies h n, h, copies_succ]

theorem escape_copied {c : Char} {y : Str} (h : escape [c] = y) : ∀ n, escape (times n c) = copies n y
  | 0 => rfl
  | n + 1 => by rw [show times (n + 1) c = [c] ++ times n c by simp [times, List.replicate_succ], escape_append, escape_copied h n, h, copies_succ]

theorem mem_copies {x : Str} {c : Char} : ∀ {n}, c ∈ copies n x → c ∈ x
  | 0, h => by cases h
  | n + 1, h => by
    rw [copies_succ, List.mem_append] at h
    exact h.elim id mem_copies

/-! ### Code after tabs -/

theorem endLine_line {t : Str} (h : '\n' ∉ t) : endLine (escape t) = escape t ++ c!"\n" :=
  if_neg fun e => h (escape_nl (List.mem_of_getLast? e))

theorem untilTail_ends {t : Str} (h : '\n' ∉ t) : untilTail c!"\n" t = (t, []) :=
  untilTail_none (by simp) fun ⟨a, b, e⟩ => h (by rw [← e]; simp)

theorem render_tab {t : Str} (hne : t ≠ []) (hn : '\n' ∉ t) (h1 : t.head? ≠ some ' ') (h2 : t.head? ≠ some '\t') :
    render ('\t' :: t) = .ok (c!"<pre><code>" ++ (escape t ++ (c!"\n" ++ c!"</code></pre>"))) := by
  have hl : LexTo self [] ('\t' :: t) [.code t] := by
    have := LexTo.indented (r := self) (ig := []) (ts := []) (p := c!"\t") (t := t) (by unfold IsIndent; decide) h1 h2
      (fun e => hn (List.mem_of_mem_head? e)) (by intro h; cases h) (by rw [untilTail_ends hn]; exact LexTo.nil)
    rwa [untilTail_ends hn] at this
  rw [render_codes (ys := [t]) (by simp) hl]
  simp [endLine_line hn]

theorem render_tabs {t : Str} (hn : '\n' ∉ t) (h1 : t.head? ≠ some ' ') (h2 : t.head? ≠ some '\t') :
    render ('\t' :: '\t' :: t) = .ok (c!"<pre><code>" ++ (escape ('\t' :: t) ++ (c!"\n" ++ c!"</code></pre>"))) := by
  have hl : LexTo self [] ('\t' :: '\t' :: t) [.code ('\t' :: t)] := by
    have := LexTo.tabs (r := self) (ig := []) (ts := []) (t := t) h1 h2 (by rw [untilTail_ends hn]; exact LexTo.nil)
    rwa [untilTail_ends hn] at this
  rw [render_codes (ys := ['\t' :: t]) (by simp) hl]
  simp [endLine_line (t := '\t' :: t) (by simp [hn])]

theorem pad_one (t : Str) : pad (c!"<pre><code>" ++ (escape t ++ (c!"\n" ++ c!"</code></pre>"))) =
    c!"<pre><code>  " ++ (escape t ++ (c!"\n" ++ c!"</code></pre>")) := by
  rw [pad_code, pad_text _ (escape_no_lt t), pad_text _ (by decide)]
  have := pad_end []
  rw [List.append_nil] at this
  rw [this]
  rfl

/-- An entry by itself; `a` is the text that is rendered for it. -/
theorem render_entry {c : Char} {w a x : Str} (hc : c = '-' ∨ c = '+' ∨ c = '*') (hw : '\n' ∉ w) (hb : w.head? ≠ some '[')
    (ha : (if startsWith (bulletText c w) c!"\t\t" then trimStartP (· == ' ') ((bulletText c w).drop 1)
      else trimStartP (· == ' ') (bulletText c w)) = a) (hx : render a = .ok x) :
    render (c :: ' ' :: w) = .ok (c!"<ul>\n<li>\n" ++ pad x ++ c!"</li>\n</ul>\n") := by
  have hb' : ∀ y : Str, ¬ '[' :: y <+: w := fun y ⟨z, hz⟩ => hb (by rw [← hz]; rfl)
  have hl := LexTo.bullet (r := self) (ig := []) (rest := []) (n := 0) (c := c) hc hw (hb' _) (hb' _) (hb' _) (.inr rfl) NextLine.nil LexTo.nil
  have hl : LexTo self [] (c :: ' ' :: w) [.unorderedListEntry [.plaintext (bulletText c w)]] := by simpa [gapToks] using hl
  have hx : self.render [] a = .ok x := hx
  have hout : entryOut self [.plaintext (bulletText c w)] = .ok (pad x) := by
    simp only [entryOut, ha, hx, Outcome.ok_bind, List.append_nil]
  rw [render_of hl (parseToks_one (parseTok_entry self [] false (by simp [isPlaintext]) hout)), finish_ul]
  simp [ulOpen]

end Smd.Gfm
