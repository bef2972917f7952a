import Verif.Props.Corners
import Verif.Props.Blocks
import Verif.Lemmas.Quoted

/-!
What is in block quotes: code (C131), quotes in quotes (C132) and lines that belong together (C133). Lists in lists after a tab (C77), code after tabs in entries
(C130).
-/

namespace Smd.Gfm
open Smd.Rs Smd.Spec

/-! ### C131 Code in quotes -/

/-- **C131, negated** Code in a block quote is escaped twice. -/
theorem C131_refuted : render c!"> `a<b`" = .ok c!"<blockquote>\n<pre><code>a&amp;lt;b\n</code></pre></blockquote>\n" := by
  decide +kernel

/-- One quoted line. -/
theorem quoted_line {n : Nat} {t x : Str} (hn : 1 ≤ n ∧ n ≤ 255) (hl : '\n' ∉ t) (hs : t.head? ≠ some ' ') (hx : render (escape t) = .ok x) :
    render (times n '>' ++ c!" " ++ t) = .ok (copies n c!"<blockquote>\n" ++ detab x ++ copies n c!"</blockquote>\n") := by
  have := C35_lines 0 [(⟨n, 1, t, 0⟩, detab x)] (by simp) (by
    intro l hm
    rw [List.mem_singleton] at hm
    subst hm
    exact ⟨hn, Nat.le_refl 1, hl, hs⟩) (by simp) (by
    intro l hm
    rw [List.mem_singleton] at hm
    subst hm
    exact ⟨x, hx, rfl⟩)
  simpa [QuoteLine.src, quoteHtml, quoteEnd, quoteMove, times] using this

/-- It is escaped twice whatever it is, and tabs in it become two spaces. -/
theorem C131_refuted_always (n : Nat) (t : Str) (hn : 1 ≤ n ∧ n ≤ 255) (hne : t ≠ []) (ht : '`' ∉ t) (hl : '\n' ∉ t) (hb : '\\' ∉ t)
    (hs : t.head? ≠ some ' ') :
    render (times n '>' ++ c!" " ++ (c!"`" ++ t ++ c!"`")) =
      .ok (copies n c!"<blockquote>\n" ++ elem c!"pre" (elem c!"code" (detab (escape (escape t)) ++ c!"\n")) ++ copies n c!"</blockquote>\n") := by
  have e : escape (c!"`" ++ t ++ c!"`") = c!"`" ++ escape t ++ c!"`" := by
    rw [escape_append, escape_append, show escape c!"`" = c!"`" by decide]
  have := quoted_line (n := n) (t := c!"`" ++ t ++ c!"`") hn (by simp [hl]) (by simp) (by
    rw [e]
    exact C32_single _ (escape_ne_nil hb hne) (fun h => ht (escape_tick h)) (.inl fun h => hs (escape_head hb (by decide) h)) fun h => hl (escape_nl h))
  rw [this]
  simp only [elem, detab_append]
  rfl

example : render c!">> `if a&&b\tc`" =
    .ok c!"<blockquote>\n<blockquote>\n<pre><code>if a&amp;amp;&amp;amp;b  c\n</code></pre></blockquote>\n</blockquote>\n" :=
  C131_refuted_always 2 c!"if a&&b\tc" (by decide) (by decide) (by decide) (by decide) (by decide) (by decide)

/-- **C131, the part that holds** Code without tabs that escaping does not change is shown in a quote as it is outside. -/
theorem C131_partial (n : Nat) (t : Str) (hn : 1 ≤ n ∧ n ≤ 255) (hne : t ≠ []) (ht : '`' ∉ t) (hl : '\n' ∉ t) (htab : '\t' ∉ t)
    (hs : t.head? ≠ some ' ') (he : escape t = t) :
    ∃ x, render (c!"`" ++ t ++ c!"`") = .ok x ∧
      render (times n '>' ++ c!" " ++ (c!"`" ++ t ++ c!"`")) = .ok (copies n c!"<blockquote>\n" ++ x ++ copies n c!"</blockquote>\n") := by
  have h1 := C32_single t hne ht (.inl hs) hl
  refine ⟨_, h1, C35_partial n _ _ hn.1 hn.2 (by simp [hl]) (by simp) ?_ h1 ?_⟩
  · rw [escape_append, escape_append, he, show escape c!"`" = c!"`" by decide]
  · rw [he]; simp [elem, htab]

example : ∃ x, render c!"`let x = y;`" = .ok x ∧ render c!"> `let x = y;`" = .ok (c!"<blockquote>\n" ++ x ++ c!"</blockquote>\n") :=
  C131_partial 1 c!"let x = y;" (by decide) (by decide) (by decide) (by decide) (by decide) (by decide) (by decide)

/-! ### C132 Quotes in quotes -/

/-- **C132, negated** A quote in a quote is not taken for one if there is a space between the markers. -/
theorem C132_refuted : render c!"> > a" = .ok c!"<blockquote>\n<p>&amp;gt;a</p>\n</blockquote>\n" := by
  decide +kernel

/-- The inner markers are shown, escaped twice, whatever follows them. -/
theorem C132_refuted_always (n m : Nat) (is : List Inline) (hn : 1 ≤ n ∧ n ≤ 255) (hm : 1 ≤ m) (hg : InlineGood none is)
    (hv : ∃ i, is.head? = some i ∧ i.Visible) (hl : '\n' ∉ inlineSrc is) (he : escape (inlineSrc is) = inlineSrc is) :
    render (times n '>' ++ c!" " ++ (times m '>' ++ c!" " ++ inlineSrc is)) =
      .ok (copies n c!"<blockquote>\n" ++ (elem c!"p" (copies m c!"&amp;gt;" ++ detab (inlineHtml is)) ++ c!"\n") ++ copies n c!"</blockquote>\n") := by
  obtain ⟨k, rfl⟩ : ∃ k, m = k + 1 := ⟨m - 1, by omega⟩
  obtain ⟨⟨a, u, ea, ha⟩, _⟩ := head_ends hg hv
  have hw : Word (copies (k + 1) c!"&gt;") := by
    refine ⟨by simp [copies_succ], fun c hc => ?_⟩
    have h : ∀ c ∈ c!"&gt;", c ∉ controlChars ∧ isWs c = false := by decide
    exact h c (mem_copies hc)
  have hg2 : InlineGood none (.word (copies (k + 1) c!"&gt;") :: .space 1 :: is) := by
    refine ⟨hw, ⟨by omega, by omega, ?_, ?_⟩, hg⟩ <;> rw [ea] <;> simp <;> rintro rfl <;> revert ha <;> decide
  have hr := render_inlines hg2 ⟨_, rfl, trivial⟩
  have e : escape (times (k + 1) '>' ++ c!" " ++ inlineSrc is) = inlineSrc (.word (copies (k + 1) c!"&gt;") :: .space 1 :: is) := by
    rw [escape_append, escape_append, he, escape_copied (y := c!"&gt;") (by decide), show escape c!" " = c!" " by decide]
    simp [inlineSrc, Inline.src, times]
  have := quoted_line (n := n) (t := times (k + 1) '>' ++ c!" " ++ inlineSrc is) hn (by simp [hl, times, List.mem_replicate]) (by simp [times, List.replicate_succ])
    (by rw [e]; exact hr)
  rw [this]
  have e2 : detab (copies (k + 1) c!"&amp;gt;") = copies (k + 1) c!"&amp;gt;" := detab_self fun h => by
    have := mem_copies h
    revert this; decide
  have e3 : inlineHtml (.word (copies (k + 1) c!"&gt;") :: .space 1 :: is) = copies (k + 1) c!"&amp;gt;" ++ inlineHtml is := by
    simp [inlineHtml, Inline.html, escape_copies (show escape c!"&gt;" = c!"&amp;gt;" by decide)]
  rw [e3]
  simp only [elem, detab_append, e2]
  rfl

example : render c!"> >> a *b*" = .ok c!"<blockquote>\n<p>&amp;gt;&amp;gt;a<em>b</em></p>\n</blockquote>\n" :=
  C132_refuted_always 1 2 [.word c!"a", .space 1, .em '*' c!"b"] (by decide) (by decide)
    ⟨word_check (by decide), ⟨by decide, by decide, by decide, by decide⟩, ⟨.inl rfl, ⟨_, _, rfl, by decide⟩, by decide, by decide⟩, trivial⟩
    ⟨_, rfl, trivial⟩ (by decide) (by decide)

/-- **C132, the part that holds** Without spaces between them, `n + m` markers are `m` quotes in `n` quotes. -/
theorem C132_partial (n m : Nat) (t x : Str) (hn : 1 ≤ n) (hm : 1 ≤ m) (h255 : n + m ≤ 255) (hl : '\n' ∉ t) (hs : t.head? ≠ some ' ')
    (he : escape t = t) (hx : render t = .ok x) (htab : '\t' ∉ x) :
    ∃ y, render (times m '>' ++ c!" " ++ t) = .ok y ∧
      render (times n '>' ++ (times m '>' ++ c!" " ++ t)) = .ok (copies n c!"<blockquote>\n" ++ y ++ copies n c!"</blockquote>\n") := by
  refine ⟨_, C35_partial m t x hm (by omega) hl hs he hx htab, ?_⟩
  have := C35_partial (n + m) t x (by omega) h255 hl hs he hx htab
  have e1 : times (n + m) '>' = times n '>' ++ times m '>' := List.replicate_add ..
  have e2 : ∀ a b (x : Str), copies (a + b) x = copies a x ++ copies b x := fun a b x => by
    rw [copies, List.replicate_add, List.flatten_append]; rfl
  rw [e1, e2 n m, Nat.add_comm n m, e2 m n] at this
  rw [← List.append_assoc, ← List.append_assoc, this]
  simp

example : ∃ y, render c!">> a" = .ok y ∧ render c!">>> a" = .ok (c!"<blockquote>\n" ++ y ++ c!"</blockquote>\n") :=
  C132_partial 1 2 c!"a" c!"<p>a</p>\n" (by decide) (by decide) (by decide) (by decide) (by decide) (by decide) (by decide +kernel) (by decide)

/-! ### C133 The lines of a quote -/

/-- **C133, negated** Two lines of a paragraph in a quote are two paragraphs, two entries of a list are two lists. -/
theorem C133_refuted : render c!"> a\n> b" = .ok c!"<blockquote>\n<p>a</p>\n<p>b</p>\n</blockquote>\n" ∧
    render c!"> - a\n> - b" =
      .ok c!"<blockquote>\n<ul>\n<li>\n<p>a</p>\n</li>\n</ul>\n<ul>\n<li>\n<p>b</p>\n</li>\n</ul>\n</blockquote>\n" := by
  decide +kernel

/-- **C133, the part that holds** The lines of a quote are in one block quote, each rendered by itself. -/
theorem C133_partial (ls : List (Str × Str)) (hne : ls ≠ []) (h : ∀ l ∈ ls, '\n' ∉ l.1 ∧ l.1.head? ≠ some ' ' ∧ escape l.1 = l.1)
    (hr : ∀ l ∈ ls, render l.1 = .ok l.2) :
    render (ls.flatMap fun l => c!"> " ++ l.1 ++ c!"\n") =
      .ok (c!"<blockquote>\n" ++ (ls.flatMap fun l => detab l.2) ++ c!"</blockquote>\n") := by
  have := C35_lines 0 (ls.map fun l => (⟨1, 1, l.1, 1⟩, detab l.2)) (by simpa using hne) (by
    intro q hq
    obtain ⟨l, hl, rfl⟩ := List.mem_map.mp hq
    exact ⟨⟨Nat.le_refl 1, by show 1 ≤ 255; decide⟩, Nat.le_refl 1, (h l hl).1, (h l hl).2.1⟩) (by
    intro q hq
    obtain ⟨l, hl, rfl⟩ := List.mem_map.mp (List.dropLast_subset _ hq)
    exact Nat.le_refl 1) (by
    intro q hq
    obtain ⟨l, hl, rfl⟩ := List.mem_map.mp hq
    exact ⟨l.2, by rw [(h l hl).2.2]; exact hr l hl, rfl⟩)
  have e1 : ∀ ls : List (Str × Str), quoteHtml 1 (ls.map fun l => (⟨1, 1, l.1, 1⟩, detab l.2)) = ls.flatMap fun l => detab l.2 := fun ls => by
    induction ls with
    | nil => rfl
    | cons l ls ih => rw [List.map_cons, quoteHtml, ih]; simp [quoteMove, copies]
  have e2 : quoteEnd 0 (ls.map fun l => (⟨1, 1, l.1, 1⟩, detab l.2)) = 1 := by
    obtain ⟨u, a, rfl⟩ : ∃ u a, ls = u ++ [a] := by
      rcases List.eq_nil_or_concat ls with rfl | ⟨u, a, rfl⟩
      · exact absurd rfl hne
      · exact ⟨u, a, by simp⟩
    simp [quoteEnd]
  have e3 : quoteHtml 0 (ls.map fun l => (⟨1, 1, l.1, 1⟩, detab l.2)) = c!"<blockquote>\n" ++ ls.flatMap fun l => detab l.2 := by
    cases ls with
    | nil => exact absurd rfl hne
    | cons l ls => rw [List.map_cons, quoteHtml, e1]; simp [quoteMove, copies]
  rw [e2, e3] at this
  rw [List.flatMap_map] at this
  simpa [QuoteLine.src, times, copies] using this

/-- Every line of text is a paragraph of its own. -/
theorem C133_refuted_text (ls : List (List Inline)) (hne : ls ≠ []) (h : ∀ is ∈ ls, InlineGood none is ∧ (∃ i, is.head? = some i ∧ i.Visible) ∧
    '\n' ∉ inlineSrc is ∧ escape (inlineSrc is) = inlineSrc is ∧ '\t' ∉ inlineHtml is) :
    render (ls.flatMap fun is => c!"> " ++ inlineSrc is ++ c!"\n") =
      .ok (c!"<blockquote>\n" ++ (ls.flatMap fun is => elem c!"p" (inlineHtml is) ++ c!"\n") ++ c!"</blockquote>\n") := by
  have := C133_partial (ls.map fun is => (inlineSrc is, elem c!"p" (inlineHtml is) ++ c!"\n")) (by simpa using hne) (by
    intro l hl
    obtain ⟨is, hi, rfl⟩ := List.mem_map.mp hl
    obtain ⟨hg, hv, hn, he, _⟩ := h is hi
    obtain ⟨⟨a, u, ea, ha⟩, _⟩ := head_ends hg hv
    refine ⟨hn, ?_, he⟩
    show (inlineSrc is).head? ≠ _
    rw [ea]; simp; rintro rfl; revert ha; decide) (by
    intro l hl
    obtain ⟨is, hi, rfl⟩ := List.mem_map.mp hl
    exact render_inlines (h is hi).1 (h is hi).2.1)
  rw [List.flatMap_map, List.flatMap_map] at this
  rw [this]
  have e : (ls.flatMap fun is => detab (elem c!"p" (inlineHtml is) ++ c!"\n")) = ls.flatMap fun is => elem c!"p" (inlineHtml is) ++ c!"\n" := by
    refine List.flatMap_congr fun is hi => detab_self ?_
    simp [elem, (h is hi).2.2.2.2]
  rw [e]

/-- Every entry of a list is a list of its own. -/
theorem C133_refuted_entries (ls : List (Char × List Inline)) (hne : ls ≠ []) (h : ∀ l ∈ ls, (l.1 = '-' ∨ l.1 = '+' ∨ l.1 = '*') ∧ InlineGood none l.2 ∧
    (∃ i, l.2.head? = some i ∧ i.Visible) ∧ '\n' ∉ inlineSrc l.2 ∧ escape (inlineSrc l.2) = inlineSrc l.2 ∧ '\t' ∉ inlineHtml l.2) :
    render (ls.flatMap fun l => c!"> " ++ (l.1 :: ' ' :: inlineSrc l.2) ++ c!"\n") =
      .ok (c!"<blockquote>\n" ++ (ls.flatMap fun l => c!"<ul>\n<li>\n" ++ elem c!"p" (inlineHtml l.2) ++ c!"\n</li>\n</ul>\n") ++ c!"</blockquote>\n") := by
  have := C133_partial (ls.map fun l => (l.1 :: ' ' :: inlineSrc l.2, c!"<ul>\n<li>\n" ++ elem c!"p" (inlineHtml l.2) ++ c!"\n</li>\n</ul>\n"))
    (by simpa using hne) (by
    intro l hl
    obtain ⟨l, hi, rfl⟩ := List.mem_map.mp hl
    obtain ⟨hc, hg, hv, hn, he, _⟩ := h l hi
    have e : l.1 :: ' ' :: inlineSrc l.2 = [l.1, ' '] ++ inlineSrc l.2 := rfl
    refine ⟨?_, ?_, ?_⟩
    · rcases hc with e | e | e <;> simp [e, hn]
    · rcases hc with e | e | e <;> simp [e]
    · show escape (l.1 :: ' ' :: inlineSrc l.2) = l.1 :: ' ' :: inlineSrc l.2
      rw [e, escape_append, he]
      rcases hc with e | e | e <;> rw [e] <;> rfl) (by
    intro l hl
    obtain ⟨l, hi, rfl⟩ := List.mem_map.mp hl
    obtain ⟨hc, hg, hv, hn, he, _⟩ := h l hi
    obtain ⟨⟨a, u, ea, ha⟩, _⟩ := head_ends hg hv
    have hb : ∀ x ∈ c!" xX", ¬ ['[', x, ']', ' '] <+: inlineSrc l.2 := by
      intro x _ ⟨w, hw⟩
      rw [← he, ] at hw
      have h1 : '[' ∈ escape (inlineSrc l.2) := by rw [← hw]; simp
      obtain ⟨c, hc, hx⟩ := List.mem_flatMap.mp h1
      have ht : ∀ e ∈ entityTable, '[' ∉ e.1 := by decide
      split at hx
      · next e he => exact absurd hx (ht e (List.mem_of_find?_eq_some he))
      · next hn =>
        rw [List.mem_singleton] at hx
        rw [← hx] at hn
        revert hn; decide
    have := C28_bullets 0 [(l.1, inlineSrc l.2, 0, elem c!"p" (inlineHtml l.2) ++ c!"\n")] (by simp) (by simpa using hc) (by simpa using hn) (by
      intro i hi
      rw [List.mem_singleton] at hi
      subst hi
      refine ⟨?_, ?_, hb⟩ <;> (show (inlineSrc l.2).head? ≠ _) <;> rw [ea] <;> simp <;> rintro rfl <;> revert ha <;> decide) (by simp) (by
      intro i hi
      rw [List.mem_singleton] at hi
      subst hi
      exact render_inlines hg hv) (by
      intro i hi
      rw [List.mem_singleton] at hi
      subst hi
      have := para_noPre hg
      simpa [elem] using this)
    simpa [times] using this)
  rw [List.flatMap_map, List.flatMap_map] at this
  rw [this]
  have e : (ls.flatMap fun l => detab (c!"<ul>\n<li>\n" ++ elem c!"p" (inlineHtml l.2) ++ c!"\n</li>\n</ul>\n")) =
      ls.flatMap fun l => c!"<ul>\n<li>\n" ++ elem c!"p" (inlineHtml l.2) ++ c!"\n</li>\n</ul>\n" := by
    refine List.flatMap_congr fun l hi => detab_self ?_
    simp [elem, (h l hi).2.2.2.2.2]
  rw [e]

example : render c!"> one\n> *two*\n> c\n" = .ok c!"<blockquote>\n<p>one</p>\n<p><em>two</em></p>\n<p>c</p>\n</blockquote>\n" :=
  C133_refuted_text [[.word c!"one"], [.em '*' c!"two"], [.word c!"c"]] (by decide) (by
    intro is hi
    simp only [List.mem_cons, List.not_mem_nil, or_false] at hi
    rcases hi with rfl | rfl | rfl
    · exact ⟨⟨word_check (by decide), trivial⟩, ⟨_, rfl, trivial⟩, by decide, by decide, by decide⟩
    · exact ⟨⟨⟨.inl rfl, ⟨_, _, rfl, by decide⟩, by decide, by decide⟩, trivial⟩, ⟨_, rfl, trivial⟩, by decide, by decide, by decide⟩
    · exact ⟨⟨word_check (by decide), trivial⟩, ⟨_, rfl, trivial⟩, by decide, by decide, by decide⟩)
example : render c!"> - a\n> * b\n" =
    .ok c!"<blockquote>\n<ul>\n<li>\n<p>a</p>\n</li>\n</ul>\n<ul>\n<li>\n<p>b</p>\n</li>\n</ul>\n</blockquote>\n" :=
  C133_refuted_entries [('-', [.word c!"a"]), ('*', [.word c!"b"])] (by simp) (by
    intro is hi
    simp only [List.mem_cons, List.not_mem_nil, or_false] at hi
    rcases hi with rfl | rfl
    · exact ⟨.inl rfl, ⟨word_check (by decide), trivial⟩, ⟨_, rfl, trivial⟩, by decide, by decide, by decide⟩
    · exact ⟨.inr (.inr rfl), ⟨word_check (by decide), trivial⟩, ⟨_, rfl, trivial⟩, by decide, by decide, by decide⟩)
example : render c!"> # a\n> `b`\n" = .ok c!"<blockquote>\n<h1>a</h1>\n<pre><code>b\n</code></pre></blockquote>\n" :=
  C133_partial [(c!"# a", c!"<h1>a</h1>\n"), (c!"`b`", c!"<pre><code>b\n</code></pre>")] (by simp) (by decide) (by decide +kernel)

/-! ### C130 Tabs in front of code in entries -/

/-- **C130, the part that holds** Code after a tab in an entry is shown, with two spaces that are not in it. -/
theorem C130_partial_tab (c : Char) (t : Str) (hc : c = '-' ∨ c = '+' ∨ c = '*') (hne : t ≠ []) (hn : '\n' ∉ t) (h1 : t.head? ≠ some ' ')
    (h2 : t.head? ≠ some '\t') :
    render (c :: ' ' :: '\t' :: t) = .ok (c!"<ul>\n<li>\n" ++ elem c!"pre" (elem c!"code" (c!"  " ++ escape t ++ c!"\n")) ++ c!"</li>\n</ul>\n") := by
  have := render_entry (w := '\t' :: t) (a := '\t' :: t) hc (by simp [hn]) (by simp) (by
    have h3 : ¬ c!"\t" <+: t := fun ⟨z, hz⟩ => h2 (by rw [← hz]; rfl)
    by_cases hs : c = '*'
    · simp [bulletText, hs, startsWith, h3, trimStartP]
    · simp [bulletText, hs, startsWith, trimStartP]) (render_tab hne hn h1 h2)
  rw [this, pad_one]
  simp [elem]

/-- **C130, negated** How many tabs belong to the code depends on the marker: after `*` one is dropped. -/
theorem C130_refuted_marker (t : Str) (hne : t ≠ []) (hn : '\n' ∉ t) (h1 : t.head? ≠ some ' ') (h2 : t.head? ≠ some '\t') :
    render (c!"* \t\t" ++ t) = .ok (c!"<ul>\n<li>\n" ++ elem c!"pre" (elem c!"code" (c!"  " ++ escape t ++ c!"\n")) ++ c!"</li>\n</ul>\n") ∧
    ∀ c, c = '-' ∨ c = '+' → render (c :: c!" \t\t" ++ t) =
      .ok (c!"<ul>\n<li>\n" ++ elem c!"pre" (elem c!"code" (c!"  \t" ++ escape t ++ c!"\n")) ++ c!"</li>\n</ul>\n") := by
  constructor
  · have := render_entry (c := '*') (w := '\t' :: '\t' :: t) (a := '\t' :: t) (.inr (.inr rfl)) (by simp [hn]) (by simp)
      (by simp [bulletText, startsWith, trimStartP]) (render_tab hne hn h1 h2)
    rw [show c!"* \t\t" ++ t = '*' :: ' ' :: '\t' :: '\t' :: t from rfl, this, pad_one]
    simp [elem]
  · intro c hc
    have hs : c ≠ '*' := by rcases hc with rfl | rfl <;> decide
    have := render_entry (c := c) (w := '\t' :: '\t' :: t) (a := '\t' :: '\t' :: t) (by rcases hc with h | h <;> simp [h]) (by simp [hn]) (by simp)
      (by simp [bulletText, hs, startsWith, trimStartP]) (render_tabs hn h1 h2)
    rw [show c :: c!" \t\t" ++ t = c :: ' ' :: '\t' :: '\t' :: t from rfl, this, pad_one,
      show '\t' :: t = c!"\t" ++ t from rfl, escape_append, show escape c!"\t" = c!"\t" from rfl]
    simp [elem]

example : render c!"+ \ta < b" = .ok c!"<ul>\n<li>\n<pre><code>  a &lt; b\n</code></pre></li>\n</ul>\n" :=
  C130_partial_tab '+' c!"a < b" (by decide) (by decide) (by decide) (by decide) (by decide)
example : render c!"* \t\tx;" = .ok c!"<ul>\n<li>\n<pre><code>  x;\n</code></pre></li>\n</ul>\n" :=
  (C130_refuted_marker c!"x;" (by decide) (by decide) (by decide) (by decide)).1
example : render c!"- \t\tx;" = .ok c!"<ul>\n<li>\n<pre><code>  \tx;\n</code></pre></li>\n</ul>\n" :=
  (C130_refuted_marker c!"x;" (by decide) (by decide) (by decide) (by decide)).2 '-' (.inl rfl)

/-! ### C77 Lists in lists after a tab -/

/-- **C77, negated** The entry of an inner list is lost if it is indented by a tab, too. -/
theorem C77_refuted_tab (c d : Char) (is : List Inline) (t : Str) (hc : c = '-' ∨ c = '+') (hd : d = '-' ∨ d = '+')
    (hg : InlineGood none is) (hn : '\n' ∉ inlineSrc is) (hv : ∃ i, is.head? = some i ∧ i.Visible)
    (hb : ∀ x ∈ c!" xX", ¬ ['[', x, ']', ' '] <+: inlineSrc is) (ht : '\n' ∉ t) (hbt : ∀ x ∈ c!" xX", ¬ ['[', x, ']', ' '] <+: t) :
    render (c :: ' ' :: inlineSrc is ++ '\n' :: '\t' :: (d :: ' ' :: t)) =
      .ok (c!"<ul>\n<li>" ++ (elem c!"p" (inlineHtml is) ++ c!"\n") ++ c!"</li>\n</ul>\n") := by
  have hdn : '\n' ∉ d :: ' ' :: t := by rcases hd with rfl | rfl <;> simp [ht]
  have hin : LexTo self [] (d :: ' ' :: t) [.unorderedListEntry [.plaintext (' ' :: t)]] := by
    have hne : d ≠ '*' := by rcases hd with rfl | rfl <;> decide
    have := LexTo.bullet (r := self) (ig := []) (rest := []) (n := 0) (c := d) (by rcases hd with h | h <;> simp [h]) ht
      (hbt ' ' (by decide)) (hbt 'x' (by decide)) (hbt 'X' (by decide)) (.inr rfl) NextLine.nil LexTo.nil
    simpa [gapToks, bulletText, hne] using this
  have hlex : LexTo self [] (c :: ' ' :: inlineSrc is ++ '\n' :: '\t' :: (d :: ' ' :: t))
      [.unorderedListEntry [.plaintext (' ' :: inlineSrc is), .unorderedListEntry [.plaintext (' ' :: t)]]] := by
    refine LexTo.cons (s' := []) (fun last => ?_) LexTo.nil
    have := lexPlusMinus_tab (r := self) hc hn hdn hb (lex_of hin)
    rw [List.cons_append] at this ⊢
    rw [nextToken_bullet hc, this]
    rfl
  obtain ⟨⟨a, u, ea, ha⟩, _⟩ := head_ends hg hv
  have hs : (inlineSrc is).head? ≠ some ' ' := by rw [ea]; simp; rintro rfl; revert ha; decide
  have htab : (inlineSrc is).head? ≠ some '\t' := by rw [ea]; simp; rintro rfl; revert ha; decide
  have hbt := bulletText_arg (c := '-') hs htab
  rw [show bulletText '-' (inlineSrc is) = ' ' :: inlineSrc is from rfl] at hbt
  have hx : self.render [] (inlineSrc is) = .ok (c!"<p>" ++ inlineHtml is ++ c!"</p>\n") := renderIgnore_inlines [] hg hv
  have hout : entryOut self [.plaintext (' ' :: inlineSrc is), .unorderedListEntry [.plaintext (' ' :: t)]] =
      .ok (c!"<p>" ++ inlineHtml is ++ c!"</p>\n") := by
    simp only [entryOut, hbt, hx, Outcome.ok_bind, replaceStr_none (para_noPre hg), List.append_nil]
  have hp := parseTok_entry_mixed self [] false (by simp [isPlaintext]) hout
  rw [render_of hlex (parseToks_one hp), finish_ul]
  simp [ulOpen, elem]

example : render c!"+ *fruit*\n\t- [apple](http:x) *b*" = .ok c!"<ul>\n<li><p><em>fruit</em></p>\n</li>\n</ul>\n" :=
  C77_refuted_tab '+' '-' [.em '*' c!"fruit"] c!"[apple](http:x) *b*" (.inr rfl) (.inl rfl)
    ⟨⟨.inl rfl, ⟨_, _, rfl, by decide⟩, by decide, by decide⟩, trivial⟩ (by decide) ⟨_, rfl, trivial⟩ (by decide) (by decide) (by decide)

end Smd.Gfm
