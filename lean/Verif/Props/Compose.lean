import Verif.Lemmas.Compose
import Verif.Props.Tokens

/-!
C128: a document can be converted in parts. False of the code: a list that is interrupted by a blank line goes on in the next part. True of
parts after which nothing is open, and one test tells whether that is so: the rendering of a one-letter paragraph after the part.
-/

namespace Smd.Gfm
open Smd.Rs Smd.Spec

/-- C128 is false: two lists become one. -/
theorem C128_refuted : ¬ ∀ a b x y : Str, render a = .ok x → render b = .ok y → render (a ++ c!"\n\n" ++ b) = .ok (x ++ y) := by
  intro h
  have h1 : render c!"- a" = .ok c!"<ul>\n<li>\n<p>a</p>\n</li>\n</ul>\n" := by decide +kernel
  have h2 : render (c!"- a" ++ c!"\n\n" ++ c!"- a") = .ok c!"<ul>\n<li>\n<p>a</p>\n</li>\n<li>\n<p>a</p>\n</li>\n</ul>\n" := by decide +kernel
  have h3 := h _ _ _ _ h1 h1
  rw [h2] at h3
  exact absurd h3 (by decide)

/-- C128, the part that holds. Let the document `s` end with line feeds that are a token of their own, and let the paragraph `x` after it be
shown as it should. Then every document after it is shown as it is behind a line feed, provided it shows anything in front of its
footnotes. -/
theorem C128_partial (s x : Str) (j : Nat) (h : EndsWithBreak s j) (hx : render s = .ok x)
    (hp : render (s ++ c!"x") = .ok (x ++ c!"<p>x</p>\n")) (b y : Str) (hb : b.head? ≠ some '\n') (ht : 2 ≤ j ∨ b.head? ≠ some '\t')
    (hy : render ('\n' :: b) = .ok y) (hn : y.head? ≠ some '\n') : render (s ++ b) = .ok (x ++ y) :=
  (render_rest h hx hp hb ht).1 y hy hn

theorem break_sample : EndsWithBreak c!"a\n\n*b*\n\n" 2 :=
  ⟨by decide, [.plaintext c!"a", .newline, .italic c!"b"], .newline, [c!"a", c!"\n\n", c!"*b*"], ⟨rfl, rfl, rfl, rfl, trivial⟩, rfl, rfl⟩

/-- Behind two paragraphs any document may follow, here a list. -/
example : render (c!"a\n\n*b*\n\n" ++ c!"- c") = .ok (c!"<p>a</p>\n<p><em>b</em></p>\n" ++ c!"<ul>\n<li>\n<p>c</p>\n</li>\n</ul>\n") :=
  C128_partial _ _ 2 break_sample (by decide +kernel) (by decide +kernel) c!"- c" _ (by decide) (by decide) (by decide +kernel) (by decide)

/-- C128: if the document after it cannot be rendered, neither can the whole, for the same reason. -/
theorem C128_fails_partial (s x : Str) (j : Nat) (h : EndsWithBreak s j) (hx : render s = .ok x)
    (hp : render (s ++ c!"x") = .ok (x ++ c!"<p>x</p>\n")) (b : Str) (hb : b.head? ≠ some '\n') (ht : 2 ≤ j ∨ b.head? ≠ some '\t')
    (hy : ∀ y, render ('\n' :: b) ≠ .ok y) : render (s ++ b) = render ('\n' :: b) :=
  (render_rest h hx hp hb ht).2 hy

/-- A heading with text after its label cannot be rendered (C11), here behind a paragraph. -/
example : render (c!"a\n\n*b*\n\n" ++ c!"# a {#b} c") = .panic :=
  (C128_fails_partial _ c!"<p>a</p>\n<p><em>b</em></p>\n" 2 break_sample (by decide +kernel) (by decide +kernel) c!"# a {#b} c" (by decide) (by decide)
    (by rw [show render ('\n' :: c!"# a {#b} c") = .panic by decide +kernel]; simp)).trans (by decide +kernel)

/-- C128: the test is exact. Every document after `s` is shown as it is by itself if and only if the paragraph `x` is. -/
theorem C128_exact_partial (s x : Str) (j : Nat) (h : EndsWithBreak s j) (hx : render s = .ok x) :
    render (s ++ c!"x") = .ok (x ++ c!"<p>x</p>\n") ↔
    ∀ b y : Str, b.head? ≠ some '\n' → (2 ≤ j ∨ b.head? ≠ some '\t') → render ('\n' :: b) = .ok y → y.head? ≠ some '\n' →
      render (s ++ b) = .ok (x ++ y) :=
  ⟨fun hp b y hb ht hy hn => C128_partial s x j h hx hp b y hb ht hy hn, fun H =>
    H c!"x" c!"<p>x</p>\n" (by decide) (.inr (by decide)) (by decide +kernel) (by decide)⟩

/-- A quote stays open: the test fails, and so does a heading after it. -/
example : render c!"> a\n\n" = .ok c!"<blockquote>\n<p>a</p>\n</blockquote>\n" ∧
    render (c!"> a\n\n" ++ c!"x") = .ok c!"<blockquote>\n<p>a</p>\n</blockquote><p>x</p>\n" ∧
    render (c!"> a\n\n" ++ c!"# b") = .ok c!"<blockquote>\n<p>a</p>\n<h1>b</h1>\n</blockquote>\n" := by decide +kernel

/-- C128: without the line feed in front, unless the second document begins with indented lines, one of them by four spaces and with a `#`
in it (C112). -/
theorem C128_alone_partial (s x : Str) (j : Nat) (h : EndsWithBreak s j) (hx : render s = .ok x)
    (hp : render (s ++ c!"x") = .ok (x ++ c!"<p>x</p>\n")) (b y : Str) (hb : b.head? ≠ some '\n') (ht : 2 ≤ j ∨ b.head? ≠ some '\t')
    (hi : ¬ IndentedHash b) (hy : render b = .ok y) (hn : y.head? ≠ some '\n') : render (s ++ b) = .ok (x ++ y) :=
  C128_partial s x j h hx hp b y hb ht ((render_nls_none 0 hb hi).trans hy) hn

theorem not_indentedHash {b : Str} (h1 : b.head? ≠ some ' ') (h2 : b.head? ≠ some '\t') : ¬ IndentedHash b := by
  intro h
  cases h with
  | here => exact h1 rfl
  | after h3 =>
    rcases h3 with rfl | rfl
    · exact h1 rfl
    · exact h2 rfl

/-- C128: any number of parts with their renderings, after each of which nothing is open, and another document at the end. -/
theorem C128_many_partial (b y : Str) (hb : b.head? ∉ [some '\n', some ' ', some '\t']) (hy : render b = .ok y) (hn : y.head? ≠ some '\n') :
    ∀ parts : List (Str × Str), (∀ p ∈ parts, (∃ j, EndsWithBreak p.1 j) ∧ p.1.head? ∉ [some '\n', some ' ', some '\t'] ∧
        render p.1 = .ok p.2 ∧ p.2.head? ≠ some '\n' ∧ render (p.1 ++ c!"x") = .ok (p.2 ++ c!"<p>x</p>\n")) →
      render (parts.flatMap (·.1) ++ b) = .ok (parts.flatMap (·.2) ++ y)
  | [], _ => by simpa using hy
  | p :: parts, h => by
    obtain ⟨⟨j, hj⟩, h1, h2, h3, h4⟩ := h p (by simp)
    have ih := C128_many_partial b y hb hy hn parts fun q hq => h q (List.mem_cons_of_mem _ hq)
    have hd : (parts.flatMap (·.1) ++ b).head? ∉ [some '\n', some ' ', some '\t'] ∧ (parts.flatMap (·.2) ++ y).head? ≠ some '\n' := by
      cases parts with
      | nil => exact ⟨by simpa using hb, by simpa using hn⟩
      | cons q parts =>
        obtain ⟨⟨i, hi, ts, t, ps, -, -, hf⟩, g1, -, g3, -⟩ := h q (by simp)
        have hq : q.1 ≠ [] := by
          rw [← hf]
          intro e
          simp [times] at e
          omega
        constructor
        · cases hq1 : q.1 with
          | nil => exact absurd hq1 hq
          | cons c u =>
            rw [hq1] at g1
            simpa [hq1] using g1
        · cases hq2 : q.2 with
          | nil =>
            exact absurd hq2 (C20_output_ends _ _ (h q (by simp)).2.2.1).1
          | cons c u =>
            rw [hq2] at g3
            simpa [hq2] using g3
    simp only [List.mem_cons, List.not_mem_nil, or_false, not_or] at hd
    obtain ⟨⟨d1, d2, d3⟩, d4⟩ := hd
    have := C128_alone_partial p.1 p.2 j hj h2 h4 _ _ d1 (.inr d3) (not_indentedHash d2 d3) ih d4
    simpa using this

example : render ([(c!"a\n\n*b*\n\n", c!"<p>a</p>\n<p><em>b</em></p>\n"), (c!"a\n\n*b*\n\n", c!"<p>a</p>\n<p><em>b</em></p>\n")].flatMap (·.1) ++ c!"# c") =
    .ok (c!"<p>a</p>\n<p><em>b</em></p>\n<p>a</p>\n<p><em>b</em></p>\n" ++ c!"<h1>c</h1>\n") :=
  C128_many_partial c!"# c" _ (by decide) (by decide +kernel) (by decide) _ fun p hp => by
    obtain rfl : p = (c!"a\n\n*b*\n\n", c!"<p>a</p>\n<p><em>b</em></p>\n") := by simpa using hp
    exact ⟨⟨2, break_sample⟩, by decide, by decide +kernel, by decide, by decide +kernel⟩

end Smd.Gfm
