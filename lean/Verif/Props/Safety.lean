import Verif.Lemmas.Scan
import Verif.Lemmas.Safe
import Mathlib.Data.List.Infix

/-!
What a browser finds in rendered output: the names of tags (C14), attributes and link targets (C15, C06), and whether tags
are closed (C16 to C19, C58). Tags are found by the tokenizer of `Spec/Tokenizer.lean` and counted by `opens` and `closes`
of `Spec/Html.lean`; neither knows anything about the renderer.
-/

namespace Smd.Gfm
open Smd.Spec

/-- A way to check a property of the output of a concrete document. -/
theorem render_check (d : Str) (P : Str → Prop) [DecidablePred P]
    (h : (match render d with | .ok html => decide (P html) | _ => false) = true) : ∃ html, render d = .ok html ∧ P html := by
  cases e : render d with
  | ok html => rw [e] at h; exact ⟨html, rfl, by simpa using h⟩
  | _ => rw [e] at h; cases h

/-- A document without `<` has no markup in any of the places the renderer copies unescaped. -/
theorem safeSource_of_no_lt {d : Str} (h : '<' ∉ d) : SafeSource False d where
  note := .inr h
  target x hx _ := ⟨fun hm => h (hx.subset (by simp [hm])), False.elim⟩
  auto x hx _ _ _ := absurd (hx.subset (by simp)) h

/-- A way to check `SafeSource` on a concrete document. -/
theorem safeSource_check (d : Str)
    (h1 : Rs.contains d c!"[^" = false ∨ '<' ∉ d)
    (h2 : ∀ u ∈ d.tails, c!"](" <+: u → '<' ∉ (u.drop 2).takeWhile (· != ')') ∧
      '"' ∉ ((u.drop 2).takeWhile (· != ')')).takeWhile (· != ' '))
    (h3 : ∀ u ∈ d.tails, u.head? = some '<' → (∀ c ∈ u.tail.takeWhile (· != '>'), Rs.isWs c = false) →
      ':' ∈ u.tail.takeWhile (· != '>') ∨ '@' ∈ u.tail.takeWhile (· != '>') →
      '<' ∉ u.tail.takeWhile (· != '>') ∧ '"' ∉ u.tail.takeWhile (· != '>')) (q : Prop) : SafeSource q d where
  note := h1.imp_left fun h hin => by rw [infix_contains hin] at h; cases h
  target x hx hc := by
    obtain ⟨a, b, hab⟩ := hx
    have := h2 (c!"](" ++ x ++ b) ((List.mem_tails _ _).mpr ⟨a, by rw [← hab]; simp⟩) ⟨x ++ b, by simp⟩
    have e : ((c!"](" ++ x ++ b).drop 2).takeWhile (· != ')') = x ++ b.takeWhile (· != ')') := by
      have : (c!"](" ++ x ++ b).drop 2 = x ++ b := by simp
      rw [this, List.takeWhile_append_of_pos]
      intro y hy
      have : y ≠ ')' := fun h => hc (h ▸ hy)
      simpa using this
    rw [e] at this
    refine ⟨fun hm => this.1 (by simp [hm]), fun _ hm => this.2 ?_⟩
    have hp : x.takeWhile (· != ' ') <+: (x ++ b.takeWhile (· != ')')).takeWhile (· != ' ') := by
      generalize b.takeWhile (· != ')') = z
      clear * -
      induction x with
      | nil => simp
      | cons c x ih =>
        by_cases h : c = ' '
        · subst h; simp
        · simpa [h] using ih
    exact hp.subset hm
  auto x hx hg hw hc := by
    obtain ⟨a, b, hab⟩ := hx
    have := h3 ('<' :: (x ++ '>' :: b)) ((List.mem_tails _ _).mpr ⟨a, by rw [← hab]; simp⟩) rfl
    have e : ('<' :: (x ++ '>' :: b)).tail.takeWhile (· != '>') = x := by
      show (x ++ '>' :: b).takeWhile (· != '>') = x
      rw [List.takeWhile_append_of_pos]
      · simp
      · intro y hy
        have : y ≠ '>' := fun h => hg (h ▸ hy)
        simpa using this
    rw [e] at this
    have := this hw hc
    exact ⟨this.1, fun _ => this.2⟩

/-- A document used in the examples below: raw tags, quotes, a link, inline code, a list and a mail address. -/
def sampleDoc : Str :=
  c!"<b>\"x\" said: \"[hi](http://a.b/c?d=e&f)\"\n\n- `code` <i>\n- c\n\n> q\n\n<me@example.com>\n\n1. <u>\n"

theorem sampleDoc_safe (q : Prop) : SafeSource q sampleDoc :=
  safeSource_check sampleDoc (by decide +kernel) (by decide +kernel) (by decide +kernel) q

/-! ### C14 -/

/-- C14 is false: text in front of `[^` is copied into the output unescaped. -/
theorem C14_refuted : ¬ ∀ d html : Str, render d = .ok html → ∀ t ∈ htmlTags html, t.name ∈ tagNames := by
  intro h
  obtain ⟨html, e, t, ht, hn⟩ := render_check c!"[<script>x</script>[^]"
    (fun html => ∃ t ∈ htmlTags html, t.name = c!"script") (by decide +kernel)
  exact absurd (h _ _ e t ht) (by rw [hn]; decide)

/-- The same for what can be a URL inside `<…>`, in a document without `[^` and without `](`. -/
theorem C14_refuted_autolink : ∃ d : Str, ¬ c!"[^" <:+: d ∧ ¬ c!"](" <:+: d ∧ ∃ html, render d = .ok html ∧
    ∃ t ∈ htmlTags html, t.name = c!"img" ∧ ∃ a ∈ t.attrs, a.1 = c!"onerror" :=
  ⟨c!"<ab:<img/src/onerror=alert(1)>", by decide +kernel, by decide +kernel, render_check _ _ (by decide +kernel)⟩

/-- The same for a link with a title, in a document without `[^`. -/
theorem C14_refuted_title : ∃ d : Str, ¬ c!"[^" <:+: d ∧ ∃ html, render d = .ok html ∧
    ∃ t ∈ htmlTags html, t.name = c!"script" :=
  ⟨c!"[a](b <script>x</script>)", by decide +kernel, render_check _ _ (by decide +kernel)⟩

/-- C14, the part that holds: if there is no markup in the text around `[^`, in link targets and in autolinks, every tag a
browser finds in the output has one of the names the renderer writes. Missing: exactly those three places; each is needed,
by the three refutations. -/
theorem C14_partial (d html : Str) (hd : SafeSource False d) (e : render d = .ok html) :
    ∀ t ∈ htmlTags html, t.name ∈ tagNames :=
  htmlTags_names safe_noLt (render_bal' (U := False) hd False.elim e).tagged

/-- In particular no document without `<` can bring its own tags in. -/
theorem C14_no_lt (d html : Str) (hd : '<' ∉ d) (e : render d = .ok html) : ∀ t ∈ htmlTags html, t.name ∈ tagNames :=
  C14_partial d html (safeSource_of_no_lt hd) e

example : ∃ html, render sampleDoc = .ok html ∧ 10 < (htmlTags html).length ∧ ∀ t ∈ htmlTags html, t.name ∈ tagNames :=
  have ⟨html, e, h⟩ := render_check sampleDoc (fun html => 10 < (htmlTags html).length) (by decide +kernel)
  ⟨html, e, h, C14_partial sampleDoc _ (sampleDoc_safe _) e⟩

/-- **C72, negated** No document without `<` has a line break in its rendering: where the renderer writes `<br>`, in cells of
tables, there is never a line break to write. -/
theorem C72_refuted_never (d html : Str) (hd : '<' ∉ d) (e : render d = .ok html) : ∀ t ∈ htmlTags html, t.name ≠ c!"br" := by
  rintro t ht h
  have := C14_no_lt d html hd e t ht
  rw [h] at this
  revert this
  decide

example : ∃ html, render c!"|a  |\n|-|\n|b  |  \n\nc  \nd" = .ok html ∧ 10 < (htmlTags html).length ∧ ∀ t ∈ htmlTags html, t.name ≠ c!"br" :=
  have ⟨html, e, h⟩ := render_check c!"|a  |\n|-|\n|b  |  \n\nc  \nd" (fun html => 10 < (htmlTags html).length) (by decide +kernel)
  ⟨html, e, h, C72_refuted_never _ _ (by decide) e⟩

/-! ### C15 -/

/-- C15 is false: a `"` in a link target ends the attribute, and what follows becomes an attribute of its own. -/
theorem C15_refuted : ¬ ∀ d html : Str, render d = .ok html → ∀ t ∈ htmlTags html, ∀ a ∈ t.attrs, a.1 ∈ attrNames := by
  intro h
  obtain ⟨html, e, t, ht, a, ha, hn⟩ := render_check c!"[a](b\"onclick=\"c)"
    (fun html => ∃ t ∈ htmlTags html, ∃ a ∈ t.attrs, a.1 = c!"onclick") (by decide +kernel)
  exact absurd (h _ _ e t ht a ha) (by rw [hn]; decide)

/-- The same for an image; the document has no `<`. -/
theorem C15_refuted_image : ∃ d : Str, '<' ∉ d ∧ ∃ html, render d = .ok html ∧
    ∃ t ∈ htmlTags html, t.name = c!"img" ∧ ∃ a ∈ t.attrs, a.1 = c!"onerror" :=
  ⟨c!"![a](b\"onerror=\"c)", by decide +kernel, render_check _ _ (by decide +kernel)⟩

/-- C15, the part that holds: if in addition link targets and autolinks contain no `"`, every tag a browser finds has only
attributes the renderer writes, and every `href` is empty, a place in the document or a URL whose scheme is not
`javascript`. Missing: targets with a `"` in them, where the property is false. -/
theorem C15_partial (d html : Str) (hd : SafeSource True d) (e : render d = .ok html) : ∀ t ∈ htmlTags html, SafeTag t :=
  htmlTags_safe (render_bal' (U := False) hd False.elim e).tagged

/-- C06 for the output as a browser reads it, for documents whose targets cannot break out of their attribute. -/
theorem C06_href_in_output (d html : Str) (hd : SafeSource True d) (e : render d = .ok html) :
    ∀ t ∈ htmlTags html, ∀ v, (c!"href", v) ∈ t.attrs → ¬ eqIgnoreCase (urlScheme v) c!"javascript" := by
  intro t ht v hv
  rcases ((C15_partial d html hd e t ht).2 _ hv).2 rfl with h | h | h
  · have h : v = [] := h
    subst h
    decide
  · have h : v.head? = some '#' := h
    cases v with
    | nil => cases h
    | cons c v =>
      injection h with h
      subst h
      intro hj
      have : (urlScheme ('#' :: v)).head? = some '#' ∨ urlScheme ('#' :: v) = [] := by
        unfold urlScheme
        simp
      rcases this with h | h
      · revert hj
        generalize urlScheme ('#' :: v) = w at *
        cases w with
        | nil => cases h
        | cons x w =>
          injection h with h
          subst h
          intro hj
          simp [eqIgnoreCase] at hj
      · rw [h] at hj
        revert hj
        decide
  · exact h.2.2

example : ∃ html, render sampleDoc = .ok html ∧ (∃ t ∈ htmlTags html, (c!"href", c!"http://a.b/c?d=e&amp;f") ∈ t.attrs) ∧
    ∀ t ∈ htmlTags html, SafeTag t :=
  have ⟨html, e, h⟩ := render_check sampleDoc
    (fun html => ∃ t ∈ htmlTags html, (c!"href", c!"http://a.b/c?d=e&amp;f") ∈ t.attrs) (by decide +kernel)
  ⟨html, e, h, C15_partial sampleDoc _ (sampleDoc_safe _) e⟩

/-! ### C16, C17, C19 and C58: every opened element is closed -/

/-- C58: every element other than `ul` (see C18) and the ones that have no closing tag is closed as often as it is opened. -/
theorem C58_balanced (d html : Str) (hd : SafeSource False d) (e : render d = .ok html) (n : Str) (hn : n ∈ elementNames)
    (hv : n ∉ voidNames) (hul : n ≠ c!"ul") : opens n html = closes n html := by
  have := (render_bal' (U := False) hd False.elim e).count n hn hv hul
  unfold cnt at this
  omega

example : ∃ html, render sampleDoc = .ok html ∧ opens c!"a" html = 2 ∧ closes c!"a" html = 2 :=
  render_check _ _ (by decide +kernel)

/-- C16. -/
theorem C16_paragraphs_balanced (d html : Str) (hd : '<' ∉ d) (e : render d = .ok html) :
    opens c!"p" html = closes c!"p" html :=
  C58_balanced d html (safeSource_of_no_lt hd) e _ (by decide) (by decide) (by decide)

/-- C17. -/
theorem C17_quotes_balanced (d html : Str) (hd : '<' ∉ d) (e : render d = .ok html) :
    opens c!"blockquote" html = closes c!"blockquote" html :=
  C58_balanced d html (safeSource_of_no_lt hd) e _ (by decide) (by decide) (by decide)

/-- C19: the four numbers agree. -/
theorem C19_code_balanced (d html : Str) (hd : '<' ∉ d) (e : render d = .ok html) :
    opens c!"pre" html = closes c!"pre" html ∧ opens c!"code" html = closes c!"code" html :=
  ⟨C58_balanced d html (safeSource_of_no_lt hd) e _ (by decide) (by decide) (by decide),
    C58_balanced d html (safeSource_of_no_lt hd) e _ (by decide) (by decide) (by decide)⟩

/-- A document with paragraphs, three levels of quotes and code. -/
example : ∃ html, render c!"a\n\n> b\n\n>>> c\n\n> d `e`\n\nf" = .ok html ∧ opens c!"p" html = 5 ∧
    opens c!"blockquote" html = 3 ∧ opens c!"pre" html = 1 ∧ closes c!"p" html = 5 ∧ closes c!"blockquote" html = 3 ∧
    closes c!"pre" html = 1 := by
  obtain ⟨html, e, h1, h2, h3⟩ := render_check c!"a\n\n> b\n\n>>> c\n\n> d `e`\n\nf"
    (fun html => opens c!"p" html = 5 ∧ opens c!"blockquote" html = 3 ∧ opens c!"pre" html = 1) (by decide +kernel)
  exact ⟨html, e, h1, h2, h3, by rw [← h1, C16_paragraphs_balanced _ html (by decide) e],
    by rw [← h2, C17_quotes_balanced _ html (by decide) e], by rw [← h3, (C19_code_balanced _ html (by decide) e).1]⟩

/-- With `<` in the document the same properties fail, by the injection of `C14_refuted`. -/
theorem C16_lt_needed : ∃ d html : Str, render d = .ok html ∧ opens c!"p" html ≠ closes c!"p" html :=
  ⟨c!"[<p>[^]", render_check _ _ (by decide +kernel)⟩

/-! ### C18 -/

/-- C18 is false: a task after an item of an ordered list opens a list that is never closed. -/
theorem C18_refuted : ¬ ∀ d html : Str, '<' ∉ d → render d = .ok html →
    opens c!"ol" html = closes c!"ol" html ∧ opens c!"ul" html = closes c!"ul" html := by
  intro h
  obtain ⟨html, e, hn⟩ := render_check c!"- a\n1. b\n- [ ] c"
    (fun html => opens c!"ul" html ≠ closes c!"ul" html) (by decide +kernel)
  exact hn (h _ _ (by decide) e).2

/-- C18, the part that holds: ordered lists are balanced, no bullet list is closed more often than it is opened, and bullet
lists are balanced if the document has no `[` (so no tasks) or no digit followed by `. ` (so no ordered lists). Missing:
bullet lists in documents with both tasks and ordered lists, where it is false. -/
theorem C18_partial (d html : Str) (hd : '<' ∉ d) (e : render d = .ok html) :
    opens c!"ol" html = closes c!"ol" html ∧ closes c!"ul" html ≤ opens c!"ul" html ∧
      (('[' ∉ d ∨ ∀ c ∈ c!"1234567890", ¬ [c, '.', ' '] <:+: d) → opens c!"ul" html = closes c!"ul" html) := by
  have hs := safeSource_of_no_lt hd
  refine ⟨C58_balanced d html hs e _ (by decide) (by decide) (by decide), ?_, fun hu => ?_⟩
  · have := (render_bal' (U := False) hs False.elim e).ul
    unfold cnt at this
    omega
  · have := (render_bal' (U := True) hs (fun _ => hu) e).ulExact trivial
    unfold cnt at this
    omega

example : ∃ html, render c!"- a\n- b\n\n# x\n\n1. c\n2. d\n\n# y\n- e\n" = .ok html ∧ opens c!"ul" html = 2 ∧
    closes c!"ul" html = 2 ∧ opens c!"ol" html = 1 ∧ closes c!"ol" html = 1 :=
  render_check _ _ (by decide +kernel)

/-- With tasks and bullet lists. -/
example : (∀ c ∈ c!"1234567890", ¬ [c, '.', ' '] <:+: c!"- a\n- [ ] b\n\n- [x] c.\n- d\n") ∧
    ∃ html, render c!"- a\n- [ ] b\n\n- [x] c.\n- d\n" = .ok html ∧ opens c!"ul" html = 3 ∧ closes c!"ul" html = 3 :=
  ⟨by decide +kernel, render_check _ _ (by decide +kernel)⟩

/-! ### C59: nesting -/

/-- C59 is false: a list after a quote is opened inside the quote and closed outside of it. -/
theorem C59_refuted : ∃ d : Str, '<' ∉ d ∧ ∃ x y z w : Str,
    render d = .ok (x ++ c!"<blockquote>" ++ y ++ c!"<ul>" ++ z ++ c!"</blockquote>" ++ w) ∧
      closes c!"blockquote" y = 0 ∧ closes c!"ul" z = 0 ∧ 0 < closes c!"ul" w :=
  ⟨c!"> a\n- b\n", by decide, [], c!"\n<p>a</p>\n", c!"\n<li>\n<p>b</p>\n</li>\n", c!"\n</ul>\n", by decide +kernel⟩

end Smd.Gfm
