import Verif.Props.Syntax

/-! Tables with rows of different lengths (C199) and without rows (C200), targets of links in angle brackets (C201). -/

namespace Smd.Gfm
open Smd.Rs Smd.Spec

/-! ### C199 Rows with fewer or more cells -/

/-- **C199, negated** With a row that has fewer cells than the heading, or more, a table is text. -/
theorem C199_refuted : render c!"|a|b|\n|-|-|\n|c|d|\n|e|" = .ok c!"<p>&mid;a&mid;b&mid;\n&mid;-&mid;-&mid;\n&mid;c&mid;d&mid;\n&mid;e&mid;</p>\n" ∧
    render c!"|a|\n|-|\n|c|d|" = .ok c!"<p>&mid;a&mid;\n&mid;-&mid;\n&mid;c&mid;d&mid;</p>\n" := by decide +kernel

/-- A row has one bar more than cells. -/
private theorem rowSrc_count (r : List Str) (h : ∀ x ∈ r, '|' ∉ x) : (r.flatMap (· ++ c!"|")).count '|' = r.length := by
  induction r with
  | nil => rfl
  | cons x r ih =>
    rw [List.flatMap_cons, List.count_append, List.count_append, List.count_eq_zero.mpr (h x (by simp)), ih fun y hy => h y (List.mem_cons_of_mem _ hy)]
    simp only [List.length_cons, List.count_singleton_self]
    omega

private theorem rowSrc_chars (r : List Str) (h : ∀ x ∈ r, '|' ∉ x ∧ '\n' ∉ x ∧ '[' ∉ x) : '\n' ∉ r.flatMap (· ++ c!"|") ∧ '[' ∉ r.flatMap (· ++ c!"|") := by
  constructor <;> intro hm <;> obtain ⟨x, hx, hc⟩ := List.mem_flatMap.mp hm <;> rcases List.mem_append.mp hc with hc | hc
  · exact (h x hx).2.1 hc
  · revert hc; decide
  · exact (h x hx).2.2 hc
  · revert hc; decide

private theorem rows_text (head : List Str) (rows : List (List Str)) (hx : ∀ r ∈ head :: rows, ∀ x ∈ r, '|' ∉ x ∧ '\n' ∉ x ∧ '[' ∉ x)
    (hr : rows.length < 2 ∨ ∃ r ∈ rows, r.length ≠ head.length) :
    render (rowSrc head ++ rows.flatMap fun r => c!"\n" ++ rowSrc r) =
      .ok (elem c!"p" (escape (rowSrc head ++ rows.flatMap fun r => c!"\n" ++ rowSrc r)) ++ c!"\n") := by
  have := C165_refuted_lines (head.flatMap (· ++ c!"|")) (rows.map fun r => r.flatMap (· ++ c!"|")) (by
    intro l hl
    rcases List.mem_cons.mp hl with rfl | hl
    · exact rowSrc_chars head (hx head (by simp))
    · obtain ⟨r, hr, rfl⟩ := List.mem_map.mp hl
      exact rowSrc_chars r (hx r (List.mem_cons_of_mem _ hr))) (by
    rcases hr with hr | ⟨r, hr, hl⟩
    · exact .inl (by simpa using hr)
    · refine .inr ⟨_, List.mem_map_of_mem hr, ?_⟩
      rw [rowSrc_count r fun x h => (hx r (List.mem_cons_of_mem _ hr) x h).1, rowSrc_count head fun x h => (hx head (by simp) x h).1]
      exact hl)
  simpa [rowSrc, List.flatMap_map] using this

/-- One row with another number of cells than the heading makes text of all the lines, whichever it is and whatever is in the cells. -/
theorem C199_refuted_always (head delims : List Str) (rows : List (List Str)) (hx : ∀ r ∈ head :: delims :: rows, ∀ x ∈ r, '|' ∉ x ∧ '\n' ∉ x ∧ '[' ∉ x)
    (hr : ∃ r ∈ rows, r.length ≠ head.length) :
    render (rowSrc head ++ c!"\n" ++ rowSrc delims ++ rows.flatMap fun r => c!"\n" ++ rowSrc r) =
      .ok (elem c!"p" (escape (rowSrc head ++ c!"\n" ++ rowSrc delims ++ rows.flatMap fun r => c!"\n" ++ rowSrc r)) ++ c!"\n") := by
  obtain ⟨r, hr, hl⟩ := hr
  have := rows_text head (delims :: rows) hx (.inr ⟨r, List.mem_cons_of_mem _ hr, hl⟩)
  simpa using this

example : render c!"| a | b |\n|:-:|-|\n| c |\n| d | e |" = .ok c!"<p>&mid; a &mid; b &mid;\n&mid;:-:&mid;-&mid;\n&mid; c &mid;\n&mid; d &mid; e &mid;</p>\n" :=
  C199_refuted_always [c!" a ", c!" b "] [c!":-:", c!"-"] [[c!" c "], [c!" d ", c!" e "]] (by decide) ⟨[c!" c "], by simp, by decide⟩

/-- **C199, the part that holds** With as many cells in every row as in the heading, lines are a table, and every cell of the heading and of the rows is shown;
with another number of cells in the delimiter row they are none, as it should be. -/
theorem C199_partial (t : Table) (h : t.Good) : (∃ html, render t.src = .ok html ∧
      (∀ c ∈ t.head, c!">" ++ escape (trimmed c) ++ c!"</th>" <:+: html) ∧ ∀ r ∈ t.rows, ∀ c ∈ r, c!">" ++ c.html ++ c!"</td>" <:+: html) ∧
    ∀ (head delims : List Str) (rows : List (List Str)), (∀ r ∈ head :: delims :: rows, ∀ x ∈ r, '|' ∉ x ∧ '\n' ∉ x ∧ '[' ∉ x) → delims.length ≠ head.length →
      render (rowSrc head ++ c!"\n" ++ rowSrc delims ++ rows.flatMap fun r => c!"\n" ++ rowSrc r) =
        .ok (elem c!"p" (escape (rowSrc head ++ c!"\n" ++ rowSrc delims ++ rows.flatMap fun r => c!"\n" ++ rowSrc r)) ++ c!"\n") := by
  refine ⟨C68_partial t h, fun head delims rows hx hd => ?_⟩
  have := rows_text head (delims :: rows) hx (.inr ⟨delims, by simp, hd⟩)
  simpa using this

example : render c!"|a|b|\n|-|\n|c|d|" = .ok c!"<p>&mid;a&mid;b&mid;\n&mid;-&mid;\n&mid;c&mid;d&mid;</p>\n" :=
  (C199_partial sampleTable sampleTable_good).2 [c!"a", c!"b"] [c!"-"] [[c!"c", c!"d"]] (by decide) (by decide)

/-! ### C200 Tables without rows -/

/-- **C200, negated** A heading with a delimiter row is text if no other row follows, whatever is in the cells. -/
theorem C200_refuted_always (head delims : List Str) (hx : ∀ x ∈ head ++ delims, '|' ∉ x ∧ '\n' ∉ x ∧ '[' ∉ x) :
    render (rowSrc head ++ c!"\n" ++ rowSrc delims) = .ok (elem c!"p" (escape (rowSrc head ++ c!"\n" ++ rowSrc delims)) ++ c!"\n") := by
  have := rows_text head [delims] (by
    intro r hr x h
    rcases List.mem_cons.mp hr with rfl | hr
    · exact hx x (List.mem_append_left _ h)
    · rw [List.mem_singleton.mp hr] at h
      exact hx x (List.mem_append_right _ h)) (.inl (by simp))
  simpa using this

theorem C200_refuted : render c!"|a|b|\n|-|-|" = .ok c!"<p>&mid;a&mid;b&mid;\n&mid;-&mid;-&mid;</p>\n" :=
  C200_refuted_always [c!"a", c!"b"] [c!"-", c!"-"] (by decide)

/-- **C200, the part that holds** With a row of spaces, every cell of the heading is shown as one. -/
theorem C200_partial (head delims : List Str) (hx : ∀ x ∈ head ++ delims, x ≠ [] ∧ '|' ∉ x ∧ '\n' ∉ x) (hl : delims.length = head.length) :
    ∃ html, render (rowSrc head ++ c!"\n" ++ rowSrc delims ++ c!"\n" ++ rowSrc (List.replicate head.length c!" ")) = .ok html ∧
      ∀ x ∈ head, c!">" ++ escape (trimmed x) ++ c!"</th>" <:+: html := by
  let t : Table := ⟨head, delims, [List.replicate head.length ⟨1, [], 0⟩]⟩
  have ht : t.Good := by
    refine ⟨by simp [t], fun x h => hx x (List.mem_append_left _ h), fun x h => hx x (List.mem_append_right _ h), ?_, hl, ?_⟩
    · intro r hr c hc
      rw [List.mem_singleton.mp hr] at hc
      rw [List.eq_of_mem_replicate hc]
      exact ⟨by decide, by decide, trivial, by simp, .inl rfl⟩
    · intro r hr
      rw [List.mem_singleton.mp hr, List.length_replicate]
  obtain ⟨html, h1, h2, _⟩ := C68_partial t ht
  refine ⟨html, ?_, h2⟩
  rw [← h1]
  congr 1
  simp [t, Table.src, Cell.src, inlineSrc, times]

example : ∃ html, render c!"|a|b|\n|-|:-|\n| | |" = .ok html ∧ ∀ x ∈ [c!"a", c!"b"], c!">" ++ escape (trimmed x) ++ c!"</th>" <:+: html :=
  C200_partial [c!"a", c!"b"] [c!"-", c!":-"] (by decide) rfl

/-! ### C201 Targets in angle brackets -/

/-- **C201, negated** The brackets are part of the address, and so is the scheme in them. -/
theorem C201_refuted : render c!"[a](<b>)" = .ok c!"<p><a href=\"http:<b>\">a</a></p>\n" ∧
    render c!"[a](<https://b>)" = .ok c!"<p><a href=\"http:<https://b>\">a</a></p>\n" ∧
    render c!"[a](<b c>)" = .ok c!"<p><a href=>\"http:<b\" title=\" c>\">a</a></p>\n" := by decide +kernel

/-- Every accepted target in angle brackets leads to an address with the brackets in it, over `http` or `mailto` whatever its scheme is. -/
theorem C201_refuted_always (text target : Str) (u : ValidURL) (h1 : ']' ∉ text) (h2 : ')' ∉ target) (h3 : ' ' ∉ target)
    (hu : validateLink (c!"<" ++ target ++ c!">") = .ok u) :
    ∃ href, render (c!"[" ++ text ++ c!"](<" ++ target ++ c!">)") = .ok (elem c!"p" (c!"<a href=\"" ++ href ++ c!"\">" ++ escape text ++ c!"</a>") ++ c!"\n") ∧
      (urlScheme href = c!"http" ∨ urlScheme href = c!"mailto") ∧ percentDecode (htmlDecode (urlRest href)) = c!"<" ++ target ++ c!">" := by
  have hs : sourceScheme (c!"<" ++ target ++ c!">") = none := by
    have hc : (List.takeWhile (· != ':') (c!"<" ++ target ++ c!">")).all (fun c => schemeAscii.contains c) = false := by
      have : schemeAscii.contains '<' = false := by decide
      simp only [List.cons_append, List.takeWhile_cons]
      rw [if_pos (by decide), List.all_cons, this, Bool.false_and]
    unfold sourceScheme
    simp only [hc, Bool.and_false, Bool.false_and, Bool.false_eq_true, ↓reduceIte]
  have hr := C39_partial text (c!"<" ++ target ++ c!">") u h1 (by simp [h2]) (by simp [h3]) hu
  obtain ⟨_, hd, hcase⟩ := display_parts hu
  refine ⟨u.display, by simpa using hr, ?_⟩
  rw [hd, htmlDecode_amp, percentDecode_percentEncode]
  rcases hcase with ⟨_, sc, hsc⟩ | ⟨e, _, hc, _⟩ | ⟨e, _, hc, _⟩
  · rw [hs] at hsc; cases hsc
  · exact ⟨.inr e, hc⟩
  · exact ⟨.inl e, hc⟩

example : validateLink (c!"<" ++ c!"irc:b" ++ c!">") = .ok { content := c!"<irc:b>", scheme := none } := by decide

/-- **C201, the part that holds** Without the brackets, an ordinary target leads to where it says. -/
theorem C201_partial (text target : Str) (h1 : ']' ∉ text) (ht : PlainTarget target) :
    render (c!"[" ++ text ++ c!"](" ++ target ++ c!")") = .ok (elem c!"p" (c!"<a href=\"" ++ target ++ c!"\">" ++ escape text ++ c!"</a>") ++ c!"\n") :=
  C39_plain_target text target h1 ht

example : PlainTarget c!"irc:b" := target_check c!"irc" c!"b" (by decide) (by decide)

/-! ### C15 Quotes in targets -/

/-- **C15, negated** Whatever an accepted target has behind a double quote is outside of the attribute, where a browser reads names of attributes; it is recovered by undoing the
two encodings (of `&` and of the characters that are percent-encoded). -/
theorem C15_refuted_always (text pre post : Str) (u : ValidURL) (h1 : ']' ∉ text) (h2 : ')' ∉ pre ++ post) (h3 : ' ' ∉ pre ++ post)
    (hu : validateLink (pre ++ '"' :: post) = .ok u) (ha : (pre ++ post).count '@' ≠ 1) :
    ∃ a b, render (c!"[" ++ text ++ c!"](" ++ (pre ++ '"' :: post) ++ c!")") =
        .ok (elem c!"p" (c!"<a href=\"" ++ a ++ c!"\"" ++ b ++ c!"\">" ++ escape text ++ c!"</a>") ++ c!"\n") ∧ percentDecode (htmlDecode b) = post := by
  have ha' : (pre ++ '"' :: post).count '@' ≠ 1 := by
    rw [List.count_append, List.count_cons_of_ne (by decide), ← List.count_append]
    exact ha
  have hr := C39_partial text (pre ++ '"' :: post) u h1 (by simpa using h2) (by simpa using h3) hu
  obtain ⟨hd, hrest, hcase⟩ := display_parts hu
  have hc : ∃ c0, u.content = c0 ++ '"' :: post := by
    rcases hcase with ⟨_, sc, hsc⟩ | ⟨_, _, hc, _⟩ | ⟨_, _, hc, _⟩
    · obtain ⟨hcol, _, hall, _, _⟩ := sourceScheme_some hsc
      rw [content_of_scheme hu hsc (.inl ha')]
      by_cases hp : ':' ∈ pre
      · obtain ⟨x, y, rfl, hx⟩ := List.eq_append_cons_of_mem hp
        refine ⟨y, ?_⟩
        rw [List.append_assoc, List.cons_append, urlRest_append x _ fun c hm => by simp; rintro rfl; exact hx hm]
      · have : '"' ∈ (pre ++ '"' :: post).takeWhile (· != ':') := by
          rw [List.takeWhile_append_of_pos fun c hm => by simp; rintro rfl; exact hp hm, List.takeWhile_cons_of_pos (by decide)]
          simp
        exact absurd (hall _ this) (by decide)
    · exact ⟨pre, hc⟩
    · exact ⟨pre, hc⟩
  obtain ⟨c0, hc⟩ := hc
  have hq : percentEncode ('"' :: post) = c!"\"" ++ percentEncode post := by rw [percentEncode_cons, pct_other _ (by decide)]
  have hs : replaceC '&' c!"&amp;" c!"\"" = c!"\"" := by decide
  rw [hrest, hc, percentEncode_append, hq, replaceC_append, replaceC_append, hs] at hd
  generalize urlScheme u.display = sch at hd
  refine ⟨sch ++ ':' :: replaceC '&' c!"&amp;" (percentEncode c0), replaceC '&' c!"&amp;" (percentEncode post), ?_, ?_⟩
  · rw [hr, hd]
    simp only [List.append_assoc, List.cons_append, List.nil_append]
  · rw [htmlDecode_amp, percentDecode_percentEncode]

example : validateLink (c!"http:x" ++ '"' :: c!"onclick=y") = .ok { content := c!"x\"onclick=y", scheme := some (.http c!"http") } ∧
    render c!"[a](http:x\"onclick=y)" = .ok c!"<p><a href=\"http:x\"onclick=y\">a</a></p>\n" := by decide +kernel

end Smd.Gfm
