import Verif.Props.Blocks
import Verif.Lemmas.Growth

/-!
The length of the rendering (C110).
-/

namespace Smd.Gfm
open Smd.Rs Smd.Spec

/-- `k` times the autolink `<ab:c>` in the only cell of a table. -/
def linksTable (k : Nat) : Table :=
  { head := [c!"a"], delims := [c!"-"], rows := [[⟨0, List.replicate k (.autolink c!"ab:c"), 0⟩]] }

theorem target_abc : PlainTarget c!"ab:c" :=
  ⟨⟨c!"ab", c!"c", rfl, by decide, by decide, by decide, by decide, by decide, by decide⟩, by decide⟩

theorem mem_links {k : Nat} {c : Char} (h : c ∈ inlineSrc (List.replicate k (.autolink c!"ab:c"))) : c ∈ c!"<ab:c>" := by
  obtain ⟨i, hi, hc⟩ := List.mem_flatMap.mp h
  rw [List.eq_of_mem_replicate hi] at hc
  exact hc

theorem linksTable_good (k : Nat) : (linksTable (k + 1)).Good := by
  refine ⟨by simp [linksTable], by simp [linksTable], by simp [linksTable], ?_, by simp [linksTable]⟩
  intro r hr c hc
  have hr : r = [⟨0, List.replicate (k + 1) (.autolink c!"ab:c"), 0⟩] := by simpa [linksTable] using hr
  subst hr
  have hc : c = ⟨0, List.replicate (k + 1) (.autolink c!"ab:c"), 0⟩ := by simpa using hc
  subst hc
  have hsrc : Cell.src ⟨0, List.replicate (k + 1) (.autolink c!"ab:c"), 0⟩ = inlineSrc (List.replicate (k + 1) (.autolink c!"ab:c")) := by
    simp [Cell.src, times]
  refine ⟨?_, ?_, ?_, ?_, .inr ⟨⟨_, rfl, trivial⟩, ⟨.autolink c!"ab:c", by simp [List.getLast?_replicate], trivial⟩⟩⟩
  · rw [hsrc]
    simp [inlineSrc, List.replicate_succ, Inline.src]
  · rw [hsrc]
    exact ⟨fun h => absurd (mem_links h) (by decide), fun h => absurd (mem_links h) (by decide)⟩
  · show InlineGood none (List.replicate (k + 1) (.autolink c!"ab:c"))
    generalize k + 1 = m
    induction m with
    | zero => trivial
    | succ m ih => exact ⟨target_abc, ih⟩
  · intro i _ _ j hj
    rw [List.eq_of_mem_replicate hj]
    rfl

theorem len_flatMap_replicate {α : Type} (f : α → Str) (a : α) (k : Nat) : ((List.replicate k a).flatMap f).length = k * (f a).length := by
  induction k with
  | zero => simp
  | succ k ih => rw [List.replicate_succ, List.flatMap_cons, List.length_append, ih]; ring

theorem linksTable_src (k : Nat) : (linksTable k).src.length = 10 + 6 * k := by
  simp only [linksTable, Table.src, rowSrc, Cell.src, times, inlineSrc, List.replicate_zero, List.nil_append, List.append_nil,
    List.flatMap_cons, List.flatMap_nil, List.map_cons, List.map_nil, List.length_append, List.length_cons, List.length_nil,
    len_flatMap_replicate, Inline.src]
  omega

theorem linksTable_html (k : Nat) : k * k ≤ (linksTable k).html.length := by
  have h : k ≤ (inlineHtml (List.replicate k (.autolink c!"ab:c"))).length := by
    rw [inlineHtml, len_flatMap_replicate]
    exact Nat.le_mul_of_pos_right k (by decide)
  have h2 : k * k ≤ (Cell.html ⟨0, List.replicate k (.autolink c!"ab:c"), 0⟩).length := by
    rw [Cell.html, len_flatMap_replicate]
    refine Nat.mul_le_mul_left k ?_
    simp only [Inline.cellHtml, elem, List.length_append]
    omega
  simp only [linksTable, Table.html, List.zip_cons_cons, List.zip_nil_left, List.flatMap_cons, List.flatMap_nil,
    List.length_append]
  omega

/-- **C110, negated** The rendering is not at most proportional to the document: whatever the factor, some document is
rendered to more than that. Every link in a table cell is replaced by the rendering of the whole cell. -/
theorem C110_refuted : ∀ K : Nat, ∃ d html, render d = .ok html ∧ K * (d.length + 1) < html.length := by
  intro K
  refine ⟨(linksTable (16 * K + 1)).src, (linksTable (16 * K + 1)).html ++ c!"\n", ?_, ?_⟩
  · rw [C56_table _ (linksTable_good _)]
    simp [Table.html]
  · rw [linksTable_src, List.length_append]
    have h := linksTable_html (16 * K + 1)
    have h1 : K * (10 + 6 * (16 * K + 1) + 1) ≤ (16 * K + 1) * (16 * K + 1) := by nlinarith
    simp only [List.length_cons, List.length_nil]
    omega

example : ∃ html, render c!"|a|\n|-|\n|<ab:c><ab:c>|" = .ok html ∧
    c!"<p><a href=\"ab:c\">ab:c</a><a href=\"ab:c\">ab:c</a></p>\n<p><a href=\"ab:c\">ab:c</a><a href=\"ab:c\">ab:c</a></p>" <:+: html :=
  render_check _ (fun html => c!"<p><a href=\"ab:c\">ab:c</a><a href=\"ab:c\">ab:c</a></p>\n<p><a href=\"ab:c\">ab:c</a><a href=\"ab:c\">ab:c</a></p>" <:+: html)
    (by decide +kernel)

/-- **C110, part** The rendering grows at most with the square of the document, up to the number of digits that the numbers of
footnotes have. -/
theorem C110_partial (d html : Str) (h : render d = .ok html) :
    html.length ≤ 5 * 10 ^ 9 * (d.length + 1) ^ 2 * (Nat.log2 (d.length + 1) + 1) := by
  generalize hL : Nat.log2 (d.length + 1) = L
  have hW : Unit (320 * (d.length + 40)) (406 + L) := by
    intro c hc
    have h1 : d.length + 1 < 2 ^ (L + 1) := by rw [← hL]; exact Nat.lt_log2_self
    have h2 : 2 ^ (L + 1) ≤ 10 ^ (L + 1) := Nat.pow_le_pow_left (by decide) _
    have h3 : (dec c).length ≤ L + 6 := by
      refine (Nat.length_toDigits_le_iff (by decide) (by omega)).mpr ?_
      rw [show L + 6 = (L + 1) + 5 from rfl, Nat.pow_add]
      omega
    omega
  have h1 := render_length hW (by omega) (by omega) h
  generalize d.length = n at *
  refine Nat.le_trans h1 ?_
  have h2 : growth * (n * n) + 1 ≤ 10 ^ 7 * (n + 1) ^ 2 := by
    unfold growth
    nlinarith
  have h3 : 406 + L ≤ 406 * (L + 1) := by omega
  refine Nat.le_trans (Nat.mul_le_mul h3 h2) ?_
  rw [show 406 * (L + 1) * (10 ^ 7 * (n + 1) ^ 2) = (406 * 10 ^ 7) * ((n + 1) ^ 2 * (L + 1)) by ring,
    show 5 * 10 ^ 9 * (n + 1) ^ 2 * (L + 1) = (5 * 10 ^ 9) * ((n + 1) ^ 2 * (L + 1)) by ring]
  exact Nat.mul_le_mul_right _ (by decide)

example : ∃ html, render c!"- a[^1]\n> b\n" = .ok html ∧
    html.length ≤ 5 * 10 ^ 9 * (c!"- a[^1]\n> b\n".length + 1) ^ 2 * (Nat.log2 (c!"- a[^1]\n> b\n".length + 1) + 1) := by
  obtain ⟨html, h, _⟩ := render_check c!"- a[^1]\n> b\n" (fun _ => True) (by decide +kernel)
  exact ⟨html, h, C110_partial _ _ h⟩

end Smd.Gfm
