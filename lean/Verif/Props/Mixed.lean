import Verif.Lemmas.Mixed
import Verif.Props.Contexts

/-! # Lists that stay open -/

namespace Smd.Gfm
open Smd.Rs Smd.Spec

/-- **C18 is false of the code** whenever a task is behind an ordered list and that behind a list of bullets, whatever the entries are: two elements `ul`
are opened and one is closed. -/
theorem C18_refuted_always (items : List (Char × Str × Nat × Str)) (nums : List (Char × Str × Nat)) (m x : Char) (t : Str) (hne : items ≠ []) (hne' : nums ≠ [])
    (hmark : ∀ i ∈ items, i.1 = '-' ∨ i.1 = '+' ∨ i.1 = '*') (hline : ∀ i ∈ items, '\n' ∉ i.2.1)
    (hstart : ∀ i ∈ items, i.2.1.head? ≠ some ' ' ∧ i.2.1.head? ≠ some '\t' ∧ ∀ x ∈ c!" xX", ¬ ['[', x, ']', ' '] <+: i.2.1)
    (hgap : ∀ i ∈ items, 1 ≤ i.2.2.1) (hrender : ∀ i ∈ items, render i.2.1 = .ok i.2.2.2)
    (hcode : ∀ i ∈ items, ¬ c!"<pre><code>" <:+: i.2.2.2)
    (hnums : ∀ i ∈ nums, i.1 ∈ c!"0123456789" ∧ '\n' ∉ i.2.1) (hgap' : ∀ i ∈ nums, 1 ≤ i.2.2)
    (hm : m = '-' ∨ m = '+') (hx : x ∈ c!" xX") (ht : '\n' ∉ t) :
    render ((items.flatMap fun i => i.1 :: ' ' :: i.2.1 ++ times i.2.2.1 '\n') ++
        ((nums.flatMap fun i => i.1 :: '.' :: ' ' :: i.2.1 ++ times i.2.2 '\n') ++ m :: ' ' :: '[' :: x :: ']' :: ' ' :: t)) =
      .ok (c!"<ul>\n" ++ (items.flatMap fun i => c!"<li>\n" ++ i.2.2.2 ++ c!"</li>\n") ++ c!"<ol>\n" ++
        (nums.flatMap fun i => c!"<li>\n" ++ escape i.2.1 ++ c!"</li>\n") ++ c!"</ol>\n<p><ul class=\"contains-task-list\">" ++
        taskHtml (decide (x ≠ ' ')) t ++ c!"</p>\n</ul>\n") := by
  have h0 : LexTo self [] (m :: ' ' :: '[' :: x :: ']' :: ' ' :: t) [.taskListItem (if x = ' ' then .unchecked else .checked) t] := by
    have := LexTo.task (r := self) (ig := []) (n := 0) hm (boxOf_some hx) ht (.inr rfl) NextLine.nil .nil
    simpa [times, gapToks] using this
  have hR0 : NextLine (m :: ' ' :: '[' :: x :: ']' :: ' ' :: t) := by rcases hm with rfl | rfl <;> simp [NextLine]
  obtain ⟨tsN, h1, h2⟩ := ordered_inUl_then self [] nums hnums hgap'
  have hR : NextLine ((nums.flatMap fun i => i.1 :: '.' :: ' ' :: i.2.1 ++ times i.2.2 '\n') ++ m :: ' ' :: '[' :: x :: ']' :: ' ' :: t) := by
    cases nums with
    | nil => exact absurd rfl hne'
    | cons i is =>
      have := (hnums i (by simp)).1
      rw [List.flatMap_cons]
      refine ⟨?_, ?_, ?_⟩ <;>
        · intro e
          simp at e
          rw [e] at this
          revert this; decide
  obtain ⟨_, toks, h3, _, h4⟩ := bullets_then self [] hR (h1 _ _ hR0 h0) items
    (fun i hi => ⟨⟨hmark i hi, hline i hi, (hstart i hi).1, (hstart i hi).2.1, (hstart i hi).2.2⟩, hrender i hi, hcode i hi⟩) hgap
  rw [render_of h3 (parseToks_two (h4 hne []) (parseToks_two (h2 hne' _) (parseToks_one (parseTok_task_inBoth ..)))), finish_task_ul]
  by_cases e : x = ' ' <;> simp [e]

example : render c!"- a\n1. b\n- [x] c" = .ok c!"<ul>\n<li>\n<p>a</p>\n</li>\n<ol>\n<li>\nb</li>\n</ol>\n<p><ul class=\"contains-task-list\"><li class=\"task-list-item\"><input type=\"checkbox\" class=\"task-list-item-checkbox\" checked=\"\">c</li></p>\n</ul>\n" :=
  C18_refuted_always [('-', c!"a", 1, c!"<p>a</p>\n")] [('1', c!"b", 1)] '-' 'x' c!"c" (by decide) (by decide) (by decide) (by decide) (by decide) (by decide)
    (by
      intro i hi
      rw [List.mem_singleton] at hi
      subst hi
      decide +kernel)
    (by decide) (by decide) (by decide) (.inl rfl) (by decide) (by decide)

/-- **C59 is false of the code** for every ordered list behind a list of bullets, whatever the entries are. -/
theorem C59_refuted_always (items : List (Char × Str × Nat × Str)) (nums : List (Char × Str × Nat)) (hne : items ≠ []) (hne' : nums ≠ [])
    (hmark : ∀ i ∈ items, i.1 = '-' ∨ i.1 = '+' ∨ i.1 = '*') (hline : ∀ i ∈ items, '\n' ∉ i.2.1)
    (hstart : ∀ i ∈ items, i.2.1.head? ≠ some ' ' ∧ i.2.1.head? ≠ some '\t' ∧ ∀ x ∈ c!" xX", ¬ ['[', x, ']', ' '] <+: i.2.1)
    (hgap : ∀ i ∈ items, 1 ≤ i.2.2.1) (hrender : ∀ i ∈ items, render i.2.1 = .ok i.2.2.2 ∧ Nested i.2.2.2)
    (hcode : ∀ i ∈ items, ¬ c!"<pre><code>" <:+: i.2.2.2)
    (hnums : ∀ i ∈ nums, i.1 ∈ c!"0123456789" ∧ '\n' ∉ i.2.1) (hgap' : ∀ i ∈ nums.dropLast, 1 ≤ i.2.2) :
    ∃ html, render ((items.flatMap fun i => i.1 :: ' ' :: i.2.1 ++ times i.2.2.1 '\n') ++
        nums.flatMap fun i => i.1 :: '.' :: ' ' :: i.2.1 ++ times i.2.2 '\n') = .ok html ∧ ¬ Nested html := by
  refine ⟨_, C92_refuted_always items nums hne hne' hmark hline hstart hgap (fun i hi => (hrender i hi).1) hcode hnums hgap', not_nested ?_⟩
  have li : ∀ x, Nested x → Nested (c!"<li>\n" ++ x ++ c!"</li>\n") := by
    intro x hx
    have := Nested.append _ _ (Nested.elem c!"li" [] _ (by decide) (by decide) (by simp) (.append _ _ nested_nl hx)) nested_nl
    simpa [openTag, closeTag] using this
  have e1 := Nested.entries (fun i : Char × Str × Nat × Str => c!"<li>\n" ++ i.2.2.2 ++ c!"</li>\n")
    (c!"<ol>\n" ++ (nums.flatMap fun i => c!"<li>\n" ++ escape i.2.1 ++ c!"</li>\n") ++ c!"</ul></ol>\n") [c!"ul"] items fun i hi => li _ (hrender i hi).2
  have e2 := Nested.entries (fun i : Char × Str × Nat => c!"<li>\n" ++ escape i.2.1 ++ c!"</li>\n")
    c!"</ul></ol>\n" [c!"ol", c!"ul"] nums fun i hi => li _ (nested_escape _)
  have h0 : ∀ s, tagRun (c!"<ul>\n" ++ s) none [] = tagRun s none [c!"ul"] := fun s => rfl
  have h1 : ∀ s, tagRun (c!"<ol>\n" ++ s) none [c!"ul"] = tagRun s none [c!"ol", c!"ul"] := fun s => rfl
  simp only [List.append_assoc] at e1 e2 ⊢
  rw [h0, e1, h1, e2]
  decide

example : ∃ html, render c!"- a\n1. b" = .ok html ∧ ¬ Nested html :=
  C59_refuted_always [('-', c!"a", 1, c!"<p>a</p>\n")] [('1', c!"b", 0)] (by decide) (by decide) (by decide) (by decide) (by decide) (by decide)
    (by
      intro i hi
      rw [List.mem_singleton] at hi
      subst hi
      exact ⟨by decide +kernel, .append c!"<p>a</p>" _ (nested_elem (n := c!"p") (x := c!"a") (by decide) (by decide) (.text _ (by decide) (by decide))) nested_nl⟩)
    (by decide) (by decide) (by decide)

end Smd.Gfm
