import Verif.Lemmas.Entries
import Verif.Props.Markdown

/-!
Entries of lists with more than one line (C103, C77).
-/

namespace Smd.Gfm
open Smd.Rs Smd.Spec

/-! ### C103 Further lines of a list entry -/

/-- **C103** A list of bullets, some with further lines, each after a blank line and a tab: one list, one entry per bullet, in
order, and in every entry its lines, in order, each rendered by itself. -/
theorem C103_partial (k : Nat) (items : List ListEntry) (hne : items ≠ []) (hok : ∀ e ∈ items, e.Good fun s x => render s = .ok x)
    (hgap : ∀ e ∈ items.dropLast, 1 ≤ e.ends) :
    render (times k '\n' ++ items.flatMap ListEntry.src) = .ok (elem c!"ul" (c!"\n" ++ items.flatMap ListEntry.html) ++ c!"\n") := by
  obtain ⟨ts, h1, h2⟩ := entries_sem self [] items hok hgap
  have hhead : (items.flatMap ListEntry.src).head? ≠ some '\n' := by
    cases items with
    | nil => exact absurd rfl hne
    | cons i is =>
      have := (hok i (by simp)).marker
      rw [List.flatMap_cons]
      rcases this with e | e | e <;> simp [ListEntry.src, e]
  obtain ⟨toks, h3, h4⟩ := lead_sem k hhead h1
  rw [render_of h3 ((h4 []).trans (h2 hne [])), finish_ul]
  simp [elem]

example : render c!"- a\n\n\t*b* c\n\n\t# d\n- e" =
    .ok c!"<ul>\n<li>\n<p>a</p>\n<p><em>b</em>c</p>\n<h1>d</h1>\n</li>\n<li>\n<p>e</p>\n</li>\n</ul>\n" :=
  C103_partial 0 [⟨'-', (c!"a", c!"<p>a</p>\n"), [(c!"*b* c", c!"<p><em>b</em>c</p>\n"), (c!"# d", c!"<h1>d</h1>\n")], 1⟩,
      ⟨'-', (c!"e", c!"<p>e</p>\n"), [], 0⟩] (by decide) (by
    intro e he
    simp only [List.mem_cons, List.not_mem_nil, or_false] at he
    rcases he with rfl | rfl <;> exact ⟨by decide, by decide, by decide +kernel⟩) (by decide)

/-! ### C77 Lists in lists -/

/-- **C77, the part that holds** After a blank line and a tab, a list of one entry is inside the entry before it. -/
theorem C77_partial (c d : Char) (s t x y : Str) (hc : c = '-' ∨ c = '+') (hd : d = '-' ∨ d = '+' ∨ d = '*')
    (hs : '\n' ∉ s ∧ s.head? ≠ some ' ' ∧ s.head? ≠ some '\t' ∧ ∀ x ∈ c!" xX", ¬ ['[', x, ']', ' '] <+: s)
    (ht : '\n' ∉ t ∧ t.head? ≠ some ' ' ∧ t.head? ≠ some '\t' ∧ ∀ x ∈ c!" xX", ¬ ['[', x, ']', ' '] <+: t)
    (hx : render s = .ok x ∧ ¬ c!"<pre><code>" <:+: x) (hy : render t = .ok y ∧ ¬ c!"<pre><code>" <:+: c!"<ul>\n<li>\n" ++ y ++ c!"</li>\n</ul>\n") :
    render (c :: ' ' :: s ++ c!"\n\n\t" ++ d :: ' ' :: t) =
      .ok (c!"<ul>\n<li>\n" ++ x ++ (c!"<ul>\n<li>\n" ++ y ++ c!"</li>\n</ul>\n") ++ c!"</li>\n</ul>\n") := by
  have hyy : ¬ c!"<pre><code>" <:+: y := fun h => hy.2 (h.trans ⟨_, _, rfl⟩)
  have e1 : render (d :: ' ' :: t) = .ok (c!"<ul>\n<li>\n" ++ y ++ c!"</li>\n</ul>\n") := by
    have := C28_bullets 0 [(d, t, 0, y)] (by simp) (by simpa using hd) (by simpa using ht.1) (by simpa using ht.2) (by simp)
      (by simpa using hy.1) (by simpa using hyy)
    simpa using this
  have := C103_partial 0 [⟨c, (s, x), [(d :: ' ' :: t, c!"<ul>\n<li>\n" ++ y ++ c!"</li>\n</ul>\n")], 0⟩] (by simp) (by
    intro e he
    rw [List.mem_singleton] at he
    subst he
    refine ⟨by rcases hc with h | h <;> simp [h], hs.2.2.2, fun l hl => ?_⟩
    simp only [List.mem_cons, List.not_mem_nil, or_false] at hl
    rcases hl with rfl | rfl
    · exact ⟨hs.1, hs.2.1, hs.2.2.1, hx.1, hx.2⟩
    · refine ⟨?_, ?_, ?_, e1, hy.2⟩ <;> rcases hd with rfl | rfl | rfl <;> simp [ht.1]) (by simp)
  simpa [ListEntry.src, ListEntry.html, elem] using this

example : render c!"- fruit\n\n\t* an *apple*" =
    .ok c!"<ul>\n<li>\n<p>fruit</p>\n<ul>\n<li>\n<p>an<em>apple</em></p>\n</li>\n</ul>\n</li>\n</ul>\n" :=
  C77_partial '-' '*' c!"fruit" c!"an *apple*" c!"<p>fruit</p>\n" c!"<p>an<em>apple</em></p>\n" (.inl rfl) (.inr (.inr rfl))
    (by decide) (by decide) (by decide +kernel) (by decide +kernel)

end Smd.Gfm
