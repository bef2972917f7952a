import Verif.Lemmas.Leading

/-! C112: blank lines at the start of a document. -/

namespace Smd.Gfm
open Smd.Rs Smd.Spec

/-- An indented line with a `#` is code at the start of a document and text after a newline. -/
theorem C112_refuted : ¬ ∀ (k : Nat) (d : Str), render (List.replicate k '\n' ++ d) = render d := fun h =>
  absurd (h 1 c!"    see #1\n") (by decide +kernel)

/-- Newlines in front of a document change nothing, unless it begins with indented lines, one of them by four spaces and
with a `#` in it. -/
theorem C112_partial (k : Nat) {d : Str} (h : ¬ IndentedHash d) : render (List.replicate k '\n' ++ d) = render d := by
  obtain ⟨j, d', rfl, hd⟩ := split_nls d
  rw [← List.append_assoc, times, List.replicate_append_replicate]
  match j, k with
  | 0, 0 => rfl
  | 0, k + 1 => exact render_nls_none k hd h
  | j + 1, k => exact render_nls_eq (k + j) j hd

/-- Whatever the document, it does not matter how many newlines it starts with, once there is one. -/
theorem C112_many_partial (k : Nat) (d : Str) : render (List.replicate (k + 1) '\n' ++ d) = render ('\n' :: d) := by
  obtain ⟨j, d', rfl, hd⟩ := split_nls d
  rw [← List.append_assoc, times, List.replicate_append_replicate, ← List.cons_append, ← List.replicate_succ,
    show k + 1 + j = k + j + 1 by omega]
  exact render_nls_eq (k + j) j hd

/-- The exception is one: a document that starts with four spaces and a line that has a `#` in it begins with code as it
is, and with a paragraph behind a newline. -/
theorem C112_exception_partial {line rest html html' : Str} (h1 : '\n' ∉ line) (h2 : '#' ∈ line) (h3 : line.head? ≠ some ' ')
    (h4 : line.head? ≠ some '\t') (h5 : render (c!"    " ++ line ++ rest) = .ok html)
    (h6 : render ('\n' :: (c!"    " ++ line ++ rest)) = .ok html') : c!"<pre><code>" <+: html ∧ c!"<p>" <+: html' := by
  obtain ⟨c, u, rfl⟩ : ∃ c u, line = c :: u := by
    cases line with
    | nil => simp at h2
    | cons c u => exact ⟨c, u, rfl⟩
  have hh : '#' ∈ (untilTail c!"\n" (c :: u ++ rest)).1 := by
    obtain ⟨x, hx, h7⟩ := untilTail_line (c :: u ++ rest)
    rcases h7 with ⟨h8, h9⟩ | ⟨y, h8, h9⟩ <;> rw [h9]
    · rw [← h8]
      exact List.mem_append_left _ h2
    · refine List.mem_append_left _ ?_
      rcases List.append_eq_append_iff.mp h8 with ⟨w, e, _⟩ | ⟨w, e, e2⟩
      · rw [e]
        exact List.mem_append_left _ h2
      · cases w with
        | nil =>
          rw [List.append_nil] at e
          exact e ▸ h2
        | cons w ws =>
          injection e2 with e2 _
          exact absurd (by rw [e, e2]; simp) h1
  have h3' : (c :: u ++ rest).head? ≠ some '\n' := fun e => h1 (by simp at e; simp [e])
  rw [List.append_assoc] at h5 h6
  exact ⟨render_hash (t := c :: u ++ rest) h3 h4 h3' hh h5, render_nl_hash (t := c :: u ++ rest) h3 h4 h3' hh h6⟩

example : ¬ IndentedHash c!"# Title\n\n    code #1\n" := by
  intro h
  generalize hd : c!"# Title\n\n    code #1\n" = d at h
  cases h with
  | here => cases hd
  | after h1 =>
    injection hd with h _
    subst h
    simp at h1

example : render c!"\n\n\n# Title\n\n- [ ] do\n" = render c!"# Title\n\n- [ ] do\n" ∧
    render c!"\n# Title\n\n- [ ] do\n" = .ok c!"<h1>Title</h1>\n<ul class=\"contains-task-list\"><li class=\"task-list-item\"><input type=\"checkbox\" class=\"task-list-item-checkbox\">do</li></ul>\n" := by
  decide +kernel

example : render c!"    see #1\n" = .ok c!"<pre><code>see #1\n</code></pre>" ∧
    render c!"\n    see #1\n" = .ok c!"<p>see #1</p>\n" := by decide +kernel

end Smd.Gfm
