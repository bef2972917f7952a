import Verif.Lemmas.Trailing

/-!
C125: line feeds at the end of a document do not matter. False of the code: `C#` is text, but `C#` with a line feed is the text `C` and an
empty heading. True when the last token of the document is complete (`Sealed`), which is what the file ends with in all usual cases.
-/

namespace Smd.Gfm
open Smd.Rs Smd.Spec

/-- C125 is false: a line feed at the end turns a `#` into an empty heading. -/
theorem C125_refuted : ¬ ∀ s k, render (s ++ times k '\n') = render s := by
  intro h
  have h1 : render (c!"C#" ++ times 1 '\n') = .ok c!"<p>C</p>\n<h1></h1>\n" := by decide +kernel
  have h2 : render c!"C#" = .ok c!"<p>C#</p>\n" := by decide +kernel
  rw [h, h2] at h1
  exact absurd h1 (by decide)

/-- C125, for a document whose last token `t`, made of the piece `p`, is complete: any number of line feeds may follow. The result is the same
also if rendering fails. -/
theorem C125_partial (s : Str) (ts : List Token) (t : Token) (ps : List Str) (p : Str) (hc : Cut self [] none (ts ++ [t]) (ps ++ [p]))
    (hl : ps.length = ts.length) (hf : (ps ++ [p]).flatten = s) (ht : Sealed p t) (k : Nat) : render (s ++ times k '\n') = render s := by
  have hup : LexesUpTo self [] p none (ps.flatten ++ p) ts := by simpa using hc.upTo hl
  have hs : s = ps.flatten ++ p := by rw [← hf]; simp
  obtain ⟨us, hus, hlast⟩ := hup.split (hs ▸ hf ▸ hc.lexes)
  obtain rfl : [t] = us := List.append_cancel_left hus
  obtain ⟨s', hn, hr⟩ : ∃ s', nextToken self [] (ts.getLast?.or none) p = .ok (some (t, s')) ∧ Lexes self [] (some t) s' [] := by
    cases hlast with
    | cons _ _ s' _ _ h1 h2 => exact ⟨s', h1, h2⟩
  obtain rfl : s' = [] := by
    cases hr with
    | nil => rfl
  have hp : p ≠ [] := by rintro rfl; simp [nextToken] at hn
  have h0 : render s = parseDoc self (ts ++ [t]) := lexes_render (by rw [hs]; simpa using hc.lexes)
  have h1 := hup.local (agree_more hp k) _ rfl
  have put : ∀ {vs}, LexesUpTo self [] [] (ts.getLast?.or none) (p ++ nls k) vs → render (s ++ times k '\n') = parseDoc self (ts ++ vs) := by
    intro vs hv
    refine lexes_render ?_
    rw [hs, List.append_assoc]
    refine (h1.append (stop := []) fun l hl => ?_).lexes
    rw [hl]
    exact hv
  by_cases hnl : p = ['\n']
  · -- a single line feed: with the others it makes one token
    subst hnl
    have e := (nextToken_nls (r := self) (ig := []) (last := ts.getLast?.or none) 0 (d := []) (by simp)).symm.trans hn
    have h2 : ['\n'] ++ nls k = nls (k + 1) := rfl
    have h3 := lexes_nls (r := self) (ts.getLast?.or none) (k + 1)
    rw [← h2, if_neg (by omega)] at h3
    obtain rfl : nlTok 1 = t := (Prod.mk.inj (Option.some.inj (Outcome.ok.inj e))).1
    rw [put h3, h0, parseDoc_nlTok, parseDoc_nlTok]
  · obtain ⟨j, hj⟩ := nextToken_more (k := k) ht hnl hn
    rw [put (.cons _ _ _ _ _ hj (lexes_nls _ j)), h0]
    split
    · rfl
    · have : ts ++ t :: [nlTok j] = ts ++ [t] ++ [nlTok j] := by simp
      rw [this, parseDoc_nlTok]

example : Cut self [] none ([.plaintext c!"a"] ++ [.italic c!"b"]) ([c!"a"] ++ [c!"*b*"]) ∧ Sealed c!"*b*" (.italic c!"b") :=
  ⟨⟨rfl, rfl, trivial⟩, by decide, .inl rfl⟩

example : render (c!"a *b*" ++ times 3 '\n') = .ok c!"<p>a<em>b</em></p>\n" ∧ render c!"a *b*" = .ok c!"<p>a<em>b</em></p>\n" :=
  ⟨by decide +kernel, by decide +kernel⟩

example : render (c!"<details>\n<summary>a</summary>\nb</details>" ++ times 2 '\n') = render c!"<details>\n<summary>a</summary>\nb</details>" :=
  C125_partial _ [] (.detail c!"a" [.plaintext c!"\n", .plaintext c!"b"]) [] c!"<details>\n<summary>a</summary>\nb</details>"
    ⟨by with_unfolding_all rfl, trivial⟩ rfl rfl (by decide : c!"</details>" <:+ c!"<details>\n<summary>a</summary>\nb</details>") 2

/-- C125: a document of line feeds alone is like the empty one. -/
theorem C125_empty (k : Nat) : render (times k '\n') = render [] := by
  have h1 := lexes_render (lexes_nls (r := self) none k).lexes
  have h2 : render [] = parseDoc self [] := lexes_render (.nil _)
  rw [show times k '\n' = nls k from rfl, h1, h2]
  split
  · rfl
  · exact parseDoc_nlTok [] k

example : render (times 2 '\n') = .ok c!"\n" := by decide +kernel

/-- C125: each of the conditions is needed; without it a line feed changes the page. Here the emphasis, the link title and the indented code
are not complete, and the second line of the list entry has no line feed. -/
theorem C125_needed : render c!"*a" ≠ render c!"*a\n" ∧ render c!"[a](b c" ≠ render c!"[a](b c\n" ∧ render c!"a\tb" ≠ render c!"a\tb\n" ∧
    render c!"- a\n  b" ≠ render c!"- a\n  b\n" ∧ render c!"\\" ≠ render c!"\\\n" := by
  refine ⟨?_, ?_, ?_, ?_, ?_⟩ <;> decide +kernel

end Smd.Gfm
