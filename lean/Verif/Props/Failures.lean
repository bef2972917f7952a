import Verif.Lemmas.Fail
import Verif.Props.Termination
import Verif.Props.Blocks

/-! C10, C11: what makes rendering fail does so behind any document. -/

namespace Smd.Gfm
open Smd.Rs Smd.Spec

/-- C10 fails behind every document: after any blocks and a blank line, a section that has complete sections in it and no
closing tag of its own is read forever. -/
theorem C10_refuted_behind (bs : List (Block × Nat)) (hg : DocGood (fun s x => render s = .ok x) bs)
    (hgap : ∀ b, bs.getLast? = some b → 2 ≤ b.2) (summary body : Str) (h1 : '\n' ∉ summary) (h2 : '\r' ∉ summary)
    (hs : Sections body) (hsome : c!"</details>" <:+: body) :
    render (docSrc bs ++ (c!"<details>\n<summary>" ++ summary ++ c!"</summary>\n" ++ body)) = .hang := by
  have h := lexSideCarrot_hang (r := self) h1 h2 hsome hs
  refine render_blocks_fails hg hgap (by simp) (by simp) (e := .hang) (fun last => ?_) (.inr ⟨rfl, rfl⟩)
  simp only [List.append_assoc, List.cons_append, List.nil_append] at h ⊢
  rw [nextToken_lt, h]
  rfl

example : render c!"# a\n\n<details>\n<summary>b</summary>\n<details>\n<summary>c</summary>\nx\n</details>\n\ny" = .hang :=
  C10_refuted_behind [(.heading 1 [.word c!"a"], 2)] ⟨by decide, by decide, ⟨word_check (by decide), trivial⟩, by decide,
    by decide, ⟨_, rfl, trivial⟩, ⟨_, rfl, trivial⟩⟩ (by simp) c!"b" c!"<details>\n<summary>c</summary>\nx\n</details>\n\ny" (by decide)
    (by decide) (sections_check (by decide) (by decide)) (by decide)

/-- C11 fails behind every document: after any blocks and a blank line, every heading with other text around its label
panics. -/
theorem C11_refuted_behind (bs : List (Block × Nat)) (hg : DocGood (fun s x => render s = .ok x) bs)
    (hgap : ∀ b, bs.getLast? = some b → 2 ≤ b.2) (n : Nat) (line rest : Str) (h1 : 1 ≤ n) (h6 : n ≤ 6) (hn : '\n' ∉ line) (hrest : rest = [] ∨ ∃ r, rest = '\n' :: r)
    (hlabel : c!"{#" <:+: line) (hclose : '}' ∈ line) (hbad : ¬ ∃ a b, '{' ∉ a ∧ line = a ++ c!"{#" ++ b ++ c!"}") :
    render (docSrc bs ++ (List.replicate n '#' ++ ' ' :: (line ++ rest))) = .panic := by
  obtain ⟨m, rfl⟩ : ∃ m, n = m + 1 := ⟨n - 1, by omega⟩
  have hl := lexHeading_line self (m + 1) ' ' line rest h6 (.inl rfl) hn hrest
  rw [headingLabel_bad hlabel hclose hbad] at hl
  rw [List.replicate_succ, List.cons_append] at hl ⊢
  refine render_blocks_fails hg hgap (by simp) (by simp) (e := .panic) (fun last => ?_) (.inl ⟨rfl, rfl⟩)
  rw [nextToken_hash rfl, hl]
  rfl

example : render c!"# a\n\n## {#b} c\nx" = .panic :=
  C11_refuted_behind [(.heading 1 [.word c!"a"], 2)] ⟨by decide, by decide, ⟨word_check (by decide), trivial⟩, by decide,
    by decide, ⟨_, rfl, trivial⟩, ⟨_, rfl, trivial⟩⟩ (by simp) 2 c!"{#b} c" c!"\nx" (by omega) (by omega) (by decide) (.inr ⟨_, rfl⟩)
    (by decide) (by decide) (by
      rintro ⟨a, b, _, h⟩
      have := congrArg List.getLast? h
      rw [List.getLast?_append] at this
      simp at this)

/-- C41 fails behind every document: the content of a section without a closing tag is lost, whatever it is. -/
theorem C41_refuted_behind (bs : List (Block × Nat)) (hg : DocGood (fun s x => render s = .ok x) bs)
    (hgap : ∀ b, bs.getLast? = some b → 2 ≤ b.2) (summary body : Str) (h1 : '\n' ∉ summary) (h2 : '\r' ∉ summary)
    (hno : ¬ c!"</details>" <:+: body) :
    render (docSrc bs ++ (c!"<details>\n<summary>" ++ summary ++ c!"</summary>\n" ++ body)) =
      .ok (docHtml bs ++ (c!"<details>\n<summary>" ++ escape summary ++ c!"</summary>\n\n\\\n\t\t\t\t\t\t\t n</details>\n")) := by
  have hdet : ∀ h, parseTok self (.detail summary []) (clean h) =
      .ok (clean (h ++ (c!"<details>\n<summary>" ++ escape summary ++ c!"</summary>\n\n\\\n\t\t\t\t\t\t\t n</details>"))) := by
    intro h
    have h2 : parseToks self [] {} = .ok {} := rfl
    have h3 : finish {} = c!"\n" := by decide
    simp [parseTok, step1, isBlankPlain, isTab, staysInList, staysInTask, opensPara, closesPara, staysInQuote, isCode, h2, Outcome.bind,
      PState.push, h3, detailOut, sanitize_eq_escape]
  have hl : LexTo self [] (c!"<details>\n<summary>" ++ summary ++ c!"</summary>\n" ++ body) [.detail summary []] := by
    have e := lexSideCarrot_lost (r := self) h1 h2 hno (toks := []) ((lex_unfold []).trans (LexTo.lexWith .nil))
    simp only [List.append_assoc, List.cons_append, List.nil_append] at e ⊢
    refine .cons (fun last => ?_) LexTo.nil
    rw [nextToken_lt, e]
    rfl
  have hend : ∀ h, endLine (h ++ (c!"<details>\n<summary>" ++ escape summary ++ c!"</summary>\n\n\\\n\t\t\t\t\t\t\t n</details>")) =
      h ++ (c!"<details>\n<summary>" ++ escape summary ++ c!"</summary>\n\n\\\n\t\t\t\t\t\t\t n</details>\n") := by
    intro h
    rw [endLine, if_neg (by rw [List.getLast?_append, List.getLast?_append]; simp)]
    simp
  by_cases hb : bs = []
  · subst hb
    have := render_of (d := c!"<details>\n<summary>" ++ summary ++ c!"</summary>\n" ++ body) hl (parseToks_one (hdet []))
    rw [finish_none, hend] at this
    exact this
  · obtain ⟨toks, h5, h6⟩ := blocks_sem (by simp) (by simp) hl bs hg hb (.inr fun b hb => by
      have := hgap b hb
      unfold endGap; split <;> omega)
    rcases h6 (clean []) [] (.inl rfl) with h7 | ⟨h8, _⟩
    · rw [render_of h5 (parseToks_two h7 (parseToks_one (hdet _))), finish_none, hend]
      rfl
    · simp at h8

example : render c!"# a\n\n<details>\n<summary>b</summary>\n<details>\nlost" =
    .ok c!"<h1>a</h1>\n<details>\n<summary>b</summary>\n\n\\\n\t\t\t\t\t\t\t n</details>\n" :=
  C41_refuted_behind [(.heading 1 [.word c!"a"], 2)] ⟨by decide, by decide, ⟨word_check (by decide), trivial⟩, by decide,
    by decide, ⟨_, rfl, trivial⟩, ⟨_, rfl, trivial⟩⟩ (by simp) c!"b" c!"<details>\nlost" (by decide) (by decide) (by decide)

end Smd.Gfm
