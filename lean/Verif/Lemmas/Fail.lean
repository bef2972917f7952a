import Verif.Lemmas.Documents

/-! Documents that begin like any other and then make the lexer fail. -/

namespace Smd.Gfm
open Smd.Rs Smd.Spec

theorem LexesUpTo.fails {r : Rec} {ig : List Char} {stop : Str} {last : Option Token} {s : Str} {ts : List Token}
    (h : LexesUpTo r ig stop last s ts) {α : Type} {e : Outcome (Option (Token × Str))} {k : Outcome α} (f : List Token → Outcome α)
    (he : ∀ last, nextToken r ig last stop = e) (hk : e = .panic ∧ k = .panic ∨ e = .hang ∧ k = .hang) :
    ∀ (fuel : Nat) (acc : List Token), acc.getLast? = last → s.length < fuel → (lexLoop r ig fuel acc s).bind f = k := by
  induction h with
  | nil last =>
    intro fuel acc _ hf
    cases fuel with
    | zero => simp at hf
    | succ n =>
      unfold lexLoop
      rw [he]
      rcases hk with ⟨rfl, rfl⟩ | ⟨rfl, rfl⟩ <;> rfl
  | cons last s s' t ts h hs ih =>
    intro fuel acc ha hf
    cases fuel with
    | zero => simp at hf
    | succ n =>
      have ⟨_, _, hlt⟩ := nextToken_shape r ig last s s' t h
      unfold lexLoop
      rw [ha, h]
      exact ih n (acc ++ [t]) (by simp) (by omega)

/-- If the rest of a document makes the lexer fail, so does the document. -/
theorem render_fails {d rest : Str} {ts : List Token} {e : Outcome (Option (Token × Str))} {k : Outcome Str}
    (h : LexTo (stop := rest) self [] d ts) (he : ∀ last, nextToken self [] last rest = e)
    (hk : e = .panic ∧ k = .panic ∨ e = .hang ∧ k = .hang) : render d = k := by
  rw [render_unfold]
  exact (h none).fails _ he hk (d.length + 1) [] rfl (by omega)

/-- The same behind blocks. -/
theorem render_blocks_fails {bs : List (Block × Nat)} {rest : Str} {e : Outcome (Option (Token × Str))} {k : Outcome Str}
    (hg : DocGood RendersTo bs) (hgap : ∀ b, bs.getLast? = some b → 2 ≤ b.2) (hrest : rest.head? ≠ some '\n')
    (hbar : rest.head? ≠ some '|') (he : ∀ last, nextToken self [] last rest = e)
    (hk : e = .panic ∧ k = .panic ∨ e = .hang ∧ k = .hang) : render (docSrc bs ++ rest) = k := by
  by_cases hb : bs = []
  · subst hb
    exact render_fails (LexTo.stop rest) he hk
  · obtain ⟨toks, h, _⟩ := blocks_sem hrest hbar (LexTo.stop rest) bs hg hb (.inr fun b h => by
      have := hgap b h
      unfold endGap
      split <;> omega)
    exact render_fails h he hk

/-- A section that has complete sections in it and no closing tag is never left. -/
theorem lexSideCarrot_hang {r : Rec} {sum body : Str} (hn : '\n' ∉ sum) (hr : '\r' ∉ sum) (hsome : c!"</details>" <:+: body)
    (hs : Sections body) :
    lexSideCarrot r (c!"<details>\n<summary>" ++ sum ++ c!"</summary>\n" ++ body) = .hang := by
  have hline := run_split (fun c => c != '\n' && c != '\r') (s := c!"<summary>" ++ sum ++ c!"</summary>")
    (rest := '\n' :: body) (by
      intro x hx
      simp only [List.mem_append] at hx
      have : x ≠ '\n' ∧ x ≠ '\r' := by
        rcases hx with (hx | hx) | hx
        · constructor <;> rintro rfl <;> revert hx <;> decide
        · exact ⟨fun e => hn (e ▸ hx), fun e => hr (e ▸ hx)⟩
        · constructor <;> rintro rfl <;> revert hx <;> decide
      simp [this]) (by simp)
  have hloop : (if contains (untilTail c!"</details>" ('\n' :: body)).1 c!"<details>" then
      detailsLoop ('\n' :: body) (untilTail c!"</details>" ('\n' :: body)).2.length (untilTail c!"</details>" ('\n' :: body)).2
      else .ok ((untilTail c!"</details>" ('\n' :: body)).1, (untilTail c!"</details>" ('\n' :: body)).2)) = .hang := by
    rcases untilTail_cases (p := c!"</details>") (by simp) ('\n' :: body) with ⟨hno, _⟩ | ⟨x0, y0, hx, hno, hut⟩
    · exact absurd (hsome.trans (List.suffix_cons _ _).isInfix) hno
    · cases x0 with
      | nil => simp at hx
      | cons c x1 =>
        obtain ⟨hc, hb⟩ : c = '\n' ∧ body = x1 ++ c!"</details>" ++ y0 := by
          injection hx with h1 h2
          exact ⟨h1.symm, h2⟩
        subst hc
        have h0 : occ c!"</details>" x1 = 0 := by rw [← occ_nl tagClose]; exact occ_zero (by simp) hno
        have h1 := hs.flat x1 y0 hb
        have hbal : ∀ x y, body = x ++ c!"</details>" ++ y →
            occ c!"<details>" ('\n' :: x ++ c!"</details>") = occ c!"</details>" ('\n' :: x ++ c!"</details>") := by
          intro x y h
          rw [occ_append_tag tagOpen tagClose, occ_append_tag tagClose tagClose, occ_self tagClose, occ_other tagOpen tagClose (by decide),
            occ_nl tagOpen, occ_nl tagClose, hs.flat x y h]
        rw [hut]
        simp only
        rw [if_pos]
        · rw [detailsLoop_hang_iff _ _ ('\n' :: x1 ++ c!"</details>") y0 hx (Nat.le_refl _)]
          refine ⟨⟨hbal x1 y0 hb, fun x y h => ?_⟩, ?_⟩
          · have := hbal (x1 ++ c!"</details>" ++ x) y (by rw [hb, h]; simp)
            simpa using this
          · rw [occ_nl tagOpen, occ_nl tagClose, hs.closed]
        · apply infix_contains
          apply (occ_pos (by simp)).mp
          rw [occ_append_tag tagOpen tagClose, occ_nl tagOpen, h1]
          omega
  have hpd : parseDetails r (c!"<summary>" ++ sum ++ c!"</summary>" ++ '\n' :: body) = .hang := by
    unfold parseDetails
    simp only [hline]
    have hsk : skipIf '\r' ('\n' :: body) = '\n' :: body := by simp [skipIf]
    have hpre : stripPrefix c!"<summary>" (c!"<summary>" ++ sum ++ c!"</summary>") = some (sum ++ c!"</summary>") := by
      simp [stripPrefix, List.isPrefixOf]
    have hst : startsWith (c!"<summary>" ++ sum ++ c!"</summary>") c!"<summary>" = true := by simp [startsWith, List.isPrefixOf]
    have hen : endsWith (c!"<summary>" ++ sum ++ c!"</summary>") c!"</summary>" = true :=
      List.isSuffixOf_iff_suffix.mpr (List.suffix_append _ _)
    rw [hst, hen, hpre, hsk]
    simp only
    rw [hloop]
    rfl
  have hsrc : c!"<details>\n<summary>" ++ sum ++ c!"</summary>\n" ++ body =
      c!"<details>\n" ++ (c!"<summary>" ++ sum ++ c!"</summary>" ++ '\n' :: body) := by simp
  rw [hsrc]
  generalize hX : c!"<summary>" ++ sum ++ c!"</summary>" ++ '\n' :: body = X at hpd ⊢
  unfold lexSideCarrot
  simp [skipIf, hpd]

/-- The content of a section without a closing tag is dropped. -/
theorem lexSideCarrot_lost {r : Rec} {sum body : Str} {toks : List Token} (hn : '\n' ∉ sum) (hr : '\r' ∉ sum) (hno : ¬ c!"</details>" <:+: body)
    (hl : r.lex [] = .ok toks) :
    lexSideCarrot r (c!"<details>\n<summary>" ++ sum ++ c!"</summary>\n" ++ body) = .ok (.ok (.detail sum toks), []) := by
  have hline := run_split (fun c => c != '\n' && c != '\r') (s := c!"<summary>" ++ sum ++ c!"</summary>")
    (rest := '\n' :: body) (by
      intro x hx
      simp only [List.mem_append] at hx
      have : x ≠ '\n' ∧ x ≠ '\r' := by
        rcases hx with (hx | hx) | hx
        · constructor <;> rintro rfl <;> revert hx <;> decide
        · exact ⟨fun e => hn (e ▸ hx), fun e => hr (e ▸ hx)⟩
        · constructor <;> rintro rfl <;> revert hx <;> decide
      simp [this]) (by simp)
  have hno' : ¬ c!"</details>" <:+: '\n' :: body := by
    rw [List.infix_cons_iff]
    rintro (h | h)
    · simp at h
    · exact hno h
  have hut : untilTail c!"</details>" ('\n' :: body) = ('\n' :: body, []) := by
    rcases untilTail_cases (p := c!"</details>") (by simp) ('\n' :: body) with ⟨_, hut⟩ | ⟨x0, y0, hx, _, _⟩
    · exact hut
    · exact absurd ⟨x0, y0, hx.symm⟩ hno'
  have hloop : (if contains (untilTail c!"</details>" ('\n' :: body)).1 c!"<details>" then
      detailsLoop ('\n' :: body) (untilTail c!"</details>" ('\n' :: body)).2.length (untilTail c!"</details>" ('\n' :: body)).2
      else .ok ((untilTail c!"</details>" ('\n' :: body)).1, (untilTail c!"</details>" ('\n' :: body)).2)) = .ok ('\n' :: body, []) := by
    rw [hut]
    simp only
    split
    · next h =>
      have h := (occ_pos (by simp)).mpr (contains_infix (by simp) h)
      have e : slice ('\n' :: body) [] = '\n' :: body := by unfold slice; simp
      unfold detailsLoop
      simp only [e, countStr_tag tagOpen, countStr_tag tagClose]
      rw [if_pos]
      rw [occ_zero (p := c!"</details>") (by simp) hno']
      omega
    · rfl
  have hsuf : stripSuffix c!"</details>" ('\n' :: body) = none := by
    unfold stripSuffix
    rw [if_neg]
    intro h
    exact hno' (List.isSuffixOf_iff_suffix.mp h).isInfix
  have hpd : parseDetails r (c!"<summary>" ++ sum ++ c!"</summary>" ++ '\n' :: body) = .ok (.ok (.detail sum toks), []) := by
    unfold parseDetails
    simp only [hline]
    have hsk : skipIf '\r' ('\n' :: body) = '\n' :: body := by simp [skipIf]
    have hpre : stripPrefix c!"<summary>" (c!"<summary>" ++ sum ++ c!"</summary>") = some (sum ++ c!"</summary>") := by
      simp [stripPrefix, List.isPrefixOf]
    have hst : startsWith (c!"<summary>" ++ sum ++ c!"</summary>") c!"<summary>" = true := by simp [startsWith, List.isPrefixOf]
    have hen : endsWith (c!"<summary>" ++ sum ++ c!"</summary>") c!"</summary>" = true :=
      List.isSuffixOf_iff_suffix.mpr (List.suffix_append _ _)
    rw [hst, hen, hpre, hsk]
    simp only [stripSuffix_append, Option.getD_some]
    rw [hloop]
    show r.lex ((stripSuffix c!"</details>" ('\n' :: body)).getD []) >>= _ = _
    rw [hsuf]
    show r.lex [] >>= _ = _
    rw [hl]
    rfl
  have hsrc : c!"<details>\n<summary>" ++ sum ++ c!"</summary>\n" ++ body =
      c!"<details>\n" ++ (c!"<summary>" ++ sum ++ c!"</summary>" ++ '\n' :: body) := by simp
  rw [hsrc]
  generalize hX : c!"<summary>" ++ sum ++ c!"</summary>" ++ '\n' :: body = X at hpd ⊢
  unfold lexSideCarrot
  simp [skipIf, hpd]

end Smd.Gfm
