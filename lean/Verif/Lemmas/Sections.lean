import Verif.Lemmas.Blocks
import Verif.Lemmas.Details

/-! Collapsible sections. -/

namespace Smd.Gfm
open Smd.Rs Smd.Spec

variable {stop : Str}

variable {r : Rec} {ig : List Char} {rest : Str} {ts : List Token}

/-- The loop of `parse_details` goes on to the closing tag that belongs to the section: `pre` is what it has read. -/
theorem detailsLoop_section (start : Str) : ∀ (fuel : Nat) (pre u rest : Str),
    start = pre ++ (u ++ c!"</details>" ++ rest) → Closed pre → (u ++ c!"</details>" ++ rest).length ≤ fuel →
    occ c!"<details>" pre = occ c!"</details>" pre →
    (∀ x y, u = x ++ c!"</details>" ++ y → occ c!"<details>" (pre ++ x) = occ c!"</details>" (pre ++ x) + 1) →
    occ c!"<details>" (pre ++ u) = occ c!"</details>" (pre ++ u) →
    detailsLoop start fuel (u ++ c!"</details>" ++ rest) = .ok (pre ++ u ++ c!"</details>", rest)
  | 0, pre, u, rest, _, _, hl, _, _, _ => by simp at hl
  | fuel + 1, pre, u, rest, hs, hcl, hl, hc, hmid, hend => by
    have e : slice start (u ++ c!"</details>" ++ rest) = pre := by rw [hs]; exact slice_append pre _
    have hne : u ++ c!"</details>" ++ rest ≠ [] := by simp
    unfold detailsLoop
    simp only [e, countStr_tag tagOpen, countStr_tag tagClose]
    rw [if_neg (by simp [hc]), if_neg hne]
    have step : ∀ x, occ c!"<details>" (pre ++ x ++ c!"</details>") = occ c!"<details>" (pre ++ x) ∧
        occ c!"</details>" (pre ++ x ++ c!"</details>") = occ c!"</details>" (pre ++ x) + 1 := by
      intro x
      rw [occ_append_tag tagOpen tagClose, occ_append_tag tagClose tagClose, occ_self tagClose, occ_other tagOpen tagClose (by decide)]
      exact ⟨rfl, rfl⟩
    rcases untilTail_cases (p := c!"</details>") (by simp) (u ++ c!"</details>" ++ rest) with ⟨hno, _⟩ | ⟨x0, y0, hx, hno, hut⟩
    · exact absurd ⟨u, rest, rfl⟩ hno
    · rw [hut]
      rcases split_tag tagClose hx.symm hno with ⟨h1, h2⟩ | ⟨x', h1, h2⟩
      · subst h1 h2
        have e2 : slice start rest = pre ++ u ++ c!"</details>" := by
          have : start = (pre ++ u ++ c!"</details>") ++ rest := by rw [hs]; simp
          rw [this]; exact slice_append _ _
        unfold detailsLoop
        simp only [e2, countStr_tag tagOpen, countStr_tag tagClose]
        rw [if_pos (by rw [(step u).1, (step u).2, hend]; omega)]
      · subst h2
        have hm := hmid x0 x' h1
        have := detailsLoop_section start fuel (pre ++ x0 ++ c!"</details>") x' rest (by rw [hs, h1]; simp) (.append_tag _ tagClose) (by
            rw [h1] at hl
            simp only [List.length_append, List.length_cons, List.length_nil] at hl ⊢
            omega)
          (by rw [(step x0).1, (step x0).2, hm]) (fun x y hxy => by
            have := hmid (x0 ++ c!"</details>" ++ x) y (by rw [h1, hxy]; simp)
            simpa using this) (by
            have : pre ++ x0 ++ c!"</details>" ++ x' = pre ++ u := by rw [h1]; simp
            rw [this]; exact hend)
        rw [this, h1]
        simp

theorem occ_nl {p : Str} (hp : IsTag p) (s : Str) : occ p ('\n' :: s) = occ p s := occ_skip hp (b := c!"\n") s (by decide)

/-- Where the content of a section ends. -/
theorem details_content {inner rest : Str} (h : Sections inner) :
    (if contains (untilTail c!"</details>" ('\n' :: inner ++ c!"</details>" ++ rest)).1 c!"<details>" then
      detailsLoop ('\n' :: inner ++ c!"</details>" ++ rest) (untilTail c!"</details>" ('\n' :: inner ++ c!"</details>" ++ rest)).2.length
        (untilTail c!"</details>" ('\n' :: inner ++ c!"</details>" ++ rest)).2
      else .ok ((untilTail c!"</details>" ('\n' :: inner ++ c!"</details>" ++ rest)).1, (untilTail c!"</details>" ('\n' :: inner ++ c!"</details>" ++ rest)).2)) =
      .ok ('\n' :: inner ++ c!"</details>", rest) := by
  rcases untilTail_cases (p := c!"</details>") (by simp) ('\n' :: inner ++ c!"</details>" ++ rest) with ⟨hno, _⟩ | ⟨x0, y0, hx, hno, hut⟩
  · exact absurd ⟨'\n' :: inner, rest, rfl⟩ hno
  · rw [hut]
    simp only
    have hinf : ∀ x : Str, contains (x ++ c!"</details>") c!"<details>" = true ↔ 0 < occ c!"<details>" x := by
      intro x
      have : occ c!"<details>" (x ++ c!"</details>") = occ c!"<details>" x := by
        rw [occ_append_tag tagOpen tagClose, occ_other tagOpen tagClose (by decide)]; rfl
      rw [← this, occ_pos (by simp)]
      exact ⟨fun h => contains_infix (by simp) h, fun h => infix_contains h⟩
    rcases split_tag tagClose hx.symm hno with ⟨h1, h2⟩ | ⟨x', h1, h2⟩
    · subst h1 h2
      rw [if_neg]
      rw [hinf, occ_nl tagOpen, h.closed, ← occ_nl tagClose, occ_zero (by simp) hno]
      omega
    · cases x0 with
      | nil => simp at h1
      | cons c x1 =>
        have hc : c = '\n' := by injection h1 with h1 _; exact h1.symm
        subst hc
        have hin : inner = x1 ++ c!"</details>" ++ x' := by injection h1
        have hf := h.flat x1 x' hin
        have h0 : occ c!"</details>" x1 = 0 := by rw [← occ_nl tagClose, occ_zero (by simp) hno]
        rw [if_pos (by rw [hinf, occ_nl tagOpen, hf]; omega), h2]
        have := detailsLoop_section ('\n' :: inner ++ c!"</details>" ++ rest) (x' ++ c!"</details>" ++ rest).length ('\n' :: x1 ++ c!"</details>") x' rest
          (by rw [hin]; simp) (.append_tag _ tagClose) (Nat.le_refl _) (by
            rw [occ_append_tag tagOpen tagClose, occ_append_tag tagClose tagClose, occ_self tagClose, occ_other tagOpen tagClose (by decide),
              occ_nl tagOpen, occ_nl tagClose, hf]) (fun x y hxy => by
            have := h.flat (x1 ++ c!"</details>" ++ x) y (by rw [hin, hxy]; simp)
            rw [← occ_nl tagOpen, ← occ_nl tagClose] at this
            simpa using this) (by
            have e : '\n' :: x1 ++ c!"</details>" ++ x' = '\n' :: inner := by rw [hin]; simp
            rw [e, occ_nl tagOpen, occ_nl tagClose, h.closed])
        rw [this, hin]
        simp

theorem lexSideCarrot_details {sum inner : Str} {toks : List Token} (hn : '\n' ∉ sum) (hr : '\r' ∉ sum) (h : Sections inner)
    (hl : r.lex ('\n' :: inner) = .ok toks) :
    lexSideCarrot r (c!"<details>\n<summary>" ++ sum ++ c!"</summary>\n" ++ inner ++ c!"</details>" ++ rest) =
      .ok (.ok (.detail sum toks), rest) := by
  have hline := run_split (fun c => c != '\n' && c != '\r') (s := c!"<summary>" ++ sum ++ c!"</summary>")
    (rest := '\n' :: inner ++ c!"</details>" ++ rest) (by
      intro x hx
      simp only [List.mem_append] at hx
      have : x ≠ '\n' ∧ x ≠ '\r' := by
        rcases hx with (hx | hx) | hx
        · constructor <;> rintro rfl <;> revert hx <;> decide
        · exact ⟨fun e => hn (e ▸ hx), fun e => hr (e ▸ hx)⟩
        · constructor <;> rintro rfl <;> revert hx <;> decide
      simp [this]) (by simp)
  have hpd : parseDetails r (c!"<summary>" ++ sum ++ c!"</summary>" ++ ('\n' :: inner ++ c!"</details>" ++ rest)) =
      .ok (.ok (.detail sum toks), rest) := by
    unfold parseDetails
    simp only [hline]
    have hsk : skipIf '\r' ('\n' :: inner ++ c!"</details>" ++ rest) = '\n' :: inner ++ c!"</details>" ++ rest := by simp [skipIf]
    have hpre : stripPrefix c!"<summary>" (c!"<summary>" ++ sum ++ c!"</summary>") = some (sum ++ c!"</summary>") := by
      simp [stripPrefix, List.isPrefixOf]
    have hst : startsWith (c!"<summary>" ++ sum ++ c!"</summary>") c!"<summary>" = true := by simp [startsWith, List.isPrefixOf]
    have hen : endsWith (c!"<summary>" ++ sum ++ c!"</summary>") c!"</summary>" = true :=
      List.isSuffixOf_iff_suffix.mpr (List.suffix_append _ _)
    have hsuf : stripSuffix c!"</details>" ('\n' :: inner ++ c!"</details>") = some ('\n' :: inner) := stripSuffix_append _ _
    rw [hst, hen, hpre, hsk]
    simp only [stripSuffix_append, Option.getD_some]
    rw [details_content h]
    show r.lex ((stripSuffix c!"</details>" ('\n' :: inner ++ c!"</details>")).getD []) >>= _ = _
    rw [hsuf]
    show r.lex ('\n' :: inner) >>= _ = _
    rw [hl]
    rfl
  have hsrc : c!"<details>\n<summary>" ++ sum ++ c!"</summary>\n" ++ inner ++ c!"</details>" ++ rest =
      c!"<details>\n" ++ (c!"<summary>" ++ sum ++ c!"</summary>" ++ ('\n' :: inner ++ c!"</details>" ++ rest)) := by simp
  rw [hsrc]
  generalize hX : c!"<summary>" ++ sum ++ c!"</summary>" ++ ('\n' :: inner ++ c!"</details>" ++ rest) = X at hpd ⊢
  unfold lexSideCarrot
  simp [skipIf, hpd]

theorem details_html (sum shown : Str) (inner : Str) : detailOut sum shown = (Block.details sum inner shown).html := by
  simp [detailOut, Block.html, sanitize_eq_escape]

theorem render_parts {s x : Str} (h : render s = .ok x) : ∃ toks st, lex s = .ok toks ∧ parseToks self toks {} = .ok st ∧ finish st = x := by
  rw [show render s = renderIgnore [] s from rfl, renderIgnore_unfold] at h
  obtain ⟨toks, h1, h2⟩ := Outcome.bind_ok' h
  obtain ⟨st, h3, h4⟩ := Outcome.bind_ok (show (parseToks self toks {}).bind (fun s => .ok (finish s)) = .ok x from h2)
  refine ⟨toks, st, ?_, h3, by injection h4⟩
  rw [lex_unfold]
  exact h1

theorem details_sem {sum inner shown : Str} (hn : '\n' ∉ sum) (hr : '\r' ∉ sum) (h : Sections inner) (hx : render ('\n' :: inner) = .ok shown) :
    ∃ tok, (∀ rest ts, LexTo (stop := stop) self [] rest ts → LexTo (stop := stop) self [] ((Block.details sum inner shown).src ++ rest) (tok :: ts)) ∧
      (∀ h, parseTok self tok (clean h) = .ok (clean (h ++ (Block.details sum inner shown).html))) ∧
      ∀ h, parseTok self tok (inP h) = .ok (clean (h ++ c!"</p>\n" ++ (Block.details sum inner shown).html)) := by
  obtain ⟨toks, st, h1, h2, h3⟩ := render_parts hx
  refine ⟨.detail sum toks, ?_, ?_, ?_⟩
  · intro rest ts ht
    refine .cons (fun last => ?_) ht
    have e := lexSideCarrot_details (r := self) (rest := rest) hn hr h h1
    rw [Block.src]
    simp only [List.append_assoc, List.cons_append, List.nil_append] at e ⊢
    rw [nextToken_lt, e]
    rfl
  · intro h
    simp [parseTok, step1, isBlankPlain, isTab, staysInList, staysInTask, opensPara, closesPara, staysInQuote, isCode, h2, Outcome.bind,
      PState.push, h3, details_html sum shown inner]
  · intro h
    simp [parseTok, step1, isBlankPlain, isTab, staysInList, staysInTask, opensPara, closesPara, staysInQuote, isCode, h2, Outcome.bind,
      PState.push, h3, details_html sum shown inner]

end Smd.Gfm
