import Mathlib.Data.List.Infix
import Verif.Lemmas.Items
import Verif.Props.Escape

/-! C10, C11, C13: rendering finishes, does not panic, and its recursion depth. -/

namespace Smd.Gfm
open Smd.Rs Smd.Spec

/-! ### C10 -/

/-- C10 is false: a details block with a nested one and only one closing tag sends the lexer into an infinite loop. -/
theorem C10_refuted : ¬ ∀ d : Str, render d ≠ .hang := by
  intro h
  exact h c!"<details>\n<summary>a</summary>\n<details></details>" (by decide +kernel)

/-- The remaining text after `n` rounds of the loop of `parse_details` (lexer.rs 892-900), each of which reads up to the
next closing tag. -/
def afterRounds (s : Str) : Nat → Str
  | 0 => s
  | n + 1 => afterRounds (untilTail c!"</details>" s).2 n

/-- The condition of the loop (lexer.rs 892) when `s` remains of `start`. -/
def loopGoesOn (start s : Str) : Prop :=
  countStr c!"<details>" (slice start s) = countStr c!"</details>" (slice start s)

/-- The outcome `hang` of the model is a loop that never exits: its condition holds after any number of rounds. -/
theorem C10_hang_is_endless (start s : Str) (fuel : Nat) (hf : s.length ≤ fuel) :
    detailsLoop start fuel s = .hang ↔ ∀ n, loopGoesOn start (afterRounds s n) := by
  induction fuel generalizing s with
  | zero =>
    have : s = [] := by cases s <;> simp at hf ⊢
    subst this
    have hnil : ∀ n, afterRounds [] n = [] := by
      intro n
      induction n with
      | zero => rfl
      | succ n ih => exact ih
    unfold detailsLoop
    simp only [hnil]
    split
    · next h => simpa [loopGoesOn] using h
    · next h =>
      have h := Classical.not_not.mp h
      simp [loopGoesOn, h]
  | succ fuel ih =>
    unfold detailsLoop
    simp only
    split
    · next h =>
      simp only [reduceCtorEq, false_iff]
      intro hall
      exact h (hall 0)
    · next h =>
      have h := Classical.not_not.mp h
      by_cases hs : s = []
      · subst hs
        have hnil : ∀ n, afterRounds [] n = [] := by
          intro n
          induction n with
          | zero => rfl
          | succ n ih => exact ih
        simp [hnil, loopGoesOn, h]
      · rw [if_neg hs]
        have hlt : (untilTail c!"</details>" s).2.length ≤ fuel := by
          rcases untilTail_cases (p := c!"</details>") (by simp) s with ⟨_, hut⟩ | ⟨x, y, hx, _, hut⟩
          · rw [hut]; simp
          · rw [hut]
            have := congrArg List.length hx
            simp at this
            simp
            omega
        rw [ih _ hlt]
        constructor
        · intro hall n
          cases n with
          | zero => exact h
          | succ n => exact hall n
        · intro hall n
          exact hall (n + 1)

example : detailsLoop c!"<details></details>x" 1 c!"x" = .hang := by decide

/-- C10, the part that holds: rendering never hangs on a document where every `<details>` that has another `<details>`
after it also has its closing tag, and no summary contains a closing tag. (With C11 and `C10_only_two_failures` this says
that rendering returns.) Missing: documents with such an unclosed block; they can hang by `C10_refuted`. -/
theorem C10_partial (d : Str)
    (hclosed : ∀ t, c!"<details>" ++ t <:+ d → c!"<details>" <:+: t →
      ∃ x y, t = x ++ c!"</details>" ++ y ∧ occ c!"<details>" x ≤ occ c!"</details>" x)
    (hsum : ∀ x, c!"<summary>" ++ x ++ c!"</summary>" <:+: d → '\n' ∉ x → ¬ c!"</details>" <:+: x) :
    render d ≠ .hang := by
  intro h
  have hpre : ∀ t, (∀ x, c!"<summary>" ++ x ++ c!"</summary>" <:+: t → '\n' ∉ x → ¬ c!"</details>" <:+: x) →
      ∀ nl sum cr : Str, (nl = c!"\n" ∨ nl = c!"\r\n") → (cr = [] ∨ cr = c!"\r") → '\n' ∉ sum →
      c!"<summary>" ++ sum ++ c!"</summary>" <:+: t →
      occ c!"</details>" (nl ++ c!"<summary>" ++ sum ++ c!"</summary>" ++ cr) = 0 ∧
      Closed (nl ++ c!"<summary>" ++ sum ++ c!"</summary>" ++ cr) := by
    intro t ht nl sum cr hnl hcr hn hin
    have h1 : occ c!"</details>" sum = 0 := occ_zero (by simp) (ht sum hin hn)
    have hnl' : '<' ∉ nl := by rcases hnl with rfl | rfl <;> decide
    have hcr' : '<' ∉ cr := by rcases hcr with rfl | rfl <;> decide
    have t1 : IsTag c!"<summary>" := by decide
    have t2 : IsTag c!"</summary>" := by decide
    have c1 : Closed (nl ++ c!"<summary>" ++ sum ++ c!"</summary>") := .append_tag _ t2
    refine ⟨?_, c1.append (.of_no_lt hcr')⟩
    rw [occ_append tagClose _ c1, occ_append_tag tagClose t2, occ_append tagClose _ (.append_tag _ t1),
      occ_append_tag tagClose t1, occ_no_lt tagClose hnl', occ_no_lt tagClose hcr', h1, occ_other tagClose t1 (by decide),
      occ_other tagClose t2 (by decide)]
  refine no_fail_top .hang (fun t => (∀ x, c!"<summary>" ++ x ++ c!"</summary>" <:+: t → '\n' ∉ x →
    ¬ c!"</details>" <:+: x) ∧ (OneLine t ∨ Flat t)) ?_ ?_ (by intro h; cases h) ?_ d ?_ ?_ [] ?_
  · rintro s t ⟨h1, h2⟩ hts
    refine ⟨fun x hx => h1 x (hx.trans hts), ?_⟩
    rcases h2 with h2 | h2
    · exact .inl (h2.infix hts)
    · exact .inr (h2.infix hts)
  · intro x
    have hlt : '<' ∉ sanitize x := C03_no_delimiters x '<' (by simp)
    refine ⟨fun y hy => absurd (hy.subset (by simp)) hlt, .inr (.of_no_open fun hin => hlt (hin.subset (by simp)))⟩
  · rintro _ p s1 ⟨nl, sum, cr, hnl, hcr, hn, hr, hp⟩ ⟨h1, h2⟩ hc hh
    obtain ⟨⟨a, b, y, hs1, ha⟩, _⟩ := detailsLoop_hang hc hh
    rcases h2 with h2 | h2
    · apply h2
      rw [List.dropLast_append_of_ne_nil (by rw [hs1]; simp), hp]
      rcases hnl with rfl | rfl <;> simp
    · have := h2 (nl ++ c!"<summary>" ++ sum ++ c!"</summary>" ++ cr ++ a) b ⟨[], y, by rw [hp, hs1]; simp⟩
      have hpos := (occ_pos (by simp)).mpr this
      have ⟨k1, k2⟩ := hpre _ h1 nl sum cr hnl hcr hn ⟨c!"<details>" ++ nl, cr ++ s1, by rw [hp]; simp⟩
      rw [occ_append tagClose _ k2, k1, occ_zero (by simp) ha] at hpos
      simp at hpos
  · intro u hu hk
    exact ⟨fun x hx => hsum x (hx.trans hu), hk⟩
  · rintro _ p s1 ⟨nl, sum, cr, hnl, hcr, hn, hr, hp⟩ hsuf hc hh
    obtain ⟨⟨a, b, y, hs1, ha⟩, hall⟩ := detailsLoop_hang hc hh
    obtain ⟨x, y', hxy, hle⟩ := hclosed (nl ++ c!"<summary>" ++ sum ++ c!"</summary>" ++ cr ++ s1)
      (by rw [hp] at hsuf; simpa using hsuf) ⟨nl ++ c!"<summary>" ++ sum ++ c!"</summary>" ++ cr ++ a,
        b ++ c!"</details>" ++ y, by rw [hs1]; simp⟩
    have ⟨k1, k2⟩ := hpre d hsum nl sum cr hnl hcr hn
      (List.IsInfix.trans ⟨c!"<details>" ++ nl, cr ++ s1, by rw [hp]; simp⟩ hsuf.isInfix)
    generalize nl ++ c!"<summary>" ++ sum ++ c!"</summary>" ++ cr = pre at *
    rcases split_closed tagClose k2 hxy with ⟨q', h1, _⟩ | ⟨x', h1, h2⟩
    · have : 0 < occ c!"</details>" pre := (occ_pos (by simp)).mpr ⟨x, q', h1.symm⟩
      omega
    · have := hall x' y' h2
      rw [h1, occ_append tagOpen _ k2, occ_append tagClose _ k2, k1] at hle
      omega
  · have : render d = renderIgnore [] d := rfl
    rw [← this, h]
    rfl

/-- A way to check the hypotheses of `C10_partial` on a concrete document. -/
theorem no_hang_check (d : Str)
    (h1 : ∀ u ∈ d.tails, c!"<details>" <+: u → c!"<details>" <:+: u.drop 9 →
      ∃ x ∈ (u.drop 9).inits, c!"</details>" <+: (u.drop 9).drop x.length ∧ occ c!"<details>" x ≤ occ c!"</details>" x)
    (h2 : ∀ u ∈ d.tails, c!"<summary>" <+: u → ∀ x ∈ (u.drop 9).inits, c!"</summary>" <+: (u.drop 9).drop x.length →
      '\n' ∉ x → ¬ c!"</details>" <:+: x) : render d ≠ .hang := by
  refine C10_partial d (fun t ht hin => ?_) (fun x hx hn => ?_)
  · obtain ⟨x, hx, hc, hle⟩ := h1 _ ((List.mem_tails _ _).mpr ht) (List.prefix_append _ _) (by simpa using hin)
    have hx' : x <+: t := by simpa using (List.mem_inits _ _).mp hx
    obtain ⟨z, rfl⟩ := hx'
    obtain ⟨y, hy⟩ := hc
    refine ⟨x, y, ?_, hle⟩
    have : z = c!"</details>" ++ y := by simpa using hy.symm
    rw [this]
    simp
  · obtain ⟨a, b, hab⟩ := hx
    refine h2 (c!"<summary>" ++ x ++ c!"</summary>" ++ b) ((List.mem_tails _ _).mpr ⟨a, by rw [← hab]; simp⟩)
      ⟨x ++ c!"</summary>" ++ b, by simp⟩ x ((List.mem_inits _ _).mpr ⟨c!"</summary>" ++ b, by simp⟩) ⟨b, by simp⟩ hn

/-- A document with a details block inside another satisfies the hypotheses. -/
example : render c!"<details>\n<summary>a</summary>\n<details>\n<summary>b</summary>\nx</details></details>" ≠ .hang := by
  apply no_hang_check
  · decide +kernel
  · decide +kernel

/-- Rendering has no other outcomes than a result, a panic or an infinite loop: the fuel of the model never runs out. -/
theorem C10_only_two_failures (d : Str) : (∃ html, render d = .ok html) ∨ render d = .panic ∨ render d = .hang := by
  have := renderIgnore_ne_fuelOut [] d
  have e : render d = renderIgnore [] d := rfl
  rw [e]
  cases h : renderIgnore [] d with
  | ok a => exact .inl ⟨a, rfl⟩
  | panic => exact .inr (.inl rfl)
  | hang => exact .inr (.inr rfl)
  | fuelOut => rw [h] at this; simp at this

/-! ### C11 -/

/-- C11 is false: text after a heading label makes an `unwrap` panic. -/
theorem C11_refuted : ¬ ∀ d : Str, render d ≠ .panic := by
  intro h
  exact h c!"# {#a} b" (by decide +kernel)

/-- C11, the part that holds: rendering never panics if, whenever a `#`, a space or tab and some text follow one another
on a line and the text has both `{#` and `}`, the text is one without `{` followed by one label `{#…}` at its end.
Missing: headings with other text around a label; they always panic, by `C11_heading_panics`. -/
theorem C11_partial (d : Str)
    (h : ∀ sep line, sep = ' ' ∨ sep = '\t' → '\n' ∉ line → '#' :: sep :: line <:+: d → '}' ∈ line → c!"{#" <:+: line →
      ∃ a b, '{' ∉ a ∧ line = a ++ c!"{#" ++ b ++ c!"}") : render d ≠ .panic := by
  intro hp
  refine (no_fail .panic (fun t => ∀ sep line, sep = ' ' ∨ sep = '\t' → '\n' ∉ line → '#' :: sep :: line <:+: t →
    '}' ∈ line → c!"{#" <:+: line → GoodLabel line) ?_ ?_ ?_ (by intro h; cases h) _ d (Nat.le_refl _) h).2 [] ?_
  · exact fun s t hs hts sep line h1 h2 h3 => hs sep line h1 h2 (h3.trans hts)
  · intro x sep line h1 h2 h3 h4
    have : '}' ∈ sanitize x := h3.subset (by simp [h4])
    exact absurd this (C03_no_delimiters x '}' (by simp))
  · intro _ sep line h1 h2 h3 h4
    obtain ⟨h5, h6, h7⟩ := (headingLabel_panic_iff line).mp h4
    exact h7 (h3 sep line h1 h2 (List.infix_refl _) h6 h5)
  · have : render d = renderIgnore [] d := rfl
    rw [← this, hp]
    rfl

/-- A way to check the hypothesis of `C11_partial` on a concrete document. -/
theorem no_panic_check (d : Str)
    (h : ∀ u ∈ d.tails, u.head? = some '#' → ∀ line ∈ (u.drop 2).inits, '\n' ∉ line → headingLabel line ≠ .panic) :
    render d ≠ .panic := by
  refine C11_partial d fun sep line _ hn hin hb hl => ?_
  obtain ⟨u, v, rfl⟩ := hin
  refine Classical.byContradiction fun hbad => ?_
  refine h ('#' :: sep :: line ++ v) ((List.mem_tails _ _).mpr ⟨u, by simp⟩) rfl line
    ((List.mem_inits _ _).mpr ⟨v, by simp⟩) hn ?_
  exact (headingLabel_panic_iff line).mpr ⟨hl, hb, hbad⟩

/-- A heading with a label at its end, and braces outside headings, meet the hypothesis. -/
example : render c!"# a {#b}\nx {y} {#z}\n- # c" ≠ .panic := no_panic_check _ (by decide +kernel)

/-- C11 fails for every heading with a label that is not at the end of the line or is preceded by another `{`. -/
theorem C11_heading_panics (n : Nat) (line rest : Str) (h1 : 1 ≤ n) (h6 : n ≤ 6) (hn : '\n' ∉ line)
    (hrest : rest = [] ∨ ∃ r, rest = '\n' :: r) (hlabel : c!"{#" <:+: line) (hclose : '}' ∈ line)
    (hbad : ¬ ∃ a b, '{' ∉ a ∧ line = a ++ c!"{#" ++ b ++ c!"}") :
    render (List.replicate n '#' ++ ' ' :: (line ++ rest)) = .panic := by
  obtain ⟨m, rfl⟩ : ∃ m, n = m + 1 := ⟨n - 1, by omega⟩
  have hl := lexHeading_line self (m + 1) ' ' line rest h6 (.inl rfl) hn hrest
  rw [headingLabel_bad hlabel hclose hbad] at hl
  rw [render_unfold]
  unfold lexWith lexLoop
  rw [List.replicate_succ, List.cons_append] at hl ⊢
  rw [nextToken_hash rfl, hl]
  rfl

example : render c!"## a {b} {#c}\nmore" = .panic :=
  C11_heading_panics 2 c!"a {b} {#c}" c!"\nmore" (by omega) (by omega) (by decide) (.inr ⟨_, rfl⟩)
    (by decide) (by decide) (by
      rintro ⟨a, b, ha, h⟩
      rcases a with _ | ⟨x, _ | ⟨y, _ | ⟨z, a⟩⟩⟩ <;> simp at h ha
      exact ha.2.2.1 h.2.2.1)

/-- Rendering returns a result for every document that meets the conditions of `C10_partial` and `C11_partial`. -/
theorem C10_C11_total_partial (d : Str)
    (hclosed : ∀ t, c!"<details>" ++ t <:+ d → c!"<details>" <:+: t →
      ∃ x y, t = x ++ c!"</details>" ++ y ∧ occ c!"<details>" x ≤ occ c!"</details>" x)
    (hsum : ∀ x, c!"<summary>" ++ x ++ c!"</summary>" <:+: d → '\n' ∉ x → ¬ c!"</details>" <:+: x)
    (hlabel : ∀ sep line, sep = ' ' ∨ sep = '\t' → '\n' ∉ line → '#' :: sep :: line <:+: d → '}' ∈ line →
      c!"{#" <:+: line → ∃ a b, '{' ∉ a ∧ line = a ++ c!"{#" ++ b ++ c!"}") : ∃ html, render d = .ok html := by
  rcases C10_only_two_failures d with h | h | h
  · exact h
  · exact absurd h (C11_partial d hlabel)
  · exact absurd h (C10_partial d hclosed hsum)

example : ∃ html, render c!"<details>\n<summary>a</summary>\n# b {#c}\n</details>" = .ok html :=
  (C10_only_two_failures _).resolve_right fun h => h.elim
    (no_panic_check _ (by decide +kernel)) (no_hang_check _ (by decide +kernel) (by decide +kernel))

/-! ### C13 -/

/-- C13, upper bound: `9 * n + 2` nested calls of the renderer and lexer are enough for a document of `n` characters;
with that many the result is the one without a limit. -/
theorem C13_depth_is_linear (d : Str) (n : Nat) (h : 9 * d.length + 2 ≤ n) :
    (recF n).render [] d = render d ∧ (recF n).render [] d ≠ .fuelOut := by
  have hw := wt_le d
  have e := render_eq d n (by omega)
  refine ⟨e, fun hf => ?_⟩
  rw [e] at hf
  rcases C10_only_two_failures d with ⟨x, h⟩ | h | h <;> rw [h] at hf <;> cases hf

/-- `k` bullets in front of a letter: `- - - a`. -/
def bullets : Nat → Str
  | 0 => c!"a"
  | k + 1 => '-' :: ' ' :: bullets k

theorem bullets_mem (k : Nat) : ∀ x ∈ bullets k, x = '-' ∨ x = ' ' ∨ x = 'a' := by
  induction k with
  | zero => simp [bullets]
  | succ k ih =>
    intro x hx
    simp only [bullets, List.mem_cons] at hx
    rcases hx with rfl | rfl | hx
    · simp
    · simp
    · exact ih x hx

theorem bullets_head (k : Nat) : ∃ c t, bullets k = c :: t ∧ c ≠ ' ' ∧ c ≠ '[' := by
  cases k with
  | zero => exact ⟨_, _, rfl, by decide, by decide⟩
  | succ k => exact ⟨_, _, rfl, by decide, by decide⟩

theorem bullets_length (k : Nat) : (bullets k).length = 2 * k + 1 := by
  induction k with
  | zero => rfl
  | succ k ih => simp [bullets, ih]; omega

theorem lexWith_bullets (r : Rec) (ig : List Char) (k : Nat) :
    lexWith r ig (bullets (k + 1)) = .ok [.unorderedListEntry [.plaintext (' ' :: bullets k)]] := by
  rw [lexWith_ok_iff]
  obtain ⟨c, t, hc, hs, hb⟩ := bullets_head k
  have hno : ∀ p : Str, ¬ '[' :: p <+: bullets k := by
    intro p h
    rw [hc, List.cons_prefix_cons] at h
    exact hb h.1.symm
  have hl := lexPlusMinus_item r (c := '-') (w := bullets k) (rest := []) (.inl rfl)
    (by intro h; rcases bullets_mem k _ h with h | h | h <;> simp at h) .nil (hno _) (hno _) (hno _)
  rw [List.append_nil] at hl
  refine .cons none _ [] _ [] ?_ (.nil _)
  rw [bullets, nextToken_bullet (.inl rfl), hl]
  rfl

/-- C13, lower bound: for every `k` there is a document of `2 * k + 1` characters for which `k` nested calls are not
enough. -/
theorem C13_depth_is_reached (k : Nat) : ∃ d : Str, d.length = 2 * k + 1 ∧ (recF k).render [] d = .fuelOut := by
  refine ⟨bullets k, bullets_length k, ?_⟩
  induction k with
  | zero => rfl
  | succ k ih =>
    rw [recF_render, lexWith_bullets]
    obtain ⟨c, t, hc, hs, hb⟩ := bullets_head k
    have ha : trimStartP (· == ' ') (' ' :: bullets k) = bullets k := by
      rw [hc]
      simp [trimStartP, hs]
    have hs2 : startsWith (' ' :: bullets k) c!"\t\t" = false := startsWith_false (by simp)
    simp only [Outcome.ok_bind, parseDoc, parseToks, parseTok, step2, entryOut, hs2, ha, ih, Bool.false_eq_true, if_false]
    rfl

end Smd.Gfm
