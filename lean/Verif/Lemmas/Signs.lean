import Verif.Lemmas.Quoted
import Verif.Lemmas.Literal

/-! Lemmas about the signs of lists and thematic breaks: entries without a space, runs inside a line, mixed runs. -/

namespace Smd.Gfm
open Smd.Rs Smd.Spec

variable {r : Rec} {ig : List Char} {rest : Str} {ts : List Token}

/-- An entry with no space after its sign. -/
theorem render_tight {c : Char} {w a x : Str} (hc : c = '-' ∨ c = '+') (hw : '\n' ∉ w) (h1 : w.head? ≠ some '-') (h2 : w.head? ≠ some '+')
    (h3 : w.head? ≠ some ' ') (ha : (if startsWith w c!"\t\t" then trimStartP (· == ' ') (w.drop 1) else trimStartP (· == ' ') w) = a)
    (hx : render a = .ok x) : render (c :: w) = .ok (c!"<ul>\n<li>\n" ++ pad x ++ c!"</li>\n</ul>\n") := by
  have hl : LexTo self [] (c :: w) [.unorderedListEntry [.plaintext w]] :=
    LexTo.cons (s' := []) (fun last => by
      rw [nextToken_bullet hc, lexPlusMinus_hyphen self hc hw h1 h2 h3]
      rfl) LexTo.nil
  have hx : self.render [] a = .ok x := hx
  have hout : entryOut self [.plaintext w] = .ok (pad x) := by
    simp only [entryOut, ha, hx, Outcome.ok_bind, List.append_nil]
  rw [render_of hl (parseToks_one (parseTok_entry self [] false (by simp [isPlaintext]) hout)), finish_ul]
  simp [ulOpen]

/-- A run of signs is a thematic break whatever comes after it. -/
theorem LexTo.ruleIn {stop : Str} {n : Nat} {c : Char}
    (h : (c = '-' ∨ c = '+') ∧ 3 ≤ n ∧ rest.head? ≠ some '-' ∧ rest.head? ≠ some '+' ∨
      (c = '*' ∨ c = '_') ∧ 4 ≤ n ∧ rest.head? ≠ some '*' ∧ rest.head? ≠ some '_' ∧ rest.head? ≠ some '\t')
    (ht : LexTo (stop := stop) r ig rest ts) : LexTo (stop := stop) r ig (times n c ++ rest) (.horizontalRule :: ts) := by
  refine .cons (fun last => ?_) ht
  obtain ⟨k, hk⟩ : ∃ k, n = k + 1 := ⟨n - 1, by omega⟩
  rcases h with ⟨hc, hn, h1, h2⟩ | ⟨hc, hn, h1, h2, h3⟩
  · have hs := run_split (fun c => c == '-' || c == '+') (s := times n c) (rest := rest) (by
      intro x hx
      rw [List.mem_replicate] at hx
      rcases hc with rfl | rfl <;> simp [hx.2]) (by
      intro d hd
      have e1 : d ≠ '-' := fun e => h1 (e ▸ hd)
      have e2 : d ≠ '+' := fun e => h2 (e ▸ hd)
      simp [e1, e2])
    have e : lexPlusMinus r (times n c ++ rest) = .ok (.ok .horizontalRule, rest) := by
      unfold lexPlusMinus
      simp only [hs, List.length_replicate]
      rw [if_pos hn]
    rw [hk] at e ⊢
    rw [times_succ_append] at e ⊢
    rw [nextToken_bullet hc, e]
    rfl
  · have hs := run_split (fun c => c == '*' || c == '_' || c == '\t') (s := times n c) (rest := rest) (by
      intro x hx
      rw [List.mem_replicate] at hx
      rcases hc with rfl | rfl <;> simp [hx.2]) (by
      intro d hd
      have e1 : d ≠ '*' := fun e => h1 (e ▸ hd)
      have e2 : d ≠ '_' := fun e => h2 (e ▸ hd)
      have e3 : d ≠ '\t' := fun e => h3 (e ▸ hd)
      simp [e1, e2, e3])
    have e : lexAsteriskUnderscore (times n c ++ rest) = (.ok .horizontalRule, rest) := by
      unfold lexAsteriskUnderscore
      simp only [hs, List.length_replicate]
      rw [if_neg (by omega)]
      split
      · rfl
      · rw [if_neg (by omega), if_neg (by omega), if_neg (by omega), if_pos]
        rcases hc with rfl | rfl <;> simp +contextual
    rw [hk] at e ⊢
    rw [times_succ_append] at e ⊢
    rw [nextToken_au hc, e]
    rfl

/-- A run of four or more markers and tabs at the end of a document. -/
theorem au_run {m : Char} {s : Str} (hm : m = '*' ∨ m = '_') (hs : ∀ c ∈ s, c = '*' ∨ c = '_' ∨ c = '\t') (hl : 3 ≤ s.length) (last : Option Token) :
    nextToken r ig last (m :: s) = .ok (some (if '_' ∉ m :: s ∨ (∀ c ∈ m :: s, c = '_') then .horizontalRule else .plaintext (m :: s), [])) := by
  have hall : ∀ c ∈ m :: s, (c == '*' || c == '_' || c == '\t') = true := by
    intro c hc
    rcases List.mem_cons.mp hc with rfl | hc
    · rcases hm with rfl | rfl <;> rfl
    · rcases hs c hc with rfl | rfl | rfl <;> rfl
  have h1 := run_split (fun c => c == '*' || c == '_' || c == '\t') (s := m :: s) (rest := []) hall (by simp)
  rw [List.append_nil] at h1
  rw [nextToken_au hm]
  unfold lexAsteriskUnderscore
  simp only [h1, List.length_cons]
  rw [if_neg (by omega), if_neg (by simp), if_neg (by omega), if_neg (by omega), if_neg (by omega)]
  have hcond : ((((m :: s).filter (· != '\t')).all (· == '*') || (m :: s).all (· == '_')) = true) ↔
      ('_' ∉ m :: s ∨ ∀ c ∈ m :: s, c = '_') := by
    rw [Bool.or_eq_true, List.all_eq_true, List.all_eq_true]
    refine or_congr ⟨fun h hu => ?_, fun h c hc => ?_⟩ (by simp only [beq_iff_eq])
    · have := h '_' (by rw [List.mem_filter]; exact ⟨hu, by decide⟩)
      revert this
      decide
    · rw [List.mem_filter] at hc
      have h2 := hall c hc.1
      have h3 : c ≠ '_' := fun e => h (e ▸ hc.1)
      have h4 : c ≠ '\t' := by simpa using hc.2
      simpa [h3, h4] using h2
  by_cases h : '_' ∉ m :: s ∨ ∀ c ∈ m :: s, c = '_'
  · rw [if_pos (hcond.mpr h), if_pos h]
    rfl
  · rw [if_neg (fun e => h (hcond.mp e)), if_neg h]
    rfl

/-- One underscore at the end of a line emphasises the text after it up to the end of the document. -/
theorem au_line_end {t : Str} (h1 : '*' ∉ t) (h2 : '_' ∉ t) (last : Option Token) :
    nextToken r ig last ('_' :: '\n' :: t) = .ok (some (.italic ('\n' :: t), [])) := by
  have hs := run_split (fun c => !isAU c) (s := '\n' :: t) (rest := []) (by
    intro c hc
    rcases List.mem_cons.mp hc with rfl | hc
    · rfl
    · have e1 : c ≠ '*' := fun e => h1 (e ▸ hc)
      have e2 : c ≠ '_' := fun e => h2 (e ▸ hc)
      simp [isAU, e1, e2]) (by simp)
  rw [List.append_nil] at hs
  have e0 : ('_' :: '\n' :: t).takeWhile (fun c => c == '*' || c == '_' || c == '\t') = ['_'] ∧
      ('_' :: '\n' :: t).dropWhile (fun c => c == '*' || c == '_' || c == '\t') = '\n' :: t := ⟨rfl, rfl⟩
  rw [nextToken_au (.inr rfl)]
  unfold lexAsteriskUnderscore
  simp only [e0, hs]
  rw [if_neg (by simp), if_neg (by simp), if_pos (by simp), if_pos (by simp)]
  rfl

/-- One marker, a tab, and a text without markers. -/
theorem au_tab {m : Char} {t : Str} (hm : m = '*' ∨ m = '_') (ht : Inline.EmText t) (last : Option Token) :
    nextToken r ig last (m :: '\t' :: t) = .ok (some (.plaintext (m :: '\t' :: t), [])) := by
  obtain ⟨⟨c, u, rfl, hc⟩, h1, h2⟩ := ht
  have hn1 : ∀ x ∈ c :: u, x ≠ '*' := fun x hx e => h1 (e ▸ hx)
  have hn2 : ∀ x ∈ c :: u, x ≠ '_' := fun x hx e => h2 (e ▸ hx)
  have hct : c ≠ '\t' := fun e => hc (by rw [e]; decide)
  have hcn : c ≠ '\n' := fun e => hc (by rw [e]; decide)
  have e0 := run_split (fun c => c == '*' || c == '_' || c == '\t') (s := [m, '\t']) (rest := c :: u) (by
    rcases hm with rfl | rfl <;> decide) (by
    intro x hx
    rw [List.head?_cons, Option.some.injEq] at hx
    subst hx
    simp [hn1 c (by simp), hn2 c (by simp), hct])
  have hs := run_split (fun c => !isAU c) (s := c :: u) (rest := []) (by
    intro x hx
    simp [isAU, hn1 x hx, hn2 x hx]) (by simp)
  rw [List.append_nil] at hs
  rw [show m :: '\t' :: c :: u = [m, '\t'] ++ c :: u from rfl] at *
  have hsl : slice ([m, '\t'] ++ c :: u) [] = [m, '\t'] ++ c :: u := by
    have := slice_self_append ([m, '\t'] ++ c :: u) []
    simpa using this
  rw [show [m, '\t'] ++ c :: u = m :: ('\t' :: c :: u) from rfl, nextToken_au hm, show m :: ('\t' :: c :: u) = [m, '\t'] ++ c :: u from rfl]
  unfold lexAsteriskUnderscore
  simp only [e0, hs]
  rw [if_neg (by simp), if_neg (by simp [hcn]), if_neg (by simp), if_pos (by simp)]
  simp only [List.takeWhile_nil, List.dropWhile_nil, hsl]
  rw [if_neg (by simp)]
  rfl

end Smd.Gfm
