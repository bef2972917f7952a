import Verif.Lemmas.Items
import Verif.Lemmas.Escape
import Verif.Spec.Blocks

/-! Lexing and parsing of texts of known form, independent of what comes before. -/

namespace Smd.Gfm
open Smd.Rs Smd.Spec

theorem esc_eq_special : ∀ c ∈ escSpecial, esc c = escape [c] := by decide

theorem escape_cons (c : Char) (s : Str) : escape (c :: s) = escape [c] ++ escape s := by
  unfold escape
  by_cases h : c = '\\' <;> simp [h]

theorem esc_eq (c : Char) : esc c = escape [c] := by
  by_cases h : c ∈ escSpecial
  · exact esc_eq_special c h
  · rw [esc_other c h]
    have : entityTable.find? (fun e => e.2 == c) = none := by
      rw [List.find?_eq_none]
      intro e he hc
      have hc : e.2 = c := by simpa using hc
      have : ∀ e ∈ entityTable, e.2 ∈ escSpecial := by decide
      exact h (hc ▸ this e he)
    have h2 : c ≠ '\\' := fun e => h (e ▸ by decide)
    simp [escape, h2, this]

theorem sanitize_eq_escape (s : Str) : sanitize s = escape s := by
  induction s with
  | nil => rfl
  | cons c s ih => rw [sanitize_cons, escape_cons, ih, esc_eq]

/-- Lexing reads `s` up to `stop` and gives `ts`. -/
inductive LexesUpTo (r : Rec) (ig : List Char) (stop : Str) : Option Token → Str → List Token → Prop
  | nil (last : Option Token) : LexesUpTo r ig stop last stop []
  | cons (last : Option Token) (s s' : Str) (t : Token) (ts : List Token)
      (h : nextToken r ig last s = .ok (some (t, s'))) (hs : LexesUpTo r ig stop (some t) s' ts) : LexesUpTo r ig stop last s (t :: ts)

theorem LexesUpTo.lexes {r : Rec} {ig : List Char} {last : Option Token} {s : Str} {ts : List Token} (h : LexesUpTo r ig [] last s ts) :
    Lexes r ig last s ts := by
  induction h with
  | nil last => exact .nil last
  | cons last s s' t ts h _ ih => exact .cons last s s' t ts h ih

/-- Lexing `s`, up to `stop`, gives `ts`, whatever was lexed before. -/
def LexTo (r : Rec) (ig : List Char) (s : Str) (ts : List Token) (stop : Str := []) : Prop := ∀ last, LexesUpTo r ig stop last s ts

theorem LexTo.stop {r : Rec} {ig : List Char} (s : Str) : LexTo (stop := s) r ig s [] := fun last => .nil last

theorem LexTo.nil {r : Rec} {ig : List Char} : LexTo r ig [] [] := LexTo.stop []

theorem LexTo.cons {r : Rec} {ig : List Char} {s s' stop : Str} {t : Token} {ts : List Token}
    (h : ∀ last, nextToken r ig last s = .ok (some (t, s'))) (hs : LexTo (stop := stop) r ig s' ts) : LexTo (stop := stop) r ig s (t :: ts) :=
  fun last => .cons last s s' t ts (h last) (hs _)

theorem LexTo.lexWith {r : Rec} {ig : List Char} {s : Str} {ts : List Token} (h : LexTo r ig s ts) :
    lexWith r ig s = .ok ts := (lexWith_ok_iff r ig s ts).mpr (h none).lexes

theorem renderIgnore_of {ig : List Char} {d : Str} {ts : List Token} {st : PState} (h : LexTo self ig d ts)
    (hp : parseToks self ts {} = .ok st) : renderIgnore ig d = .ok (finish st) := by
  rw [renderIgnore_unfold, h.lexWith]
  show parseDoc self ts = _
  unfold parseDoc
  rw [hp]
  rfl

theorem render_of {d : Str} {ts : List Token} {st : PState} (h : LexTo self [] d ts)
    (hp : parseToks self ts {} = .ok st) : render d = .ok (finish st) := renderIgnore_of h hp

theorem lex_of {d : Str} {ts : List Token} (h : LexTo self [] d ts) : lex d = .ok ts := by
  rw [lex_unfold]; exact h.lexWith

variable {stop : Str}

/-- A character that is text by itself. -/
def PlainChar (c : Char) : Prop := c ∉ controlChars ∧ isWs c = false

theorem nextToken_plain (r : Rec) (ig : List Char) (last : Option Token) {c : Char} (s : Str) (h : c ∉ controlChars) :
    nextToken r ig last (c :: s) = .ok (some (.plaintext [c], s)) := by
  unfold nextToken lexDispatch
  simp only [controlChars, List.mem_cons, List.not_mem_nil, or_false, not_or] at h
  simp [h, resToken]

theorem LexTo.word {r : Rec} {ig : List Char} {s : Str} {ts : List Token} : ∀ {w : Str}, (∀ c ∈ w, PlainChar c) →
    LexTo (stop := stop) r ig s ts → LexTo (stop := stop) r ig (w ++ s) (w.map (fun c => .plaintext [c]) ++ ts)
  | [], _, h => h
  | c :: w, hw, h =>
    .cons (fun last => nextToken_plain r ig last _ (hw c (by simp)).1) (LexTo.word (fun x hx => hw x (by simp [hx])) h)

theorem nextToken_nl (r : Rec) (ig : List Char) (last : Option Token) (s : Str) :
    nextToken r ig last ('\n' :: s) =
      .ok (some (resToken (lexNewlines ('\n' :: s)).1, (lexNewlines ('\n' :: s)).2)) := by
  unfold nextToken lexDispatch
  simp

/-- What a run of line ends is lexed to. -/
def gapTok (n : Nat) : Token := if n = 1 then .plaintext c!"\n" else .newline

theorem LexTo.gap {r : Rec} {ig : List Char} {s : Str} {ts : List Token} {n : Nat} (hn : 1 ≤ n) (hs : s.head? ≠ some '\n')
    (h : LexTo (stop := stop) r ig s ts) : LexTo (stop := stop) r ig (times n '\n' ++ s) (gapTok n :: ts) := by
  refine .cons (fun last => ?_) h
  obtain ⟨k, rfl⟩ : ∃ k, n = k + 1 := ⟨n - 1, by omega⟩
  have e : times (k + 1) '\n' ++ s = '\n' :: (times k '\n' ++ s) := rfl
  rw [e, nextToken_nl, ← e]
  have e1 : (times (k + 1) '\n' ++ s).takeWhile (· == '\n') = times (k + 1) '\n' := by
    cases s with
    | nil => rw [List.append_nil]; exact takeWhile_all _ _ (by simp +contextual [List.mem_replicate])
    | cons c cs => exact takeWhile_append_stop _ _ _ (by simpa using hs) _ (by simp +contextual [List.mem_replicate])
  have e2 : (times (k + 1) '\n' ++ s).dropWhile (· == '\n') = s := by
    cases s with
    | nil => rw [List.append_nil]; exact dropWhile_all _ _ (by simp +contextual [List.mem_replicate])
    | cons c cs => exact dropWhile_append_stop _ _ _ (by simpa using hs) _ (by simp +contextual [List.mem_replicate])
  unfold lexNewlines gapTok
  simp only [e1, e2, List.length_replicate]
  by_cases hk : k = 0
  · subst hk; rfl
  · rw [if_pos (by omega), if_neg (by omega)]; rfl

/-- A run of at most three spaces is text. -/
theorem LexTo.spaces {r : Rec} {ig : List Char} {s : Str} {ts : List Token} {n : Nat} (hn : 1 ≤ n) (hn3 : n ≤ 3)
    (h1 : s.head? ≠ some ' ') (h2 : s.head? ≠ some '\t') (h : LexTo (stop := stop) r ig s ts) :
    LexTo (stop := stop) r ig (times n ' ' ++ s) (.plaintext (times n ' ') :: ts) := by
  refine .cons (fun last => ?_) h
  obtain ⟨k, rfl⟩ : ∃ k, n = k + 1 := ⟨n - 1, by omega⟩
  have e1 : (times (k + 1) ' ' ++ s).takeWhile (fun c => c == '\t' || c == ' ') = times (k + 1) ' ' := by
    cases s with
    | nil => rw [List.append_nil]; exact takeWhile_all _ _ (by simp +contextual [List.mem_replicate])
    | cons c cs => exact takeWhile_append_stop _ _ _ (by simpa using ⟨by simpa using h2, by simpa using h1⟩) _ (by simp +contextual [List.mem_replicate])
  have e2 : (times (k + 1) ' ' ++ s).dropWhile (fun c => c == '\t' || c == ' ') = s := by
    cases s with
    | nil => rw [List.append_nil]; exact dropWhile_all _ _ (by simp +contextual [List.mem_replicate])
    | cons c cs => exact dropWhile_append_stop _ _ _ (by simpa using ⟨by simpa using h2, by simpa using h1⟩) _ (by simp +contextual [List.mem_replicate])
  have e3 : lexTabsSpaces last (times (k + 1) ' ' ++ s) = (.error (times (k + 1) ' '), s) := by
    unfold lexTabsSpaces
    have : (times (k + 1) ' ' ++ s).length = (k + s.length) + 1 := by simp; omega
    rw [this]
    unfold lexTabsSpacesGo
    simp only [e1, e2]
    rw [if_pos]
    simp [List.mem_replicate]
    omega
  have e : times (k + 1) ' ' ++ s = ' ' :: (times k ' ' ++ s) := rfl
  rw [e] at e3 ⊢
  unfold nextToken lexDispatch
  simp [e3, resToken]

/-! ### Parsing -/

theorem parseToks_append (r : Rec) : ∀ (a b : List Token) (st : PState),
    parseToks r (a ++ b) st = (parseToks r a st).bind fun st => parseToks r b st
  | [], b, st => by simp [parseToks, Outcome.bind]
  | t :: a, b, st => by
    rw [List.cons_append]
    simp only [parseToks]
    cases parseTok r t st with
    | ok st' => simp only [Outcome.bind]; exact parseToks_append r a b st'
    | _ => rfl

theorem parseToks_two {r : Rec} {a b : List Token} {st st' st'' : PState} (h1 : parseToks r a st = .ok st')
    (h2 : parseToks r b st' = .ok st'') : parseToks r (a ++ b) st = .ok st'' := by
  rw [parseToks_append, h1]
  exact h2

theorem parseToks_one {r : Rec} {t : Token} {st st' : PState} (h : parseTok r t st = .ok st') :
    parseToks r [t] st = .ok st' := by
  simp only [parseToks, h]
  rfl

theorem parseToks_cons {r : Rec} {t : Token} {ts : List Token} {st st' st'' : PState} (h1 : parseTok r t st = .ok st')
    (h2 : parseToks r ts st' = .ok st'') : parseToks r (t :: ts) st = .ok st'' := by
  simp only [parseToks, h1]
  exact h2

/-- The state with nothing open. -/
abbrev clean (h : Str) : PState := { html := h }

/-- The state inside `q` block quotes. -/
abbrev inQ (h : Str) (q : Nat) : PState := { html := h, quoteLevel := q }

/-- What closes `q` block quotes before a paragraph. -/
abbrev closeQ (q : Nat) : Str := rep q c!"</blockquote>"

/-- The state inside a paragraph; `c` tells whether there was code before. -/
abbrev inP (h : Str) (c : Bool := false) : PState := { html := h, inPara := true, inCode := c }

theorem parseTok_blank (r : Rec) {t : Str} (st : PState) (h : trim t = []) : parseTok r (.plaintext t) st = .ok st := by
  simp [parseTok, step1, step2, isBlankPlain, h]

/-- Text that is shown as it is, escaped. -/
structure Shown (t : Str) : Prop where
  notBlank : trim t ≠ []
  noNl : '\n' ∉ t
  noNote : ¬ c!"[^" <:+: t ∨ ']' ∉ t

theorem plainOut_shown {t : Str} (h : Shown t) : plainOut t = sanitize t := by
  have e1 : plainTrim t = t := by
    unfold plainTrim afterLast
    rw [if_neg (by simpa using h.noNl)]
  unfold plainOut
  simp only [e1]
  rw [if_neg]
  · congr 1
    cases t with
    | nil => rfl
    | cons c t =>
      have : c ≠ '\n' := fun e => h.noNl (by simp [e])
      simp [this]
  · intro hc
    simp only [Bool.and_eq_true] at hc
    rcases h.noNote with hn | hn
    · exact hn (contains_infix (by simp) hc.1)
    · exact hn ((contains_infix (by simp) hc.2).subset (by simp))

theorem parseTok_shown_inP (r : Rec) {t : Str} (h : Str) (ht : Shown t) (c : Bool := false) :
    parseTok r (.plaintext t) (inP h c) = .ok (inP (h ++ sanitize t) c) := by
  have := ht.notBlank
  simp [parseTok, step1, step2, isBlankPlain, isTab, staysInList, staysInTask, opensPara, closesPara, staysInQuote, isCode,
    this, plainOut_shown ht, PState.push]

theorem parseTok_shown_inQ (r : Rec) {t : Str} (h : Str) (q : Nat) (ht : Shown t) :
    parseTok r (.plaintext t) (inQ h q) = .ok (inP (h ++ closeQ q ++ c!"<p>" ++ sanitize t)) := by
  have := ht.notBlank
  simp [parseTok, step1, step2, isBlankPlain, isTab, staysInList, staysInTask, opensPara,
    this, plainOut_shown ht, PState.push]

theorem shown_plain {c : Char} (h : PlainChar c) : Shown [c] := by
  refine ⟨?_, ?_, .inl ?_⟩
  · simp [trim, trimEndP, trimStartP, h.2]
  · intro hm
    have : c = '\n' := by rw [List.mem_singleton] at hm; exact hm.symm
    exact h.1 (this ▸ by decide)
  · intro hi
    have := hi.length_le
    simp at this

theorem parseToks_word_inP (r : Rec) (b : Bool := false) : ∀ {w : Str} (h : Str), (∀ c ∈ w, PlainChar c) →
    parseToks r (w.map (fun c => .plaintext [c])) (inP h b) = .ok (inP (h ++ escape w) b)
  | [], h, _ => by simp [parseToks, escape]
  | c :: w, h, hw => by
    refine parseToks_cons (parseTok_shown_inP r h (shown_plain (hw c (by simp))) b) ?_
    have := parseToks_word_inP r b (w := w) (h ++ sanitize [c]) (fun x hx => hw x (by simp [hx]))
    rw [this, escape_cons c w, sanitize_eq_escape, List.append_assoc]

theorem parseToks_word_inQ (r : Rec) {w : Str} (h : Str) (q : Nat) (hw : Word w) :
    parseToks r (w.map (fun c => .plaintext [c])) (inQ h q) = .ok (inP (h ++ closeQ q ++ c!"<p>" ++ escape w)) := by
  obtain ⟨hne, hw⟩ := hw
  cases w with
  | nil => exact absurd rfl hne
  | cons c w =>
    refine parseToks_cons (parseTok_shown_inQ r h q (shown_plain (hw c (by simp)))) ?_
    have := parseToks_word_inP r false (w := w) (h ++ closeQ q ++ c!"<p>" ++ sanitize [c]) (fun x hx => hw x (by simp [hx]))
    rw [this, escape_cons c w, sanitize_eq_escape, List.append_assoc _ (escape [c])]

theorem finish_inP (h : Str) : finish (inP h) = h ++ c!"</p>\n" := by
  simp [finish, rep, endNl]

theorem finish_clean {h : Str} (hn : c!"\n" <:+ h) : finish (clean h) = h := by
  obtain ⟨a, rfl⟩ := hn
  simp [finish, rep, endNl]

theorem escape_append (a b : Str) : escape (a ++ b) = escape a ++ escape b := by
  rw [← sanitize_eq_escape, sanitize_append, sanitize_eq_escape, sanitize_eq_escape]

end Smd.Gfm
