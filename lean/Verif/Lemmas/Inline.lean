import Verif.Lemmas.Run
import Verif.Lemmas.Links

/-! Lexing and parsing of running text. -/

namespace Smd.Gfm
open Smd.Rs Smd.Spec

variable {stop : Str}

/-- A run of characters with a property, followed by something without it. -/
theorem run_split (p : Char → Bool) {s rest : Str} (hs : ∀ x ∈ s, p x = true) (hr : ∀ c, rest.head? = some c → p c = false) :
    (s ++ rest).takeWhile p = s ∧ (s ++ rest).dropWhile p = rest := by
  cases rest with
  | nil => rw [List.append_nil]; exact ⟨takeWhile_all p s hs, dropWhile_all p s hs⟩
  | cons c cs => exact ⟨takeWhile_append_stop p c cs (hr c rfl) s hs, dropWhile_append_stop p c cs (hr c rfl) s hs⟩

theorem times_split {c : Char} {n : Nat} {rest : Str} (h : rest.head? ≠ some c) :
    (times n c ++ rest).takeWhile (· == c) = times n c ∧ (times n c ++ rest).dropWhile (· == c) = rest :=
  run_split _ (by simp +contextual [List.mem_replicate]) (by
    intro d hd
    simp
    intro e
    exact h (e ▸ hd))

theorem times_succ_append (n : Nat) (c : Char) (rest : Str) : times (n + 1) c ++ rest = c :: (times n c ++ rest) := rfl

theorem times_head {c : Char} {n : Nat} (h : 1 ≤ n) (rest : Str) : ∃ u, times n c ++ rest = c :: u := by
  obtain ⟨k, rfl⟩ : ∃ k, n = k + 1 := ⟨n - 1, by omega⟩
  exact ⟨_, rfl⟩

theorem isAlpha_scheme : ∀ n < 128, (Char.ofNat n).isAlpha = true → Char.ofNat n ∈ schemeAscii := by decide

theorem afterColon_eq {p : Str} (r : Str) (hp : ∀ c ∈ p, (c != ':') = true) : afterColon (p ++ ':' :: r) = r := by
  unfold afterColon
  rw [dropWhile_append_stop (fun c => decide (c ≠ ':')) ':' r (by simp) p (fun c hc => by simpa using hp c hc)]
  simp

theorem plainTarget_ok {t : Str} (h : PlainTarget t) :
    ∃ u, validateLink t = .ok u ∧ u.display = t ∧ u.fmtUnsafe = t ∧ u.scheme.isSome = true ∧ u.content = afterColon t := by
  obtain ⟨⟨p, r, rfl, h2, h32, ha, hj, hd, hm⟩, hc⟩ := h
  have hcol : ∀ c ∈ p, (c != ':') = true := by
    intro c hc
    have := ha c hc
    simp
    rintro rfl
    revert this
    decide
  have e1 : (p ++ ':' :: r).takeWhile (· != ':') = p := takeWhile_append_stop _ _ _ (by simp) _ hcol
  have e2 : (p ++ ':' :: r).dropWhile (· != ':') = ':' :: r := dropWhile_append_stop _ _ _ (by simp) _ hcol
  have hmem : ':' ∈ p ++ ':' :: r := by simp
  have hcont : (p ++ ':' :: r).contains ':' = true := by simp
  have hasc : isAscii (p ++ ':' :: r) = true := by
    unfold isAscii
    rw [List.all_eq_true]
    intro c hx
    simpa using (hc c hx).1
  have hascp : isAscii p = true := by
    unfold isAscii
    rw [List.all_eq_true]
    intro c hx
    simpa using (hc c (by simp [hx])).1
  have hws : (p ++ ':' :: r).any isWs = false := by
    rw [List.any_eq_false]
    intro c hx
    simpa using (hc c hx).2.1
  have hat : (p ++ ':' :: r).contains '@' = false := by
    rw [← Bool.not_eq_true, List.contains_iff_mem]
    intro hx
    exact (hc _ hx).2.2 (by decide)
  have hall : p.all (fun c => schemeAscii.contains c) = true := by
    rw [List.all_eq_true]
    intro c hx
    rw [List.contains_iff_mem]
    have := isAlpha_scheme c.toNat (hc c (by simp [hx])).1
    rw [Char.ofNat_toNat] at this
    exact this (ha c hx)
  have henc : replaceC '&' c!"&amp;" (percentEncode r) = r := by
    have hr : ∀ c ∈ r, c ∉ c!"%#[]!$'()*\\&@<>\"" ∧ isWs c = false := fun c hx => ⟨(hc c (by simp [hx])).2.2, (hc c (by simp [hx])).2.1⟩
    have e : percentEncode r = r := by
      rw [percentEncode_eq_flatMap]
      clear e1 e2 hmem hcont hasc hws hat hc
      induction r with
      | nil => rfl
      | cons c r ih =>
        rw [List.flatMap_cons, ih (fun x hx => hr x (by simp [hx])), pct_other c]
        · rfl
        · intro hx
          have h1 := hr c (by simp)
          have : c ∈ c!"%#[]!$'()*\\&@<>\"" ∨ isWs c = true := by
            revert hx
            have : ∀ c ∈ pctSpecial, c ∈ c!"%#[]!$'()*\\&@<>\"" ∨ isWs c = true := by decide
            exact this c
          rcases this with h | h
          · exact h1.1 h
          · rw [h1.2] at h; cases h
    rw [e]
    unfold replaceC
    clear e e1 e2 hmem hcont hasc hws hat hc
    induction r with
    | nil => rfl
    | cons c r ih =>
      rw [List.flatMap_cons, ih (fun x hx => hr x (by simp [hx])), if_neg]
      · rfl
      · rintro rfl
        exact (hr '&' (by simp)).1 (by decide)
  have henc' : replaceC '&' c!"&amp;" r = r := by
    unfold replaceC
    clear e1 e2 hmem hcont hasc hws hat henc
    induction r with
    | nil => rfl
    | cons c r ih =>
      rw [List.flatMap_cons, ih (fun x hx => hc x (by
        rcases List.mem_append.mp hx with h | h
        · simp [h]
        · rcases List.mem_cons.mp h with h | h
          · simp [h]
          · simp [h])), if_neg]
      · rfl
      · rintro rfl
        exact (hc '&' (by simp)).2.2 (by decide)
  have hstrip : stripScheme p (p ++ ':' :: r) = r := by
    have := stripScheme_eq (p ++ ':' :: r) hmem
    rw [e1] at this
    rw [this, e2]
    rfl
  have hafter := afterColon_eq r hcol
  have hsplit : splitScheme (p ++ ':' :: r) = (p, ':' :: r) := by
    unfold splitScheme
    rw [if_pos hcont, e1, e2]
  have hss : sourceScheme (p ++ ':' :: r) = some (if p = c!"http" then .http p
      else if p = c!"irc" then .irc p else .other p) := by
    unfold sourceScheme
    simp only [e1, hcont, hall, h2, h32, decide_true, Bool.and_self, if_true, if_neg hm]
    split
    · rfl
    · split <;> rfl
  unfold validateLink
  simp only [hasc, hws, hsplit, hascp, hss, hat]
  rw [if_neg (by simp), if_neg (by simpa [lower] using hj), if_neg (by simp [lower]; intro h; exact absurd h hd),
    if_neg (by simp; omega), if_neg (by simp), if_neg (by simp)]
  by_cases h1 : p = c!"http"
  · rw [if_pos h1]
    exact ⟨_, rfl, by simp [ValidURL.display, Scheme.display, hstrip, henc], by simp [ValidURL.fmtUnsafe, Scheme.display, hstrip, henc'], rfl, by rw [hafter]; exact hstrip⟩
  · rw [if_neg h1]
    by_cases h3 : p = c!"irc"
    · rw [if_pos h3]
      exact ⟨_, rfl, by simp [ValidURL.display, Scheme.display, hstrip, henc], by simp [ValidURL.fmtUnsafe, Scheme.display, hstrip, henc'], rfl, by rw [hafter]; exact hstrip⟩
    · rw [if_neg h3]
      exact ⟨_, rfl, by simp [ValidURL.display, Scheme.display, hstrip, henc], by simp [ValidURL.fmtUnsafe, Scheme.display, hstrip, henc'], rfl, by rw [hafter]; exact hstrip⟩

/-! ### Lexing of the pieces -/

variable {r : Rec} {ig : List Char} {rest : Str} {ts : List Token}

theorem LexTo.one {s : Str} {t : Token} (h : ∀ last, nextToken r ig last (s ++ rest) = .ok (some (t, rest)))
    (hr : LexTo (stop := stop) r ig rest ts) : LexTo (stop := stop) r ig (s ++ rest) ([t] ++ ts) := .cons h hr

theorem LexTo.digit {c : Char} (hc : c ∈ c!"0123456789") (hn : rest.head? ≠ some '.') (hr : LexTo (stop := stop) r ig rest ts) :
    LexTo (stop := stop) r ig ([c] ++ rest) ([.plaintext [c]] ++ ts) := by
  refine LexTo.one (fun last => ?_) hr
  have e : lexNumbers (c :: rest) = (.error [c], rest) := by
    unfold lexNumbers
    cases rest with
    | nil => rfl
    | cons d rest =>
      have : d ≠ '.' := by simpa using hn
      split
      · next h => injection h with _ h; injection h with h _; exact absurd h this
      · next h => injection h with _ h; injection h with h _; exact absurd h this
      · next h => injection h with h1 h2; rw [h1, h2]
      · next h => cases h
  have key : nextToken r ig last (c :: rest) = .ok (some (resToken (lexNumbers (c :: rest)).1, (lexNumbers (c :: rest)).2)) := by
    simp only [List.mem_cons, List.not_mem_nil, or_false] at hc
    unfold nextToken lexDispatch
    rcases hc with rfl | rfl | rfl | rfl | rfl | rfl | rfl | rfl | rfl | rfl <;> simp
  rw [List.singleton_append, key, e]
  rfl

theorem LexTo.bang (hn : rest.head? ≠ some '[') (hr : LexTo (stop := stop) r ig rest ts) :
    LexTo (stop := stop) r ig (c!"!" ++ rest) ([.plaintext c!"!"] ++ ts) := by
  refine LexTo.one (fun last => ?_) hr
  have e : lexImages ('!' :: rest) = (.error c!"!", rest) := by
    unfold lexImages lexLinks
    simp only [List.head?_cons, ne_eq, not_true_eq_false, if_false, List.drop_one, List.tail_cons]
    rw [if_pos hn]
    have := slice_self_append c!"!" rest
    simp only [List.singleton_append] at this
    simp [this]
  rw [List.singleton_append]
  unfold nextToken lexDispatch
  simp [e, resToken]

theorem head_ne {c : Char} {s : Str} (h : ∃ d u, s = d :: u ∧ d ≠ c) (t : Str) : (s ++ t).head? ≠ some c := by
  obtain ⟨d, u, rfl, hd⟩ := h
  simpa using hd

/-- Opening markers, the text and what follows. -/
theorem au_split {m : Char} (n : Nat) {t rest : Str} (hm : m = '*' ∨ m = '_') (ht : Inline.EmText t) :
    (times n m ++ (t ++ rest)).takeWhile (fun c => c == '*' || c == '_' || c == '\t') = times n m ∧
    (times n m ++ (t ++ rest)).dropWhile (fun c => c == '*' || c == '_' || c == '\t') = t ++ rest := by
  refine run_split _ ?_ ?_
  · intro x hx
    rw [List.mem_replicate] at hx
    rcases hm with rfl | rfl <;> simp [hx.2]
  · obtain ⟨⟨c, u, rfl, hc⟩, h1, h2⟩ := ht
    intro d hd
    have : c = d := by simpa using hd
    subst this
    simp only [List.mem_cons, List.not_mem_nil, or_false, not_or] at hc h1 h2
    simp [hc, Ne.symm h1.1, Ne.symm h2.1]

theorem em_text_split {m : Char} {t u : Str} (hm : m = '*' ∨ m = '_') (ht : Inline.EmText t) :
    (t ++ m :: u).takeWhile (fun c => !isAU c) = t ∧ (t ++ m :: u).dropWhile (fun c => !isAU c) = m :: u := by
  refine run_split _ ?_ ?_
  · intro x hx
    have h1 : x ≠ '*' := fun e => ht.2.1 (e ▸ hx)
    have h2 : x ≠ '_' := fun e => ht.2.2 (e ▸ hx)
    simp [isAU, h1, h2]
  · intro c hc
    have : m = c := by simpa using hc
    subst this
    rcases hm with rfl | rfl <;> rfl

theorem em_close_split {m : Char} (n : Nat) {rest : Str} (hm : m = '*' ∨ m = '_') (h1 : rest.head? ≠ some '*')
    (h2 : rest.head? ≠ some '_') :
    (times n m ++ rest).takeWhile isAU = times n m ∧ (times n m ++ rest).dropWhile isAU = rest := by
  refine run_split _ ?_ ?_
  · intro x hx
    rw [List.mem_replicate] at hx
    rcases hm with rfl | rfl <;> simp [hx.2, isAU]
  · intro c hc
    have e1 : c ≠ '*' := fun e => h1 (e ▸ hc)
    have e2 : c ≠ '_' := fun e => h2 (e ▸ hc)
    simp [isAU, e1, e2]

theorem nextToken_au {last : Option Token} {m : Char} {s : Str} (hm : m = '*' ∨ m = '_') :
    nextToken r ig last (m :: s) = .ok (some (resToken (lexAsteriskUnderscore (m :: s)).1, (lexAsteriskUnderscore (m :: s)).2)) := by
  unfold nextToken lexDispatch
  rcases hm with rfl | rfl <;> simp

theorem emText_head {t : Str} (ht : Inline.EmText t) (u : Str) :
    (t ++ u).head? ≠ some ' ' ∧ (t ++ u).head? ≠ some '\n' := by
  obtain ⟨⟨c, v, rfl, hc⟩, _, _⟩ := ht
  simp only [List.mem_cons, List.not_mem_nil, or_false, not_or] at hc
  simp [hc]

theorem LexTo.em {m : Char} {t : Str} (hm : m = '*' ∨ m = '_') (ht : Inline.EmText t) (hr : LexTo (stop := stop) r ig rest ts) :
    LexTo (stop := stop) r ig ((times 1 m ++ t ++ times 1 m) ++ rest) ([.italic t] ++ ts) := by
  refine LexTo.one (fun last => ?_) hr
  have e : (times 1 m ++ t ++ times 1 m) ++ rest = times 1 m ++ (t ++ m :: rest) := by simp
  have e' : times 1 m ++ (t ++ m :: rest) = m :: (t ++ m :: rest) := rfl
  have el : lexAsteriskUnderscore (times 1 m ++ (t ++ m :: rest)) = (.ok (.italic t), rest) := by
    unfold lexAsteriskUnderscore
    simp only [au_split 1 hm ht (rest := m :: rest)]
    rw [if_neg (fun h => (emText_head ht _).1 h.2), if_neg (fun h => (emText_head ht _).2 h.2), if_pos (by simp)]
    simp only [em_text_split hm ht]
    rw [if_pos]
    · simp
    · rcases hm with rfl | rfl <;> simp
  rw [e, e', nextToken_au hm, ← e', el]
  rfl

theorem LexTo.strong {m : Char} {t : Str} (hm : m = '*' ∨ m = '_') (ht : Inline.EmText t) (h1 : rest.head? ≠ some '*')
    (h2 : rest.head? ≠ some '_') (hr : LexTo (stop := stop) r ig rest ts) :
    LexTo (stop := stop) r ig ((times 2 m ++ t ++ times 2 m) ++ rest) ([.bold t] ++ ts) := by
  refine LexTo.one (fun last => ?_) hr
  have e : (times 2 m ++ t ++ times 2 m) ++ rest = times 2 m ++ (t ++ m :: (times 1 m ++ rest)) := by simp [List.replicate]
  have e' : times 2 m ++ (t ++ m :: (times 1 m ++ rest)) = m :: (times 1 m ++ (t ++ m :: (times 1 m ++ rest))) := rfl
  have el : lexAsteriskUnderscore (times 2 m ++ (t ++ m :: (times 1 m ++ rest))) = (.ok (.bold t), rest) := by
    unfold lexAsteriskUnderscore
    simp only [au_split 2 hm ht (rest := m :: (times 1 m ++ rest))]
    rw [if_neg (fun h => (emText_head ht _).1 h.2), if_neg (fun h => (emText_head ht _).2 h.2), if_neg (by simp), if_pos (by simp)]
    simp only [em_text_split hm ht]
    have := em_close_split 2 hm h1 h2
    rw [times_succ_append] at this
    simp only [this]
    simp
  rw [e, e', nextToken_au hm, ← e', el]
  rfl

theorem LexTo.strongEm {m : Char} {t : Str} (hm : m = '*' ∨ m = '_') (ht : Inline.EmText t) (h1 : rest.head? ≠ some '*')
    (h2 : rest.head? ≠ some '_') (hr : LexTo (stop := stop) r ig rest ts) :
    LexTo (stop := stop) r ig ((times 3 m ++ t ++ times 3 m) ++ rest) ([.boldItalic t] ++ ts) := by
  refine LexTo.one (fun last => ?_) hr
  have e : (times 3 m ++ t ++ times 3 m) ++ rest = times 3 m ++ (t ++ m :: (times 2 m ++ rest)) := by simp [List.replicate]
  have e' : times 3 m ++ (t ++ m :: (times 2 m ++ rest)) = m :: (times 2 m ++ (t ++ m :: (times 2 m ++ rest))) := rfl
  have el : lexAsteriskUnderscore (times 3 m ++ (t ++ m :: (times 2 m ++ rest))) = (.ok (.boldItalic t), rest) := by
    unfold lexAsteriskUnderscore
    simp only [au_split 3 hm ht (rest := m :: (times 2 m ++ rest))]
    rw [if_neg (fun h => (emText_head ht _).1 h.2), if_neg (fun h => (emText_head ht _).2 h.2), if_neg (by simp), if_neg (by simp),
      if_pos (by simp)]
    simp only [em_text_split hm ht]
    have := em_close_split 3 hm h1 h2
    rw [times_succ_append] at this
    simp only [this]
    simp
  rw [e, e', nextToken_au hm, ← e', el]
  rfl

theorem nextToken_tilde {last : Option Token} {s : Str} :
    nextToken r ig last ('~' :: s) = .ok (some (resToken (lexTilde ('~' :: s)).1, (lexTilde ('~' :: s)).2)) := by
  unfold nextToken lexDispatch
  simp

theorem LexTo.strike {t : Str} (hne : t ≠ []) (ht : '~' ∉ t) (h1 : rest.head? ≠ some '~') (hr : LexTo (stop := stop) r ig rest ts) :
    LexTo (stop := stop) r ig ((times 2 '~' ++ t ++ times 2 '~') ++ rest) ([.strikethrough t] ++ ts) := by
  refine LexTo.one (fun last => ?_) hr
  have e : (times 2 '~' ++ t ++ times 2 '~') ++ rest = times 2 '~' ++ (t ++ '~' :: (times 1 '~' ++ rest)) := by simp [List.replicate]
  have e' : times 2 '~' ++ (t ++ '~' :: (times 1 '~' ++ rest)) = '~' :: (times 1 '~' ++ (t ++ '~' :: (times 1 '~' ++ rest))) := rfl
  have el : lexTilde (times 2 '~' ++ (t ++ '~' :: (times 1 '~' ++ rest))) = (.ok (.strikethrough t), rest) := by
    unfold lexTilde
    have hh : (t ++ '~' :: (times 1 '~' ++ rest)).head? ≠ some '~' := by
      cases t with
      | nil => exact absurd rfl hne
      | cons c t => simp at ht ⊢; exact fun h => ht.1 h.symm
    have hs := run_split (· != '~') (s := t) (rest := '~' :: (times 1 '~' ++ rest)) (by
      intro x hx
      simp
      rintro rfl
      exact ht hx) (by simp)
    have hc := times_split (n := 2) h1
    rw [times_succ_append] at hc
    simp only [times_split hh, hs, hc]
    simp
  rw [e, e', nextToken_tilde, ← e', el]
  rfl

theorem LexTo.tildes {n : Nat} (hn : 1 ≤ n) (hn2 : n ≠ 2) (h1 : rest.head? ≠ some '~') (hr : LexTo (stop := stop) r ig rest ts) :
    LexTo (stop := stop) r ig (times n '~' ++ rest) ([.plaintext (times n '~')] ++ ts) := by
  refine LexTo.one (fun last => ?_) hr
  obtain ⟨k, rfl⟩ : ∃ k, n = k + 1 := ⟨n - 1, by omega⟩
  have el : lexTilde (times (k + 1) '~' ++ rest) = (.error (times (k + 1) '~'), rest) := by
    unfold lexTilde
    simp only [times_split h1, List.length_replicate]
    rw [if_neg hn2]
    split <;> rfl
  rw [times_succ_append, nextToken_tilde, ← times_succ_append, el]
  rfl

theorem LexTo.escaped {c : Char} (hc : c ≠ '#') (hr : LexTo (stop := stop) r ig rest ts) :
    LexTo (stop := stop) r ig (['\\', c] ++ rest) ([.plaintext [c]] ++ ts) := by
  refine LexTo.one (fun last => ?_) hr
  show nextToken r ig last ('\\' :: c :: rest) = _
  unfold nextToken lexDispatch
  simp [lexEscaped, hc, resToken]

theorem target_chars {t : Str} (h : PlainTarget t) : ')' ∉ t ∧ ' ' ∉ t ∧ '>' ∉ t :=
  ⟨fun hx => (h.chars _ hx).2.2 (by decide), fun hx => by have := (h.chars _ hx).2.1; revert this; decide,
    fun hx => (h.chars _ hx).2.2 (by decide)⟩

theorem ne_split {c : Char} {t u : Str} (h : c ∉ t) :
    (t ++ c :: u).takeWhile (· != c) = t ∧ (t ++ c :: u).dropWhile (· != c) = c :: u :=
  run_split _ (fun x hx => by simp; rintro rfl; exact h hx) (by simp)

/-- `[text](target)` for a target without blanks and `)`. -/
theorem lexLinks_inline {text target : Str} (h1 : ']' ∉ text) (h2 : ')' ∉ target) (h3 : ' ' ∉ target) :
    lexLinks (c!"[" ++ text ++ c!"](" ++ target ++ c!")" ++ rest) =
      match validateLink target with
      | .ok vl => (.ok (.link vl (some text) none), rest)
      | .error e => (.error e, rest) := by
  have e : c!"[" ++ text ++ c!"](" ++ target ++ c!")" ++ rest = '[' :: (text ++ ']' :: '(' :: (target ++ ')' :: rest)) := by simp
  rw [e]
  unfold lexLinks
  have hs := ne_split (u := '(' :: (target ++ ')' :: rest)) h1
  have ht := run_split (fun c => c != ')' && c != ' ') (s := target) (rest := ')' :: rest) (by
    intro x hx
    have h4 : x ≠ ')' := fun e => h2 (e ▸ hx)
    have h5 : x ≠ ' ' := fun e => h3 (e ▸ hx)
    simp [h4, h5]) (by simp)
  simp only [List.head?_cons, ne_eq, not_true_eq_false, if_false, List.drop_one, List.tail_cons, hs, ht]
  rw [if_neg (by simp), if_neg (by simp), if_pos trivial]
  cases validateLink target <;> rfl

theorem nextToken_bracket {last : Option Token} {s : Str} :
    nextToken r ig last ('[' :: s) = .ok (some (resToken (lexLinks ('[' :: s)).1, (lexLinks ('[' :: s)).2)) := by
  unfold nextToken lexDispatch
  simp

theorem LexTo.linkTo {text target : Str} {u : ValidURL} (h1 : ']' ∉ text) (h2 : ')' ∉ target) (h3 : ' ' ∉ target)
    (hu : validateLink target = .ok u) (hr : LexTo (stop := stop) r ig rest ts) :
    LexTo (stop := stop) r ig ((c!"[" ++ text ++ c!"](" ++ target ++ c!")") ++ rest) ([.link u (some text) none] ++ ts) := by
  refine LexTo.one (fun last => ?_) hr
  have e := lexLinks_inline (rest := rest) h1 h2 h3
  rw [hu] at e
  have e' : c!"[" ++ text ++ c!"](" ++ target ++ c!")" ++ rest = '[' :: (text ++ c!"](" ++ target ++ c!")" ++ rest) := by simp
  rw [e'] at e ⊢
  rw [nextToken_bracket, e]
  rfl

theorem lexSideCarrot_auto {target : Str} {u : ValidURL} (hgt : '>' ∉ target) (hu : validateLink target = .ok u)
    (hs : u.scheme.isSome = true) (hd : target ≠ c!"details") (hne : target ≠ []) (hws : target.any isWs = false) :
    lexSideCarrot r (c!"<" ++ target ++ c!">" ++ rest) = .ok (.ok (.link u none none), rest) := by
  have e : c!"<" ++ target ++ c!">" ++ rest = '<' :: (target ++ '>' :: rest) := by simp
  rw [e]
  unfold lexSideCarrot
  simp only [List.head?_cons, ne_eq, not_true_eq_false, if_false, List.drop_one, List.tail_cons, ne_split hgt]
  rw [if_pos trivial, if_neg hd, if_pos (by cases target with | nil => exact absurd rfl hne | cons => simp), hws, hu]
  simp [hs]

theorem plainTarget_colon {t : Str} (h : PlainTarget t) : ':' ∈ t := by
  obtain ⟨p, q, rfl, _⟩ := h.split
  simp

theorem nextToken_lt {last : Option Token} {s : Str} :
    nextToken r ig last ('<' :: s) = (lexSideCarrot r ('<' :: s) >>= fun res => .ok (some (resToken res.1, res.2))) := by
  unfold nextToken lexDispatch
  simp

theorem LexTo.autolink {target : Str} {u : ValidURL} (ht : PlainTarget target) (hu : validateLink target = .ok u)
    (hs : u.scheme.isSome = true) (hr : LexTo (stop := stop) r ig rest ts) :
    LexTo (stop := stop) r ig ((c!"<" ++ target ++ c!">") ++ rest) ([.link u none none] ++ ts) := by
  refine LexTo.one (fun last => ?_) hr
  have hc := plainTarget_colon ht
  have e := lexSideCarrot_auto (r := r) (rest := rest) (target_chars ht).2.2 hu hs (by rintro rfl; revert hc; decide)
    (by rintro rfl; cases hc) (by
      rw [List.any_eq_false]
      intro c hx
      simpa using (ht.chars c hx).2.1)
  have e' : c!"<" ++ target ++ c!">" ++ rest = '<' :: (target ++ c!">" ++ rest) := by simp
  rw [e'] at e ⊢
  rw [nextToken_lt, e]
  rfl

/-- `[^id]` not before a colon or a parenthesis. -/
theorem lexLinks_noteRef {id : Str} (h1 : ']' ∉ id) (h2 : rest.head? ≠ some ':') (h3 : rest.head? ≠ some '(') :
    lexLinks (c!"[^" ++ id ++ c!"]" ++ rest) = (.error (c!"[^" ++ id ++ c!"]"), rest) := by
  have hs := ne_split (c := ']') (t := '^' :: id) (u := rest) (by simp [h1])
  have hsl := slice_self_append (c!"[^" ++ id ++ c!"]") rest
  simp only [List.cons_append, List.nil_append, List.append_assoc] at hs hsl
  unfold lexLinks
  simp only [List.append_assoc, List.cons_append, List.nil_append, List.head?_cons, ne_eq, not_true_eq_false, if_false, List.drop_one,
    List.tail_cons, hs.1, hs.2]
  rw [if_neg (fun h => h2 h.2), if_pos h3, hsl]

theorem LexTo.noteRef {id : Str} (h1 : ']' ∉ id) (h2 : rest.head? ≠ some ':') (h3 : rest.head? ≠ some '(') (hr : LexTo (stop := stop) r ig rest ts) :
    LexTo (stop := stop) r ig (c!"[^" ++ id ++ c!"]" ++ rest) ([.plaintext (c!"[^" ++ id ++ c!"]")] ++ ts) := by
  refine LexTo.one (fun last => ?_) hr
  have e := lexLinks_noteRef (rest := rest) h1 h2 h3
  simp only [List.append_assoc, List.cons_append, List.nil_append] at e ⊢
  rw [nextToken_bracket, e]
  rfl

theorem LexTo.arrows {n : Nat} (hn : 1 ≤ n) (h1 : rest.head? ≠ some '>') (h2 : rest.head? ≠ some ' ') (h3 : rest.head? ≠ some '\t')
    (hr : LexTo (stop := stop) r ig rest ts) : LexTo (stop := stop) r ig (times n '>' ++ rest) ([.plaintext (times n '>')] ++ ts) := by
  refine LexTo.one (fun last => ?_) hr
  obtain ⟨k, rfl⟩ : ∃ k, n = k + 1 := ⟨n - 1, by omega⟩
  have e : lexBlockquotes (times (k + 1) '>' ++ rest) = (.error (times (k + 1) '>'), rest) := by
    unfold lexBlockquotes
    simp only [times_split h1]
    rw [if_neg (by rintro (h | h); exact h2 h; exact h3 h)]
  rw [times_succ_append] at e ⊢
  unfold nextToken lexDispatch
  simp [e, resToken]

theorem LexTo.digitDot {c : Char} (hc : c ∈ c!"0123456789") (hn : rest.head? ≠ some ' ') (hr : LexTo (stop := stop) r ig rest ts) :
    LexTo (stop := stop) r ig ([c, '.'] ++ rest) ([.plaintext [c, '.']] ++ ts) := by
  refine LexTo.one (fun last => ?_) hr
  have e : lexNumbers (c :: '.' :: rest) = (.error [c, '.'], rest) := by
    unfold lexNumbers
    split
    · next h => injection h with _ h; injection h with _ h; rw [h] at hn; exact absurd rfl hn
    · next h => injection h with h1 h; injection h with _ h; rw [h1, h]
    · next h1 h => injection h with h2 h3; exact absurd h3.symm (h1 _)
    · next h => cases h
  have key : nextToken r ig last (c :: '.' :: rest) =
      .ok (some (resToken (lexNumbers (c :: '.' :: rest)).1, (lexNumbers (c :: '.' :: rest)).2)) := by
    simp only [List.mem_cons, List.not_mem_nil, or_false] at hc
    unfold nextToken lexDispatch
    rcases hc with rfl | rfl | rfl | rfl | rfl | rfl | rfl | rfl | rfl | rfl <;> simp
  rw [show [c, '.'] ++ rest = c :: '.' :: rest from rfl, key, e]
  rfl

/-- `[t]` not before a parenthesis and not a footnote. -/
theorem lexLinks_brackets {t : Str} (h1 : ']' ∉ t) (h2 : t.head? ≠ some '^') (h3 : rest.head? ≠ some '(') :
    lexLinks (c!"[" ++ t ++ c!"]" ++ rest) = (.error (c!"[" ++ t ++ c!"]"), rest) := by
  have hs := ne_split (c := ']') (t := t) (u := rest) h1
  have hsl := slice_self_append (c!"[" ++ t ++ c!"]") rest
  simp only [List.cons_append, List.nil_append, List.append_assoc] at hs hsl
  unfold lexLinks
  simp only [List.append_assoc, List.cons_append, List.nil_append, List.head?_cons, ne_eq, not_true_eq_false, if_false, List.drop_one,
    List.tail_cons, hs.1, hs.2]
  rw [if_neg, if_pos h3, hsl]
  rintro ⟨h, _⟩
  cases t with
  | nil => simp [startsWith] at h
  | cons c t =>
    simp only [startsWith, List.isPrefixOf_cons₂, List.isPrefixOf_nil_left, Bool.and_true, beq_iff_eq] at h
    exact h2 (by rw [← h]; rfl)

theorem LexTo.brackets {t : Str} (h1 : ']' ∉ t) (h2 : t.head? ≠ some '^') (h3 : rest.head? ≠ some '(') (hr : LexTo (stop := stop) r ig rest ts) :
    LexTo (stop := stop) r ig (c!"[" ++ t ++ c!"]" ++ rest) ([.plaintext (c!"[" ++ t ++ c!"]")] ++ ts) := by
  refine LexTo.one (fun last => ?_) hr
  have e := lexLinks_brackets (rest := rest) h1 h2 h3
  simp only [List.append_assoc, List.cons_append, List.nil_append] at e ⊢
  rw [nextToken_bracket, e]
  rfl

/-- Without a colon and an `@` there is no scheme. -/
theorem validateLink_scheme_none {t : Str} {u : ValidURL} (h1 : ':' ∉ t) (h2 : '@' ∉ t) (h : validateLink t = .ok u) :
    u.scheme = none := by
  have hc : t.contains ':' = false := by simpa using h1
  have ha : t.contains '@' = false := by simpa using h2
  unfold validateLink at h
  have hs : sourceScheme t = none := by simp [sourceScheme, h1]
  simp only [hs, ha, Bool.false_and] at h
  split at h
  · cases h
  · split at h
    · cases h
    · split at h
      · cases h
      · split at h
        · cases h
        · injection h with h
          rw [← h]

theorem lexSideCarrot_angle {t : Str} (hne : t ≠ []) (hgt : '>' ∉ t) (hd : t ≠ c!"details")
    (h : (∃ c ∈ t, isWs c = true) ∨ ':' ∉ t ∧ '@' ∉ t) :
    lexSideCarrot r (c!"<" ++ t ++ c!">" ++ rest) = .ok (.error (c!"<" ++ t ++ c!">"), rest) := by
  have hsl := slice_self_append (c!"<" ++ t ++ c!">") rest
  have e : c!"<" ++ t ++ c!">" ++ rest = '<' :: (t ++ '>' :: rest) := by simp
  rw [e] at hsl ⊢
  unfold lexSideCarrot
  simp only [List.head?_cons, ne_eq, not_true_eq_false, if_false, List.drop_one, List.tail_cons, ne_split hgt]
  rw [if_pos trivial, if_neg hd, if_pos (by cases t with | nil => exact absurd rfl hne | cons => simp)]
  rcases h with ⟨c, hc, hw⟩ | ⟨h1, h2⟩
  · rw [if_pos (by rw [List.any_eq_true]; exact ⟨c, hc, hw⟩), hsl]
  · split
    · rw [hsl]
    · cases hv : validateLink t with
      | ok u =>
        have := validateLink_scheme_none h1 h2 hv
        simp [this, hsl]
      | error x => simp [hsl]

theorem LexTo.angle {t : Str} (hne : t ≠ []) (hgt : '>' ∉ t) (hd : t ≠ c!"details")
    (h : (∃ c ∈ t, isWs c = true) ∨ ':' ∉ t ∧ '@' ∉ t) (hr : LexTo (stop := stop) r ig rest ts) :
    LexTo (stop := stop) r ig ((c!"<" ++ t ++ c!">") ++ rest) ([.plaintext (c!"<" ++ t ++ c!">")] ++ ts) := by
  refine LexTo.one (fun last => ?_) hr
  have e := lexSideCarrot_angle (r := r) (rest := rest) hne hgt hd h
  have e' : c!"<" ++ t ++ c!">" ++ rest = '<' :: (t ++ c!">" ++ rest) := by simp
  rw [e'] at e ⊢
  rw [nextToken_lt, e]
  rfl

theorem LexTo.escapedHashes {n : Nat} (hn : 1 ≤ n) (h1 : rest.head? ≠ some '#') (hr : LexTo (stop := stop) r ig rest ts) :
    LexTo (stop := stop) r ig (('\\' :: times n '#') ++ rest) ([.plaintext (times n '#')] ++ ts) := by
  refine LexTo.one (fun last => ?_) hr
  obtain ⟨k, rfl⟩ : ∃ k, n = k + 1 := ⟨n - 1, by omega⟩
  have e : lexEscaped ('\\' :: (times (k + 1) '#' ++ rest)) = (.ok (.plaintext (times (k + 1) '#')), rest) := by
    have hs := times_split (n := k + 1) h1
    rw [times_succ_append] at hs ⊢
    unfold lexEscaped
    simp only [List.drop_one, List.tail_cons, hs]
    simp
  rw [List.cons_append]
  unfold nextToken lexDispatch
  simp [e, resToken]

theorem LexTo.dashes {a b : Char} (ha : a = '-' ∨ a = '+') (hb : b = '-' ∨ b = '+') (h1 : rest.head? ≠ some '-')
    (h2 : rest.head? ≠ some '+') (hr : LexTo (stop := stop) r ig rest ts) : LexTo (stop := stop) r ig ([a, b] ++ rest) ([.plaintext [a, b]] ++ ts) := by
  refine LexTo.one (fun last => ?_) hr
  have hs := run_split (fun c => c == '-' || c == '+') (s := [a, b]) (rest := rest) (by
    intro x hx
    simp only [List.mem_cons, List.not_mem_nil, or_false] at hx
    rcases hx with rfl | rfl
    · rcases ha with rfl | rfl <;> decide
    · rcases hb with rfl | rfl <;> decide) (by
    intro c hc
    have e1 : c ≠ '-' := fun e => h1 (e ▸ hc)
    have e2 : c ≠ '+' := fun e => h2 (e ▸ hc)
    simp [e1, e2])
  have e : lexPlusMinus r ([a, b] ++ rest) = .ok (.error [a, b], rest) := by
    unfold lexPlusMinus
    simp only [hs.1, hs.2]
    rw [if_neg (by simp), if_pos (by simp), slice_self_append]
  have key : nextToken r ig last (a :: b :: rest) = (lexPlusMinus r (a :: b :: rest) >>= fun res => .ok (some (resToken res.1, res.2))) := by
    unfold nextToken lexDispatch
    rcases ha with rfl | rfl <;> simp
  show nextToken r ig last (a :: b :: rest) = _
  rw [key]
  have e : lexPlusMinus r (a :: b :: rest) = .ok (.error [a, b], rest) := e
  rw [e]
  rfl

theorem splitStr_none {c : Char} {p s : Str} (h : c ∉ s) : splitStr (c :: p) s = [s] := by
  unfold splitStr
  induction s with
  | nil => rfl
  | cons x s ih =>
    have : c ≠ x := by simp at h; exact h.1
    simp only [splitGo]
    rw [if_neg (by simp [this]), ih (by simp at h; exact h.2)]
    rfl

theorem contains_of_infix {p : Str} : ∀ {s : Str}, p <:+: s → contains s p = true
  | [], h => by
    rw [List.infix_nil] at h
    subst h
    rfl
  | c :: s, h => by
    rw [contains, Bool.or_eq_true]
    rcases List.infix_cons_iff.mp h with h | h
    · exact .inl (List.isPrefixOf_iff_prefix.mpr h)
    · exact .inr (contains_of_infix h)

theorem trimEnd_last {p : Char → Bool} {s : Str} {a : Char} (ha : p a = false) : trimEndP p (s ++ [a]) = s ++ [a] := by
  simp [trimEndP, ha]

theorem plainOut_noteRef {id : Str} (h : NoteId id) : plainOut (c!"[^" ++ id ++ c!"]") = (Inline.noteRef id).html := by
  obtain ⟨hne, hc⟩ := h
  have hnl : '\n' ∉ c!"[^" ++ id ++ c!"]" := by
    simp
    intro hm
    have := (hc _ hm).1
    revert this
    decide
  have e1 : plainTrim (c!"[^" ++ id ++ c!"]") = c!"[^" ++ id ++ c!"]" := by
    unfold plainTrim afterLast
    rw [if_neg (by simpa using hnl)]
  have e2 : splitStr c!"[^" (c!"[^" ++ id ++ c!"]") = [[], id ++ c!"]"] := by
    have := splitStr_none (c := '[') (p := c!"^") (s := id ++ c!"]") (by simp; exact fun hm => (hc _ hm).2.1 rfl)
    unfold splitStr at this ⊢
    simp [splitGo, List.isPrefixOf, this]
  have e3 : trimEnd (id ++ c!"]") = id ++ c!"]" := trimEnd_last (by decide)
  have e4 : trimEndP (· == ']') (id ++ c!"]") = id := by
    obtain ⟨u, a, rfl⟩ : ∃ u a, id = u ++ [a] := by
      rcases List.eq_nil_or_concat id with rfl | ⟨u, a, rfl⟩
      · exact absurd rfl hne
      · exact ⟨u, a, by simp⟩
    have : a ≠ ']' := (hc a (by simp)).2.2
    simp [trimEndP, this]
  have c1 : contains (c!"[^" ++ id ++ c!"]") c!"[^" = true := contains_of_infix ⟨[], id ++ c!"]", by simp⟩
  have c2 : contains (c!"[^" ++ id ++ c!"]") c!"]" = true := contains_of_infix ⟨c!"[^" ++ id, [], by simp⟩
  have e5 : endsWith (trimEnd []) c!"]" = false := by decide
  have e6 : endsWith (id ++ c!"]") c!"]" = true := by simp [endsWith, List.isSuffixOf_iff_suffix]
  unfold plainOut
  simp only [e1, c1, c2, Bool.and_self, if_true, e2, footRefs, e5, e3, e6, e4]
  simp [supTag, Inline.html, sanitize_eq_escape, dec, Nat.toDigits, Nat.toDigitsCore, Nat.digitChar]

/-! ### Parsing of the pieces -/

/-- A token that appends `x` to the paragraph, opening one if needed. -/
def ShowsTok (t : Token) (x : Str) : Prop :=
  (∀ r h c, parseTok r t (inP h c) = .ok (inP (h ++ x) c)) ∧
    ∀ r h q, parseTok r t (inQ h q) = .ok (inP (h ++ closeQ q ++ c!"<p>" ++ x))

theorem showsTok_of {t : Token} {x : Str} (h1 : opensPara t = true) (h2 : isBlankPlain t = false)
    (h3 : ∀ r st, step2 r t st = .ok (st.push x)) (h4 : ∀ r st, parseTok r t st = step2 r t (step1 t st)) : ShowsTok t x := by
  have ht : isTab t = false ∧ staysInList t = false ∧ staysInTask t = false ∧ closesPara t = false ∧ staysInQuote t = false ∧
      isCode t = false := by
    cases t <;> simp_all [opensPara, isTab, staysInList, staysInTask, closesPara, staysInQuote, isCode]
  refine ⟨fun r h c => ?_, fun r h q => ?_⟩
  · rw [h4, h3]; simp [step1, h2, ht, PState.push]
  · rw [h4, h3]; simp [step1, h1, h2, ht, PState.push]

theorem shows_italic (t : Str) : ShowsTok (.italic t) (elem c!"em" (escape t)) :=
  showsTok_of rfl rfl (fun r st => by simp [step2, elem, sanitize_eq_escape]) (fun r st => by simp [parseTok])

theorem shows_bold (t : Str) : ShowsTok (.bold t) (elem c!"strong" (escape t)) :=
  showsTok_of rfl rfl (fun r st => by simp [step2, elem, sanitize_eq_escape]) (fun r st => by simp [parseTok])

theorem shows_boldItalic (t : Str) : ShowsTok (.boldItalic t) (elem c!"strong" (elem c!"em" (escape t))) :=
  showsTok_of rfl rfl (fun r st => by simp [step2, elem, sanitize_eq_escape]) (fun r st => by simp [parseTok])

theorem shows_strike (t : Str) : ShowsTok (.strikethrough t) (elem c!"strike" (escape t)) :=
  showsTok_of rfl rfl (fun r st => by simp [step2, elem, sanitize_eq_escape]) (fun r st => by simp [parseTok])

theorem shows_link (u : ValidURL) (t : Str) :
    ShowsTok (.link u (some t) none) (c!"<a href=\"" ++ u.display ++ c!"\">" ++ escape t ++ c!"</a>") :=
  showsTok_of rfl rfl (fun r st => by simp [step2, linkOut, sanitize_eq_escape]) (fun r st => by simp [parseTok])

theorem shows_autolink (u : ValidURL) :
    ShowsTok (.link u none none) (c!"<a href=\"" ++ u.display ++ c!"\">" ++ u.fmtUnsafe ++ c!"</a>") :=
  showsTok_of rfl rfl (fun r st => by simp [step2, linkOut]) (fun r st => by simp [parseTok])

theorem shows_plain {t : Str} (h : Shown t) : ShowsTok (.plaintext t) (escape t) := by
  rw [← sanitize_eq_escape]
  exact ⟨fun r x c => parseTok_shown_inP r x h c, fun r x q => parseTok_shown_inQ r x q h⟩

/-! ### Pieces and running text -/

/-- `s` is lexed to `toks` if the character after it satisfies `ok`. -/
def LexesAs (s : Str) (ok : Option Char → Prop) (toks : List Token) : Prop :=
  ∀ {stop : Str} r ig rest ts, ok rest.head? → LexTo (stop := stop) r ig rest ts → LexTo (stop := stop) r ig (s ++ rest) (toks ++ ts)

/-- The tokens append `x` to an open paragraph. -/
def Adds (toks : List Token) (x : Str) : Prop := ∀ r h c, parseToks r toks (inP h c) = .ok (inP (h ++ x) c)

/-- The tokens open a paragraph with `x`, after closing the block quotes. -/
def Opens (toks : List Token) (x : Str) : Prop :=
  ∀ r h q, parseToks r toks (inQ h q) = .ok (inP (h ++ closeQ q ++ c!"<p>" ++ x))

theorem Opens.clean {toks : List Token} {x : Str} (h : Opens toks x) (r : Rec) (y : Str) :
    parseToks r toks (clean y) = .ok (inP (y ++ c!"<p>" ++ x)) := by
  have := h r y 0
  rwa [show closeQ 0 = [] from rfl, List.append_nil] at this

theorem ShowsTok.adds {t : Token} {x : Str} (h : ShowsTok t x) : Adds [t] x := fun r y c => parseToks_one (h.1 r y c)
theorem ShowsTok.opens {t : Token} {x : Str} (h : ShowsTok t x) : Opens [t] x := fun r y q => parseToks_one (h.2 r y q)

theorem trim_times_space (n : Nat) : trim (times n ' ') = [] := by
  unfold trim trimStartP
  rw [dropWhile_all]
  · rfl
  · intro x hx
    rw [List.mem_replicate] at hx
    rw [hx.2]
    decide

theorem trim_ne_nil {t : Str} {c : Char} (h : c ∈ t) (hc : isWs c = false) : trim t ≠ [] := by
  intro he
  unfold trim trimEndP trimStartP at he
  have h1 : (t.dropWhile isWs).reverse.dropWhile isWs = [] := by simpa using he
  have hall : ∀ {s : Str}, s.dropWhile isWs = [] → ∀ x ∈ s, isWs x = true := by
    intro s hs x hx
    rcases dropWhile_cases isWs s with ⟨_, e⟩ | ⟨y, ys, e, _⟩
    · exact mem_takeWhile_true isWs s x (by rw [e]; exact hx)
    · rw [e] at hs; cases hs
  have h2 := hall h1
  rcases dropWhile_cases isWs t with ⟨_, e⟩ | ⟨y, ys, e, hy⟩
  · have := mem_takeWhile_true isWs t c (by rw [e]; exact h)
    rw [hc] at this; cases this
  · have := h2 y (by rw [e]; simp)
    rw [hy] at this; cases this

theorem shown_single {c : Char} (h : isWs c = false) : Shown [c] := by
  refine ⟨trim_ne_nil (c := c) (by simp) h, ?_, .inl ?_⟩
  · intro hm
    rw [List.mem_singleton] at hm
    subst hm
    revert h; decide
  · intro hi
    have := hi.length_le
    simp at this

theorem shown_tildes {n : Nat} (h : 1 ≤ n) : Shown (times n '~') := by
  refine ⟨trim_ne_nil (c := '~') (by simp [List.mem_replicate]; omega) (by decide), ?_, .inr ?_⟩ <;> simp [List.mem_replicate]

theorem escape_single {c : Char} (h : c ∉ escSpecial) : escape [c] = [c] := by
  rw [← esc_eq, esc_other c h]

theorem digit_facts : ∀ c ∈ c!"0123456789", isWs c = false ∧ c ∉ escSpecial := by decide

theorem shows_noteRef {id : Str} (h : NoteId id) : ShowsTok (.plaintext (c!"[^" ++ id ++ c!"]")) (Inline.noteRef id).html := by
  have hb : (trim (c!"[^" ++ id ++ c!"]")).isEmpty = false := by
    have := trim_ne_nil (t := c!"[^" ++ id ++ c!"]") (c := '[') (by simp) (by decide)
    simpa using this
  refine showsTok_of rfl hb (fun r st => ?_) (fun r st => by simp [parseTok])
  simp only [step2, hb, plainOut_noteRef h]
  rfl

theorem escape_other {s : Str} (h : ∀ c ∈ s, c ∉ escSpecial) : escape s = s := by
  induction s with
  | nil => rfl
  | cons c s ih =>
    rw [← List.singleton_append, escape_append, escape_single (h c (by simp)), ih (fun x hx => h x (by simp [hx]))]

theorem escape_times {c : Char} {n : Nat} (h : c ∉ escSpecial) : escape (times n c) = times n c :=
  escape_other fun x hx => by rw [List.mem_replicate] at hx; rw [hx.2]; exact h

theorem escape_digitDot {c : Char} (h : c ∈ c!"0123456789") : escape [c, '.'] = [c, '.'] :=
  escape_other fun x hx => by
    simp only [List.mem_cons, List.not_mem_nil, or_false] at hx
    rcases hx with rfl | rfl
    · exact (digit_facts _ h).2
    · decide

theorem escape_dashes {a b : Char} (ha : a = '-' ∨ a = '+') (hb : b = '-' ∨ b = '+') : escape [a, b] = [a, b] := by
  rcases ha with rfl | rfl <;> rcases hb with rfl | rfl <;> decide

theorem shown_times {c : Char} {n : Nat} (h : 1 ≤ n) (hw : isWs c = false) (hc : c ≠ ']') : Shown (times n c) := by
  refine ⟨trim_ne_nil (c := c) (by simp [List.mem_replicate]; omega) hw, ?_, .inr ?_⟩
  · intro hm; rw [List.mem_replicate] at hm; rw [← hm.2] at hw; revert hw; decide
  · intro hm; rw [List.mem_replicate] at hm; exact hc hm.2.symm

theorem shown_digitDot {c : Char} (h : c ∈ c!"0123456789") : Shown [c, '.'] := by
  have : ∀ c ∈ c!"0123456789", '\n' ∉ [c, '.'] ∧ ']' ∉ [c, '.'] := by decide
  exact ⟨trim_ne_nil (c := '.') (by simp) (by decide), (this c h).1, .inr (this c h).2⟩

theorem shown_dashes {a b : Char} (ha : a = '-' ∨ a = '+') (hb : b = '-' ∨ b = '+') : Shown [a, b] := by
  rcases ha with rfl | rfl <;> rcases hb with rfl | rfl <;>
    exact ⟨trim_ne_nil (List.mem_cons_self ..) (by decide), by decide, .inr (by decide)⟩

/-- `[^` in a text between two characters is in the text, or starts with the first of them. -/
theorem note_infix {a b : Char} {t : Str} (hb : b ≠ '^') (h : c!"[^" <:+: a :: (t ++ [b])) :
    (a = '[' ∧ t.head? = some '^') ∨ c!"[^" <:+: t := by
  rcases List.infix_cons_iff.mp h with h | h
  · rw [List.cons_prefix_cons] at h
    refine .inl ⟨h.1.symm, ?_⟩
    cases t with
    | nil =>
      have := h.2
      rw [List.nil_append, List.cons_prefix_cons] at this
      exact absurd this.1.symm hb
    | cons c t =>
      have := h.2
      rw [List.cons_append, List.cons_prefix_cons] at this
      rw [← this.1]; rfl
  · right
    obtain ⟨u, v, e⟩ := h
    rcases List.eq_nil_or_concat v with rfl | ⟨v, x, rfl⟩
    · have e : (u ++ ['[']) ++ ['^'] = t ++ [b] := by rw [← e]; simp
      have := (List.append_inj' e rfl).2
      injection this with this _
      exact absurd this.symm hb
    · have e : (u ++ c!"[^" ++ v) ++ [x] = t ++ [b] := by rw [← e]; simp
      exact ⟨u, v, (List.append_inj' e rfl).1⟩

theorem shown_brackets {t : Str} (h1 : '\n' ∉ t) (h2 : t.head? ≠ some '^') (h3 : ¬ c!"[^" <:+: t) : Shown (c!"[" ++ t ++ c!"]") := by
  refine ⟨trim_ne_nil (c := '[') (by simp) (by decide), by simp [h1], .inl fun h => ?_⟩
  rcases note_infix (a := '[') (b := ']') (by decide) h with h | h
  · exact h2 h.2
  · exact h3 h

theorem shown_angle {t : Str} (h1 : '\n' ∉ t) (h3 : ¬ c!"[^" <:+: t) : Shown (c!"<" ++ t ++ c!">") := by
  refine ⟨trim_ne_nil (c := '<') (by simp) (by decide), by simp [h1], .inl fun h => ?_⟩
  rcases note_infix (a := '<') (b := '>') (by decide) h with h | h
  · exact absurd h.1 (by decide)
  · exact h3 h

theorem inline_sem {i : Inline} {next : Option Char} (h : i.Good next) :
    ∃ toks, LexesAs i.src (fun n => i.Good n) toks ∧ Adds toks i.html ∧ (i.Visible → Opens toks i.html) := by
  cases i with
  | word w =>
    have h : Word w := h
    exact ⟨w.map fun c => .plaintext [c], fun r ig rest ts _ ht => LexTo.word h.2 ht, fun r x c => parseToks_word_inP r c x h.2,
      fun _ r x q => parseToks_word_inQ r x q h⟩
  | space n =>
    obtain ⟨h1, h2, h3, h4⟩ := h
    refine ⟨[.plaintext (times n ' ')], fun r ig rest ts hn ht => LexTo.spaces h1 h2 hn.2.2.1 hn.2.2.2 ht, fun r x c => ?_,
      fun hv => hv.elim⟩
    rw [Inline.html, List.append_nil]
    exact parseToks_one (parseTok_blank r _ (trim_times_space n))
  | eol =>
    have h : next ≠ some '\n' := h
    refine ⟨[gapTok 1], fun r ig rest ts hn ht => LexTo.gap (n := 1) (Nat.le_refl 1) hn ht, fun r x c => ?_, fun hv => hv.elim⟩
    rw [Inline.html, List.append_nil]
    exact parseToks_one (parseTok_blank r _ (by decide))
  | digit c =>
    obtain ⟨h1, h2⟩ := h
    have hs := shows_plain (shown_single (digit_facts c h1).1)
    rw [escape_single (digit_facts c h1).2] at hs
    exact ⟨_, fun r ig rest ts hn ht => LexTo.digit h1 hn.2 ht, hs.adds, fun _ => hs.opens⟩
  | bang =>
    have h : next ≠ some '[' := h
    have hs := shows_plain (shown_single (c := '!') (by decide))
    rw [escape_single (by decide)] at hs
    exact ⟨_, fun r ig rest ts hn ht => LexTo.bang hn ht, hs.adds, fun _ => hs.opens⟩
  | em m t =>
    have hs := shows_italic t
    exact ⟨_, fun r ig rest ts hn ht => LexTo.em h.1 h.2 ht, hs.adds, fun _ => hs.opens⟩
  | strong m t =>
    obtain ⟨h1, h2, h3, h4⟩ := h
    have hs := shows_bold t
    exact ⟨_, fun r ig rest ts hn ht => LexTo.strong h1 h2 hn.2.2.1 hn.2.2.2 ht, hs.adds, fun _ => hs.opens⟩
  | strongEm m t =>
    obtain ⟨h1, h2, h3, h4⟩ := h
    have hs := shows_boldItalic t
    exact ⟨_, fun r ig rest ts hn ht => LexTo.strongEm h1 h2 hn.2.2.1 hn.2.2.2 ht, hs.adds, fun _ => hs.opens⟩
  | strike t =>
    obtain ⟨h1, h2, h3⟩ := h
    have hs := shows_strike t
    exact ⟨_, fun r ig rest ts hn ht => LexTo.strike h1 h2 hn.2.2 ht, hs.adds, fun _ => hs.opens⟩
  | tildes n =>
    obtain ⟨h1, h2, h3⟩ := h
    have hs := shows_plain (shown_tildes h1)
    exact ⟨_, fun r ig rest ts hn ht => LexTo.tildes h1 h2 hn.2.2 ht, hs.adds, fun _ => hs.opens⟩
  | escaped c =>
    obtain ⟨h1, h2, h3⟩ := h
    have hs := shows_plain (shown_single h1)
    exact ⟨_, fun r ig rest ts hn ht => LexTo.escaped h2 ht, hs.adds, fun _ => hs.opens⟩
  | link text target =>
    obtain ⟨h1, h2⟩ := h
    obtain ⟨u, hu, hd, hf, _⟩ := plainTarget_ok h2
    have hs := shows_link u text
    rw [hd] at hs
    exact ⟨_, fun r ig rest ts hn ht => LexTo.linkTo h1 (target_chars h2).1 (target_chars h2).2.1 hu ht, hs.adds, fun _ => hs.opens⟩
  | autolink target =>
    have h : PlainTarget target := h
    obtain ⟨u, hu, hd, hf, hsome, _⟩ := plainTarget_ok h
    have hs := shows_autolink u
    rw [hd, hf] at hs
    exact ⟨_, fun r ig rest ts hn ht => LexTo.autolink h hu hsome ht, hs.adds, fun _ => hs.opens⟩
  | noteRef id =>
    obtain ⟨h1, h2, h3⟩ := h
    have hs := shows_noteRef h1
    exact ⟨_, fun r ig rest ts hn ht => LexTo.noteRef (fun hm => (h1.2 _ hm).2.2 rfl) hn.2.1 hn.2.2 ht, hs.adds, fun _ => hs.opens⟩
  | arrows n =>
    have hs := shows_plain (t := times n '>') ⟨trim_ne_nil (c := '>') (by simp [List.mem_replicate]; exact Nat.ne_of_gt h.1) (by decide),
      by simp [List.mem_replicate], .inr (by simp [List.mem_replicate])⟩
    exact ⟨_, fun r ig rest ts hn ht => LexTo.arrows hn.1 hn.2.1 hn.2.2.1 hn.2.2.2 ht, hs.adds, fun _ => hs.opens⟩
  | digitDot c =>
    have hs := shows_plain (shown_digitDot h.1)
    rw [escape_digitDot h.1] at hs
    exact ⟨_, fun r ig rest ts hn ht => LexTo.digitDot hn.1 hn.2 ht, hs.adds, fun _ => hs.opens⟩
  | brackets t =>
    have hs := shows_plain (shown_brackets h.2.1 h.2.2.1 h.2.2.2.1)
    exact ⟨_, fun r ig rest ts hn ht => LexTo.brackets hn.1 hn.2.2.1 hn.2.2.2.2 ht, hs.adds, fun _ => hs.opens⟩
  | angle t =>
    have hs := shows_plain (shown_angle h.2.2.1 h.2.2.2.1)
    exact ⟨_, fun r ig rest ts hn ht => LexTo.angle hn.1 hn.2.1 hn.2.2.2.2.1 hn.2.2.2.2.2 ht, hs.adds, fun _ => hs.opens⟩
  | escapedHashes n =>
    have hs := shows_plain (shown_times (c := '#') h.1 (by decide) (by decide))
    rw [escape_times (by decide)] at hs
    exact ⟨_, fun r ig rest ts hn ht => LexTo.escapedHashes hn.1 hn.2 ht, hs.adds, fun _ => hs.opens⟩
  | dashes a b =>
    have hs := shows_plain (shown_dashes h.1 h.2.1)
    rw [escape_dashes h.1 h.2.1] at hs
    exact ⟨_, fun r ig rest ts hn ht => LexTo.dashes hn.1 hn.2.1 hn.2.2.1 hn.2.2.2 ht, hs.adds, fun _ => hs.opens⟩

theorem good_none {i : Inline} (h : i.Good (some '\n')) : i.Good none := by
  cases i <;> simp_all [Inline.Good]

theorem inlineGood_none : ∀ {is : List Inline}, InlineGood (some '\n') is → InlineGood none is
  | [], _ => trivial
  | i :: is, h => by
    refine ⟨?_, inlineGood_none h.2⟩
    have h1 := h.1
    cases hs : (inlineSrc is).head? with
    | none => rw [hs] at h1; exact good_none h1
    | some c => rw [hs] at h1; exact h1

theorem head_append_or (a b : Str) : (a ++ b).head? = a.head?.or b.head? := by
  cases a <;> simp

theorem inlines_sem : ∀ {is : List Inline} {next : Option Char}, InlineGood next is →
    ∃ toks, LexesAs (inlineSrc is) (fun n => InlineGood n is) toks ∧ Adds toks (inlineHtml is) ∧
      ((∃ i, is.head? = some i ∧ i.Visible) → Opens toks (inlineHtml is))
  | [], next, _ => ⟨[], fun r ig rest ts _ h => h, fun r x c => by simp [parseToks, inlineHtml], fun ⟨i, hi, _⟩ => by simp at hi⟩
  | i :: is, next, h => by
    obtain ⟨t1, hl, ha, ho⟩ := inline_sem h.1
    obtain ⟨t2, hl2, ha2, _⟩ := inlines_sem h.2
    refine ⟨t1 ++ t2, ?_, ?_, ?_⟩
    · intro _ r ig rest ts hn ht
      have e : inlineSrc (i :: is) ++ rest = i.src ++ (inlineSrc is ++ rest) := by simp [inlineSrc]
      rw [e, List.append_assoc]
      exact hl r ig _ _ (by rw [head_append_or]; exact hn.1) (hl2 r ig rest ts hn.2 ht)
    · intro r x c
      have e : inlineHtml (i :: is) = i.html ++ inlineHtml is := by simp [inlineHtml]
      rw [e, ← List.append_assoc]
      exact parseToks_two (ha r x c) (ha2 r _ c)
    · rintro ⟨j, hj, hv⟩ r x q
      have hj : i = j := by simpa using hj
      have e : inlineHtml (i :: is) = i.html ++ inlineHtml is := by simp [inlineHtml]
      rw [e, ← List.append_assoc]
      exact parseToks_two (ho (hj ▸ hv) r x q) (ha2 r _ false)

end Smd.Gfm
