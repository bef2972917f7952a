import Verif.Lemmas.Front
import Verif.Lemmas.Extends
import Verif.Lemmas.Forms
import Verif.Spec.Indented

/-! Blank lines at the start of a document. -/

namespace Smd.Gfm
open Smd.Rs Smd.Spec

/-- Text and a blank line before an indented line have the same effect. -/
theorem lexTabsSpacesGo_either {a b : Option Token} (h : (isPlain a || isNewline a) = (isPlain b || isNewline b)) :
    ∀ (n : Nat) (s : Str), lexTabsSpacesGo a n s = lexTabsSpacesGo b n s
  | 0, s => rfl
  | n + 1, s => by
    unfold lexTabsSpacesGo
    simp only [lexTabsSpacesGo_either h n]
    revert h
    cases isPlain a <;> cases isNewline a <;> cases isPlain b <;> cases isNewline b <;> intro h <;> simp at h ⊢
    all_goals
      congr 2
      split
      · next h => simp [h]
      · rfl

theorem nextToken_either {r : Rec} {ig : List Char} {a b : Option Token} {s : Str}
    (h : (isPlain a || isNewline a) = (isPlain b || isNewline b)) : nextToken r ig a s = nextToken r ig b s := by
  unfold nextToken lexDispatch lexTabsSpaces
  simp only [lexTabsSpacesGo_either h]

/-- The first line, as `untilTail` finds it. -/
theorem untilTail_line (s : Str) : ∃ u, '\n' ∉ u ∧
    ((s = u ∧ untilTail c!"\n" s = (u, [])) ∨ ∃ y, s = u ++ '\n' :: y ∧ untilTail c!"\n" s = (u ++ c!"\n", y)) := by
  have key : ∀ x : Str, ¬ c!"\n" <:+: x → '\n' ∉ x := fun x hx hm => hx (by
    obtain ⟨a, b, rfl⟩ := List.append_of_mem hm
    exact ⟨a, b, by simp⟩)
  rcases untilTail_cases (p := c!"\n") (by simp) s with ⟨h1, h2⟩ | ⟨x, y, h1, h2, h3⟩
  · exact ⟨s, key s h1, .inl ⟨rfl, h2⟩⟩
  · exact ⟨x, key x h2, .inr ⟨y, by simp [h1], h3⟩⟩

theorem lexTabsSpacesGo_start (a : Option Token) : ∀ (n : Nat) (c : Char) (s : Str), (c = ' ' ∨ c = '\t') → ¬ IndentedHash (c :: s) →
    lexTabsSpacesGo a n (c :: s) = lexTabsSpacesGo none n (c :: s)
  | 0, c, s, _, _ => rfl
  | n + 1, c, s, hc, hh => by
    unfold lexTabsSpacesGo
    have hsp : (c :: s) = (c :: s).takeWhile (fun c => c == '\t' || c == ' ') ++ (c :: s).dropWhile (fun c => c == '\t' || c == ' ') :=
      (List.takeWhile_append_dropWhile).symm
    have hw : ∀ x ∈ (c :: s).takeWhile (fun c => c == '\t' || c == ' '), x = '\t' ∨ x = ' ' := by
      intro x hx
      have h := List.all_takeWhile (l := c :: s) (p := fun c => c == '\t' || c == ' ')
      simpa using List.all_eq_true.mp h x hx
    have hne : (c :: s).takeWhile (fun c => c == '\t' || c == ' ') ≠ [] := by
      rcases hc with rfl | rfl <;> simp
    revert hsp hw hne
    generalize (c :: s).takeWhile (fun c => c == '\t' || c == ' ') = ws
    generalize (c :: s).dropWhile (fun c => c == '\t' || c == ' ') = s1
    intro hsp hw hne
    obtain ⟨u, hu, hl⟩ := untilTail_line s1
    have e1 : ¬ (ws = c!"    " ∧ (untilTail c!"\n" s1).1.contains '#' = true) := by
      rintro ⟨rfl, h2⟩
      refine hh ?_
      rw [hsp]
      rcases hl with ⟨rfl, h3⟩ | ⟨y, rfl, h3⟩
      · rw [h3] at h2
        have := IndentedHash.here (rest := []) hu (by simpa using h2)
        simpa using this
      · rw [h3] at h2
        have := IndentedHash.here (rest := '\n' :: y) hu (by simpa using h2)
        simpa using this
    have e2 : ∀ f, (untilTail c!"\n" s1).2.head? = some '\t' ∨ (untilTail c!"\n" s1).2.head? = some ' ' →
        f = n → lexTabsSpacesGo a f (untilTail c!"\n" s1).2 = lexTabsSpacesGo none f (untilTail c!"\n" s1).2 := by
      rintro f h rfl
      rcases hl with ⟨rfl, h3⟩ | ⟨y, rfl, h3⟩
      · rw [h3] at h; simp at h
      · rw [h3] at h ⊢
        cases y with
        | nil => simp at h
        | cons d y =>
          refine lexTabsSpacesGo_start a f d y (by simpa [or_comm] using h) fun hi => hh ?_
          rw [hsp]
          cases ws with
          | nil => exact absurd rfl hne
          | cons w ws =>
            have := IndentedHash.after (c := w) (line := ws ++ u) (hw w (by simp)).symm (by
              intro hm
              rcases List.mem_append.mp hm with hm | hm
              · rcases hw _ (List.mem_cons_of_mem _ hm) with h | h <;> simp at h
              · exact hu hm) hi
            simpa using this
    have e3 : ∀ x, ¬ (ws = c!"    " ∧ x = true ∧ (untilTail c!"\n" s1).1.contains '#' = true) :=
      fun x hx => e1 ⟨hx.1, hx.2.2⟩
    simp only [e3, if_false]
    repeat (split; · rfl)
    split
    · next h => rw [e2 n h rfl]
    · rfl

theorem nextToken_start {r : Rec} {ig : List Char} {a : Option Token} {s : Str} (h : ¬ IndentedHash s) :
    nextToken r ig a s = nextToken r ig none s := by
  cases s with
  | nil => rfl
  | cons c s =>
    by_cases hc : c = ' ' ∨ c = '\t'
    · rw [nextToken_ws hc, nextToken_ws hc]
      unfold lexTabsSpaces
      rw [lexTabsSpacesGo_start a _ c s hc h]
    · unfold nextToken lexDispatch
      simp only [hc, if_false]

/-- Tokens before the text that do not change its first token change none of the others. -/
theorem lexLoop_over {r : Rec} {ig : List Char} {pre pre' : List Token} : ∀ (n m : Nat) (acc : List Token) (s : Str),
    s.length < n → s.length < m →
    (acc = [] → nextToken r ig pre.getLast? s = nextToken r ig pre'.getLast? s) →
    (lexLoop r ig m (pre ++ acc) s >>= fun ts => .ok (ts.drop pre.length)) =
      lexLoop r ig n (pre' ++ acc) s >>= fun ts => .ok (ts.drop pre'.length)
  | 0, m, acc, s, hn, _, _ => by omega
  | n + 1, 0, acc, s, _, hm, _ => by omega
  | n + 1, m + 1, acc, s, hn, hm, hp => by
    have e : nextToken r ig (pre ++ acc).getLast? s = nextToken r ig (pre' ++ acc).getLast? s := by
      rcases List.eq_nil_or_concat acc with rfl | ⟨u, x, rfl⟩
      · simpa using hp rfl
      · simp
    unfold lexLoop
    rw [e]
    cases hx : nextToken r ig (pre' ++ acc).getLast? s with
    | ok a =>
      cases a with
      | none => simp
      | some p =>
        obtain ⟨t, s'⟩ := p
        have ⟨_, _, hlt⟩ := nextToken_shape r ig _ s s' t hx
        simp only [Outcome.ok_bind]
        rw [List.append_assoc, List.append_assoc]
        exact lexLoop_over n m (acc ++ [t]) s' (by omega) (by omega) (by simp)
    | panic => rfl
    | hang => rfl
    | fuelOut => rfl

/-- The token that blank lines make. -/
def nlTok (k : Nat) : Token := if k ≥ 2 then .newline else .plaintext (times k '\n')

theorem nextToken_nls {r : Rec} {ig : List Char} {last : Option Token} (k : Nat) {d : Str} (h : d.head? ≠ some '\n') :
    nextToken r ig last (times (k + 1) '\n' ++ d) = .ok (some (nlTok (k + 1), d)) := by
  have hs := run_split (s := times (k + 1) '\n') (rest := d) (fun c => c == '\n') (fun c hc => by simp [(List.mem_replicate.mp hc).2])
    (fun c hc => by
      have : c ≠ '\n' := fun e => h (e ▸ hc)
      simp [this])
  have e : times (k + 1) '\n' ++ d = '\n' :: (times k '\n' ++ d) := rfl
  have e2 : lexNewlines (times (k + 1) '\n' ++ d) = (if k + 1 ≥ 2 then .ok .newline else .error (times (k + 1) '\n'), d) := by
    unfold lexNewlines
    simp only [hs, List.length_replicate]
    split <;> rfl
  rw [e] at e2 ⊢
  unfold nextToken lexDispatch
  simp only
  rw [if_neg (by simp), if_pos trivial, e2]
  unfold nlTok
  split <;> rfl

theorem parse_nlTok (r : Rec) (k : Nat) : parseTok r (nlTok k) {} = .ok {} := by
  unfold nlTok
  split
  · rw [parseTok]
    · rfl
    · simp
    · simp
  · refine parseTok_blank r _ ?_
    match k with
    | 0 => rfl
    | 1 => decide
    | k + 2 => omega

/-- Blank lines in front do the same as a token that does nothing. -/
theorem render_nls (k : Nat) {d : Str} (h : d.head? ≠ some '\n') :
    render (times (k + 1) '\n' ++ d) =
      (lexLoop self [] (d.length + 1) [nlTok (k + 1)] d >>= fun ts => .ok (ts.drop 1)) >>= fun ts => parseDoc self ts := by
  rw [render_unfold]
  have e : lexWith self [] (times (k + 1) '\n' ++ d) = lexLoop self [] (k + 1 + d.length) [nlTok (k + 1)] d := by
    unfold lexWith
    conv => lhs; unfold lexLoop
    rw [show ([] : List Token).getLast? = none from rfl, nextToken_nls k h]
    simp
  have e2 := lexLoop_over (r := self) (ig := []) (pre := [nlTok (k + 1)]) (pre' := [nlTok (k + 1)]) (d.length + 1)
    (k + 1 + d.length) [] d (by omega) (by omega) (fun _ => rfl)
  simp only [List.append_nil, List.length_singleton] at e2
  rw [← e2, e]
  cases hx : lexLoop self [] (k + 1 + d.length) [nlTok (k + 1)] d with
  | ok ts =>
    obtain ⟨ts', rfl, _⟩ := lexLoop_ok _ _ _ _ _ _ hx
    simp only [Outcome.ok_bind, parseDoc, List.singleton_append, parseToks, parse_nlTok, List.drop_one, List.tail_cons]
    rfl
  | panic => rfl
  | hang => rfl
  | fuelOut => rfl

theorem isPN_nlTok (k : Nat) : (isPlain (some (nlTok k)) || isNewline (some (nlTok k))) = true := by
  unfold nlTok
  split <;> rfl

/-- How many newlines there are at the start does not matter, as long as there are some. -/
theorem render_nls_eq (k l : Nat) {d : Str} (h : d.head? ≠ some '\n') :
    render (times (k + 1) '\n' ++ d) = render (times (l + 1) '\n' ++ d) := by
  rw [render_nls k h, render_nls l h]
  have e2 := lexLoop_over (r := self) (ig := []) (pre := [nlTok (k + 1)]) (pre' := [nlTok (l + 1)]) (d.length + 1)
    (d.length + 1) [] d (by omega) (by omega) (fun _ => nextToken_either (by simp [isPN_nlTok]))
  simp only [List.append_nil, List.length_singleton] at e2
  rw [e2]

theorem render_nls_none (k : Nat) {d : Str} (h : d.head? ≠ some '\n') (hi : ¬ IndentedHash d) :
    render (times (k + 1) '\n' ++ d) = render d := by
  rw [render_nls k h, render_unfold]
  have e2 := lexLoop_over (r := self) (ig := []) (pre := [nlTok (k + 1)]) (pre' := []) (d.length + 1)
    (d.length + 1) [] d (by omega) (by omega) (fun _ => nextToken_start hi)
  simp only [List.append_nil, List.length_singleton, List.length_nil, List.drop_zero] at e2
  rw [e2]
  unfold lexWith
  cases lexLoop self [] (d.length + 1) [] d <;> rfl

theorem split_nls : ∀ d : Str, ∃ j d', d = times j '\n' ++ d' ∧ d'.head? ≠ some '\n'
  | [] => ⟨0, [], rfl, by simp⟩
  | c :: d => by
    by_cases h : c = '\n'
    · obtain ⟨j, d', rfl, h2⟩ := split_nls d
      exact ⟨j + 1, d', by rw [h]; rfl, h2⟩
    · exact ⟨0, c :: d, rfl, by simpa using h⟩

/-! ### The exception -/

theorem lexTabsSpaces_hash (last : Option Token) {t : Str} (h1 : t.head? ≠ some ' ') (h2 : t.head? ≠ some '\t')
    (h3 : t.head? ≠ some '\n') (hh : '#' ∈ (untilTail c!"\n" t).1) :
    lexTabsSpaces last (c!"    " ++ t) =
      (if (isPlain last || isNewline last) = true then .error (untilTail c!"\n" t).1 else .ok (.code (untilTail c!"\n" t).1),
        (untilTail c!"\n" t).2) := by
  obtain ⟨f, hf⟩ := lexTabsSpaces_succ last (s := c!"    " ++ t) (by simp)
  have hp : IsIndent c!"    " := .inr (.inl rfl)
  rw [hf]
  unfold lexTabsSpacesGo
  simp only [ws_split hp.ws.1 h1 h2]
  rw [if_neg (by simp), if_neg (by simp [h3])]
  have hc : (untilTail c!"\n" t).1.contains '#' = true := by simpa using hh
  simp only [hc]
  cases isPlain last <;> cases isNewline last <;> simp

theorem lex_first {r : Rec} {ig : List Char} {last : Option Token} {s s' : Str} {t : Token} {ts : List Token}
    (h : nextToken r ig last s = .ok (some (t, s'))) (hl : Lexes r ig last s ts) : ∃ ts', ts = t :: ts' := by
  cases hl with
  | nil => cases h
  | cons _ _ s2 t2 ts2 h2 _ =>
    rw [h] at h2
    injection h2 with h2
    injection h2 with h2
    injection h2 with h2 h3
    exact ⟨ts2, by rw [h2]⟩

/-- The rendering begins with what the first token writes. -/
theorem parseDoc_first {r : Rec} {t : Token} {ts : List Token} {st : PState} {html : Str} (h1 : parseTok r t {} = .ok st)
    (h2 : parseDoc r (t :: ts) = .ok html) : st.html <+: html :=
  parseDoc_prefix (a := [t]) (b := ts) (parseToks_one h1) h2

theorem render_hash {t html : Str} (h1 : t.head? ≠ some ' ') (h2 : t.head? ≠ some '\t')
    (h3 : t.head? ≠ some '\n') (hh : '#' ∈ (untilTail c!"\n" t).1) (h : render (c!"    " ++ t) = .ok html) :
    c!"<pre><code>" <+: html := by
  rw [render_unfold] at h
  obtain ⟨ts, h4, h5⟩ := Outcome.bind_ok' h
  have e : nextToken self [] none (c!"    " ++ t) = .ok (some (.code (untilTail c!"\n" t).1, (untilTail c!"\n" t).2)) := by
    have e := lexTabsSpaces_hash none h1 h2 h3 hh
    rw [List.cons_append] at e ⊢
    rw [nextToken_ws (.inl rfl), e]
    rfl
  obtain ⟨ts', rfl⟩ := lex_first e ((lexWith_ok_iff _ _ _ _).mp h4)
  have := parseDoc_first (parseTok_code_clean self (untilTail c!"\n" t).1 []) h5
  exact List.IsPrefix.trans ⟨_, rfl⟩ this

theorem render_nl_hash {t html : Str} (h1 : t.head? ≠ some ' ') (h2 : t.head? ≠ some '\t')
    (h3 : t.head? ≠ some '\n') (hh : '#' ∈ (untilTail c!"\n" t).1) (h : render ('\n' :: (c!"    " ++ t)) = .ok html) :
    c!"<p>" <+: html := by
  rw [show '\n' :: (c!"    " ++ t) = times (0 + 1) '\n' ++ (c!"    " ++ t) from rfl, render_nls 0 (by simp)] at h
  obtain ⟨ts, h4, h5⟩ := Outcome.bind_ok' h
  obtain ⟨ts2, h6, h7⟩ := Outcome.bind_ok' h4
  have e : nextToken self [] [nlTok 1].getLast? (c!"    " ++ t) = .ok (some (.plaintext (untilTail c!"\n" t).1, (untilTail c!"\n" t).2)) := by
    have e := lexTabsSpaces_hash [nlTok 1].getLast? h1 h2 h3 hh
    rw [List.cons_append] at e ⊢
    rw [nextToken_ws (.inl rfl), e]
    rfl
  obtain ⟨ts3, rfl, h8⟩ := lexLoop_ok _ _ _ _ _ _ h6
  obtain ⟨ts', rfl⟩ := lex_first e h8
  cases h7
  have hb : trim (untilTail c!"\n" t).1 ≠ [] := trim_ne_nil hh (by decide)
  have e2 : parseTok self (.plaintext (untilTail c!"\n" t).1) {} =
      .ok { html := c!"<p>" ++ plainOut (untilTail c!"\n" t).1, inPara := true } := by
    simp [parseTok, step1, step2, isBlankPlain, hb, isTab, staysInList, staysInTask, opensPara, rep, PState.push]
  exact List.IsPrefix.trans ⟨_, rfl⟩ (parseDoc_first e2 h5)

end Smd.Gfm
