import Verif.Lemmas.Shape
import Verif.Lemmas.Details

/-!
The loop of `Parser::lex` as a relation, and where a failure of it can come from.
-/

namespace Smd

/-- The ways a run can fail to return a value. -/
inductive Fail where
  | panic
  | hang
  | fuelOut
  deriving DecidableEq, Repr

namespace Outcome

def fail {α : Type} : Outcome α → Option Fail
  | ok _ => none
  | panic => some .panic
  | hang => some .hang
  | fuelOut => some .fuelOut

@[simp] theorem fail_ok {α : Type} (a : α) : (ok a).fail = none := rfl
@[simp] theorem fail_panic {α : Type} : (panic : Outcome α).fail = some .panic := rfl
@[simp] theorem fail_hang {α : Type} : (hang : Outcome α).fail = some .hang := rfl
@[simp] theorem fail_fuelOut {α : Type} : (fuelOut : Outcome α).fail = some .fuelOut := rfl

theorem fail_bind {α β : Type} {x : Outcome α} {f : α → Outcome β} {e : Fail} (h : (x.bind f).fail = some e) :
    x.fail = some e ∨ ∃ a, x = ok a ∧ (f a).fail = some e := by
  cases x with
  | ok a => exact .inr ⟨a, rfl, h⟩
  | panic => exact .inl h
  | hang => exact .inl h
  | fuelOut => exact .inl h

theorem fail_bind' {α β : Type} {x : Outcome α} {f : α → Outcome β} {e : Fail} (h : (x >>= f).fail = some e) :
    x.fail = some e ∨ ∃ a, x = ok a ∧ (f a).fail = some e := fail_bind h

theorem bind_ok {α β : Type} {x : Outcome α} {f : α → Outcome β} {b : β} (h : x.bind f = ok b) :
    ∃ a, x = ok a ∧ f a = ok b := by
  cases x with
  | ok a => exact ⟨a, rfl, h⟩
  | panic => cases h
  | hang => cases h
  | fuelOut => cases h

theorem bind_ok' {α β : Type} {x : Outcome α} {f : α → Outcome β} {b : β} (h : (x >>= f) = ok b) :
    ∃ a, x = ok a ∧ f a = ok b := bind_ok h

theorem eq_panic_of_fail {α : Type} {x : Outcome α} (h : x.fail = some .panic) : x = .panic := by
  cases x <;> simp [fail] at h ⊢

theorem eq_hang_of_fail {α : Type} {x : Outcome α} (h : x.fail = some .hang) : x = .hang := by
  cases x <;> simp [fail] at h ⊢

theorem ok_of_no_fail {α : Type} {x : Outcome α} (h : x.fail = none) : ∃ a, x = ok a := by
  cases x with
  | ok a => exact ⟨a, rfl⟩
  | panic => cases h
  | hang => cases h
  | fuelOut => cases h

end Outcome

namespace Gfm
open Smd.Rs Smd.Spec

/-- `Lexes r ig last s ts`: starting with `tokens.last() = last` on the text `s`, the loop of `Parser::lex` produces
the tokens `ts` and reaches the end of the text. -/
inductive Lexes (r : Rec) (ig : List Char) : Option Token → Str → List Token → Prop
  | nil (last : Option Token) : Lexes r ig last [] []
  | cons (last : Option Token) (s s' : Str) (t : Token) (ts : List Token)
      (h : nextToken r ig last s = .ok (some (t, s'))) (hs : Lexes r ig (some t) s' ts) : Lexes r ig last s (t :: ts)

theorem nextToken_none {r : Rec} {ig : List Char} {last : Option Token} {s : Str}
    (h : nextToken r ig last s = .ok none) : s = [] := by
  cases s with
  | nil => rfl
  | cons c cs =>
    unfold nextToken at h
    obtain ⟨a, _, h2⟩ := Outcome.bind_ok' h
    cases h2

theorem lexLoop_ok (r : Rec) (ig : List Char) : ∀ (fuel : Nat) (acc : List Token) (s : Str) (out : List Token),
    lexLoop r ig fuel acc s = .ok out → ∃ ts, out = acc ++ ts ∧ Lexes r ig acc.getLast? s ts
  | 0, acc, s, out, h => by cases h
  | fuel + 1, acc, s, out, h => by
    unfold lexLoop at h
    obtain ⟨a, h1, h2⟩ := Outcome.bind_ok' h
    cases a with
    | none =>
      injection h2 with h2
      have := nextToken_none h1
      subst this
      exact ⟨[], by simp [h2], .nil _⟩
    | some p =>
      obtain ⟨t, s'⟩ := p
      obtain ⟨ts, e, hl⟩ := lexLoop_ok r ig fuel (acc ++ [t]) s' out h2
      refine ⟨t :: ts, by simp [e], .cons _ s s' t ts h1 ?_⟩
      simpa using hl

theorem lexLoop_of_lexes (r : Rec) (ig : List Char) (last : Option Token) (s : Str) (ts : List Token)
    (h : Lexes r ig last s ts) : ∀ (fuel : Nat) (acc : List Token), acc.getLast? = last → s.length < fuel →
    lexLoop r ig fuel acc s = .ok (acc ++ ts) := by
  induction h with
  | nil last =>
    intro fuel acc ha hf
    cases fuel with
    | zero => simp at hf
    | succ n => simp [lexLoop, nextToken]
  | cons last s s' t ts h hs ih =>
    intro fuel acc ha hf
    cases fuel with
    | zero => simp at hf
    | succ n =>
      have ⟨_, _, hlt⟩ := nextToken_shape r ig last s s' t h
      unfold lexLoop
      rw [ha, h]
      simp only [Outcome.ok_bind]
      rw [ih n (acc ++ [t]) (by simp) (by omega)]
      simp

/-- `Parser::lex` returns the tokens of the loop relation. -/
theorem lexWith_ok_iff (r : Rec) (ig : List Char) (s : Str) (ts : List Token) :
    lexWith r ig s = .ok ts ↔ Lexes r ig none s ts := by
  constructor
  · intro h
    obtain ⟨ts', e, hl⟩ := lexLoop_ok r ig _ _ _ _ h
    simp at e
    subst e
    exact hl
  · intro h
    have := lexLoop_of_lexes r ig none s ts h (s.length + 1) [] rfl (by omega)
    simpa [lexWith] using this

theorem lexLoop_fail (r : Rec) (ig : List Char) (e : Fail) : ∀ (fuel : Nat) (acc : List Token) (s : Str),
    s.length < fuel → (lexLoop r ig fuel acc s).fail = some e →
    ∃ last s', s' <:+ s ∧ (nextToken r ig last s').fail = some e
  | 0, acc, s, hf, h => by simp at hf
  | fuel + 1, acc, s, hf, h => by
    unfold lexLoop at h
    rcases Outcome.fail_bind' h with h | ⟨a, h1, h2⟩
    · exact ⟨_, s, List.suffix_refl _, h⟩
    · cases a with
      | none => cases h2
      | some p =>
        obtain ⟨t, s'⟩ := p
        have ⟨_, hsuf, hlt⟩ := nextToken_shape r ig _ s s' t h1
        obtain ⟨last, s'', h3, h4⟩ := lexLoop_fail r ig e fuel (acc ++ [t]) s' (by omega) h2
        exact ⟨last, s'', h3.trans hsuf, h4⟩

/-- A failure of `Parser::lex` is a failure of one call of `next_token`. -/
theorem lexWith_fail {r : Rec} {ig : List Char} {s : Str} {e : Fail} (h : (lexWith r ig s).fail = some e) :
    ∃ last s', s' <:+ s ∧ (nextToken r ig last s').fail = some e :=
  lexLoop_fail r ig e (s.length + 1) [] s (by omega) h

/-- Every token of a document has a shape on some suffix of the document. -/
theorem Lexes.shape {r : Rec} {ig : List Char} {last : Option Token} {s : Str} {ts : List Token}
    (h : Lexes r ig last s ts) : ∀ t ∈ ts, ∃ s', s' <:+ s ∧ Shape r s' t := by
  induction h with
  | nil last => simp
  | cons last s s' t ts h hs ih =>
    have ⟨h1, h2, _⟩ := nextToken_shape r ig last s s' t h
    intro u hu
    rcases List.mem_cons.mp hu with rfl | hu
    · exact ⟨s, List.suffix_refl _, h1⟩
    · obtain ⟨s'', h3, h4⟩ := ih u hu
      exact ⟨s'', h3.trans h2, h4⟩

/-- The same for `Parser::lex`. -/
theorem lexWith_shape {r : Rec} {ig : List Char} {s : Str} {ts : List Token} (h : lexWith r ig s = .ok ts) :
    ∀ t ∈ ts, ∃ s', s' <:+ s ∧ Shape r s' t := ((lexWith_ok_iff r ig s ts).mp h).shape

/-- The text after "{#" handling can only fail by a panic, on a line with `{#` and `}`. -/
theorem headingLabel_fail {line : Str} {e : Fail} (h : (headingLabel line).fail = some e) :
    e = .panic ∧ contains line c!"{#" = true ∧ '}' ∈ line := by
  unfold headingLabel at h
  split at h
  · next hc =>
    have hc' : contains line c!"{#" = true ∧ '}' ∈ line := by simpa using hc
    refine ⟨?_, hc'⟩
    repeat' split at h
    all_goals simp at h
    all_goals exact h.symm
  · cases h

theorem detailsLoop_fail (start : Str) (e : Fail) : ∀ (fuel : Nat) (s : Str),
    (detailsLoop start fuel s).fail = some e → e = .hang
  | 0, s, h => by
    unfold detailsLoop at h
    simp only at h
    split at h
    · cases h
    · injection h with h; exact h.symm
  | fuel + 1, s, h => by
    unfold detailsLoop at h
    simp only at h
    split at h
    · cases h
    · split at h
      · injection h with h; exact h.symm
      · exact detailsLoop_fail start e fuel _ h

/-- The rows of a table fail only if a cell does. -/
theorem rowTokens_fail (r : Rec) (e : Fail) : ∀ (l : List Str), (rowTokens r l).fail = some e →
    ∃ x ∈ l, (r.lex x).fail = some e
  | [], h => by cases h
  | x :: xs, h => by
    unfold rowTokens at h
    rcases Outcome.fail_bind' h with h | ⟨a, _, h⟩
    · exact ⟨x, by simp, h⟩
    · rcases Outcome.fail_bind' h with h | ⟨b, _, h⟩
      · obtain ⟨y, hy, h⟩ := rowTokens_fail r e xs h
        exact ⟨y, by simp [hy], h⟩
      · cases h

theorem tableRows_fail (r : Rec) (aligns : List Alignment) (e : Fail) : ∀ (l : List Str),
    (tableRows r aligns l).fail = some e → ∃ x ∈ l, ∃ y ∈ (cells x).map trim, (r.lex y).fail = some e
  | [], h => by cases h
  | x :: xs, h => by
    unfold tableRows at h
    rcases Outcome.fail_bind' h with h | ⟨a, _, h⟩
    · obtain ⟨y, hy, h⟩ := rowTokens_fail r e _ h
      exact ⟨x, by simp, y, hy, h⟩
    · rcases Outcome.fail_bind' h with h | ⟨b, _, h⟩
      · obtain ⟨y, hy, h⟩ := tableRows_fail r aligns e xs h
        exact ⟨y, by simp [hy], h⟩
      · cases h

/-- The ways one call of `next_token` on `s` can fail: a recursive call on a smaller piece fails, a heading label
panics, or the loop of `parse_details` does not exit. -/
inductive FailAt (r : Rec) (s : Str) : Fail → Prop
  | lex (t : Str) (e : Fail) (hc : Child s t) (hk : OneLine t ∨ Flat t) (h : (r.lex t).fail = some e) : FailAt r s e
  | render (t : Str) (e : Fail) (hc : Child s t) (hk : OneLine t) (h : (r.render ['#'] t).fail = some e) : FailAt r s e
  | label (sep : Char) (line : Str) (hsep : sep = ' ' ∨ sep = '\t') (h : '#' :: sep :: line <:+: s) (hn : '\n' ∉ line)
      (hp : headingLabel line = .panic) : FailAt r s .panic
  | details (p s1 : Str) (h : s = p ++ s1) (h1 : DetailsStart p)
      (h2 : contains (untilTail c!"</details>" s1).1 c!"<details>" = true)
      (h3 : detailsLoop s1 (untilTail c!"</details>" s1).2.length (untilTail c!"</details>" s1).2 = .hang) : FailAt r s .hang

theorem headingSep_line {s t : Str} (h : headingSep s = some t) (hn : ¬ ∃ x, t = '\n' :: x) :
    ∃ sep, (sep = ' ' ∨ sep = '\t') ∧ s = sep :: t := by
  unfold headingSep at h
  split at h
  · injection h with h; subst h; exact ⟨' ', .inl rfl, rfl⟩
  · injection h with h; subst h; exact ⟨'\t', .inr rfl, rfl⟩
  · injection h with h; subst h; exact absurd ⟨_, rfl⟩ hn
  · cases h

/-- The last `#` of a run and what follows it. -/
theorem hash_dropWhile : ∀ (cs : Str), '#' :: ('#' :: cs).dropWhile (· == '#') <:+: '#' :: cs
  | [] => by simp
  | c :: cs => by
    rw [List.dropWhile_cons, if_pos (by decide)]
    by_cases hc : c = '#'
    · subst hc
      exact (hash_dropWhile cs).trans (List.suffix_cons _ _).isInfix
    · rw [List.dropWhile_cons, if_neg (by simpa using hc)]
      exact List.infix_refl _

theorem lexHeading_fail {r : Rec} {cs : Str} {e : Fail} (h : (lexHeading r ('#' :: cs)).fail = some e) :
    FailAt r ('#' :: cs) e := by
  have hs1 : ('#' :: cs).dropWhile (· == '#') <:+ cs := dropWhile_tail (by decide)
  have hcs : cs <:+: '#' :: cs := (List.suffix_cons _ _).isInfix
  unfold lexHeading at h
  simp only at h
  split at h
  · cases h
  · split at h
    · cases h
    · next s2 hsep =>
      have hs2 : s2 <:+ cs := (headingSep_suffix hsep).trans hs1
      have hline : s2.takeWhile (· != '\n') <:+: cs := (takeWhile_infix _ _).trans hs2.isInfix
      rcases Outcome.fail_bind' h with h | ⟨line, hl, h⟩
      · obtain ⟨rfl, h1, h2⟩ := headingLabel_fail h
        obtain ⟨sep, hsep', hsplit⟩ := headingSep_line hsep (by
          rintro ⟨x, rfl⟩
          simp at h2)
        refine .label sep (s2.takeWhile (· != '\n')) hsep' ?_ (fun hm => ?_) (Outcome.eq_panic_of_fail h)
        · have hpre : '#' :: sep :: s2.takeWhile (· != '\n') <:+: '#' :: ('#' :: cs).dropWhile (· == '#') := by
            rw [hsplit]
            refine (List.IsPrefix.isInfix ?_)
            refine (List.prefix_cons_inj _).mpr ((List.prefix_cons_inj _).mpr (List.takeWhile_prefix _))
          refine hpre.trans ?_
          exact hash_dropWhile cs
        · have := mem_takeWhile_true _ _ _ hm
          simp at this
      · split at h
        · cases h
        · rcases Outcome.fail_bind' h with h | ⟨html, _, h⟩
          · have hin := (trimEndP_prefix (fun c => c == ' ' || c == '\t') (headingTrim line)).isInfix.trans
              ((headingTrim_prefix _).isInfix.trans (headingLabel_ok hl))
            exact .render _ e (.of_tail (hin.trans hline)) ((OneLine.takeWhile _).infix hin) h
          · cases h

theorem lexPlusMinus_fail {r : Rec} {c : Char} {cs : Str} (hc : c = '-' ∨ c = '+') {e : Fail}
    (h : (lexPlusMinus r (c :: cs)).fail = some e) : FailAt r (c :: cs) e := by
  have hpc : (fun c : Char => c == '-' || c == '+') c = true := by
    rcases hc with rfl | rfl <;> decide
  have hs1 : (c :: cs).dropWhile (fun c => c == '-' || c == '+') <:+ cs := dropWhile_tail hpc
  unfold lexPlusMinus at h
  generalize hd : (c :: cs).dropWhile (fun c => c == '-' || c == '+') = s1 at *
  generalize (c :: cs).takeWhile (fun c => c == '-' || c == '+') = run at *
  simp only at h
  split at h
  · cases h
  · split at h
    · cases h
    · split at h
      · have hs2 : s1.dropWhile (· != '\n') <:+ cs := (dropWhile_suffix _ _).trans hs1
        have ⟨hc1, _⟩ := contLines_spec (s1.dropWhile (· != '\n')).length (s1.dropWhile (· != '\n'))
        generalize hmore : contLines (s1.dropWhile (· != '\n')).length (s1.dropWhile (· != '\n')) = cl at *
        have hs4 : skipIf '\n' cl.2 <:+ cs := (skipIf_suffix _ _).trans (hc1.trans hs2)
        split at h
        · cases h
        · split at h
          · cases h
          · split at h
            · next l s5 hla =>
              have e := lineAhead_parts hla
              have hl : l <:+: cs := by
                have : l <+: skipIf '\n' cl.2 := ⟨s5, e.symm⟩
                exact this.isInfix.trans hs4.isInfix
              split at h
              · rcases Outcome.fail_bind' h with h | ⟨ts, _, h⟩
                · exact .lex _ _ (.of_tail hl) (.inl (lineAhead_oneLine hla)) h
                · cases h
              · split at h
                · rcases Outcome.fail_bind' h with h | ⟨ts, _, h⟩
                  · exact .lex _ _ (.of_tail ((List.drop_suffix 1 l).isInfix.trans hl))
                      (.inl ((lineAhead_oneLine hla).infix (List.drop_suffix 1 l).isInfix)) h
                  · cases h
                · cases h
            · cases h
      · cases h

theorem skipIf_split (c : Char) (s : Str) : ∃ x, (x = [] ∨ x = [c]) ∧ s = x ++ skipIf c s := by
  cases s with
  | nil => exact ⟨[], .inl rfl, rfl⟩
  | cons d s =>
    by_cases h : d = c
    · subst h
      exact ⟨[d], .inr rfl, by simp [skipIf]⟩
    · exact ⟨[], .inl rfl, by simp [skipIf, h]⟩

/-- A summary line that passes the guard of `parse_details`. -/
theorem summary_split {s : Str} (h1 : startsWith s c!"<summary>" = true) (h2 : endsWith s c!"</summary>" = true) :
    ∃ x, s = c!"<summary>" ++ x ++ c!"</summary>" := by
  obtain ⟨y, rfl⟩ := List.isPrefixOf_iff_prefix.mp h1
  obtain ⟨x, hx⟩ := List.isSuffixOf_iff_suffix.mp h2
  have htag : IsTag c!"<summary>" := by decide
  have hx' : x ++ '<' :: c!"/summary>" = [] ++ c!"<summary>" ++ y := by simpa using hx
  rcases split_lt htag hx' with ⟨z, h3, h4⟩ | ⟨z, h3, h4⟩
  · exact ⟨z, by rw [h4]; simp⟩
  · exact absurd (show c!"<summary>" <:+: c!"</summary>" from ⟨z, y, h4.symm⟩) (by decide)

theorem parseDetails_fail {r : Rec} {s0 nl s : Str} (h0 : s0 = c!"<details>" ++ nl ++ s)
    (hnl : nl = c!"\n" ∨ nl = c!"\r\n") {e : Fail}
    (h : (parseDetails r s).fail = some e) : FailAt r s0 e := by
  have hch : ∀ x, x <:+: s → Child s0 x := by
    intro x hx
    subst h0
    exact ⟨hx.trans (List.suffix_append _ _).isInfix, by have := hx.length_le; simp; omega⟩
  unfold parseDetails at h
  obtain ⟨cr, hcr, hs1⟩ := skipIf_split '\r' (s.dropWhile (fun c => c != '\n' && c != '\r'))
  have hsplit := split_while (fun c : Char => c != '\n' && c != '\r') s
  rw [hs1] at hsplit
  have hmem : ∀ c ∈ s.takeWhile (fun c => c != '\n' && c != '\r'), c ≠ '\n' ∧ c ≠ '\r' := by
    intro c hc
    have := mem_takeWhile_true _ _ _ hc
    simpa using this
  generalize hsum : s.takeWhile (fun c => c != '\n' && c != '\r') = summary at *
  generalize skipIf '\r' (s.dropWhile (fun c => c != '\n' && c != '\r')) = s1 at *
  simp only at h
  split at h
  · cases h
  · next hguard =>
    have hguard : startsWith summary c!"<summary>" = true ∧ endsWith summary c!"</summary>" = true := by
      simpa using hguard
    split at h
    · next hsp =>
      unfold stripPrefix at hsp
      have := hguard.1
      unfold startsWith at this
      rw [if_pos this] at hsp
      cases hsp
    · next sum1 hsp =>
      have hp2 := untilTail_prefix c!"</details>" s1
      have hs1' : s1 <:+ s := ⟨summary ++ cr, by rw [← hsplit]; simp⟩
      rcases Outcome.fail_bind' h with h | ⟨rr, hres, h⟩
      · split at h
        · next hcont =>
          have := detailsLoop_fail _ _ _ _ h
          subst this
          obtain ⟨x, hx⟩ := summary_split hguard.1 hguard.2
          refine .details (c!"<details>" ++ nl ++ summary ++ cr) s1 ?_ ⟨nl, x, cr, hnl, hcr, ?_, ?_, ?_⟩ hcont
            (Outcome.eq_hang_of_fail h)
          · rw [h0, ← hsplit]; simp
          · exact fun hm => (hmem _ (by rw [hx]; simp [hm])).1 rfl
          · exact fun hm => (hmem _ (by rw [hx]; simp [hm])).2 rfl
          · rw [hx]; simp
        · cases h
      · have hrr : rr.1 <+: s1 := by
          split at hres
          · exact (detailsLoop_ok _ _ _ _ hres).2
          · injection hres with hres
            subst hres
            exact hp2
        rcases Outcome.fail_bind' h with h | ⟨inner, _, h⟩
        · exact .lex _ _ (hch _ ((stripSuffix_getD_infix _ _).trans (hrr.isInfix.trans hs1'.isInfix)))
            (.inr (details_content_flat s1 rr hres)) h
        · cases h

theorem lexSideCarrot_fail {r : Rec} {cs : Str} {e : Fail} (h : (lexSideCarrot r ('<' :: cs)).fail = some e) :
    FailAt r ('<' :: cs) e := by
  unfold lexSideCarrot at h
  rw [if_neg (by simp)] at h
  simp only [List.drop_succ_cons, List.drop_zero] at h
  have hsplit := split_while (· != '>') cs
  generalize cs.takeWhile (· != '>') = t at *
  generalize cs.dropWhile (· != '>') = s2 at *
  split at h
  · next hgt =>
    split at h
    · next ht =>
      split at h
      · next hnl =>
        cases s2 with
        | nil => simp at hgt
        | cons d ds =>
          simp at hgt
          subst hgt
          subst ht
          obtain ⟨cr, hcr, hs3⟩ := skipIf_split '\r' ds
          simp only [List.drop_succ_cons, List.drop_zero] at h hnl
          cases hs4 : skipIf '\r' ds with
          | nil => rw [hs4] at hnl; simp at hnl
          | cons f fs =>
            rw [hs4] at hnl hs3 h
            simp at hnl
            subst hnl
            refine parseDetails_fail (nl := cr ++ c!"\n") (s := fs) (by rw [← hsplit, hs3]; simp) ?_ h
            rcases hcr with rfl | rfl
            · exact .inl rfl
            · exact .inr rfl
      · cases h
    · split at h
      · split at h
        · cases h
        · split at h
          · split at h <;> cases h
          · cases h
      · cases h
  · cases h

theorem lexPipes_fail {r : Rec} {cs : Str} {e : Fail} (h : (lexPipes r ('|' :: cs)).fail = some e) :
    FailAt r ('|' :: cs) e := by
  have ⟨_, hlines⟩ := pipeLines_spec ('|' :: cs).length ('|' :: cs)
  have hone := pipeLines_oneLine ('|' :: cs).length ('|' :: cs)
  unfold lexPipes at h
  generalize pipeLines ('|' :: cs).length ('|' :: cs) = pl at *
  obtain ⟨lines, s1⟩ := pl
  simp only at h hlines hone
  split at h
  · cases h
  · next hlen =>
    split at h
    · next l0 l1 body _ =>
      split at h
      · cases h
      · rcases Outcome.fail_bind' h with h | ⟨_, _, h⟩
        · obtain ⟨x, hx, y, hy, h⟩ := tableRows_fail _ _ _ _ h
          obtain ⟨z, hz, rfl⟩ := List.mem_map.mp hy
          have hin := (trim_infix z).trans (cells_infix x z hz)
          have hx' := hlines x (by simp [hx])
          exact .lex _ _ (Child.infix hx' hin) (.inl ((hone x (by simp [hx])).infix hin)) h
        · cases h
    · next _ hno =>
      exfalso
      match lines, hno, hlen with
      | [], _, hlen => simp at hlen
      | [_], _, hlen => simp at hlen
      | a :: b :: c, hno, _ => exact hno a b c rfl

theorem lexDispatch_fail {r : Rec} {ignore : List Char} {last : Option Token} {c : Char} {cs : Str} {e : Fail}
    (h : (lexDispatch r ignore last c (c :: cs)).fail = some e) : FailAt r (c :: cs) e := by
  unfold lexDispatch at h
  by_cases hc : c = '#' ∧ ignore.contains '#' = false
  · rw [if_pos hc] at h
    obtain ⟨rfl, _⟩ := hc
    exact lexHeading_fail h
  rw [if_neg hc] at h
  clear hc
  by_cases hc : c = '\n'
  · rw [if_pos hc] at h; cases h
  rw [if_neg hc] at h
  clear hc
  by_cases hc : c = ' ' ∨ c = '\t'
  · rw [if_pos hc] at h; cases h
  rw [if_neg hc] at h
  clear hc
  by_cases hc : c ∈ c!"1234567890"
  · rw [if_pos hc] at h; cases h
  rw [if_neg hc] at h
  clear hc
  by_cases hc : c = '*' ∨ c = '_'
  · rw [if_pos hc] at h; cases h
  rw [if_neg hc] at h
  clear hc
  by_cases hc : c = '-' ∨ c = '+'
  · rw [if_pos hc] at h; exact lexPlusMinus_fail hc h
  rw [if_neg hc] at h
  clear hc
  by_cases hc : c = '>'
  · rw [if_pos hc] at h; cases h
  rw [if_neg hc] at h
  clear hc
  by_cases hc : c = '~'
  · rw [if_pos hc] at h; cases h
  rw [if_neg hc] at h
  clear hc
  by_cases hc : c = '`'
  · rw [if_pos hc] at h; cases h
  rw [if_neg hc] at h
  clear hc
  by_cases hc : c = '['
  · rw [if_pos hc] at h; cases h
  rw [if_neg hc] at h
  clear hc
  by_cases hc : c = '!'
  · rw [if_pos hc] at h; cases h
  rw [if_neg hc] at h
  clear hc
  by_cases hc : c = '<'
  · rw [if_pos hc] at h; subst hc; exact lexSideCarrot_fail h
  rw [if_neg hc] at h
  clear hc
  by_cases hc : c = '|'
  · rw [if_pos hc] at h; subst hc; exact lexPipes_fail h
  rw [if_neg hc] at h
  clear hc
  by_cases hc : c = '\\'
  · rw [if_pos hc] at h; cases h
  rw [if_neg hc] at h
  cases h

theorem nextToken_fail {r : Rec} {ignore : List Char} {last : Option Token} {s : Str} {e : Fail}
    (h : (nextToken r ignore last s).fail = some e) : FailAt r s e := by
  cases s with
  | nil => cases h
  | cons c cs =>
    unfold nextToken at h
    rcases Outcome.fail_bind' h with h | ⟨_, _, h⟩
    · exact lexDispatch_fail h
    · cases h

end Gfm
end Smd
