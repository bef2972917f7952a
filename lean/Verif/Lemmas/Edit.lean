import Verif.Lemmas.LocalBlocks
import Verif.Lemmas.Run
import Verif.Lemmas.Extends
import Verif.Props.Lexing

/-! Documents that begin alike: the tokens and the rendering of the beginning. -/

namespace Smd.Gfm
open Smd.Rs Smd.Spec

variable {r : Rec} {ig : List Char} {b b' : Str}

theorem cons_prefix {x y : Char} {c : Char} {q : Str} : [x, y] <+: c :: q ↔ x = c ∧ q.head? = some y := by
  constructor
  · rintro ⟨z, e⟩
    simp at e
    exact ⟨e.1, by rw [← e.2]; rfl⟩
  · rintro ⟨rfl, h⟩
    cases q with
    | nil => simp at h
    | cons d q => simp at h; exact ⟨q, by rw [h]; rfl⟩

theorem Agree.append (A : Agree b b') (q : Str) : Agree (q ++ b) (q ++ b') := by
  cases q with
  | nil => exact A
  | cons c q =>
    have hh : (q ++ b).head? = (q ++ b').head? := by
      cases q with
      | nil => exact A.head
      | cons d q => rfl
    refine ⟨rfl, ?_, ?_⟩ <;> rw [List.cons_append, List.cons_append, cons_prefix, cons_prefix, hh]

theorem LexesUpTo.suffix {last : Option Token} {s : Str} {ts : List Token} (h : LexesUpTo r ig b last s ts) : b <:+ s := by
  induction h with
  | nil last => exact List.suffix_rfl
  | cons last s s' t ts h hs ih => exact ih.trans (nextToken_shape _ _ _ _ _ _ h).2.1

/-- The tokens before `b` do not depend on `b` as long as the characters that are looked at are the same. -/
theorem LexesUpTo.local (A : Agree b b') {last : Option Token} {s : Str} {ts : List Token} (h : LexesUpTo r ig b last s ts) :
    ∀ p, s = p ++ b → LexesUpTo r ig b' last (p ++ b') ts := by
  induction h with
  | nil last =>
    intro p e
    have : p = [] := by
      have := congrArg List.length e
      rw [List.length_append] at this
      exact List.length_eq_zero_iff.mp (by omega)
    subst this
    exact .nil last
  | cons last s s' t ts h hs ih =>
    intro p e
    obtain ⟨q, hq⟩ := hs.suffix
    obtain ⟨v, hv⟩ := (nextToken_shape _ _ _ _ _ _ h).2.1
    have e' : p = v ++ q := by
      have : (v ++ q) ++ b = p ++ b := by rw [List.append_assoc, hq, hv, e]
      exact (List.append_cancel_right this).symm
    subst hq e'
    refine .cons last _ (q ++ b') t ts ?_ (ih q rfl)
    rw [List.append_assoc]
    rw [← hv] at h
    exact nextToken_local (A.append q) h

theorem LexesUpTo.append {stop : Str} {last : Option Token} {s : Str} {ts us : List Token} (h : LexesUpTo r ig b last s ts) :
    (∀ l, l = (ts.getLast?.or last) → LexesUpTo r ig stop l b us) → LexesUpTo r ig stop last s (ts ++ us) := by
  induction h with
  | nil last => intro h2; exact h2 _ rfl
  | cons last s s' t ts h hs ih =>
    intro h2
    refine .cons last s s' t _ h (ih fun l hl => h2 l ?_)
    rw [hl]
    cases ts with
    | nil => rfl
    | cons u us => rw [List.getLast?_cons_cons]; cases h : (u :: us).getLast? with
      | none => simp at h
      | some x => rfl

/-- Lexing goes through the same beginning. -/
theorem LexesUpTo.split {last : Option Token} {s : Str} {ts : List Token} (h : LexesUpTo r ig b last s ts) :
    ∀ {us}, Lexes r ig last s us → ∃ vs, us = ts ++ vs ∧ Lexes r ig (ts.getLast?.or last) b vs := by
  induction h with
  | nil last => intro us h2; exact ⟨us, rfl, h2⟩
  | cons last s s' t ts h hs ih =>
    intro us h2
    cases h2 with
    | nil => simp [nextToken] at h
    | cons _ _ s'' t' ts' h' hs' =>
      rw [h] at h'
      obtain ⟨rfl, rfl⟩ := Prod.mk.inj (Option.some.inj (Outcome.ok.inj h'))
      obtain ⟨vs, rfl, h3⟩ := ih hs'
      refine ⟨vs, rfl, ?_⟩
      cases ts with
      | nil => exact h3
      | cons u us => rw [List.getLast?_cons_cons]; cases h : (u :: us).getLast? with
        | none => simp at h
        | some x => rw [h] at h3; exact h3

theorem Cut.upTo {ts us : List Token} {ps qs : List Str} : ∀ {last}, Cut r ig last (ts ++ us) (ps ++ qs) → ps.length = ts.length →
    LexesUpTo r ig qs.flatten last (ps.flatten ++ qs.flatten) ts := by
  induction ts generalizing ps with
  | nil =>
    intro last _ hl
    obtain rfl := List.length_eq_zero_iff.mp hl
    exact .nil last
  | cons t ts ih =>
    intro last h hl
    cases ps with
    | nil => simp at hl
    | cons p ps =>
      obtain ⟨h1, h2⟩ := h
      refine .cons last _ _ t ts ?_ (ih h2 (by simpa using hl))
      simpa using h1

theorem lexLoop_fuel : ∀ (n m : Nat) (acc : List Token) (s : Str), s.length < n → s.length < m → lexLoop r ig n acc s = lexLoop r ig m acc s
  | 0, _, _, _, hn, _ => by omega
  | _ + 1, 0, _, _, _, hm => by omega
  | n + 1, m + 1, acc, s, hn, hm => by
    unfold lexLoop
    cases hx : nextToken r ig acc.getLast? s with
    | ok a =>
      cases a with
      | none => rfl
      | some p =>
        obtain ⟨t, s'⟩ := p
        have hlt := (nextToken_shape r ig _ s s' t hx).2.2
        exact lexLoop_fuel n m (acc ++ [t]) s' (by omega) (by omega)
    | panic => rfl
    | hang => rfl
    | fuelOut => rfl

/-- The loop after the tokens of the beginning. -/
theorem LexesUpTo.loop {last : Option Token} {s : Str} {ts : List Token} (h : LexesUpTo r ig b last s ts) :
    ∀ (n : Nat) (acc : List Token), last = acc.getLast? → s.length < n → lexLoop r ig n acc s = lexLoop r ig (b.length + 1) (acc ++ ts) b := by
  induction h with
  | nil last => intro n acc _ hn; rw [List.append_nil]; exact lexLoop_fuel _ _ _ _ hn (by omega)
  | cons last s s' t ts h hs ih =>
    intro n acc e hn
    have hlt := (nextToken_shape _ _ _ _ _ _ h).2.2
    obtain ⟨n, rfl⟩ : ∃ m, n = m + 1 := ⟨n - 1, by omega⟩
    rw [lexLoop, ← e, h]
    show lexLoop r ig n (acc ++ [t]) s' = _
    rw [ih n (acc ++ [t]) (by simp) (by omega), List.append_assoc]
    rfl

/-- A cut of a document, read up to the first `k` pieces. -/
theorem Cut.split {ts : List Token} {ps : List Str} (k : Nat) : ∀ {last}, Cut r ig last ts ps →
    LexesUpTo r ig (ps.drop k).flatten last ((ps.take k).flatten ++ (ps.drop k).flatten) (ts.take k) := by
  intro last h
  have hl : ∀ {last ts ps}, Cut r ig last ts ps → ps.length = ts.length := by
    intro last ts
    induction ts generalizing last with
    | nil => intro ps h; cases ps with
      | nil => rfl
      | cons p ps => exact h.elim
    | cons t ts ih => intro ps h; cases ps with
      | nil => exact h.elim
      | cons p ps => simp [ih h.2]
  have := hl h
  rw [← List.take_append_drop k ts, ← List.take_append_drop k ps] at h
  exact h.upTo (by simp [this])

theorem Cut.lexes {ts : List Token} {ps : List Str} {last : Option Token} (h : Cut r ig last ts ps) : Lexes r ig last ps.flatten ts := by
  have h0 := h.split (ps.length + ts.length)
  rw [List.take_of_length_le (by omega), List.take_of_length_le (by omega), List.drop_of_length_le (by omega)] at h0
  simpa using h0.lexes

theorem lexes_lex {s : Str} {ts : List Token} : Lexes self [] none s ts ↔ lex s = .ok ts := by
  rw [lex_unfold, lexWith_ok_iff]

/-- Two documents whose first `k` pieces are followed by texts that look alike: the first `k` pieces are the same. -/
theorem Cut.same {b' : Str} : ∀ (k : Nat) {last : Option Token} {ts us : List Token} {ps qs : List Str}, Cut r ig last ts ps → Cut r ig last us qs →
    k ≤ ps.length → Agree (ps.drop k).flatten b' → qs.flatten = (ps.take k).flatten ++ b' → us.take k = ts.take k ∧ qs.take k = ps.take k
  | 0, _, _, _, _, _, _, _, _, _, _ => by simp
  | k + 1, last, ts, us, [], qs, _, _, hk, _, _ => by simp at hk
  | k + 1, last, [], us, p :: ps, qs, h, _, _, _, _ => h.elim
  | k + 1, last, t :: ts, us, p :: ps, qs, h, g, hk, A, e => by
    obtain ⟨h1, h2⟩ := h
    have A' := A.append (ps.take k).flatten
    simp only [List.drop_succ_cons] at A'
    rw [← List.flatten_append, List.take_append_drop] at A'
    have h3 := nextToken_local A' h1
    have e' : qs.flatten = p ++ ((ps.take k).flatten ++ b') := by rw [e]; simp
    rw [← e'] at h3
    match us, qs, g with
    | [], [], _ => simp [nextToken] at h3
    | u :: us, q :: qs, g =>
      obtain ⟨g1, g2⟩ := g
      rw [List.flatten_cons, g1] at h3
      obtain ⟨rfl, e2⟩ := Prod.mk.inj (Option.some.inj (Outcome.ok.inj h3))
      have e3 : q = p := by
        rw [List.flatten_cons, e2] at e'
        exact List.append_cancel_right e'
      subst e3
      obtain ⟨r1, r2⟩ := Cut.same k h2 g2 (by simpa using hk) (by simpa using A) e2
      simp [r1, r2]

end Smd.Gfm
