import Verif.Lemmas.Run

/-! What lexing remembers of the tokens before: only whether the last one is text or a blank line. -/

namespace Smd.Gfm
open Smd.Rs Smd.Spec

theorem lexTabsSpacesGo_last {a b : Option Token} (h1 : isPlain a = isPlain b) (h2 : isNewline a = isNewline b) :
    ∀ (n : Nat) (s : Str), lexTabsSpacesGo a n s = lexTabsSpacesGo b n s
  | 0, s => rfl
  | n + 1, s => by
    unfold lexTabsSpacesGo
    simp only [h1, h2, lexTabsSpacesGo_last h1 h2 n]

theorem nextToken_last {r : Rec} {ig : List Char} {a b : Option Token} {s : Str} (h1 : isPlain a = isPlain b)
    (h2 : isNewline a = isNewline b) : nextToken r ig a s = nextToken r ig b s := by
  unfold nextToken lexDispatch lexTabsSpaces
  simp only [lexTabsSpacesGo_last h1 h2]

/-- The tokens before the text do not change how it is lexed, if the last of them is neither text nor a blank line. -/
theorem lexLoop_front {r : Rec} {ig : List Char} {pre : List Token} : ∀ (n m : Nat) (acc : List Token) (s : Str),
    s.length < n → s.length < m →
    (acc = [] → isPlain pre.getLast? = false ∧ isNewline pre.getLast? = false) →
    lexLoop r ig m (pre ++ acc) s = lexLoop r ig n acc s >>= fun ts => .ok (pre ++ ts)
  | 0, m, acc, s, hn, _, _ => by omega
  | n + 1, 0, acc, s, _, hm, _ => by omega
  | n + 1, m + 1, acc, s, hn, hm, hp => by
    have e : nextToken r ig (pre ++ acc).getLast? s = nextToken r ig acc.getLast? s := by
      rcases List.eq_nil_or_concat acc with rfl | ⟨u, x, rfl⟩
      · rw [List.append_nil]
        exact nextToken_last (hp rfl).1 (hp rfl).2
      · simp
    unfold lexLoop
    rw [e]
    cases hx : nextToken r ig acc.getLast? s with
    | ok a =>
      cases a with
      | none => rfl
      | some p =>
        obtain ⟨t, s'⟩ := p
        have ⟨_, _, hlt⟩ := nextToken_shape r ig _ s s' t hx
        simp only [Outcome.ok_bind]
        rw [List.append_assoc]
        exact lexLoop_front n m (acc ++ [t]) s' (by omega) (by omega) (by simp)
    | panic => rfl
    | hang => rfl
    | fuelOut => rfl

/-- A first token that is neither text nor a blank line, and does nothing, can be left out. -/
theorem renderIgnore_front {ig : List Char} {s rest : Str} {t : Token}
    (h : ∀ last, nextToken self ig last s = .ok (some (t, rest))) (h1 : isPlain (some t) = false) (h2 : isNewline (some t) = false)
    (hp : ∀ r, parseTok r t {} = .ok {}) : renderIgnore ig s = renderIgnore ig rest := by
  rw [renderIgnore_unfold, renderIgnore_unfold]
  have hlt := (nextToken_shape self ig none s rest t (h none)).2.2
  have e : lexWith self ig s = lexWith self ig rest >>= fun ts => .ok ([t] ++ ts) := by
    unfold lexWith
    conv => lhs; unfold lexLoop
    rw [show ([] : List Token).getLast? = none from rfl, h none]
    simp only [Outcome.ok_bind, List.nil_append]
    have := lexLoop_front (r := self) (ig := ig) (pre := [t]) (rest.length + 1) s.length [] rest (by omega) (by omega)
      (by intro _; exact ⟨h1, h2⟩)
    simpa using this
  rw [e]
  cases lexWith self ig rest with
  | ok ts =>
    simp only [Outcome.ok_bind, parseDoc, List.singleton_append, parseToks, hp]
    rfl
  | panic => rfl
  | hang => rfl
  | fuelOut => rfl

end Smd.Gfm
