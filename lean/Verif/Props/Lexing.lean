import Verif.Lemmas.Fuel

/-! C12: the lexer visits every character of the document exactly once. -/

namespace Smd.Gfm
open Smd.Rs

/-- `Cut r ig last s ts ps`: the text `s` is cut into the pieces `ps`, and reading token number `i` at the start of
piece number `i` consumes exactly this piece. -/
def Cut (r : Rec) (ig : List Char) : Option Token → List Token → List Str → Prop
  | _, [], [] => True
  | last, t :: ts, p :: ps =>
    nextToken r ig last (p ++ ps.flatten) = .ok (some (t, ps.flatten)) ∧ Cut r ig (some t) ts ps
  | _, _, _ => False

/-- C12: every token consumes a non-empty piece of the document, and the pieces in order make up the document. -/
theorem C12_pieces (r : Rec) (ig : List Char) (s : Str) (ts : List Token) (h : lexWith r ig s = .ok ts) :
    ∃ ps : List Str, ps.length = ts.length ∧ (∀ p ∈ ps, p ≠ []) ∧ ps.flatten = s ∧ Cut r ig none ts ps := by
  have key : ∀ last, Lexes r ig last s ts →
      ∃ ps : List Str, ps.length = ts.length ∧ (∀ p ∈ ps, p ≠ []) ∧ ps.flatten = s ∧ Cut r ig last ts ps := by
    intro last h
    clear * - h
    induction h with
    | nil last => exact ⟨[], rfl, by simp, rfl, trivial⟩
    | cons last s s' t ts h hs ih =>
      obtain ⟨ps, h1, h2, h3, h4⟩ := ih
      obtain ⟨_, ⟨p, hp⟩, hlt⟩ := nextToken_shape r ig last s s' t h
      refine ⟨p :: ps, by simp [h1], ?_, by simp [h3, hp], ?_, h4⟩
      · intro q hq
        rcases List.mem_cons.mp hq with rfl | hq
        · intro e
          subst e
          simp at hp
          subst hp
          omega
        · exact h2 q hq
      · rw [h3, hp]
        exact h
  exact key none ((lexWith_ok_iff r ig s ts).mp h)

example : ∃ ts, lexWith self [] c!"a *b*\n\nc" = .ok ts ∧ ts.length = 5 := ⟨_, rfl, rfl⟩

/-- C12: there are never more tokens than characters. -/
theorem C12_token_count (s : Str) (ts : List Token) (h : lex s = .ok ts) : ts.length ≤ s.length := by
  rw [lex_unfold] at h
  obtain ⟨ps, h1, h2, h3, h4⟩ := C12_pieces self [] s ts h
  rw [← h1, ← h3]
  clear h h1 h3 h4
  induction ps with
  | nil => simp
  | cons p ps ih =>
    have := ih (fun q hq => h2 q (by simp [hq]))
    have hp : 0 < p.length := List.length_pos_iff.mpr (h2 p (by simp))
    have e : (p :: ps).flatten.length = p.length + ps.flatten.length := by simp
    rw [e, List.length_cons, Nat.add_comm]
    exact Nat.add_le_add hp this

example : (match lex c!"# a\n- b" with | .ok ts => ts.length | _ => 0) = 3 := by decide +kernel

end Smd.Gfm
