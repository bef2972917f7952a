import Verif.Lemmas.Release
import Verif.Spec.Semver

/-! Texts of versions. -/

namespace Smd.Spec
open Smd.Rs

/-- The parts with the characters between them. -/
def joined (c : Char) : List Str → Str
  | [] => []
  | [p] => p
  | p :: q :: ps => p ++ c :: joined c (q :: ps)

theorem pieces_ne (c : Char) : ∀ s : Str, pieces c s ≠ []
  | [] => by simp [pieces]
  | x :: s => by
    unfold pieces
    split
    · simp
    · cases h : pieces c s <;> simp

theorem joined_pieces (c : Char) : ∀ s : Str, joined c (pieces c s) = s
  | [] => rfl
  | x :: s => by
    have ih := joined_pieces c s
    unfold pieces
    split
    next h =>
      cases h' : pieces c s with
      | nil => exact absurd h' (pieces_ne c s)
      | cons p ps => rw [h'] at ih; rw [joined, ih, h]; rfl
    · cases h' : pieces c s with
      | nil => exact absurd h' (pieces_ne c s)
      | cons p ps =>
        rw [h'] at ih
        cases ps with
        | nil => simp only [joined] at ih ⊢; rw [ih]
        | cons q ps => simp only [joined] at ih ⊢; rw [List.cons_append, ih]

theorem pieces_one {c : Char} : ∀ {s : Str}, c ∉ s → pieces c s = [s]
  | [], _ => rfl
  | x :: s, h => by
    have h1 : x ≠ c := fun e => h (by simp [e])
    rw [pieces, if_neg h1, pieces_one (fun m => h (List.mem_cons_of_mem _ m))]

/-- A version with these numbers and something behind a hyphen begins with their text. -/
theorem semver_text {s a b c : Str} {pre : List Str} (h : semver s = some ⟨a, b, c, pre⟩) (hp : pre ≠ []) : a ++ c!"." ++ b ++ c!"." ++ c ++ c!"-" <+: s := by
  unfold semver at h
  split at h
  next x y z hx =>
    split at h
    next hn =>
      split at h
      next hr =>
        simp only [Option.some.injEq, Semver.mk.injEq] at h
        exact absurd h.2.2.2.symm hp
      next d p hr =>
        split at h
        next ha =>
          simp only [Option.some.injEq, Semver.mk.injEq] at h
          obtain ⟨rfl, rfl, rfl, -⟩ := h
          have h1 := joined_pieces '.' ((s.takeWhile (· != '+')).takeWhile (· != '-'))
          rw [hx] at h1
          have h2 : d = '-' := by
            have := List.head?_dropWhile_not (fun c : Char => c != '-') (s.takeWhile (· != '+'))
            rw [hr] at this
            simpa using this
          have h3 := List.takeWhile_append_dropWhile (p := (· != '-')) (l := s.takeWhile (· != '+'))
          rw [hr, h2, ← h1] at h3
          have h4 := List.takeWhile_append_dropWhile (p := (· != '+')) (l := s)
          rw [← h3] at h4
          exact ⟨p ++ s.dropWhile (· != '+'), Eq.trans (by simp [joined]) h4⟩
        · simp at h
    · simp at h
  · simp at h

theorem semver_pre {q : Str} (h0 : q ≠ []) (hq : ∀ c ∈ q, c.isAlpha = true) : semver (c!"0.1.3-" ++ q) = some ⟨c!"0", c!"1", c!"3", [q]⟩ := by
  have hne : ∀ c ∈ q, c ≠ '+' ∧ c ≠ '.' ∧ c.isDigit = false := by
    intro c hc
    have h := hq c hc
    refine ⟨?_, ?_, ?_⟩
    · rintro rfl; exact absurd h (by decide)
    · rintro rfl; exact absurd h (by decide)
    · rw [← Bool.not_eq_true]
      intro hd
      simp only [Char.isAlpha, Char.isUpper, Char.isLower, Char.isDigit, Bool.or_eq_true, Bool.and_eq_true, decide_eq_true_eq, ge_iff_le,
        UInt32.le_iff_toNat_le] at h hd
      simp at h hd
      omega
  have h1 : (c!"0.1.3-" ++ q).takeWhile (· != '+') = c!"0.1.3-" ++ q := by
    have := List.takeWhile_append_of_pos (p := (· != '+')) (l₁ := c!"0.1.3-" ++ q) (l₂ := []) ?_
    · simpa using this
    intro x hx
    rcases List.mem_append.1 hx with hx | hx
    · exact (by decide : ∀ x ∈ c!"0.1.3-", (x != '+') = true) x hx
    · simpa using (hne x hx).1
  have h2 : (c!"0.1.3-" ++ q).takeWhile (· != '-') = c!"0.1.3" := by simp
  have h3 : (c!"0.1.3-" ++ q).dropWhile (· != '-') = '-' :: q := by simp
  have h4 : pieces '.' c!"0.1.3" = [c!"0", c!"1", c!"3"] := by decide
  have h5 : isPrePart q = true := by
    unfold isPrePart
    obtain ⟨x, t, rfl⟩ := List.exists_cons_of_ne_nil h0
    have h6 : (x :: t).all (·.isDigit) = false := by
      rw [List.all_cons, (hne x List.mem_cons_self).2.2, Bool.false_and]
    have h7 : (x :: t).all (fun c => c.isAlphanum || c == '-') = true := by
      rw [List.all_eq_true]
      intro c hc
      simp [Char.isAlphanum, hq c hc]
    simp [h6, h7]
  unfold semver
  rw [h1, h2, h4]
  simp only [h3, pieces_one fun m => (hne _ m).2.1 rfl, List.all_cons, h5, List.all_nil]
  rfl

end Smd.Spec
