import Verif.Rust.Str

/-! General facts about lists of characters. -/

namespace Smd

/-- What `dropWhile` leaves is empty or starts with an element that fails the predicate. -/
theorem dropWhile_cases {α : Type} (p : α → Bool) : ∀ s : List α,
    (s.dropWhile p = [] ∧ s.takeWhile p = s) ∨ ∃ x xs, s.dropWhile p = x :: xs ∧ p x = false
  | [] => by simp
  | c :: s => by
    by_cases h : p c = true
    · rcases dropWhile_cases p s with ⟨h1, h2⟩ | ⟨x, xs, h1, h2⟩
      · left; simp [h, h1, h2]
      · right; exact ⟨x, xs, by simp [h, h1], h2⟩
    · right; exact ⟨c, s, by simp [h], by simpa using h⟩

theorem split_while {α : Type} (p : α → Bool) (s : List α) : s.takeWhile p ++ s.dropWhile p = s :=
  List.takeWhile_append_dropWhile

theorem takeWhile_all {α : Type} (p : α → Bool) : ∀ s : List α, (∀ x ∈ s, p x = true) → s.takeWhile p = s
  | [], _ => rfl
  | c :: s, h => by
    rw [List.takeWhile_cons, if_pos (h c (by simp)), takeWhile_all p s (fun x hx => h x (by simp [hx]))]

theorem dropWhile_all {α : Type} (p : α → Bool) : ∀ s : List α, (∀ x ∈ s, p x = true) → s.dropWhile p = []
  | [], _ => rfl
  | c :: s, h => by
    rw [List.dropWhile_cons, if_pos (h c (by simp)), dropWhile_all p s (fun x hx => h x (by simp [hx]))]

theorem takeWhile_append_stop {α : Type} (p : α → Bool) (c : α) (t : List α) (hc : p c = false) :
    ∀ s : List α, (∀ x ∈ s, p x = true) → (s ++ c :: t).takeWhile p = s
  | [], _ => by simp [hc]
  | d :: s, h => by
    rw [List.cons_append, List.takeWhile_cons, if_pos (h d (by simp)),
      takeWhile_append_stop p c t hc s (fun x hx => h x (by simp [hx]))]

theorem dropWhile_append_stop {α : Type} (p : α → Bool) (c : α) (t : List α) (hc : p c = false) :
    ∀ s : List α, (∀ x ∈ s, p x = true) → (s ++ c :: t).dropWhile p = c :: t
  | [], _ => by simp [hc]
  | d :: s, h => by
    rw [List.cons_append, List.dropWhile_cons, if_pos (h d (by simp)),
      dropWhile_append_stop p c t hc s (fun x hx => h x (by simp [hx]))]

theorem mem_takeWhile_true {α : Type} (p : α → Bool) : ∀ (s : List α) (x : α), x ∈ s.takeWhile p → p x = true
  | [], x, h => by simp at h
  | c :: s, x, h => by
    rw [List.takeWhile_cons] at h
    split at h
    · next hc =>
      rcases List.mem_cons.mp h with rfl | h
      · exact hc
      · exact mem_takeWhile_true p s x h
    · simp at h

theorem mem_of_mem_takeWhile {α : Type} (p : α → Bool) (s : List α) (x : α) (h : x ∈ s.takeWhile p) : x ∈ s :=
  split_while p s ▸ List.mem_append_left _ h

theorem mem_of_mem_dropWhile {α : Type} (p : α → Bool) (s : List α) (x : α) (h : x ∈ s.dropWhile p) : x ∈ s :=
  split_while p s ▸ List.mem_append_right _ h

theorem dropWhile_suffix {α : Type} (p : α → Bool) (s : List α) : s.dropWhile p <:+ s :=
  ⟨s.takeWhile p, split_while p s⟩

theorem dropWhile_length_le {α : Type} (p : α → Bool) (s : List α) : (s.dropWhile p).length ≤ s.length :=
  (dropWhile_suffix p s).length_le

/-- A text with a newline is its first line, the newline and the rest. -/
theorem split_line (s : Str) (h : '\n' ∈ s) :
    s = (s.takeWhile (· != '\n') ++ ['\n']) ++ (s.dropWhile (· != '\n')).drop 1 := by
  rcases dropWhile_cases (· != '\n') s with ⟨_, h2⟩ | ⟨x, xs, h1, h2⟩
  · have := mem_takeWhile_true (· != '\n') s '\n' (by rw [h2]; exact h)
    simp at this
  · have e := split_while (· != '\n') s
    have hx : x = '\n' := by simpa using h2
    rw [h1, hx] at e
    rw [h1]
    simpa using e.symm

end Smd
