import Verif.Spec.Text
import Verif.Lemmas.Infix

/-! Counting occurrences of tags. -/

namespace Smd.Gfm
open Smd.Rs Smd.Spec

theorem suffix_append_cases {a b u : Str} (h : u <:+ a ++ b) : u <:+ b ∨ ∃ v, v ≠ [] ∧ v <:+ a ∧ u = v ++ b := by
  obtain ⟨w, h⟩ := h
  rcases List.append_eq_append_iff.mp h with ⟨c, h1, h2⟩ | ⟨c, h1, h2⟩
  · by_cases hc : c = []
    · subst hc
      exact .inl ⟨[], by simpa using h2⟩
    · exact .inr ⟨c, hc, ⟨w, h1.symm⟩, h2⟩
  · exact .inl ⟨c, h2.symm⟩

theorem prefix_append_cases {a b p : Str} (h : p <+: a ++ b) : p <+: a ∨ ∃ v, v ≠ [] ∧ v <+: b ∧ p = a ++ v := by
  obtain ⟨w, h⟩ := h
  rcases List.append_eq_append_iff.mp h with ⟨c, h1, h2⟩ | ⟨c, h1, h2⟩
  · exact .inl ⟨c, h1.symm⟩
  · by_cases hc : c = []
    · subst hc
      exact .inl ⟨[], by simpa using h1⟩
    · exact .inr ⟨c, hc, ⟨w, h2.symm⟩, h1⟩

theorem infix_append_cases {a b p : Str} (h : p <:+: a ++ b) :
    p <:+: a ∨ p <:+: b ∨ ∃ u v, u ≠ [] ∧ v ≠ [] ∧ u <:+ a ∧ v <+: b ∧ p = u ++ v := by
  obtain ⟨x, y, h⟩ := h
  have h1 : p ++ y <:+ a ++ b := ⟨x, by simpa using h⟩
  rcases suffix_append_cases h1 with h1 | ⟨v, hv, h1, h2⟩
  · exact .inr (.inl ((List.prefix_append p y).isInfix.trans h1.isInfix))
  · have h3 : p <+: v ++ b := ⟨y, h2⟩
    rcases prefix_append_cases h3 with h3 | ⟨w, hw, h3, h4⟩
    · exact .inl (h3.isInfix.trans h1.isInfix)
    · exact .inr (.inr ⟨v, w, hv, hw, h1, h3, h4⟩)

/-- Texts of the form `<…>` without further angle brackets. -/
def IsTag (p : Str) : Prop := ∃ b : Str, p = '<' :: (b ++ ['>']) ∧ '<' ∉ b ∧ '>' ∉ b

instance (p : Str) : Decidable (IsTag p) :=
  decidable_of_iff (p.head? = some '<' ∧ p.tail.getLast? = some '>' ∧ '<' ∉ p.tail.dropLast ∧ '>' ∉ p.tail.dropLast) (by
    constructor
    · rintro ⟨h1, h2, h3, h4⟩
      cases p with
      | nil => cases h1
      | cons c cs =>
        simp at h1
        subst h1
        simp only [List.tail_cons] at h2 h3 h4
        obtain ⟨b, rfl⟩ := List.getLast?_eq_some_iff.mp h2
        simp at h3 h4
        exact ⟨b, rfl, h3, h4⟩
    · rintro ⟨b, rfl, h1, h2⟩
      simpa using ⟨h1, h2⟩)

/-- Every `<` is followed by a `>` somewhere. -/
def Closed (s : Str) : Prop := ∀ u, '<' :: u <:+ s → '>' ∈ u

theorem Closed.nil : Closed [] := by
  intro u h
  simp at h

theorem Closed.append {a b : Str} (ha : Closed a) (hb : Closed b) : Closed (a ++ b) := by
  intro u h
  rcases suffix_append_cases h with h | ⟨v, hv, h2, h1⟩
  · exact hb u h
  · cases v with
    | nil => exact absurd rfl hv
    | cons c v =>
      injection h1 with h1 h3
      subst h1
      have := ha v h2
      rw [h3]
      simp [this]

theorem Closed.of_no_lt {s : Str} (h : '<' ∉ s) : Closed s := by
  intro u hu
  exact absurd (hu.subset (by simp)) h

theorem Closed.of_gt (x : Str) : Closed (x ++ ['>']) := by
  intro u hu
  rcases suffix_append_cases hu with h | ⟨v, hv, h2, h1⟩
  · simp [List.suffix_cons_iff] at h
  · cases v with
    | nil => exact absurd rfl hv
    | cons c v =>
      injection h1 with h1 h3
      rw [h3]
      simp

theorem Closed.append_tag (x : Str) {p : Str} (h : IsTag p) : Closed (x ++ p) := by
  obtain ⟨b, rfl, _⟩ := h
  have e : x ++ '<' :: (b ++ ['>']) = (x ++ '<' :: b) ++ ['>'] := by simp
  rw [e]
  exact .of_gt _

theorem occ_append {p : Str} (hp : IsTag p) : ∀ {a : Str} (b : Str), Closed a → occ p (a ++ b) = occ p a + occ p b
  | [], b, _ => by simp [occ]
  | c :: a, b, h => by
    have ha : Closed a := fun u hu => h u (hu.trans (List.suffix_cons _ _))
    have key : p <+: c :: (a ++ b) ↔ p <+: c :: a := by
      constructor
      · intro hpre
        have hpre' : p <+: (c :: a) ++ b := by simpa using hpre
        rcases prefix_append_cases hpre' with h1 | ⟨v, hv, h2, h1⟩
        · exact h1
        · obtain ⟨q, rfl, hq1, hq2⟩ := hp
          exfalso
          rw [List.cons_append] at h1
          injection h1 with hc h1
          subst hc
          have hgt := h a (List.suffix_refl _)
          rcases List.eq_nil_or_concat v with rfl | ⟨w, d, rfl⟩
          · exact hv rfl
          · rw [List.concat_eq_append, ← List.append_assoc] at h1
            have := List.append_inj_left' h1 rfl
            rw [this] at hq2
            simp [hgt] at hq2
      · intro h1
        exact h1.trans ⟨b, by simp⟩
    have ih := occ_append hp (a := a) b ha
    simp only [List.cons_append, occ, key, ih]
    omega

theorem occ_no_lt {p s : Str} (hp : IsTag p) (h : '<' ∉ s) : occ p s = 0 := by
  induction s with
  | nil => rfl
  | cons c cs ih =>
    have hc : ¬ p <+: c :: cs := by
      intro hpre
      obtain ⟨b, rfl, _⟩ := hp
      exact h (hpre.subset (by simp))
    simp [occ, hc, ih (fun hm => h (by simp [hm]))]

theorem occ_self {p : Str} (hp : IsTag p) : occ p p = 1 := by
  obtain ⟨b, rfl, h1, h2⟩ := hp
  have : occ ('<' :: (b ++ ['>'])) (b ++ ['>']) = 0 := occ_no_lt ⟨b, rfl, h1, h2⟩ (by simp [h1])
  simp [occ, this]

/-- Two different tags: no occurrence of one in the other. -/
theorem occ_other {p q : Str} (hp : IsTag p) (hq : IsTag q) (h : p ≠ q) : occ p q = 0 := by
  obtain ⟨b, rfl, h1, h2⟩ := hq
  have h3 : occ p (b ++ ['>']) = 0 := occ_no_lt hp (by simp [h1])
  have h4 : ¬ p <+: '<' :: (b ++ ['>']) := by
    intro hpre
    obtain ⟨c, rfl, h5, h6⟩ := hp
    rw [List.prefix_cons_inj] at hpre
    rcases prefix_append_cases hpre with hpre | ⟨v, hv, hpre, e⟩
    · exact h2 (hpre.subset (by simp))
    · have hv' : v = ['>'] := by
        cases v with
        | nil => exact absurd rfl hv
        | cons d v =>
          rw [List.cons_prefix_cons] at hpre
          obtain ⟨rfl, hpre⟩ := hpre
          simp at hpre
          simp [hpre]
      subst hv'
      rw [e] at h
      exact h rfl
  simp [occ, h3, h4]

theorem occ_pos {p : Str} : ∀ {s : Str}, p ≠ [] → (0 < occ p s ↔ p <:+: s)
  | [], hp => by simp [occ, hp]
  | c :: cs, hp => by
    rw [List.infix_cons_iff]
    have ih := occ_pos (p := p) (s := cs) hp
    unfold occ
    split
    · next h => simp only [h, true_or, iff_true]; omega
    · next h => simp [h, ih]

/-- No tag extends over a `<`. -/
theorem occ_append_lt {p : Str} (hp : IsTag p) : ∀ (a b : Str), occ p (a ++ '<' :: b) = occ p a + occ p ('<' :: b)
  | [], b => by simp [occ]
  | c :: a, b => by
    have key : p <+: c :: (a ++ '<' :: b) ↔ p <+: c :: a := by
      constructor
      · intro hpre
        have hpre' : p <+: (c :: a) ++ '<' :: b := by simpa using hpre
        rcases prefix_append_cases hpre' with h1 | ⟨v, hv, h2, h1⟩
        · exact h1
        · obtain ⟨q, rfl, hq1, hq2⟩ := hp
          exfalso
          rw [List.cons_append] at h1
          injection h1 with hc h1
          cases v with
          | nil => exact hv rfl
          | cons d v =>
            rw [List.cons_prefix_cons] at h2
            obtain ⟨rfl, _⟩ := h2
            have : '<' ∈ q ++ ['>'] := by rw [h1]; simp
            simp [hq1] at this
      · intro h1
        exact h1.trans ⟨'<' :: b, by simp⟩
    have ih := occ_append_lt hp a b
    simp only [List.cons_append, occ, key]
    simp only [occ] at ih
    omega

theorem occ_append_tag {p q : Str} (hp : IsTag p) (hq : IsTag q) (a : Str) : occ p (a ++ q) = occ p a + occ p q := by
  obtain ⟨b, rfl, _⟩ := hq
  exact occ_append_lt hp a _

theorem occ_zero {p s : Str} (hp : p ≠ []) (h : ¬ p <:+: s) : occ p s = 0 := by
  have := occ_pos (p := p) (s := s) hp
  apply Nat.eq_zero_of_not_pos
  rwa [this]

theorem occ_skip {p : Str} (hp : IsTag p) : ∀ {b : Str} (s : Str), '<' ∉ b → occ p (b ++ s) = occ p s := by
  intro b s hb
  rw [occ_append hp s (.of_no_lt hb), occ_no_lt hp hb, Nat.zero_add]

theorem countGo_skip (p : Str) : ∀ (b s : Str), countGo p b.length (b ++ s) = countGo p 0 s
  | [], s => rfl
  | c :: b, s => by
    rw [List.cons_append, List.length_cons, countGo]
    exact countGo_skip p b s

/-- `str::matches(tag).count()` counts all occurrences: tags do not overlap. -/
theorem countStr_tag {p : Str} (hp : IsTag p) (s : Str) : countStr p s = occ p s := by
  unfold countStr
  induction hn : s.length using Nat.strongRecOn generalizing s with
  | ind n ih =>
    cases s with
    | nil => rfl
    | cons c cs =>
      unfold countGo occ
      by_cases hpre : p <+: c :: cs
      · rw [if_pos (List.isPrefixOf_iff_prefix.mpr hpre), if_pos hpre]
        have hp' := hp
        obtain ⟨b, rfl, h1, h2⟩ := hp'
        obtain ⟨t, ht⟩ := hpre
        have ht' : cs = (b ++ ['>']) ++ t := by
          rw [List.cons_append] at ht
          injection ht with _ ht
          exact ht.symm
        subst ht'
        have e : ('<' :: (b ++ ['>'])).length - 1 = (b ++ ['>']).length := by simp
        rw [e, countGo_skip, occ_skip hp t (by simp [h1]), Nat.add_comm]
        congr 1
        refine ih t.length ?_ t rfl
        rw [← hn]
        simp
        omega
      · rw [if_neg (by rw [List.isPrefixOf_iff_prefix]; exact hpre), if_neg hpre, Nat.zero_add]
        exact ih cs.length (by rw [← hn]; simp) cs rfl

end Smd.Gfm
