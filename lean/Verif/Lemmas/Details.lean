import Verif.Lemmas.Occ
import Verif.Lemmas.Iter

/-! The loop of `parse_details` (lexer.rs 892-900). -/

namespace Smd.Gfm
open Smd.Rs Smd.Spec

theorem tagOpen : IsTag c!"<details>" := by decide

theorem tagClose : IsTag c!"</details>" := by decide

theorem stripSuffix_append (p s : Str) : stripSuffix p (s ++ p) = some s := by
  unfold stripSuffix
  rw [if_pos (List.isSuffixOf_iff_suffix.mpr (List.suffix_append _ _))]
  simp

theorem slice_append (a b : Str) : slice (a ++ b) b = a := by
  unfold slice
  simp

theorem untilTail_cases {p : Str} (hp : p ≠ []) (s : Str) :
    (¬ p <:+: s ∧ untilTail p s = (s, [])) ∨ ∃ x y, s = x ++ p ++ y ∧ ¬ p <:+: x ∧ untilTail p s = (x ++ p, y) := by
  have happ := untilTail_append p s
  have ⟨h1, h2⟩ := Iter.untilTailGo_spec p [] s (by
    intro a' ha' hne
    exact absurd (List.prefix_nil.mp ha') hne)
  change ((untilTail p s).2 ≠ [] → p <:+ (untilTail p s).1) at h1
  change (∀ a', a' <+: (untilTail p s).1 → a' ≠ (untilTail p s).1 → ¬ p <:+ a') at h2
  generalize hut : untilTail p s = ut at *
  obtain ⟨a, r⟩ := ut
  simp only at happ h1 h2
  by_cases hs : p <:+ a
  · right
    obtain ⟨x, rfl⟩ := hs
    refine ⟨x, r, happ.symm, ?_, rfl⟩
    rintro ⟨u, v, rfl⟩
    refine h2 (u ++ p) ⟨v ++ p, by simp⟩ ?_ ⟨u, rfl⟩
    intro e
    have e := congrArg List.length e
    have : 0 < p.length := List.length_pos_iff.mpr hp
    simp only [List.length_append] at e
    omega
  · left
    have hr : r = [] := Classical.byContradiction fun hr => hs (h1 hr)
    subst hr
    simp at happ
    subst happ
    refine ⟨?_, rfl⟩
    rintro ⟨u, v, rfl⟩
    by_cases e : u ++ p = u ++ p ++ v
    · exact hs (e ▸ ⟨u, rfl⟩)
    · exact h2 (u ++ p) ⟨v, by simp⟩ e ⟨u, rfl⟩

/-- A tag cannot start inside another one. -/
theorem tag_no_overlap {p q c a y : Str} (hp : IsTag p) (hq : IsTag q) (hc : c ≠ []) (ha : a ≠ []) (h1 : p = c ++ a)
    (h2 : q ++ y = a ++ z) : False := by
  obtain ⟨b, rfl, hb, _⟩ := hp
  obtain ⟨b', rfl, _⟩ := hq
  cases c with
  | nil => exact hc rfl
  | cons d c =>
    cases a with
    | nil => exact ha rfl
    | cons e a =>
      rw [List.cons_append] at h1 h2
      injection h1 with _ h1
      injection h2 with h2 _
      subst h2
      have : '<' ∈ b ++ ['>'] := by rw [h1]; simp
      simp [hb] at this

/-- The first occurrence of a tag is at or before any other. -/
theorem split_tag {p x0 y0 x y : Str} (hp : IsTag p) (h : x0 ++ p ++ y0 = x ++ p ++ y) (hx : ¬ p <:+: x0) :
    (x = x0 ∧ y = y0) ∨ ∃ x', x = x0 ++ p ++ x' ∧ y0 = x' ++ p ++ y := by
  rw [List.append_assoc, List.append_assoc] at h
  rcases List.append_eq_append_iff.mp h with ⟨c, h1, h2⟩ | ⟨c, h1, h2⟩
  · by_cases hc : c = []
    · subst hc
      simp at h1 h2
      exact .inl ⟨h1, h2.symm⟩
    · rcases List.append_eq_append_iff.mp h2 with ⟨a, h3, h4⟩ | ⟨a, h3, h4⟩
      · right
        exact ⟨a, by rw [h1, h3]; simp, by rw [h4]; simp⟩
      · by_cases ha : a = []
        · subst ha
          simp at h3 h4
          right
          exact ⟨[], by rw [h1, h3]; simp, by simp [h4]⟩
        · exact (tag_no_overlap hp hp hc ha h3 h4).elim
  · by_cases hc : c = []
    · subst hc
      simp at h1 h2
      exact .inl ⟨h1.symm, h2⟩
    · exfalso
      rcases List.append_eq_append_iff.mp h2 with ⟨a, h3, h4⟩ | ⟨a, h3, h4⟩
      · exact hx ⟨x, a, by rw [h1, h3]; simp⟩
      · by_cases ha : a = []
        · subst ha
          simp at h3
          exact hx ⟨x, [], by rw [h1, h3]; simp⟩
        · exact tag_no_overlap hp hp hc ha h3 h4

/-- The loop of `parse_details` never exits exactly if opening and closing tags balance wherever it stops: after every
closing tag that follows, and at the end of the text. -/
theorem detailsLoop_hang_iff (start : Str) : ∀ (fuel : Nat) (pre s : Str), start = pre ++ s → s.length ≤ fuel →
    (detailsLoop start fuel s = .hang ↔
      (occ c!"<details>" pre = occ c!"</details>" pre ∧
        ∀ x y, s = x ++ c!"</details>" ++ y →
          occ c!"<details>" (pre ++ x ++ c!"</details>") = occ c!"</details>" (pre ++ x ++ c!"</details>")) ∧
      occ c!"<details>" start = occ c!"</details>" start) := by
  intro fuel
  induction fuel with
  | zero =>
    intro pre s hs hl
    have : s = [] := by cases s <;> simp at hl ⊢
    subst this
    simp at hs
    subst hs
    unfold detailsLoop
    have e : slice start [] = start := by unfold slice; simp
    simp only [e, countStr_tag tagOpen, countStr_tag tagClose]
    split
    · next h => simp [h]
    · next h =>
      have h := Classical.not_not.mp h
      simp [h]
  | succ fuel ih =>
    intro pre s hs hl
    unfold detailsLoop
    have e : slice start s = pre := by rw [hs]; exact slice_append pre s
    simp only [e, countStr_tag tagOpen, countStr_tag tagClose]
    split
    · next h => simp [h]
    · next h =>
      have h := Classical.not_not.mp h
      by_cases hnil : s = []
      · subst hnil
        simp at hs
        subst hs
        simp [h]
      · rw [if_neg hnil]
        rcases untilTail_cases (p := c!"</details>") (by simp) s with ⟨hno, hut⟩ | ⟨x0, y0, hx, hno, hut⟩
        · rw [hut]
          have := ih start [] (by simp) (by simp)
          simp only [this]
          constructor
          · rintro ⟨⟨h1, _⟩, h2⟩
            exact ⟨⟨h, fun x y hxy => absurd ⟨x, y, hxy.symm⟩ hno⟩, h2⟩
          · rintro ⟨_, h2⟩
            exact ⟨⟨h2, by simp⟩, h2⟩
        · rw [hut]
          have hlen : y0.length ≤ fuel := by
            have := congrArg List.length hx
            simp at this
            omega
          have := ih (pre ++ x0 ++ c!"</details>") y0 (by rw [hs, hx]; simp) hlen
          simp only [this]
          constructor
          · rintro ⟨⟨h1, h2⟩, h3⟩
            refine ⟨⟨h, fun x y hxy => ?_⟩, h3⟩
            rcases split_tag tagClose (hx.symm.trans hxy) hno with ⟨rfl, rfl⟩ | ⟨x', rfl, h4⟩
            · exact h1
            · have := h2 x' y h4
              simpa using this
          · rintro ⟨⟨_, h2⟩, h3⟩
            refine ⟨⟨h2 x0 y0 hx, fun x y hxy => ?_⟩, h3⟩
            have := h2 (x0 ++ c!"</details>" ++ x) y (by rw [hx, hxy]; simp)
            simpa using this

/-- Between two opening tags that are followed by a closing tag there is a closing tag. -/
def Flat (u : Str) : Prop :=
  ∀ a b, c!"<details>" ++ a ++ c!"<details>" ++ b ++ c!"</details>" <:+: u → c!"</details>" <:+: a

theorem Flat.infix {u v : Str} (h : Flat u) (hv : v <:+: u) : Flat v := fun a b hab => h a b (hab.trans hv)

theorem Flat.of_no_open {u : Str} (h : ¬ c!"<details>" <:+: u) : Flat u := fun a b hab =>
  absurd (List.IsInfix.trans ⟨[], a ++ c!"<details>" ++ b ++ c!"</details>", by simp⟩ hab) h

theorem Flat.of_no_close {u : Str} (h : ¬ c!"</details>" <:+: u) : Flat u := fun a b hab =>
  absurd (List.IsInfix.trans ⟨c!"<details>" ++ a ++ c!"<details>" ++ b, [], by simp⟩ hab) h

/-- After every opening tag there is a closing tag before the next opening tag. -/
def Paired (u : Str) : Prop :=
  ∀ p a, u = p ++ c!"<details>" ++ a → ∃ q q', a = q ++ c!"</details>" ++ q' ∧ ¬ c!"<details>" <:+: q

/-- Where an opening tag is in a text that continues after a closed part. -/
theorem split_closed {t a b p q : Str} (ht : IsTag t) (ha : Closed a) (h : a ++ b = p ++ t ++ q) :
    (∃ q', a = p ++ t ++ q' ∧ q = q' ++ b) ∨ ∃ p', p = a ++ p' ∧ b = p' ++ t ++ q := by
  rw [List.append_assoc] at h
  rcases List.append_eq_append_iff.mp h with ⟨c, h1, h2⟩ | ⟨c, h1, h2⟩
  · exact .inr ⟨c, h1, by rw [h2]; simp⟩
  · rcases List.append_eq_append_iff.mp h2 with ⟨d, h3, h4⟩ | ⟨d, h3, h4⟩
    · exact .inl ⟨d, by rw [h1, h3]; simp, h4⟩
    · by_cases hd : d = []
      · subst hd
        simp at h3 h4
        exact .inl ⟨[], by rw [h1, h3]; simp, by simp [h4]⟩
      · by_cases hc : c = []
        · subst hc
          simp at h1 h3
          subst h3
          exact .inr ⟨[], by rw [h1]; simp, by rw [h4]; simp⟩
        · exfalso
          obtain ⟨e, rfl, h5, h6⟩ := ht
          cases c with
          | nil => exact hc rfl
          | cons x c =>
            rw [List.cons_append] at h3
            injection h3 with h3 h7
            subst h3
            have hm := ha c (by rw [h1]; exact List.suffix_append _ _)
            rcases List.eq_nil_or_concat d with rfl | ⟨w, z, rfl⟩
            · exact hd rfl
            · rw [List.concat_eq_append, ← List.append_assoc] at h7
              have := List.append_inj_left' h7 rfl
              rw [this] at h6
              simp [hm] at h6

theorem Closed.tag {p : Str} (h : IsTag p) : Closed p := by simpa using Closed.append_tag [] h

theorem Paired.nil : Paired [] := by
  intro p a h
  simp at h

/-- Where a tag is in a text whose second part starts with `<`. -/
theorem split_lt {t y q' p a : Str} (ht : IsTag t) (h : y ++ '<' :: q' = p ++ t ++ a) :
    (∃ y2, y = p ++ t ++ y2 ∧ a = y2 ++ '<' :: q') ∨ ∃ p', p = y ++ p' ∧ '<' :: q' = p' ++ t ++ a := by
  rw [List.append_assoc] at h
  rcases List.append_eq_append_iff.mp h with ⟨c, h1, h2⟩ | ⟨c, h1, h2⟩
  · exact .inr ⟨c, h1, by rw [h2]; simp⟩
  · rcases List.append_eq_append_iff.mp h2 with ⟨d, h3, h4⟩ | ⟨d, h3, h4⟩
    · exact .inl ⟨d, by rw [h1, h3]; simp, h4⟩
    · by_cases hd : d = []
      · subst hd
        simp at h3 h4
        exact .inl ⟨[], by rw [h1, h3]; simp, by simp [h4]⟩
      · by_cases hc : c = []
        · subst hc
          simp at h1 h3
          subst h3
          exact .inr ⟨[], by rw [h1]; simp, by rw [h4]; simp⟩
        · exfalso
          obtain ⟨e, rfl, h5, h6⟩ := ht
          cases c with
          | nil => exact hc rfl
          | cons x c =>
            cases d with
            | nil => exact hd rfl
            | cons z d =>
              rw [List.cons_append] at h3 h4
              injection h3 with _ h3
              injection h4 with h4 _
              subst h4
              have : '<' ∈ e ++ ['>'] := by rw [h3]; simp
              simp [h5] at this

theorem Paired.chunk {pre y : Str} (hp : Paired pre) (hc : Closed pre) (hy : occ c!"<details>" y = 1) :
    Paired (pre ++ (y ++ c!"</details>")) := by
  intro p a h
  rcases split_closed tagOpen hc h with ⟨q', h1, h2⟩ | ⟨p', h1, h2⟩
  · obtain ⟨q, q'', h3, h4⟩ := hp p q' h1
    exact ⟨q, q'' ++ (y ++ c!"</details>"), by rw [h2, h3]; simp, h4⟩
  · rcases split_lt tagOpen h2 with ⟨y2, h3, h4⟩ | ⟨p'', _, h4⟩
    · refine ⟨y2, [], by rw [h4]; simp, fun hinf => ?_⟩
      have h5 := (occ_pos (by simp)).mpr hinf
      have h6 : 0 < occ c!"<details>" (p' ++ c!"<details>") := (occ_pos (by simp)).mpr (List.suffix_append _ _).isInfix
      rw [h3, occ_append tagOpen _ (.append_tag _ tagOpen)] at hy
      omega
    · have : c!"<details>" <:+: c!"</details>" := ⟨p'', a, h4.symm⟩
      exact absurd this (by decide)

theorem Flat.of_paired {pre y : Str} (hp : Paired pre) (hc : Closed pre) (hy : ¬ c!"</details>" <:+: y) :
    Flat (pre ++ y) := by
  rintro a b ⟨p, r, h⟩
  have h' : pre ++ y = p ++ c!"<details>" ++ (a ++ c!"<details>" ++ b ++ c!"</details>" ++ r) := by
    rw [← h]; simp
  rcases split_closed tagOpen hc h' with ⟨a1, h1, h2⟩ | ⟨p', h1, h2⟩
  · obtain ⟨q, q', h3, h4⟩ := hp p a1 h1
    have h5 : q ++ '<' :: (c!"/details>" ++ q' ++ y) = a ++ c!"<details>" ++ (b ++ c!"</details>" ++ r) := by
      have : a ++ c!"<details>" ++ (b ++ c!"</details>" ++ r) = a ++ c!"<details>" ++ b ++ c!"</details>" ++ r := by simp
      rw [this, h2, h3]
      simp
    rcases split_lt tagOpen h5 with ⟨y2, h6, _⟩ | ⟨p', h6, h7⟩
    · exact absurd ⟨a, y2, h6.symm⟩ h4
    · have h7' : c!"</details>" ++ (q' ++ y) = p' ++ c!"<details>" ++ (b ++ c!"</details>" ++ r) := by
        rw [← h7]; simp
      rcases split_closed tagOpen (.tag tagClose) h7' with ⟨z, h8, _⟩ | ⟨p2, h8, _⟩
      · exact absurd (show c!"<details>" <:+: c!"</details>" from ⟨p', z, h8.symm⟩) (by decide)
      · exact ⟨q, p2, by rw [h6, h8]; simp⟩
  · exact absurd ⟨p' ++ c!"<details>" ++ a ++ c!"<details>" ++ b, r, by rw [h2]; simp⟩ hy

/-- The text a details block gets as its content when the loop exits has no nested details: `pre` is what the loop had
read when it went on, `x` what it has read since. -/
theorem detailsLoop_flat (start : Str) : ∀ (fuel : Nat) (pre x s : Str) (res : Str × Str),
    start = pre ++ (x ++ c!"</details>") ++ s → Closed pre → Paired pre →
    occ c!"<details>" pre = occ c!"</details>" pre → ¬ c!"</details>" <:+: x →
    detailsLoop start fuel s = .ok res → Flat ((stripSuffix c!"</details>" res.1).getD []) := by
  intro fuel
  induction fuel with
  | zero =>
    intro pre x s res hs hcl hpr hcnt hx h
    unfold detailsLoop at h
    have e : slice start s = pre ++ (x ++ c!"</details>") := by rw [hs]; exact slice_append _ s
    simp only [e] at h
    split at h
    · injection h with h
      subst h
      have : stripSuffix c!"</details>" (pre ++ (x ++ c!"</details>")) = some (pre ++ x) := by
        rw [← List.append_assoc]
        exact stripSuffix_append _ _
      simp only [this, Option.getD_some]
      exact .of_paired hpr hcl hx
    · cases h
  | succ fuel ih =>
    intro pre x s res hs hcl hpr hcnt hx h
    unfold detailsLoop at h
    have e : slice start s = pre ++ (x ++ c!"</details>") := by rw [hs]; exact slice_append _ s
    simp only [e, countStr_tag tagOpen, countStr_tag tagClose] at h
    split at h
    · injection h with h
      subst h
      have : stripSuffix c!"</details>" (pre ++ (x ++ c!"</details>")) = some (pre ++ x) := by
        rw [← List.append_assoc]
        exact stripSuffix_append _ _
      simp only [this, Option.getD_some]
      exact .of_paired hpr hcl hx
    · next hcnt' =>
      have hcnt' := Classical.not_not.mp hcnt'
      have h1 : occ c!"<details>" x = 1 := by
        rw [occ_append tagOpen _ hcl, occ_append tagClose _ hcl, hcnt, occ_append_tag tagOpen tagClose,
          occ_append_tag tagClose tagClose, occ_zero (by simp) hx, occ_self tagClose,
          occ_other tagOpen tagClose (by decide)] at hcnt'
        omega
      have hcl' : Closed (pre ++ (x ++ c!"</details>")) := hcl.append (.append_tag _ tagClose)
      have hpr' := hpr.chunk hcl h1
      split at h
      · cases h
      · rcases untilTail_cases (p := c!"</details>") (by simp) s with ⟨hno, hut⟩ | ⟨x0, y0, hx0, hno, hut⟩
        · rw [hut] at h
          unfold detailsLoop at h
          have e' : slice start [] = start := by unfold slice; simp
          simp only [e'] at h
          have hflat : Flat start := by
            rw [hs]
            exact .of_paired hpr' hcl' hno
          have key : res = (start, []) := by
            split at h
            · injection h with h
              exact h.symm
            · split at h
              · cases h
              · simp at h
          subst key
          exact hflat.infix (stripSuffix_getD_infix _ _)
        · rw [hut] at h
          exact ih _ x0 y0 res (by rw [hs, hx0]; simp) hcl' hpr' hcnt' hno h

/-- The content of a details block, as lexed recursively, has no nested details. -/
theorem details_content_flat (s1 : Str) (res : Str × Str)
    (h : (if contains (untilTail c!"</details>" s1).1 c!"<details>" then
      detailsLoop s1 (untilTail c!"</details>" s1).2.length (untilTail c!"</details>" s1).2
      else .ok ((untilTail c!"</details>" s1).1, (untilTail c!"</details>" s1).2)) = .ok res) :
    Flat ((stripSuffix c!"</details>" res.1).getD []) := by
  split at h
  · rcases untilTail_cases (p := c!"</details>") (by simp) s1 with ⟨hno, hut⟩ | ⟨x0, y0, hx0, hno, hut⟩
    · rw [hut] at h
      have hp := (detailsLoop_ok _ _ _ _ h).2
      exact (Flat.of_no_close hno).infix ((stripSuffix_getD_infix _ _).trans hp.isInfix)
    · rw [hut] at h
      exact detailsLoop_flat s1 _ [] x0 y0 res (by simpa using hx0) .nil .nil rfl hno h
  · next hc =>
    injection h with h
    subst h
    refine .of_no_open (fun hinf => hc (infix_contains ?_))
    exact hinf.trans (stripSuffix_getD_infix _ _)

/-- A details block that contains another opening tag hangs only if what follows its summary is not flat and its closing
tag is missing. -/
theorem detailsLoop_hang {s1 : Str} (hc : contains (untilTail c!"</details>" s1).1 c!"<details>" = true)
    (h : detailsLoop s1 (untilTail c!"</details>" s1).2.length (untilTail c!"</details>" s1).2 = .hang) :
    (∃ a b y, s1 = a ++ c!"<details>" ++ b ++ c!"</details>" ++ y ∧ ¬ c!"</details>" <:+: a) ∧
    ∀ x y, s1 = x ++ c!"</details>" ++ y → occ c!"</details>" x < occ c!"<details>" x := by
  have hinf := contains_infix (by simp) hc
  rcases untilTail_cases (p := c!"</details>") (by simp) s1 with ⟨hno, hut⟩ | ⟨x0, y0, hx0, hno, hut⟩
  · exfalso
    rw [hut] at h hinf
    have := (detailsLoop_hang_iff s1 _ s1 [] (by simp) (by simp)).mp h
    have h1 : occ c!"</details>" s1 = 0 := occ_zero (by simp) hno
    have h2 : 0 < occ c!"<details>" s1 := (occ_pos (by simp)).mpr hinf
    omega
  · rw [hut] at h hinf
    have hh := (detailsLoop_hang_iff s1 _ (x0 ++ c!"</details>") y0 (by simpa using hx0) (Nat.le_refl _)).mp h
    obtain ⟨p, q, hpq⟩ := hinf
    have e : x0 ++ '<' :: c!"/details>" = p ++ c!"<details>" ++ q := hpq.symm
    constructor
    · rcases split_lt tagOpen e with ⟨y2, h1, h2⟩ | ⟨p', _, h2⟩
      · refine ⟨p, y2, y0, by rw [hx0, h1], fun hin => hno ?_⟩
        rw [h1, List.append_assoc]
        exact hin.trans (List.prefix_append _ _).isInfix
      · exact absurd (show c!"<details>" <:+: c!"</details>" from ⟨p', q, h2.symm⟩) (by decide)
    · intro x y hxy
      have key : occ c!"<details>" (x ++ c!"</details>") = occ c!"</details>" (x ++ c!"</details>") := by
        rcases split_tag tagClose (hx0.symm.trans hxy) hno with ⟨rfl, rfl⟩ | ⟨x', rfl, h4⟩
        · exact hh.1.1
        · have := hh.1.2 x' y h4
          simpa using this
      rw [occ_append_tag tagOpen tagClose, occ_append_tag tagClose tagClose, occ_self tagClose,
          occ_other tagOpen tagClose (by decide)] at key
      omega

end Smd.Gfm
