import Verif.Lemmas.Fuel

/-! `lex_heading` on a heading line. -/

namespace Smd.Gfm
open Smd.Rs Smd.Spec

/-- `rest` is empty or starts a new line. -/
def AtEol (rest : Str) : Prop := rest = [] ∨ ∃ r, rest = '\n' :: r

theorem takeWhile_eol {line rest : Str} (hn : '\n' ∉ line) (hr : AtEol rest) :
    (line ++ rest).takeWhile (· != '\n') = line := by
  have hl : ∀ x ∈ line, (x != '\n') = true := by
    intro x hx
    simp
    intro e
    exact hn (e ▸ hx)
  rcases hr with rfl | ⟨r, rfl⟩
  · rw [List.append_nil]; exact takeWhile_all _ _ hl
  · exact takeWhile_append_stop _ _ _ (by simp) _ hl

theorem dropWhile_eol {line rest : Str} (hn : '\n' ∉ line) (hr : AtEol rest) :
    (line ++ rest).dropWhile (· != '\n') = rest := by
  have hl : ∀ x ∈ line, (x != '\n') = true := by
    intro x hx
    simp
    intro e
    exact hn (e ▸ hx)
  rcases hr with rfl | ⟨r, rfl⟩
  · rw [List.append_nil]; exact dropWhile_all _ _ hl
  · exact dropWhile_append_stop _ _ _ (by simp) _ hl

theorem takeWhile_replicate {c d : Char} (n : Nat) (t : Str) (h : d ≠ c) :
    (List.replicate n c ++ d :: t).takeWhile (· == c) = List.replicate n c :=
  takeWhile_append_stop _ _ _ (by simpa using h) _ (by
    intro x hx
    rw [List.mem_replicate] at hx
    simp [hx.2])

theorem dropWhile_replicate {c d : Char} (n : Nat) (t : Str) (h : d ≠ c) :
    (List.replicate n c ++ d :: t).dropWhile (· == c) = d :: t :=
  dropWhile_append_stop _ _ _ (by simpa using h) _ (by
    intro x hx
    rw [List.mem_replicate] at hx
    simp [hx.2])

theorem lexHeading_line (r : Rec) (n : Nat) (sep : Char) (line rest : Str) (h6 : n ≤ 6) (hsep : sep = ' ' ∨ sep = '\t')
    (hn : '\n' ∉ line) (hr : AtEol rest) :
    lexHeading r (List.replicate n '#' ++ sep :: (line ++ rest)) =
      (headingLabel line >>= fun l =>
        if l.all (· == '#') then .ok (.ok (.header n [] none), rest)
        else
          r.render ['#'] (trimEndP (fun c => c == ' ' || c == '\t') (headingTrim l)) >>= fun html =>
          .ok (.ok (.header n (headingPost html) none), rest)) := by
  have hs : sep ≠ '#' := by rcases hsep with rfl | rfl <;> decide
  have hhs : headingSep (sep :: (line ++ rest)) = some (line ++ rest) := by
    rcases hsep with rfl | rfl <;> rfl
  unfold lexHeading
  simp only [takeWhile_replicate n _ hs, dropWhile_replicate n _ hs, List.length_replicate, hhs, takeWhile_eol hn hr,
    dropWhile_eol hn hr]
  rw [if_neg (by omega)]

/-- A heading label as it should be: at the end of the line, and without another `{` before it. -/
def GoodLabel (line : Str) : Prop := ∃ a b, '{' ∉ a ∧ line = a ++ c!"{#" ++ b ++ c!"}"

theorem takeWhile_ne_append {c : Char} {a : Str} (t : Str) (h : c ∉ a) : (a ++ c :: t).takeWhile (· != c) = a :=
  takeWhile_append_stop _ _ _ (by simp) _ (by
    intro x hx
    simp
    intro e
    exact h (e ▸ hx))

theorem dropWhile_ne_append {c : Char} {a : Str} (t : Str) (h : c ∉ a) : (a ++ c :: t).dropWhile (· != c) = c :: t :=
  dropWhile_append_stop _ _ _ (by simp) _ (by
    intro x hx
    simp
    intro e
    exact h (e ▸ hx))

theorem stripPrefix_append (p s : Str) : stripPrefix p (p ++ s) = some s := by
  unfold stripPrefix
  rw [if_pos (List.isPrefixOf_iff_prefix.mpr (List.prefix_append _ _))]
  simp

theorem stripPrefix_none {p s : Str} (h : ¬ p <+: s) : stripPrefix p s = none := by
  unfold stripPrefix
  rw [if_neg (by rw [List.isPrefixOf_iff_prefix]; exact h)]

theorem stripSuffix_none {p s : Str} (h : ¬ p <:+ s) : stripSuffix p s = none := by
  unfold stripSuffix
  rw [if_neg (by rw [List.isSuffixOf_iff_suffix]; exact h)]

theorem splitOnce_append {c : Char} {a : Str} (t : Str) (h : c ∉ a) : splitOnce c (a ++ c :: t) = some (a, t) := by
  unfold splitOnce
  rw [if_pos (by simp), takeWhile_ne_append t h, dropWhile_ne_append t h]
  rfl

theorem headingLabel_good {a b : Str} (h : '{' ∉ a) : headingLabel (a ++ c!"{#" ++ b ++ c!"}") = .ok b := by
  unfold headingLabel
  have e : a ++ c!"{#" ++ b ++ c!"}" = a ++ '{' :: ('#' :: (b ++ c!"}")) := by simp
  rw [if_pos (by
    have : c!"{#" <:+: a ++ c!"{#" ++ b ++ c!"}" := ⟨a, b ++ c!"}", by simp⟩
    rw [infix_contains this]
    simp)]
  rw [e, splitOnce_append _ h]
  simp only [stripPrefix_append]
  have e2 : '{' :: '#' :: (b ++ c!"}") = c!"{#" ++ (b ++ c!"}") := rfl
  rw [e2, stripPrefix_append]
  simp only [stripSuffix_append]

theorem headingLabel_none {line : Str} (h : ¬ c!"{#" <:+: line ∨ '}' ∉ line) : headingLabel line = .ok line := by
  unfold headingLabel
  rw [if_neg]
  intro hc
  have hc : contains line c!"{#" = true ∧ '}' ∈ line := by simpa using hc
  rcases h with h | h
  · exact h (contains_infix (by simp) hc.1)
  · exact h hc.2

theorem headingLabel_bad {line : Str} (h1 : c!"{#" <:+: line) (h2 : '}' ∈ line) (h3 : ¬ GoodLabel line) :
    headingLabel line = .panic := by
  unfold headingLabel
  rw [if_pos (by rw [infix_contains h1]; simpa using h2)]
  have hb : '{' ∈ line := h1.subset (by simp)
  obtain ⟨a, t, rfl, ha⟩ : ∃ a t, line = a ++ '{' :: t ∧ '{' ∉ a := by
    obtain ⟨a, t, h⟩ := List.append_of_mem hb
    refine ⟨line.takeWhile (· != '{'), (line.dropWhile (· != '{')).drop 1, ?_, ?_⟩
    · rcases dropWhile_cases (· != '{') line with ⟨_, h2⟩ | ⟨x, xs, h1, h2⟩
      · have := mem_takeWhile_true (· != '{') line '{' (by rw [h2]; exact hb)
        simp at this
      · have hx : x = '{' := by simpa using h2
        subst hx
        rw [h1]
        simp only [List.drop_succ_cons, List.drop_zero]
        rw [← h1, split_while]
    · intro hm
      have := mem_takeWhile_true _ _ _ hm
      simp at this
  rw [splitOnce_append _ ha]
  simp only [stripPrefix_append]
  by_cases hp : c!"{#" <+: '{' :: t
  · obtain ⟨u, hu⟩ := hp
    have hu' : '{' :: t = c!"{#" ++ u := hu.symm
    rw [hu', stripPrefix_append]
    simp only
    rw [stripSuffix_none]
    rintro ⟨b, hb'⟩
    exact h3 ⟨a, b, ha, by rw [hu', ← hb']; simp⟩
  · rw [stripPrefix_none hp]

/-- When `lex_heading` panics. -/
theorem headingLabel_panic_iff (line : Str) :
    headingLabel line = .panic ↔ c!"{#" <:+: line ∧ '}' ∈ line ∧ ¬ GoodLabel line := by
  constructor
  · intro h
    have hf : (headingLabel line).fail = some .panic := by rw [h]; rfl
    obtain ⟨_, h1, h2⟩ := headingLabel_fail hf
    refine ⟨contains_infix (by simp) h1, h2, ?_⟩
    rintro ⟨a, b, ha, rfl⟩
    rw [headingLabel_good ha] at h
    cases h
  · rintro ⟨h1, h2, h3⟩
    exact headingLabel_bad h1 h2 h3

theorem nextToken_hash {r : Rec} {ig : List Char} {last : Option Token} {s : Str} (h : ig.contains '#' = false) :
    nextToken r ig last ('#' :: s) =
      (lexHeading r ('#' :: s) >>= fun res => .ok (some (resToken res.1, res.2))) := by
  unfold nextToken lexDispatch
  dsimp only
  rw [if_pos ⟨rfl, h⟩]

end Smd.Gfm
