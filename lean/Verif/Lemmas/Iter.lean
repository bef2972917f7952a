import Verif.Gfm.Iter
import Verif.Lemmas.Text

/-! UTF-8 facts and the refinement from the byte iterator to the character cursor. -/

namespace Smd.Gfm.Iter
open Smd.Rs

theorem encChar_shape (c : Char) : ∃ b tl, String.utf8EncodeChar c = b :: tl ∧ tl.length ≤ 3 ∧
    (b.toNat < 128 ∨ 192 ≤ b.toNat) ∧ (∀ x ∈ tl, 128 ≤ x.toNat ∧ x.toNat < 192) := by
  have hv : c.val.toNat < 1114112 := by
    have := c.valid
    simp only [UInt32.isValidChar, Nat.isValidChar] at this
    omega
  unfold String.utf8EncodeChar
  generalize hvv : c.val.toNat = v at *
  simp only
  split
  · refine ⟨_, _, rfl, ?_⟩; simp; omega
  split
  · refine ⟨_, _, rfl, ?_⟩; simp; omega
  split
  · refine ⟨_, _, rfl, ?_⟩; simp; omega
  · refine ⟨_, _, rfl, ?_⟩; simp; omega

theorem uint8_ofNat_inj {a b : Nat} (h : UInt8.ofNat a = UInt8.ofNat b) : a % 256 = b % 256 := by
  have := congrArg UInt8.toNat h
  simpa using this

theorem encChar_inj (c d : Char) (x y : Bytes) (h : String.utf8EncodeChar c ++ x = String.utf8EncodeChar d ++ y) :
    c = d ∧ x = y := by
  have hc : c.val.toNat < 1114112 := by
    have := c.valid
    simp only [UInt32.isValidChar, Nat.isValidChar] at this
    omega
  have hd : d.val.toNat < 1114112 := by
    have := d.valid
    simp only [UInt32.isValidChar, Nat.isValidChar] at this
    omega
  have key : c.val.toNat = d.val.toNat ∧ x = y := by
    unfold String.utf8EncodeChar at h
    generalize c.val.toNat = v at *
    generalize d.val.toNat = w at *
    simp only at h
    split at h <;> (try split at h) <;> (try split at h) <;> (try split at h) <;> (try split at h) <;>
      (try split at h) <;> (try split at h) <;>
      simp only [List.cons_append, List.nil_append, List.cons.injEq] at h
    all_goals
      first
      | (have h1 := uint8_ofNat_inj h.1
         omega)
      | (have h1 := uint8_ofNat_inj h.1
         refine ⟨?_, ?_⟩
         · first
            | omega
            | (have h2 := uint8_ofNat_inj h.2.1
               first
               | omega
               | (have h3 := uint8_ofNat_inj h.2.2.1
                  first
                  | omega
                  | (have h4 := uint8_ofNat_inj h.2.2.2.1
                     omega)))
         · first
            | exact h.2.2.2.2
            | exact h.2.2.2
            | exact h.2.2
            | exact h.2)
  refine ⟨?_, key.2⟩
  apply Char.ext
  exact UInt32.toNat_inj.mp key.1

@[simp] theorem enc_nil : enc [] = [] := rfl
@[simp] theorem enc_cons (c : Char) (s : Str) : enc (c :: s) = String.utf8EncodeChar c ++ enc s := rfl
@[simp] theorem enc_append (a b : Str) : enc (a ++ b) = enc a ++ enc b := by simp [enc]

theorem enc_ne_nil (c : Char) (s : Str) : enc (c :: s) ≠ [] := by
  obtain ⟨b, tl, h, _⟩ := encChar_shape c
  simp [h]

theorem enc_eq_nil {s : Str} (h : enc s = []) : s = [] := by
  cases s with
  | nil => rfl
  | cons c s => exact absurd h (enc_ne_nil c s)

/-- A text is a prefix of another exactly if its bytes are. -/
theorem enc_prefix : ∀ (a b : Str), enc a <+: enc b ↔ a <+: b
  | [], b => by simp
  | c :: a, [] => by
    constructor
    · intro h
      have := List.prefix_nil.mp h
      exact absurd this (enc_ne_nil c a)
    · intro h; exact absurd (List.prefix_nil.mp h) (by simp)
  | c :: a, d :: b => by
    constructor
    · rintro ⟨t, ht⟩
      simp only [enc_cons, List.append_assoc] at ht
      obtain ⟨rfl, h2⟩ := encChar_inj _ _ _ _ ht
      exact List.cons_prefix_cons.mpr ⟨rfl, (enc_prefix a b).mp ⟨t, h2⟩⟩
    · intro h
      obtain ⟨rfl, t, rfl⟩ := List.cons_prefix_cons.mp h
      exact ⟨enc t, by simp⟩

theorem enc_inj {a b : Str} (h : enc a = enc b) : a = b := by
  have h1 : a <+: b := (enc_prefix a b).mp (h ▸ List.prefix_refl _)
  obtain ⟨t, rfl⟩ := h1
  simp at h
  simp [enc_eq_nil h]

/-- A byte that can start a character. -/
def lead (x : UInt8) : Bool := decide (x.toNat < 128) || decide (x.toNat ≥ 192)

/-- A byte position in `enc s` whose byte is a lead byte is the end of a prefix of `s`. -/
theorem lead_pos : ∀ (s : Str) (i : Nat) (x : UInt8), (enc s)[i]? = some x → lead x = true →
    ∃ p q, s = p ++ q ∧ i = (enc p).length
  | [], i, x, h, _ => by simp at h
  | c :: s, i, x, h, hx => by
    obtain ⟨b, tl, hs, _, hb, htl⟩ := encChar_shape c
    by_cases hi : i < (String.utf8EncodeChar c).length
    · cases i with
      | zero => exact ⟨[], c :: s, rfl, rfl⟩
      | succ i =>
        exfalso
        simp only [enc_cons, hs, List.cons_append, List.getElem?_cons_succ] at h
        simp only [hs, List.length_cons] at hi
        have hlt : i < tl.length := by omega
        rw [List.getElem?_append_left hlt, List.getElem?_eq_getElem hlt] at h
        have := htl x (by injection h with h; exact h ▸ List.getElem_mem hlt)
        simp [lead] at hx
        omega
    · have hle : (String.utf8EncodeChar c).length ≤ i := by omega
      rw [enc_cons, List.getElem?_append_right hle] at h
      obtain ⟨p, q, rfl, hi⟩ := lead_pos s _ x h hx
      exact ⟨c :: p, q, rfl, by rw [enc_cons, List.length_append]; omega⟩

/-- Rust's character boundaries are exactly the ends of prefixes made of whole characters. -/
theorem boundary_iff (s : Str) (i : Nat) :
    isBoundary (enc s) i = true ↔ ∃ p q, s = p ++ q ∧ i = (enc p).length := by
  constructor
  · intro h
    unfold isBoundary at h
    split at h
    · next h0 => exact ⟨[], s, rfl, by simp [h0]⟩
    · split at h
      · next h1 => exact ⟨s, [], by simp, by simpa using h⟩
      · next h1 =>
        split at h
        · next x hx => exact lead_pos s i x hx (by simpa [lead] using h)
        · simp at h
  · rintro ⟨p, q, rfl, rfl⟩
    unfold isBoundary
    split
    · rfl
    · split
      · next h1 h2 => 
        rw [enc_append, List.length_append] at h2 ⊢
        have : (enc q).length = 0 := by omega
        simp [this]
      · next h1 h2 =>
        cases q with
        | nil => simp at h2
        | cons c q =>
          obtain ⟨b, tl, hs, _, hb, htl⟩ := encChar_shape c
          have : (enc (p ++ c :: q))[(enc p).length]? = some b := by
            simp [hs]
          rw [this]
          simp
          omega

/-- The iterator over `pre ++ rest` standing between `pre` and `rest`. -/
def cur (pre rest : Str) : MdIter := ⟨enc (pre ++ rest), (enc pre).length⟩

theorem boundary_cur (pre rest : Str) : isBoundary (enc (pre ++ rest)) (enc pre).length = true :=
  (boundary_iff _ _).mpr ⟨pre, rest, rfl, rfl⟩

theorem getRange_cur (pre mid rest : Str) :
    getRange (enc (pre ++ (mid ++ rest))) (enc pre).length (enc (pre ++ mid)).length = some (enc mid) := by
  unfold getRange
  have h1 := boundary_cur pre (mid ++ rest)
  have h2 := boundary_cur (pre ++ mid) rest
  rw [List.append_assoc] at h2
  rw [if_pos ⟨by simp, h1, h2⟩]
  simp

theorem not_boundary (pre rest : Str) (c : Char) (i : Nat) (h0 : 0 < i) (hi : i < (String.utf8EncodeChar c).length) :
    isBoundary (enc (pre ++ c :: rest)) ((enc pre).length + i) = false := by
  obtain ⟨b, tl, hs, _, hb, htl⟩ := encChar_shape c
  unfold isBoundary
  rw [if_neg (by omega)]
  rw [if_neg (by rw [enc_append, enc_cons, List.length_append, List.length_append]; omega)]
  obtain ⟨j, rfl⟩ : ∃ j, i = j + 1 := ⟨i - 1, by omega⟩
  rw [hs, List.length_cons] at hi
  have hj : j < tl.length := by omega
  have : (enc (pre ++ c :: rest))[(enc pre).length + (j + 1)]? = some tl[j] := by
    rw [enc_append, List.getElem?_append_right (by omega), enc_cons, hs]
    simp [List.getElem?_append_left hj]
  rw [this]
  have := htl _ (List.getElem_mem hj)
  simp
  omega

theorem stepLen_cons (pre rest : Str) (c : Char) :
    stepLen (cur pre (c :: rest)) = some (String.utf8EncodeChar c).length := by
  have hyes : isBoundary (enc (pre ++ c :: rest)) ((enc pre).length + (String.utf8EncodeChar c).length) = true := by
    have := boundary_cur (pre ++ [c]) rest
    simpa [-String.length_utf8EncodeChar] using this
  have hno := not_boundary pre rest c
  obtain ⟨b, tl, hs, hl, hb, htl⟩ := encChar_shape c
  have hlen : (String.utf8EncodeChar c).length = tl.length + 1 := by rw [hs]; rfl
  rw [hlen] at hyes hno ⊢
  generalize tl.length = k at *
  unfold stepLen cur
  simp only
  match k, hl with
  | 0, _ => simp only [List.find?]; rw [hyes]
  | 1, _ => simp only [List.find?]; rw [hno 1 (by omega) (by omega), hyes]
  | 2, _ => simp only [List.find?]; rw [hno 1 (by omega) (by omega), hno 2 (by omega) (by omega), hyes]
  | 3, _ =>
    simp only [List.find?]
    rw [hno 1 (by omega) (by omega), hno 2 (by omega) (by omega), hno 3 (by omega) (by omega), hyes]

theorem stepLen_nil (pre : Str) : stepLen (cur pre []) = none := by
  unfold stepLen cur
  rw [List.find?_eq_none]
  intro i hi
  have : 1 ≤ i := by simp at hi; omega
  unfold isBoundary
  rw [if_neg (by omega), if_pos (by simp)]
  simp
  omega

theorem peek_cons (pre rest : Str) (c : Char) : peek (cur pre (c :: rest)) = some (enc [c]) := by
  unfold peek
  rw [stepLen_cons]
  have := getRange_cur pre [c] rest
  simpa [cur, -String.length_utf8EncodeChar] using this

theorem peek_nil (pre : Str) : peek (cur pre []) = none := by
  unfold peek
  rw [stepLen_nil]

theorem next_cons (pre rest : Str) (c : Char) :
    next (cur pre (c :: rest)) = (some (enc [c]), cur (pre ++ [c]) rest) := by
  unfold next
  rw [stepLen_cons]
  have := getRange_cur pre [c] rest
  simpa [cur, -String.length_utf8EncodeChar] using this

theorem next_nil (pre : Str) : next (cur pre []) = (none, cur pre []) := by
  unfold next
  rw [stepLen_nil]

theorem length_le_enc : ∀ s : Str, s.length ≤ (enc s).length
  | [] => by simp
  | c :: s => by
    obtain ⟨b, tl, hs, _⟩ := encChar_shape c
    have := length_le_enc s
    rw [enc_cons, List.length_append, hs]
    simp
    omega

theorem length_le_bytes (pre rest : Str) : rest.length ≤ (cur pre rest).bytes.length := by
  have := length_le_enc rest
  simp [cur]
  omega

theorem whileGo_cur (f : Bytes → Bool) : ∀ (n : Nat) (pre rest : Str), rest.length ≤ n →
    whileGo f n (cur pre rest) =
      cur (pre ++ rest.takeWhile (fun c => f (enc [c]))) (rest.dropWhile (fun c => f (enc [c])))
  | 0, pre, rest, h => by
    have : rest = [] := List.length_eq_zero_iff.mp (by omega)
    subst this
    simp [whileGo]
  | n + 1, pre, [], h => by
    simp [whileGo, peek_nil]
  | n + 1, pre, c :: rest, h => by
    unfold whileGo
    rw [peek_cons]
    simp only
    by_cases hf : f (enc [c]) = true
    · rw [if_pos hf, next_cons]
      simp only
      rw [whileGo_cur f n (pre ++ [c]) rest (by simpa using h)]
      rw [List.takeWhile_cons, List.dropWhile_cons]
      simp [hf, -enc_cons]
    · rw [if_neg hf, List.takeWhile_cons, List.dropWhile_cons]
      simp [hf, -enc_cons]

theorem consumeWhile_cur (f : Bytes → Bool) (pre rest : Str) :
    consumeWhile f (cur pre rest) = (some (enc (rest.takeWhile (fun c => f (enc [c])))),
      cur (pre ++ rest.takeWhile (fun c => f (enc [c]))) (rest.dropWhile (fun c => f (enc [c])))) := by
  unfold consumeWhile
  simp only
  rw [whileGo_cur f _ pre rest (length_le_bytes pre rest)]
  have := getRange_cur pre (rest.takeWhile (fun c => f (enc [c]))) (rest.dropWhile (fun c => f (enc [c])))
  rw [List.takeWhile_append_dropWhile] at this
  simp only [cur, this]

/-- A text is a suffix of another exactly if its bytes are. -/
theorem enc_suffix (a b : Str) : enc a <:+ enc b ↔ a <:+ b := by
  constructor
  · rintro ⟨t, ht⟩
    cases a with
    | nil => exact List.nil_suffix
    | cons c a =>
      obtain ⟨x, tl, hs, _, hx, _⟩ := encChar_shape c
      have hlead : lead x = true := by simp [lead]; omega
      have hpos : (enc b)[t.length]? = some x := by
        rw [← ht, enc_cons, hs]; simp
      obtain ⟨p, q, rfl, hp⟩ := lead_pos b t.length x hpos hlead
      rw [enc_append] at ht
      have h2 := (List.append_inj ht hp).2
      exact ⟨p, by rw [enc_inj h2]⟩
  · rintro ⟨t, rfl⟩
    exact ⟨enc t, by simp⟩

theorem tailGo_cur (tail : Str) : ∀ (n : Nat) (pre acc rest : Str), rest.length ≤ n →
    tailGo (enc tail) (enc pre).length n (cur (pre ++ acc) rest) =
      cur (pre ++ (untilTailGo tail acc rest).1) (untilTailGo tail acc rest).2
  | 0, pre, acc, rest, h => by
    have : rest = [] := List.length_eq_zero_iff.mp (by omega)
    subst this
    simp [tailGo, untilTailGo]
  | n + 1, pre, acc, [], h => by
    simp [tailGo, peek_nil, untilTailGo]
  | n + 1, pre, acc, c :: rest, h => by
    unfold tailGo
    rw [peek_cons]
    simp only
    have hr : getRange (cur (pre ++ acc) (c :: rest)).bytes (enc pre).length (cur (pre ++ acc) (c :: rest)).index =
        some (enc acc) := by
      have := getRange_cur pre acc (c :: rest)
      simpa only [cur, List.append_assoc] using this
    rw [hr]
    simp only [Option.getD_some]
    have hiff : (enc tail).isSuffixOf (enc acc) = tail.isSuffixOf acc := by
      rw [Bool.eq_iff_iff, List.isSuffixOf_iff_suffix, List.isSuffixOf_iff_suffix]
      exact enc_suffix tail acc
    simp only [hiff]
    unfold untilTailGo
    by_cases ht : tail.isSuffixOf acc = true
    · simp [ht]
    · rw [if_neg ht, if_neg ht, next_cons]
      simp only
      rw [List.append_assoc, tailGo_cur tail n pre (acc ++ [c]) rest (by simpa using h)]

theorem untilTailGo_append (tail : Str) : ∀ (acc rest : Str),
    (untilTailGo tail acc rest).1 ++ (untilTailGo tail acc rest).2 = acc ++ rest
  | acc, [] => by simp [untilTailGo]
  | acc, c :: rest => by
    unfold untilTailGo
    split
    · rfl
    · rw [untilTailGo_append tail (acc ++ [c]) rest]; simp

theorem consumeUntilTail_cur (tail pre rest : Str) :
    consumeUntilTail (enc tail) (cur pre rest) =
      (some (enc (untilTail tail rest).1), cur (pre ++ (untilTail tail rest).1) (untilTail tail rest).2) := by
  unfold consumeUntilTail
  have h := tailGo_cur tail (cur pre rest).bytes.length pre [] rest (length_le_bytes pre rest)
  rw [List.append_nil] at h
  have h' : tailGo (enc tail) (cur pre rest).index (cur pre rest).bytes.length (cur pre rest) =
      cur (pre ++ (untilTail tail rest).1) (untilTail tail rest).2 := h
  simp only
  rw [h']
  have := getRange_cur pre (untilTail tail rest).1 (untilTail tail rest).2
  have e := untilTailGo_append tail [] rest
  simp only [List.nil_append] at e
  unfold untilTail at *
  rw [e] at this
  simp only [cur, this]

theorem skipWhile_cur (f : Bytes → Bool) (pre rest : Str) :
    skipWhile f (cur pre rest) =
      cur (pre ++ rest.takeWhile (fun c => f (enc [c]))) (rest.dropWhile (fun c => f (enc [c]))) :=
  whileGo_cur f _ pre rest (length_le_bytes pre rest)

theorem enc_single_inj (c d : Char) : enc [c] = enc [d] ↔ c = d := by
  constructor
  · intro h; simpa using enc_inj h
  · intro h; rw [h]

theorem nextIfEq_cur (c : Char) (pre rest : Str) :
    nextIfEq (enc [c]) (cur pre rest) =
      if rest.head? = some c then (some (enc [c]), cur (pre ++ [c]) (rest.drop 1)) else (none, cur pre rest) := by
  unfold nextIfEq
  cases rest with
  | nil => simp [peek_nil]
  | cons d rest =>
    rw [peek_cons, next_cons]
    by_cases h : d = c
    · subst h; simp
    · have : ¬ enc [d] = enc [c] := fun e => h ((enc_single_inj d c).mp e)
      simp only [Option.some.injEq, if_neg this, List.head?_cons, if_neg h]

theorem enc_newline : enc ['\n'] = [10] := by decide

theorem findBytes_nl : ∀ s : Str, findBytes [10] (enc s) =
    if '\n' ∈ s then some (enc (s.takeWhile (· != '\n'))).length else none
  | [] => by simp [findBytes]
  | c :: s => by
    by_cases hc : c = '\n'
    · subst hc
      have : enc ('\n' :: s) = 10 :: enc s := by
        have := enc_append ['\n'] s
        rw [enc_newline] at this
        exact this
      rw [this]
      simp [findBytes]
    · obtain ⟨b, tl, hs, _, hb, htl⟩ := encChar_shape c
      have hb10 : ∀ x ∈ String.utf8EncodeChar c, x ≠ 10 := by
        intro x hx h10
        subst h10
        rw [hs] at hx
        rcases List.mem_cons.mp hx with h | h
        · -- the first byte is 10, so the character is a newline
          have h1 : String.utf8EncodeChar c ++ [] = b :: tl := by simp [hs]
          have : enc ['\n'] <+: enc [c] := by rw [enc_newline]; simp [hs, ← h]
          have := (enc_prefix _ _).mp this
          simp at this
          exact hc this.symm
        · have := htl _ h
          simp at this
      have step : ∀ (xs ys : Bytes), (∀ x ∈ xs, x ≠ 10) →
          findBytes [10] (xs ++ ys) = (findBytes [10] ys).map (· + xs.length) := by
        intro xs
        induction xs with
        | nil => intro ys _; simp
        | cons x xs ih =>
          intro ys hx
          have hx1 : x ≠ 10 := hx x (by simp)
          simp only [List.cons_append, findBytes]
          rw [if_neg (by simp [hx1.symm]), ih ys (fun y hy => hx y (by simp [hy]))]
          cases findBytes [10] ys <;> simp
          omega
      rw [enc_cons, step _ _ hb10, findBytes_nl s, List.takeWhile_cons]
      have : ¬ '\n' = c := fun h => hc h.symm
      by_cases hm : '\n' ∈ s
      · simp [hm, hc, -String.length_utf8EncodeChar]; omega
      · simp [hm, this]

theorem findNext_cur (pre rest : Str) : findNext [10] (cur pre rest) =
    .ok (if '\n' ∈ rest then some (enc (rest.takeWhile (· != '\n'))).length else none) := by
  unfold findNext
  have hb := boundary_cur pre rest
  rw [if_pos ⟨by simp [cur], hb⟩]
  have : (cur pre rest).bytes.drop (cur pre rest).index = enc rest := by simp [cur]
  rw [this, findBytes_nl]

theorem peekLine_cur (pre rest : Str) : peekLine (cur pre rest) = .ok ((lineAhead rest).map (fun r => enc r.1)) := by
  unfold peekLine
  rw [findNext_cur]
  by_cases hm : '\n' ∈ rest
  · simp only [hm, if_true, Outcome.ok_bind, lineAhead, List.contains_iff_mem, Option.map_some]
    have e := split_line rest hm
    have := getRange_cur pre (rest.takeWhile (· != '\n') ++ ['\n']) ((rest.dropWhile (· != '\n')).drop 1)
    rw [← e] at this
    rw [← this]
    simp [cur, enc_newline, Nat.add_assoc, -enc_cons]
  · simp only [hm, if_false, Outcome.ok_bind, lineAhead, List.contains_iff_mem]
    cases rest with
    | nil => simp [peek_nil]
    | cons c rest =>
      rw [peek_cons]
      have := getRange_cur pre (c :: rest) []
      rw [List.append_nil] at this
      have hl : (enc (pre ++ c :: rest)).length - 1 + 1 = (enc (pre ++ c :: rest)).length := by
        have := length_le_enc (pre ++ c :: rest)
        simp only [List.length_append, List.length_cons] at this
        omega
      simp only [cur, hl, this]
      simp

theorem consumeLine_cur (pre rest : Str) : consumeLine (cur pre rest) =
    .ok (match lineAhead rest with
      | some (l, rest') => (some (enc l), cur (pre ++ l) rest')
      | none => (none, cur pre rest)) := by
  unfold consumeLine
  rw [findNext_cur]
  by_cases hm : '\n' ∈ rest
  · simp only [hm, if_true, Outcome.ok_bind, lineAhead, List.contains_iff_mem]
    have e := split_line rest hm
    have := getRange_cur pre (rest.takeWhile (· != '\n') ++ ['\n']) ((rest.dropWhile (· != '\n')).drop 1)
    rw [← e] at this
    have hb : (cur (pre ++ (rest.takeWhile (· != '\n') ++ ['\n'])) ((rest.dropWhile (· != '\n')).drop 1)).bytes =
        (cur pre rest).bytes := by
      simp only [cur]
      rw [List.append_assoc, ← e]
    have hi : (cur (pre ++ (rest.takeWhile (· != '\n') ++ ['\n'])) ((rest.dropWhile (· != '\n')).drop 1)).index =
        (cur pre rest).index + (enc (rest.takeWhile (· != '\n'))).length + 1 := by
      simp [cur, enc_newline, Nat.add_assoc, -enc_cons]
    rw [← hi]
    have h3 : getRange (cur pre rest).bytes (cur pre rest).index
        (cur (pre ++ (rest.takeWhile (· != '\n') ++ ['\n'])) ((rest.dropWhile (· != '\n')).drop 1)).index =
        some (enc (rest.takeWhile (· != '\n') ++ ['\n'])) := this
    rw [h3, ← hb]
  · simp only [hm, if_false, Outcome.ok_bind, lineAhead, List.contains_iff_mem]
    cases rest with
    | nil => simp [peek_nil]
    | cons c rest =>
      rw [peek_cons]
      have := getRange_cur pre (c :: rest) []
      rw [List.append_nil] at this
      have hl : (enc (pre ++ c :: rest)).length - 1 + 1 = (enc (pre ++ c :: rest)).length := by
        have := length_le_enc (pre ++ c :: rest)
        simp only [List.length_append, List.length_cons] at this
        omega
      simp only [cur, hl, this]
      simp

/-- `consume_until_tail_is` stops at the first prefix that ends with the tail. -/
theorem untilTailGo_spec (tail : Str) : ∀ (acc rest : Str), (∀ a', a' <+: acc → a' ≠ acc → ¬ tail <:+ a') →
    ((untilTailGo tail acc rest).2 ≠ [] → tail <:+ (untilTailGo tail acc rest).1) ∧
    (∀ a', a' <+: (untilTailGo tail acc rest).1 → a' ≠ (untilTailGo tail acc rest).1 → ¬ tail <:+ a')
  | acc, [], h => by simpa [untilTailGo] using h
  | acc, c :: rest, h => by
    unfold untilTailGo
    by_cases ht : tail.isSuffixOf acc = true
    · rw [if_pos ht]
      exact ⟨fun _ => List.isSuffixOf_iff_suffix.mp ht, h⟩
    · rw [if_neg ht]
      apply untilTailGo_spec tail (acc ++ [c]) rest
      intro a' ha' hne hs
      rcases List.prefix_concat_iff.mp ha' with h1 | h1
      · exact hne h1
      · by_cases he : a' = acc
        · subst he; exact ht (List.isSuffixOf_iff_suffix.mpr hs)
        · exact h a' h1 he hs

end Smd.Gfm.Iter
