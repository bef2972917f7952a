import Verif.Gfm.Render
import Verif.Spec.Renaming

/-! Every function of the lexer and the parser commutes with renaming characters without a meaning. -/

namespace Smd.Gfm
open Smd.Rs Smd.Spec

variable {f : Char → Char}

/-- A renaming, as a class for the simplifier. -/
class Ren (f : Char → Char) : Prop where
  out : Renaming f

/-- A text of characters that keep their name. -/
def Kept (p : Str) : Prop := ∀ c ∈ p, ¬ Free c

instance (p : Str) : Decidable (Kept p) := inferInstanceAs (Decidable (∀ c ∈ p, ¬ Free c))

theorem ren_eq [hf : Ren f] {k : Char} (hk : ¬ Free k) (c : Char) : f c = k ↔ c = k := by
  constructor
  · intro h
    by_cases hc : Free c
    · exact absurd (h ▸ hf.out.free c hc) hk
    · rw [← h, hf.out.fixes c hc]
  · rintro rfl; exact hf.out.fixes _ hk

theorem ren_beq [hf : Ren f] {k : Char} (hk : ¬ Free k) (c : Char) : (f c == k) = (c == k) := by
  rw [Bool.eq_iff_iff]; simp [ren_eq hk]

theorem ren_bne [hf : Ren f] {k : Char} (hk : ¬ Free k) (c : Char) : (f c != k) = (c != k) := by
  simp [bne, ren_beq hk]

theorem isWs_free {c : Char} (h : Free c) : isWs c = false := by
  rcases h with h | h
  · exact h.2.1
  · revert c; decide

theorem ren_ws [hf : Ren f] (c : Char) : isWs (f c) = isWs c := by
  by_cases hc : Free c
  · rw [isWs_free hc, isWs_free (hf.out.free c hc)]
  · rw [hf.out.fixes c hc]

theorem ren_kept [hf : Ren f] {p : Str} (h : Kept p) : p.map f = p :=
  (List.map_congr_left fun c hc => hf.out.fixes c (h c hc)).trans (List.map_id' p)

theorem ren_takeWhile {p : Char → Bool} (h : ∀ c, p (f c) = p c) (s : Str) :
    (s.map f).takeWhile p = (s.takeWhile p).map f := by
  rw [List.takeWhile_map]; congr 1; congr 1; funext c; exact h c

theorem ren_dropWhile {p : Char → Bool} (h : ∀ c, p (f c) = p c) (s : Str) :
    (s.map f).dropWhile p = (s.dropWhile p).map f := by
  rw [List.dropWhile_map]; congr 1; congr 1; funext c; exact h c

theorem ren_all {p : Char → Bool} (h : ∀ c, p (f c) = p c) (s : Str) : (s.map f).all p = s.all p := by
  rw [List.all_map]; congr 1; funext c; exact h c

theorem ren_any {p : Char → Bool} (h : ∀ c, p (f c) = p c) (s : Str) : (s.map f).any p = s.any p := by
  rw [List.any_map]; congr 1; funext c; exact h c

theorem ren_contains [hf : Ren f] {k : Char} (hk : ¬ Free k) (s : Str) : (s.map f).contains k = s.contains k := by
  induction s with
  | nil => rfl
  | cons c s ih =>
    have : (k == f c) = (k == c) := by
      rw [Bool.eq_iff_iff]; simp [eq_comm (a := k), ren_eq hk]
    simp only [List.map_cons, List.contains_cons, ih, this]

theorem ren_head [hf : Ren f] {k : Char} (hk : ¬ Free k) (s : Str) :
    ((s.map f).head? = some k) = (s.head? = some k) := by
  cases s <;> simp [ren_eq hk]

theorem ren_text [hf : Ren f] {p : Str} (h : Kept p) (s : Str) : (s.map f = p) = (s = p) := by
  induction p generalizing s with
  | nil => simp
  | cons c p ih =>
    cases s with
    | nil => simp
    | cons x s =>
      simp only [List.map_cons, List.cons.injEq, ren_eq (h c (by simp)), ih (fun c hc => h c (by simp [hc]))]

theorem ren_prefix [hf : Ren f] {p : Str} (h : Kept p) (s : Str) :
    p.isPrefixOf (s.map f) = p.isPrefixOf s := by
  induction p generalizing s with
  | nil => simp
  | cons c p ih =>
    cases s with
    | nil => simp
    | cons x s =>
      have : (c == f x) = (c == x) := by
        rw [Bool.eq_iff_iff]; simp [eq_comm (a := c), ren_eq (h c (by simp))]
      simp only [List.map_cons, List.isPrefixOf, ih (fun c hc => h c (by simp [hc])), this]

theorem ren_suffix [hf : Ren f] {p : Str} (h : Kept p) (s : Str) :
    p.isSuffixOf (s.map f) = p.isSuffixOf s := by
  unfold List.isSuffixOf
  rw [← List.map_reverse]
  exact ren_prefix (fun c hc => h c (by simpa using hc)) _

theorem ren_startsWith [hf : Ren f] {p : Str} (h : Kept p) (s : Str) :
    startsWith (s.map f) p = startsWith s p := ren_prefix h s

theorem ren_endsWith [hf : Ren f] {p : Str} (h : Kept p) (s : Str) :
    endsWith (s.map f) p = endsWith s p := ren_suffix h s

theorem ren_stripPrefix [hf : Ren f] {p : Str} (h : Kept p) (s : Str) :
    stripPrefix p (s.map f) = (stripPrefix p s).map (List.map f) := by
  unfold stripPrefix
  rw [ren_prefix h]
  split <;> simp [List.map_drop]

theorem ren_stripSuffix [hf : Ren f] {p : Str} (h : Kept p) (s : Str) :
    stripSuffix p (s.map f) = (stripSuffix p s).map (List.map f) := by
  unfold stripSuffix
  rw [ren_suffix h]
  split <;> simp [List.map_take]

theorem ren_trimStartP {p : Char → Bool} (h : ∀ c, p (f c) = p c) (s : Str) :
    trimStartP p (s.map f) = (trimStartP p s).map f := ren_dropWhile h s

theorem ren_trimEndP {p : Char → Bool} (h : ∀ c, p (f c) = p c) (s : Str) :
    trimEndP p (s.map f) = (trimEndP p s).map f := by
  unfold trimEndP
  rw [← List.map_reverse, ren_dropWhile h, List.map_reverse]

theorem ren_trimEnd [hf : Ren f] (s : Str) : trimEnd (s.map f) = (trimEnd s).map f := ren_trimEndP (ren_ws) s

theorem ren_trim [hf : Ren f] (s : Str) : trim (s.map f) = (trim s).map f := by
  unfold trim
  rw [ren_trimStartP (ren_ws), ren_trimEndP (ren_ws)]

theorem ren_trimEndStr [hf : Ren f] {p : Str} (h : Kept p) (s : Str) :
    trimEndStr p (s.map f) = (trimEndStr p s).map f := by
  unfold trimEndStr
  rw [List.length_map]
  generalize s.length = n
  induction n generalizing s with
  | zero => rfl
  | succ n ih =>
    simp only [trimEndStrGo, ren_suffix h, List.length_map, ← List.map_take, ih]
    split <;> rfl

theorem ren_containsStr [hf : Ren f] {p : Str} (h : Kept p) (s : Str) :
    Rs.contains (s.map f) p = Rs.contains s p := by
  induction s with
  | nil => rfl
  | cons c s ih =>
    have := ren_prefix (f := f) h (c :: s)
    simp only [List.map_cons] at this
    simp only [List.map_cons, Rs.contains, this, ih]

theorem ren_consHead (c : Char) (l : List Str) : consHead (f c) (l.map (List.map f)) = (consHead c l).map (List.map f) := by
  cases l <;> rfl

theorem ren_splitStr [hf : Ren f] {p : Str} (h : Kept p) (s : Str) :
    splitStr p (s.map f) = (splitStr p s).map (List.map f) := by
  unfold splitStr
  generalize 0 = k
  induction s generalizing k with
  | nil => cases k <;> rfl
  | cons c s ih =>
    cases k with
    | succ k => simp only [List.map_cons, splitGo, ih]
    | zero =>
      have := ren_prefix (f := f) h (c :: s)
      simp only [List.map_cons] at this
      simp only [List.map_cons, splitGo, this, ih, ren_consHead]
      split <;> rfl

theorem ren_countStr [hf : Ren f] {p : Str} (h : Kept p) (s : Str) :
    countStr p (s.map f) = countStr p s := by
  unfold countStr
  generalize 0 = k
  induction s generalizing k with
  | nil => cases k <;> rfl
  | cons c s ih =>
    cases k with
    | succ k => simp only [List.map_cons, countGo, ih]
    | zero =>
      have := ren_prefix (f := f) h (c :: s)
      simp only [List.map_cons] at this
      simp only [List.map_cons, countGo, this, ih]

theorem ren_replaceStr [hf : Ren f] {p r : Str} (h : Kept p) (hr : Kept r) (s : Str) :
    replaceStr p r (s.map f) = (replaceStr p r s).map f := by
  unfold replaceStr
  generalize 0 = k
  induction s generalizing k with
  | nil => cases k <;> rfl
  | cons c s ih =>
    cases k with
    | succ k => simp only [List.map_cons, replaceGo, ih]
    | zero =>
      have := ren_prefix (f := f) h (c :: s)
      simp only [List.map_cons] at this
      simp only [List.map_cons, replaceGo, this, ih]
      split
      · simp [ren_kept hr]
      · rfl

theorem ren_replaceC [hf : Ren f] {k : Char} (hk : ¬ Free k) {r : Str} (hr : Kept r) (s : Str) :
    replaceC k r (s.map f) = (replaceC k r s).map f := by
  unfold replaceC
  induction s with
  | nil => rfl
  | cons c s ih =>
    simp only [List.map_cons, List.flatMap_cons, ih, List.map_append, ren_eq hk]
    split
    · rw [ren_kept hr]
    · rfl

theorem ren_splitOnce [hf : Ren f] {k : Char} (hk : ¬ Free k) (s : Str) :
    splitOnce k (s.map f) = (splitOnce k s).map (Prod.map (List.map f) (List.map f)) := by
  unfold splitOnce
  rw [ren_contains hk, ren_takeWhile (ren_bne hk), ren_dropWhile (ren_bne hk), ← List.map_drop]
  split <;> rfl

theorem ren_rsplitOnce [hf : Ren f] {k : Char} (hk : ¬ Free k) (s : Str) :
    rsplitOnce k (s.map f) = (rsplitOnce k s).map (Prod.map (List.map f) (List.map f)) := by
  unfold rsplitOnce
  rw [ren_contains hk, ← List.map_reverse, ren_takeWhile (ren_bne hk), ren_dropWhile (ren_bne hk), ← List.map_drop,
    ← List.map_reverse, ← List.map_reverse]
  split <;> rfl

theorem ren_afterLast [hf : Ren f] {k : Char} (hk : ¬ Free k) (s : Str) :
    afterLast k (s.map f) = (afterLast k s).map (List.map f) := by
  unfold afterLast
  rw [ren_contains hk, ← List.map_reverse, ren_takeWhile (ren_bne hk), ← List.map_reverse]
  split
  · simp [hf.out.fixes k hk]
  · rfl

theorem ren_isAscii [hf : Ren f] (s : Str) : isAscii (s.map f) = isAscii s :=
  ren_all (fun c => by simp [hf.out.ascii c]) s

theorem ren_untilTail [hf : Ren f] {p : Str} (h : Kept p) (s : Str) :
    untilTail p (s.map f) = Prod.map (List.map f) (List.map f) (untilTail p s) := by
  unfold untilTail
  suffices H : ∀ acc : Str, untilTailGo p (acc.map f) (s.map f) = Prod.map (List.map f) (List.map f) (untilTailGo p acc s) from
    H []
  induction s with
  | nil => intro acc; rfl
  | cons c s ih =>
    intro acc
    have := ih (acc ++ [c])
    simp only [List.map_append, List.map_cons, List.map_nil] at this
    simp only [List.map_cons, untilTailGo, ren_suffix h, this]
    split <;> rfl

theorem ren_skipIf [hf : Ren f] {k : Char} (hk : ¬ Free k) (s : Str) : skipIf k (s.map f) = (skipIf k s).map f := by
  cases s with
  | nil => rfl
  | cons c s =>
    simp only [List.map_cons, skipIf, ren_eq hk]
    split <;> rfl

theorem ren_slice (a b : Str) : slice (a.map f) (b.map f) = (slice a b).map f := by
  simp [slice, List.map_take]

theorem ren_lineAhead [hf : Ren f] (s : Str) :
    lineAhead (s.map f) = (lineAhead s).map (Prod.map (List.map f) (List.map f)) := by
  unfold lineAhead
  have hn : ¬ Free '\n' := by decide
  rw [ren_contains hn, ren_takeWhile (ren_bne hn), ren_dropWhile (ren_bne hn), ← List.map_drop]
  split
  · simp [hf.out.fixes _ hn]
  · simp only [List.map_eq_nil_iff]
    split <;> rfl

theorem kept_dec (n : Nat) : Kept (dec n) := by
  intro c hc hfree
  have := Nat.isDigit_of_mem_toDigits (b := 10) (by decide) (by decide) hc
  have hlt : c.toNat < 128 := by
    simp only [Char.isDigit, Bool.and_eq_true, decide_eq_true_eq] at this
    have h2 := this.2
    have : c.val.toNat ≤ 57 := h2
    show c.val.toNat < 128
    omega
  rcases hfree with h | h
  · omega
  · have H : ∀ c ∈ c!"GHKLMQUWYZwz", c.isDigit = false := by decide
    simp [H c h] at this

end Smd.Gfm
