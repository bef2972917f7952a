import Verif.Spec.Url
import Verif.App.Run

/-! Output paths and file URLs. -/

namespace Smd.App
open Smd.Core Smd.Rs Smd.Spec

theorem rsplitOnce_last {c : Char} (a : Str) {b : Str} (h : c ∉ b) : rsplitOnce c (a ++ c :: b) = some (a, b) := by
  unfold rsplitOnce
  have hb : ∀ x ∈ b.reverse, (x != c) = true := fun x hx => by
    rw [bne_iff_ne]
    exact fun e => h (e ▸ List.mem_reverse.mp hx)
  have e : (a ++ c :: b).reverse = b.reverse ++ c :: a.reverse := by simp
  rw [if_pos (by simp), e, List.dropWhile_append_of_pos hb, List.takeWhile_append_of_pos hb]
  simp

theorem fileStem_ext {stem ext : Str} (hs : stem ≠ []) (he : '.' ∉ ext) (hd : stem ++ '.' :: ext ≠ c!"..") :
    fileStem (stem ++ '.' :: ext) = stem := by
  unfold fileStem
  rw [if_neg hd, rsplitOnce_last stem he]
  simp only [if_neg hs]

theorem fileStem_plain {name : Str} (h : '.' ∉ name) : fileStem name = name := by
  unfold fileStem rsplitOnce
  rw [if_neg (fun e => h (by rw [e]; simp)), if_neg (by simpa using h)]

theorem fileStem_hidden {name : Str} (h : '.' ∉ name) : fileStem ('.' :: name) = '.' :: name := by
  unfold fileStem
  rw [show '.' :: name = [] ++ '.' :: name from rfl, rsplitOnce_last [] h]
  simp

theorem fileStem_iff {n s : Str} : fileStem n = s ↔ Stem n s := by
  constructor
  · rintro rfl
    by_cases hp : n = c!".."
    · subst hp
      exact .parent
    · by_cases hm : '.' ∈ n
      · obtain ⟨a, b, rfl, hb⟩ : ∃ a b, n = a ++ '.' :: b ∧ '.' ∉ b := by
          obtain ⟨b, a, h, hb⟩ := List.eq_append_cons_of_mem (List.mem_reverse.mpr hm)
          refine ⟨a.reverse, b.reverse, ?_, fun h => hb (List.mem_reverse.mp h)⟩
          rw [← List.reverse_reverse n, h]
          simp
        by_cases ha : a = []
        · subst ha
          rw [List.nil_append, fileStem_hidden hb]
          exact .hidden b hb
        · rw [fileStem_ext ha hb hp]
          exact .ext a b ha hb hp
      · rw [fileStem_plain hm]
        exact .plain n hm
  · intro h
    cases h with
    | ext s e hs he hd => exact fileStem_ext hs he hd
    | plain s hs => exact fileStem_plain hs
    | hidden s hs => exact fileStem_hidden hs
    | parent => rfl

theorem setExtension_append (ext : Str) (dir : Path) (name : Str) : setExtension ext (dir ++ [name]) = dir ++ [fileStem name ++ '.' :: ext] := by
  unfold setExtension
  simp

/-! ### URLs -/

theorem segments_ne (s : Str) : segments s ≠ [] := by
  cases s with
  | nil => simp [segments]
  | cons c s =>
    unfold segments
    split
    · simp
    · split <;> simp

theorem segments_name {a : Str} (h : ∀ c ∈ a, c ≠ '/' ∧ c ≠ '\\') : ∀ (s : Str), ∃ b bs, segments s = b :: bs ∧ segments (a ++ s) = (a ++ b) :: bs := by
  induction a with
  | nil =>
    intro s
    cases hs : segments s with
    | nil => exact absurd hs (segments_ne s)
    | cons b bs => exact ⟨b, bs, rfl, hs⟩
  | cons c a ih =>
    intro s
    obtain ⟨b, bs, h1, h2⟩ := ih (fun c hc => h c (List.mem_cons_of_mem _ hc)) s
    refine ⟨b, bs, h1, ?_⟩
    have hc := h c List.mem_cons_self
    show segments (c :: (a ++ s)) = _
    unfold segments
    rw [if_neg (fun e => e.elim hc.1 hc.2), h2]
    rfl

theorem segments_path : ∀ {p : Path} {c : Str}, (∀ ch ∈ c, ch ≠ '/' ∧ ch ≠ '\\') → (∀ d ∈ p, ∀ ch ∈ d, ch ≠ '/' ∧ ch ≠ '\\') →
    segments (c ++ pathStr p) = c :: p
  | [], c, hc, _ => by
    obtain ⟨b, bs, h1, h2⟩ := segments_name hc []
    rw [show pathStr [] = ([] : Str) from rfl, h2]
    simp only [segments] at h1
    obtain ⟨rfl, rfl⟩ := List.cons.inj h1
    simp
  | d :: p, c, hc, hp => by
    have ih := segments_path (p := p) (c := d) (hp d List.mem_cons_self) (fun e he => hp e (List.mem_cons_of_mem _ he))
    have e : pathStr (d :: p) = '/' :: (d ++ pathStr p) := by simp [pathStr]
    obtain ⟨b, bs, h1, h2⟩ := segments_name hc (pathStr (d :: p))
    rw [h2]
    rw [e] at h1
    unfold segments at h1
    rw [if_pos (.inl rfl), ih] at h1
    obtain ⟨rfl, rfl⟩ := List.cons.inj h1
    simp

theorem urlDecode_plain : ∀ {s : Str}, '%' ∉ s → urlDecode s = s
  | [], _ => by unfold urlDecode; rfl
  | c :: s, h => by
    have hc : c ≠ '%' := fun e => h (e ▸ List.mem_cons_self)
    have ih := urlDecode_plain (s := s) (fun hs => h (List.mem_cons_of_mem _ hs))
    rw [urlDecode, ih]
    all_goals (intros; exact hc ‹_›)

theorem foldl_dots : ∀ (l acc : List Str), (∀ c ∈ l, c ≠ [] ∧ c ≠ c!"." ∧ c ≠ c!"..") →
    l.foldl (fun acc c => if c = [] ∨ c = c!"." then acc else if c = c!".." then acc.dropLast else acc ++ [c]) acc = acc ++ l
  | [], acc, _ => by simp
  | c :: l, acc, h => by
    obtain ⟨h1, h2, h3⟩ := h c List.mem_cons_self
    rw [List.foldl_cons, if_neg (fun e => e.elim h1 h2), if_neg h3, foldl_dots l _ (fun c hc => h c (List.mem_cons_of_mem _ hc))]
    simp

theorem takeWhile_all {p : Char → Bool} : ∀ {s : Str}, (∀ c ∈ s, p c = true) → s.takeWhile p = s
  | [], _ => rfl
  | c :: s, h => by
    rw [List.takeWhile_cons, if_pos (h c List.mem_cons_self), takeWhile_all fun d hd => h d (List.mem_cons_of_mem _ hd)]

/-! ### The condition is exact -/

theorem hexDigit_iff (a : Char) : hexDigit a ≠ none ↔ a ∈ c!"0123456789abcdefABCDEF" := by
  have e : ∀ {lo hi : Char}, (lo ≤ a ∧ a ≤ hi) ↔ lo.toNat ≤ a.toNat ∧ a.toNat ≤ hi.toNat := Iff.rfl
  have hc : ∀ n : Nat, a.toNat = n → a = Char.ofNat n := fun n h => by rw [← h, Char.ofNat_toNat]
  constructor
  · intro h
    unfold hexDigit at h
    simp only [e] at h
    simp only [show '0'.toNat = 48 from rfl, show '9'.toNat = 57 from rfl, show 'a'.toNat = 97 from rfl, show 'f'.toNat = 102 from rfl,
      show 'A'.toNat = 65 from rfl, show 'F'.toNat = 70 from rfl] at h
    have : a.toNat = 48 ∨ a.toNat = 49 ∨ a.toNat = 50 ∨ a.toNat = 51 ∨ a.toNat = 52 ∨ a.toNat = 53 ∨ a.toNat = 54 ∨ a.toNat = 55 ∨ a.toNat = 56 ∨
        a.toNat = 57 ∨ a.toNat = 97 ∨ a.toNat = 98 ∨ a.toNat = 99 ∨ a.toNat = 100 ∨ a.toNat = 101 ∨ a.toNat = 102 ∨ a.toNat = 65 ∨ a.toNat = 66 ∨
        a.toNat = 67 ∨ a.toNat = 68 ∨ a.toNat = 69 ∨ a.toNat = 70 := by
      split at h
      · omega
      · split at h
        · omega
        · split at h
          · omega
          · exact absurd rfl h
    rcases this with h | h | h | h | h | h | h | h | h | h | h | h | h | h | h | h | h | h | h | h | h | h <;> (rw [hc _ h]; decide)
  · intro h
    simp only [List.mem_cons, List.not_mem_nil, or_false] at h
    rcases h with rfl | rfl | rfl | rfl | rfl | rfl | rfl | rfl | rfl | rfl | rfl | rfl | rfl | rfl | rfl | rfl | rfl | rfl | rfl | rfl | rfl | rfl <;> decide

theorem percentChar_none {a b : Char} : percentChar a b = none ↔ a ∉ c!"0123456789abcdefABCDEF" ∨ b ∉ c!"0123456789abcdefABCDEF" := by
  rw [← hexDigit_iff, ← hexDigit_iff]
  unfold percentChar
  cases hexDigit a <;> cases hexDigit b <;> simp

theorem urlDecode_le : ∀ s : Str, (urlDecode s).length ≤ s.length := by
  intro s
  induction s using urlDecode.induct with
  | case1 => simp [urlDecode]
  | case2 => simp [urlDecode]
  | case3 => simp [urlDecode]
  | case4 a b s c hc ih =>
    rw [urlDecode, hc]
    simp only [List.length_cons]
    omega
  | case5 a b s hc ih =>
    rw [urlDecode, hc]
    simp only [List.length_cons] at ih ⊢
    omega
  | case6 c s h1 h2 h3 ih =>
    rw [urlDecode]
    · simpa using ih
    all_goals assumption

theorem infix_cons3 {a b c : Char} {s : Str} : ['%', a, b] <:+: c :: s ↔ (c = '%' ∧ ∃ t, s = a :: b :: t) ∨ ['%', a, b] <:+: s := by
  rw [List.infix_cons_iff]
  constructor
  · rintro (⟨t, h⟩ | h)
    · obtain ⟨rfl, h2⟩ := List.cons.inj h
      exact .inl ⟨rfl, t, h2.symm⟩
    · exact .inr h
  · rintro (⟨rfl, t, rfl⟩ | h)
    · exact .inl ⟨t, rfl⟩
    · exact .inr h

theorem urlDecode_same : ∀ s : Str, (urlDecode s).length = s.length → urlDecode s = s := by
  intro s
  induction s using urlDecode.induct with
  | case1 => simp [urlDecode]
  | case2 => simp [urlDecode]
  | case3 => simp [urlDecode]
  | case4 a b s c hc ih =>
    intro h
    rw [urlDecode, hc] at h
    simp only [List.length_cons] at h
    have := urlDecode_le s
    omega
  | case5 a b s hc ih =>
    intro h
    rw [urlDecode, hc] at h ⊢
    simp only [List.length_cons] at h ih ⊢
    rw [ih (by omega)]
  | case6 c s h1 h2 h3 ih =>
    intro h
    rw [urlDecode] at h ⊢
    · rw [ih (by simpa using h)]
    all_goals assumption

theorem urlDecode_iff : ∀ s : Str, urlDecode s = s ↔
    ∀ a b, ['%', a, b] <:+: s → a ∉ c!"0123456789abcdefABCDEF" ∨ b ∉ c!"0123456789abcdefABCDEF" := by
  intro s
  have short : ∀ {t : Str}, t.length < 3 → ∀ a b, ['%', a, b] <:+: t → a ∉ c!"0123456789abcdefABCDEF" ∨ b ∉ c!"0123456789abcdefABCDEF" :=
    fun ht a b h => absurd h.length_le (by simp only [List.length_cons, List.length_nil]; omega)
  induction s using urlDecode.induct with
  | case1 => exact iff_of_true (by simp [urlDecode]) (short (by decide))
  | case2 => exact iff_of_true (by simp [urlDecode]) (short (by decide))
  | case3 => exact iff_of_true (by simp [urlDecode]) (short (by simp))
  | case4 a b s c hc ih =>
    refine iff_of_false (fun h => ?_) fun h => ?_
    · rw [urlDecode, hc] at h
      have := congrArg List.length h
      simp only [List.length_cons] at this
      have := urlDecode_le s
      omega
    · have := percentChar_none.mpr (h a b (infix_cons3.mpr (.inl ⟨rfl, s, rfl⟩)))
      rw [hc] at this
      cases this
  | case5 a b s hc ih =>
    rw [urlDecode, hc]
    simp only [List.cons.injEq, true_and]
    refine ih.trans ⟨fun h a' b' hi => ?_, fun h a' b' hi => h a' b' (infix_cons3.mpr (.inr hi))⟩
    rcases infix_cons3.mp hi with ⟨_, t, ht⟩ | hi
    · rw [← (List.cons.inj ht).1, ← (List.cons.inj (List.cons.inj ht).2).1]
      exact percentChar_none.mp hc
    · exact h a' b' hi
  | case6 c s h1 h2 h3 ih =>
    rw [urlDecode]
    · simp only [List.cons.injEq, true_and]
      refine ih.trans ⟨fun h a' b' hi => ?_, fun h a' b' hi => h a' b' (infix_cons3.mpr (.inr hi))⟩
      rcases infix_cons3.mp hi with ⟨hc, t, ht⟩ | hi
      · exact absurd ht (h3 _ _ _ hc)
      · exact h a' b' hi
    all_goals assumption

/-- The length of a list of names with a separator each. -/
def weight (l : List Str) : Nat := (l.map fun c => c.length + 1).sum

@[simp] theorem weight_nil : weight [] = 0 := rfl

@[simp] theorem weight_cons (c : Str) (l : List Str) : weight (c :: l) = c.length + 1 + weight l := by simp [weight]

theorem weight_append (l l' : List Str) : weight (l ++ l') = weight l + weight l' := by simp [weight]

theorem pathStr_length : ∀ p : Path, (pathStr p).length = weight p
  | [] => rfl
  | c :: p => by
    have := pathStr_length p
    simp only [pathStr, List.flatMap_cons, List.length_append, List.length_cons, weight_cons] at this ⊢
    omega

theorem segments_weight : ∀ s : Str, weight (segments s) = s.length + 1
  | [] => rfl
  | c :: s => by
    have ih := segments_weight s
    unfold segments
    split
    · simp [ih]; omega
    · split
      · next h => exact absurd h (segments_ne s)
      · next a as h =>
        rw [h] at ih
        simp only [weight_cons, List.length_cons] at ih ⊢
        omega

theorem segments_chars : ∀ (s : Str), ∀ d ∈ segments s, ∀ ch ∈ d, ch ∈ s ∧ ch ≠ '\\'
  | [], d, hd, ch, hc => by
    rw [List.mem_singleton.mp (show d ∈ [[]] from hd)] at hc
    cases hc
  | c :: s, d, hd, ch, hc => by
    have ih := segments_chars s
    unfold segments at hd
    split at hd
    · rcases List.mem_cons.mp hd with rfl | hd
      · cases hc
      · obtain ⟨h1, h2⟩ := ih d hd ch hc
        exact ⟨List.mem_cons_of_mem _ h1, h2⟩
    · next hn =>
      split at hd
      · next h => exact absurd h (segments_ne s)
      · next a as h =>
        rw [h] at ih
        rcases List.mem_cons.mp hd with rfl | hd
        · rcases List.mem_cons.mp hc with rfl | hc
          · exact ⟨List.mem_cons_self, fun e => hn (.inr e)⟩
          · obtain ⟨h1, h2⟩ := ih a List.mem_cons_self ch hc
            exact ⟨List.mem_cons_of_mem _ h1, h2⟩
        · obtain ⟨h1, h2⟩ := ih d (List.mem_cons_of_mem _ hd) ch hc
          exact ⟨List.mem_cons_of_mem _ h1, h2⟩

theorem weight_dropLast (l : List Str) : weight l.dropLast ≤ weight l := by
  rcases List.eq_nil_or_concat l with rfl | ⟨l, a, rfl⟩
  · simp
  · simp [weight_append]

/-- Resolving dots loses nothing only if there is nothing to resolve. -/
theorem foldl_weight : ∀ (l acc : List Str),
    let r := l.foldl (fun acc c => if c = [] ∨ c = c!"." then acc else if c = c!".." then acc.dropLast else acc ++ [c]) acc
    weight r ≤ weight acc + weight l ∧ (weight r = weight acc + weight l → r = acc ++ l)
  | [], acc => by simp
  | c :: l, acc => by
    simp only [List.foldl_cons]
    split
    · obtain ⟨h1, h2⟩ := foldl_weight l acc
      simp only [weight_cons]
      exact ⟨by omega, fun h => by omega⟩
    · split
      · obtain ⟨h1, h2⟩ := foldl_weight l acc.dropLast
        have := weight_dropLast acc
        simp only [weight_cons]
        exact ⟨by omega, fun h => by omega⟩
      · obtain ⟨h1, h2⟩ := foldl_weight l (acc ++ [c])
        rw [weight_append] at h1 h2
        simp only [weight_cons, weight_nil] at h1 h2 ⊢
        refine ⟨by omega, fun h => ?_⟩
        rw [h2 (by omega)]
        simp

theorem map_weight : ∀ l : List Str, weight (l.map urlDecode) ≤ weight l ∧ (weight (l.map urlDecode) = weight l → ∀ c ∈ l, urlDecode c = c)
  | [] => by simp
  | c :: l => by
    obtain ⟨h1, h2⟩ := map_weight l
    have := urlDecode_le c
    simp only [List.map_cons, weight_cons]
    refine ⟨by omega, fun h d hd => ?_⟩
    rcases List.mem_cons.mp hd with rfl | hd
    · exact urlDecode_same _ (by omega)
    · exact h2 (by omega) d hd

/-- The URL of a path leads to the path only if its names have no meaning in a URL. -/
theorem fileUrlPath_only {p : Path} (hne : p ≠ []) (h : fileUrlPath (fileUrl p) = p) : ∀ c ∈ p, UrlPlain c := by
  obtain ⟨s, hs⟩ : ∃ s, s = (((fileUrl p).drop 7).filter fun c => c ≠ '\t' ∧ c ≠ '\n' ∧ c ≠ '\r').takeWhile fun c => c ≠ '?' ∧ c ≠ '#' := ⟨_, rfl⟩
  have h : resolveDots ((segments s).map urlDecode) = p := by rw [hs]; exact h
  have e1 : (fileUrl p).drop 7 = pathStr p := rfl
  rw [e1] at hs
  have hsub : s.Sublist (pathStr p) := hs ▸ (List.takeWhile_sublist _).trans List.filter_sublist
  obtain ⟨c, p', rfl⟩ := List.exists_cons_of_ne_nil hne
  obtain ⟨t, ht⟩ : ∃ t, s = '/' :: t := by
    rw [hs]
    simp [pathStr]
  have hseg : segments s = [] :: segments t := by
    rw [ht, segments]
    simp
  rw [hseg] at h
  have hu : urlDecode [] = [] := by simp [urlDecode]
  rw [List.map_cons, hu] at h
  unfold resolveDots at h
  rw [List.foldl_cons, if_pos (.inl rfl)] at h
  obtain ⟨h1, h2⟩ := foldl_weight ((segments t).map urlDecode) []
  rw [h] at h1 h2
  obtain ⟨h3, h4⟩ := map_weight (segments t)
  have h5 := segments_weight t
  have h6 : s.length = t.length + 1 := by rw [ht]; rfl
  have h7 := hsub.length_le
  rw [pathStr_length] at h7
  rw [weight_nil] at h1 h2
  have hlen : s.length = (pathStr (c :: p')).length := by rw [pathStr_length]; omega
  have hs' : s = pathStr (c :: p') := hsub.eq_of_length hlen
  have hdec := h4 (by omega)
  have hp := h2 (by omega)
  rw [List.nil_append, List.map_congr_left hdec, List.map_id''] at hp
  · intro d hd
    have hd' : d ∈ segments t := hp ▸ hd
    refine ⟨fun ch hc hm => ?_, (urlDecode_iff d).mp (hdec d hd')⟩
    obtain ⟨k1, k2⟩ := segments_chars t d hd' ch hc
    have k1 : ch ∈ s := by rw [ht]; exact List.mem_cons_of_mem _ k1
    rw [hs] at k1
    have k3 := List.all_eq_true.mp List.all_takeWhile _ k1
    have k4 := (List.mem_filter.mp ((List.takeWhile_sublist _).subset k1)).2
    simp only [decide_eq_true_eq] at k3 k4
    simp only [List.mem_cons, List.not_mem_nil, or_false] at hm
    rcases hm with rfl | rfl | rfl | rfl | rfl | rfl
    · exact k4.1 rfl
    · exact k4.2.1 rfl
    · exact k4.2.2 rfl
    · exact k3.1 rfl
    · exact k3.2 rfl
    · exact k2 rfl
  · intro d; rfl

/-- And it does if they are names without a meaning in a URL. -/
theorem fileUrlPath_safe {p : Path} (h : ∀ c ∈ p, (c ≠ [] ∧ c ≠ c!"." ∧ c ≠ c!".." ∧ '/' ∉ c) ∧ UrlPlain c) : fileUrlPath (fileUrl p) = p := by
  have hch : ∀ ch ∈ pathStr p, ch ≠ '\t' ∧ ch ≠ '\n' ∧ ch ≠ '\r' ∧ ch ≠ '?' ∧ ch ≠ '#' := by
    intro ch hc
    obtain ⟨c, hcp, hc⟩ := List.mem_flatMap.mp hc
    rcases List.mem_cons.mp hc with rfl | hc
    · decide
    · have := (h c hcp).2.1 ch hc
      simp at this
      exact ⟨this.1, this.2.1, this.2.2.1, this.2.2.2.1, this.2.2.2.2.1⟩
  have e1 : (fileUrl p).drop 7 = pathStr p := rfl
  have e2 : (pathStr p).filter (fun c => c ≠ '\t' ∧ c ≠ '\n' ∧ c ≠ '\r') = pathStr p := by
    rw [List.filter_eq_self]
    intro ch hc
    have := hch ch hc
    simp [this]
  have e3 : (pathStr p).takeWhile (fun c => c ≠ '?' ∧ c ≠ '#') = pathStr p := by
    refine takeWhile_all fun ch hc => ?_
    have := hch ch hc
    simp [this]
  have e4 : segments (pathStr p) = [] :: p := by
    refine segments_path (c := []) nofun ?_
    intro d hd ch hc
    have := (h d hd).2.1 ch hc
    simp at this
    exact ⟨fun e => (h d hd).1.2.2.2 (e ▸ hc), this.2.2.2.2.2⟩
  have e5 : ([] :: p).map urlDecode = [] :: p := by
    rw [List.map_cons, urlDecode_plain (by simp)]
    congr 1
    conv => rhs; rw [← List.map_id p]
    exact List.map_congr_left fun c hc => (urlDecode_iff c).mpr (h c hc).2.2
  unfold fileUrlPath
  simp only [e1, e2, e3, e4, e5]
  unfold resolveDots
  rw [List.foldl_cons, if_pos (.inl rfl), foldl_dots _ _ (fun c hc => ⟨(h c hc).1.1, (h c hc).1.2.1, (h c hc).1.2.2.1⟩)]
  rfl

end Smd.App
