import Verif.Spec.Html
import Verif.Lemmas.Occ
import Verif.Lemmas.Escape

/-! Sequences of tags and text: cutting, trimming, replacing, counting. -/

namespace Smd.Gfm
open Smd.Rs Smd.Spec

variable {A : Str → Str → Prop}

/-- The attribute predicates used here: names and values have no `<`. -/
def NoLt (A : Str → Str → Prop) : Prop := ∀ k v, A k v → '<' ∉ k ∧ '<' ∉ v

theorem name_chars : ∀ n ∈ elementNames, n ≠ [] ∧ '<' ∉ n ∧ '>' ∉ n ∧ ' ' ∉ n ∧ '/' ∉ n := by decide

/-- A tag has its only `<` at the start and ends with `>`. -/
theorem _root_.Smd.Spec.TagOf.form (hA : NoLt A) {t : Str} (h : TagOf A t) : ∃ b, t = '<' :: (b ++ ['>']) ∧ '<' ∉ b := by
  cases h with
  | opening n attrs hn ha =>
    refine ⟨n ++ attrs.flatMap attrText, by simp [openTag], ?_⟩
    intro hm
    rcases List.mem_append.mp hm with hm | hm
    · exact (name_chars n hn).2.1 hm
    · obtain ⟨a, haa, hm⟩ := List.mem_flatMap.mp hm
      have := hA _ _ (ha a haa)
      simp [attrText] at hm
      rcases hm with hm | hm
      · exact this.1 hm
      · exact this.2 hm
  | closing n hn => exact ⟨'/' :: n, by simp [closeTag], by simp [(name_chars n hn).2.1]⟩
  | rule => exact ⟨c!"hr /", rfl, by decide⟩
  | emptyHref => exact ⟨c!"a href=", rfl, by decide⟩

theorem _root_.Smd.Spec.Tagged.append {a b : Str} (ha : Tagged A a) (hb : Tagged A b) : Tagged A (a ++ b) := by
  induction ha with
  | nil => exact hb
  | text c s hc _ ih => exact .text c _ hc ih
  | tag t s ht _ ih => rw [List.append_assoc]; exact .tag t _ ht ih

theorem _root_.Smd.Spec.Tagged.of_no_lt {s : Str} (h : '<' ∉ s) : Tagged A s := by
  induction s with
  | nil => exact .nil
  | cons c s ih =>
    simp at h
    exact .text c s (Ne.symm h.1) (ih h.2)

theorem _root_.Smd.Spec.Tagged.one {t : Str} (h : TagOf A t) : Tagged A t := by
  have := Tagged.tag t [] h .nil
  rwa [List.append_nil] at this

/-- Texts are cut at `<` without cutting a tag. -/
theorem _root_.Smd.Spec.Tagged.cut (hA : NoLt A) {a b : Str} (h : Tagged A (a ++ '<' :: b)) : Tagged A a ∧ Tagged A ('<' :: b) := by
  generalize e : a ++ '<' :: b = s at h
  induction h generalizing a with
  | nil => simp at e
  | text c s hc hs ih =>
    cases a with
    | nil => injection e with e _; exact absurd e.symm hc
    | cons x a =>
      injection e with e1 e2
      subst e1
      exact ⟨.text x a hc (ih e2).1, (ih e2).2⟩
  | tag t s ht hs ih =>
    obtain ⟨q, hq, hno⟩ := ht.form hA
    rcases List.append_eq_append_iff.mp e with ⟨x, h1, h2⟩ | ⟨x, h1, h2⟩
    · cases x with
      | nil =>
        simp at h1 h2
        subst h1
        have := ih (a := []) (by simpa using h2)
        exact ⟨.one ht, this.2⟩
      | cons y x =>
        injection h2 with h2 h3
        subst h2
        cases a with
        | nil =>
          simp at h1
          refine ⟨.nil, ?_⟩
          have e' : '<' :: b = t ++ s := by simpa using e
          rw [e']
          exact .tag t s ht hs
        | cons z a =>
          exfalso
          rw [hq] at h1
          injection h1 with _ h1
          have : '<' ∈ q ++ ['>'] := by rw [h1]; simp
          simp [hno] at this
    · subst h1
      have := ih (a := x) h2.symm
      exact ⟨.tag t x ht this.1, this.2⟩

/-- Leading characters other than `<` may be dropped. -/
theorem _root_.Smd.Spec.Tagged.tail {c : Char} {s : Str} (h : Tagged A (c :: s)) (hc : c ≠ '<') (hA : NoLt A) : Tagged A s := by
  generalize e : c :: s = u at h
  cases h with
  | nil => cases e
  | text d s' hd hs => injection e with _ e; subst e; exact hs
  | tag t s' ht hs =>
    obtain ⟨q, hq, _⟩ := ht.form hA
    subst hq
    injection e with e _
    exact absurd e hc

/-- Trailing characters other than `>` may be dropped. -/
theorem _root_.Smd.Spec.Tagged.init {a : Str} {c : Char} (h : Tagged A (a ++ [c])) (hc : c ≠ '>') (hA : NoLt A) : Tagged A a := by
  generalize e : a ++ [c] = u at h
  induction h generalizing a with
  | nil => simp at e
  | text d s hd hs ih =>
    cases a with
    | nil => exact .nil
    | cons x a =>
      injection e with e1 e2
      subst e1
      exact .text x a hd (ih e2)
  | tag t s ht hs ih =>
    obtain ⟨q, hq, _⟩ := ht.form hA
    rcases List.eq_nil_or_concat s with rfl | ⟨s', d, rfl⟩
    · rw [List.append_nil, hq] at e
      have e' : a ++ [c] = ('<' :: q) ++ ['>'] := by simpa using e
      have := List.append_inj_right' e' rfl
      simp at this
      exact absurd this hc
    · rw [List.concat_eq_append] at e ih
      have e' : a ++ [c] = (t ++ s') ++ [d] := by simpa using e
      have h1 := List.append_inj_left' e' rfl
      have h2 := List.append_inj_right' e' rfl
      injection h2 with h2 _
      subst h2
      rw [h1]
      exact .tag t s' ht (ih rfl)

theorem _root_.Smd.Spec.Tagged.closed (hA : NoLt A) {s : Str} (h : Tagged A s) : Closed s := by
  induction h with
  | nil => exact .nil
  | text c s hc _ ih =>
    have := Closed.append (a := [c]) (.of_no_lt (by simpa using Ne.symm hc)) ih
    simpa using this
  | tag t s ht _ ih =>
    obtain ⟨q, hq, _⟩ := ht.form hA
    refine .append ?_ ih
    rw [hq]
    exact .of_gt ('<' :: q)

/-! ### Counting -/

/-- A pattern that starts with `<` and has no other `<`, and no `>` except possibly at its end. -/
def Pat (p : Str) : Prop := ∃ (b : Str) (d : Char), p = '<' :: (b ++ [d]) ∧ '<' ∉ b ∧ '>' ∉ b ∧ d ≠ '<'

theorem Pat.occ_append {p : Str} (hp : Pat p) : ∀ {a : Str} (b : Str), Closed a → occ p (a ++ b) = occ p a + occ p b
  | [], b, _ => by simp [occ]
  | c :: a, b, h => by
    have ha : Closed a := fun u hu => h u (hu.trans (List.suffix_cons _ _))
    have key : p <+: c :: (a ++ b) ↔ p <+: c :: a := by
      constructor
      · intro hpre
        have hpre' : p <+: (c :: a) ++ b := by simpa using hpre
        rcases prefix_append_cases hpre' with h1 | ⟨v, hv, h2, h1⟩
        · exact h1
        · obtain ⟨q, d, rfl, hq1, hq2, hd⟩ := hp
          exfalso
          rw [List.cons_append] at h1
          injection h1 with hc h1
          subst hc
          have hgt := h a (List.suffix_refl _)
          rcases List.eq_nil_or_concat v with rfl | ⟨w, d, rfl⟩
          · exact hv rfl
          · rw [List.concat_eq_append, ← List.append_assoc] at h1
            have := List.append_inj_left' h1 rfl
            rw [this] at hq2
            simp [hgt] at hq2
      · intro h1
        exact h1.trans ⟨b, by simp⟩
    have ih := Pat.occ_append hp (a := a) b ha
    simp only [List.cons_append, occ, key, ih]
    omega

theorem Pat.occ_no_lt {p s : Str} (hp : Pat p) (h : '<' ∉ s) : occ p s = 0 := by
  induction s with
  | nil => rfl
  | cons c cs ih =>
    have hc : ¬ p <+: c :: cs := by
      intro hpre
      obtain ⟨b, d, rfl, _⟩ := hp
      exact h (hpre.subset (by simp))
    simp [occ, hc, ih (fun hm => h (by simp [hm]))]

theorem Pat.occ_tag {p b : Str} (hp : Pat p) (h : '<' ∉ b) :
    occ p ('<' :: b) = if p <+: '<' :: b then 1 else 0 := by
  rw [occ, hp.occ_no_lt h]
  omega

theorem pat_open {n : Str} (hn : n ∈ elementNames) (d : Char) (hd : d ≠ '<') : Pat ('<' :: n ++ [d]) :=
  ⟨n, d, rfl, (name_chars n hn).2.1, (name_chars n hn).2.2.1, hd⟩

theorem pat_close {n : Str} (hn : n ∈ elementNames) : Pat (closeTag n) :=
  ⟨'/' :: n, '>', by simp [closeTag], by simp [(name_chars n hn).2.1], by simp [(name_chars n hn).2.2.1], by decide⟩

/-- Opening minus closing tags of an element. -/
def cnt (n s : Str) : Int := (opens n s : Int) - closes n s

theorem cnt_append {n a : Str} (hn : n ∈ elementNames) (b : Str) (h : Closed a) : cnt n (a ++ b) = cnt n a + cnt n b := by
  have h1 := (pat_open hn '>' (by decide)).occ_append b h
  have h2 := (pat_open hn ' ' (by decide)).occ_append b h
  have h3 := (pat_close hn).occ_append b h
  simp only [cnt, opens, closes] at *
  rw [h1, h2, h3]
  omega

theorem cnt_no_lt {n s : Str} (hn : n ∈ elementNames) (h : '<' ∉ s) : cnt n s = 0 := by
  have h1 := (pat_open hn '>' (by decide)).occ_no_lt h
  have h2 := (pat_open hn ' ' (by decide)).occ_no_lt h
  have h3 := (pat_close hn).occ_no_lt h
  simp only [cnt, opens, closes] at *
  rw [h1, h2, h3]
  rfl

/-- A name and the character after it determine one another. -/
theorem name_prefix {n m t : Str} {c d : Char} (hc : c ∉ m) (hd : d ∉ n) : n ++ [c] <+: m ++ d :: t ↔ n = m ∧ c = d := by
  induction n generalizing m with
  | nil =>
    cases m with
    | nil => simp
    | cons x m =>
      simp at hc ⊢
      exact hc.1
  | cons y n ih =>
    simp at hd
    cases m with
    | nil => simp; exact fun h => absurd h.symm hd.1
    | cons x m =>
      simp at hc
      simp only [List.cons_append, List.cons_prefix_cons, List.cons.injEq]
      rw [ih hc.2 hd.2]
      simp [and_assoc]

theorem openTag_form (m : Str) (attrs : List (Str × Str)) :
    ∃ (d : Char) (t : Str), (d = '>' ∨ d = ' ') ∧ openTag m attrs = '<' :: (m ++ d :: t) := by
  cases attrs with
  | nil => exact ⟨'>', [], .inl rfl, by simp [openTag]⟩
  | cons a attrs => exact ⟨' ', _, .inr rfl, by simp [openTag, attrText]; rfl⟩

theorem cnt_open (hA : NoLt A) {n m : Str} {attrs : List (Str × Str)} (hn : n ∈ elementNames) (hm : m ∈ elementNames)
    (ha : ∀ a ∈ attrs, A a.1 a.2) : cnt n (openTag m attrs) = if n = m then 1 else 0 := by
  obtain ⟨q, hq, hno⟩ := (TagOf.opening m attrs hm ha).form hA
  obtain ⟨d, t, hd, he⟩ := openTag_form m attrs
  have hno' : '<' ∉ m ++ d :: t := by
    rw [he] at hq
    injection hq with _ hq
    rw [hq]
    simp [hno]
  obtain ⟨_, _, n3, n4, n5⟩ := name_chars n hn
  obtain ⟨_, _, m3, m4, m5⟩ := name_chars m hm
  rw [he]
  have h1 := (pat_open hn '>' (by decide)).occ_tag hno'
  have h2 := (pat_open hn ' ' (by decide)).occ_tag hno'
  have h3 := (pat_close hn).occ_tag hno'
  simp only [List.cons_append, List.prefix_cons_inj] at h1 h2
  have hdn : d ∉ n := by rcases hd with rfl | rfl <;> assumption
  simp only [name_prefix m3 hdn] at h1
  simp only [name_prefix m4 hdn] at h2
  have h3' : ¬ closeTag n <+: '<' :: (m ++ d :: t) := by
    unfold closeTag
    intro h
    simp only [List.cons_append, List.prefix_cons_inj] at h
    cases m with
    | nil =>
      rw [List.nil_append, List.cons_prefix_cons] at h
      rcases hd with rfl | rfl <;> simp at h
    | cons x m =>
      rw [List.cons_append, List.cons_prefix_cons] at h
      simp at m5
      exact m5.1 h.1
  rw [if_neg h3'] at h3
  simp only [cnt, opens, closes, List.cons_append] at *
  rw [h1, h2, h3]
  by_cases e : n = m
  · rcases hd with rfl | rfl <;> simp [e]
  · simp [e]

theorem cnt_close {n m : Str} (hn : n ∈ elementNames) (hm : m ∈ elementNames) :
    cnt n (closeTag m) = if n = m then -1 else 0 := by
  obtain ⟨_, _, n3, n4, n5⟩ := name_chars n hn
  obtain ⟨_, m2, m3, m4, m5⟩ := name_chars m hm
  have he : closeTag m = '<' :: ('/' :: (m ++ ['>'])) := by simp [closeTag]
  rw [he]
  have hno' : '<' ∉ '/' :: (m ++ ['>']) := by simp [m2]
  have h1 := (pat_open hn '>' (by decide)).occ_tag hno'
  have h2 := (pat_open hn ' ' (by decide)).occ_tag hno'
  have h3 := (pat_close hn).occ_tag hno'
  have ho : ∀ d, d ≠ '/' → ¬ '<' :: n ++ [d] <+: '<' :: ('/' :: (m ++ ['>'])) := by
    intro d hd h
    simp only [List.cons_append, List.prefix_cons_inj] at h
    cases n with
    | nil =>
      simp at h
      exact hd h
    | cons x n =>
      rw [List.cons_append, List.cons_prefix_cons] at h
      simp at n5
      exact n5.1 h.1.symm
  rw [if_neg (ho _ (by decide))] at h1
  rw [if_neg (ho _ (by decide))] at h2
  have h4 : closeTag n <+: '<' :: ('/' :: (m ++ ['>'])) ↔ n = m := by
    unfold closeTag
    simp only [List.cons_append, List.prefix_cons_inj]
    rw [name_prefix m3 n3]
    simp
  simp only [h4] at h3
  simp only [cnt, opens, closes] at *
  rw [h1, h2, h3]
  split <;> rfl

/-! ### Texts with a given balance of tags -/

/-- A sequence of tags and text with `f n` more opening than closing tags of every element `n` that has closing tags.
For `ul` there may be more opening tags, but not if `U` holds. -/
structure Off (A : Str → Str → Prop) (U : Prop) (f : Str → Int) (s : Str) : Prop where
  tagged : Tagged A s
  count : ∀ n ∈ elementNames, n ∉ voidNames → n ≠ c!"ul" → cnt n s = f n
  ul : f c!"ul" ≤ cnt c!"ul" s
  ulExact : U → cnt c!"ul" s = f c!"ul"

/-- A balanced text. -/
abbrev Bal (A : Str → Str → Prop) (U : Prop) (s : Str) : Prop := Off A U (fun _ => 0) s

variable {U : Prop}

theorem ul_mem : c!"ul" ∈ elementNames := by decide

theorem Off.cast {f g : Str → Int} {s : Str} (h : Off A U f s) (e : ∀ n ∈ elementNames, n ∉ voidNames → f n = g n) :
    Off A U g s := by
  have hu := e c!"ul" (by decide) (by decide)
  exact ⟨h.tagged, fun n hn hv hu => by rw [h.count n hn hv hu, e n hn hv], by rw [← hu]; exact h.ul,
    fun u => by rw [← hu]; exact h.ulExact u⟩

theorem Off.of_cnt {f : Str → Int} {s : Str} (h : Tagged A s) (e : ∀ n ∈ elementNames, n ∉ voidNames → cnt n s = f n) :
    Off A U f s := by
  have hu := e c!"ul" (by decide) (by decide)
  exact ⟨h, fun n hn hv _ => e n hn hv, by rw [hu]; exact Int.le_refl _, fun _ => hu⟩

theorem Off.append (hA : NoLt A) {f g : Str → Int} {a b : Str} (ha : Off A U f a) (hb : Off A U g b) :
    Off A U (fun n => f n + g n) (a ++ b) := by
  have hc := ha.tagged.closed hA
  refine ⟨ha.tagged.append hb.tagged, fun n hn hv hu => ?_, ?_, fun u => ?_⟩
  · rw [cnt_append hn b hc, ha.count n hn hv hu, hb.count n hn hv hu]
  · rw [cnt_append ul_mem b hc]
    have := ha.ul
    have := hb.ul
    omega
  · rw [cnt_append ul_mem b hc, ha.ulExact u, hb.ulExact u]

theorem Bal.append (hA : NoLt A) {a b : Str} (ha : Bal A U a) (hb : Bal A U b) : Bal A U (a ++ b) :=
  (Off.append hA ha hb).cast (by simp)

theorem Off.appendBal (hA : NoLt A) {f : Str → Int} {a b : Str} (ha : Off A U f a) (hb : Bal A U b) : Off A U f (a ++ b) :=
  (Off.append hA ha hb).cast (by simp)

theorem Bal.nil : Bal A U [] := .of_cnt .nil (by decide)

theorem Bal.text {s : Str} (h : '<' ∉ s) : Bal A U s := .of_cnt (.of_no_lt h) fun _ hn _ => cnt_no_lt hn h

theorem Off.opening (hA : NoLt A) {m : Str} {attrs : List (Str × Str)} (hm : m ∈ elementNames)
    (ha : ∀ a ∈ attrs, A a.1 a.2) : Off A U (fun n => if n = m then 1 else 0) (openTag m attrs) :=
  .of_cnt (.one (.opening m attrs hm ha)) fun _ hn _ => cnt_open hA hn hm ha

theorem Bal.void (hA : NoLt A) {m : Str} {attrs : List (Str × Str)} (hm : m ∈ elementNames) (hv : m ∈ voidNames)
    (ha : ∀ a ∈ attrs, A a.1 a.2) : Bal A U (openTag m attrs) :=
  (Off.opening hA hm ha).cast fun n _ hnv => by
    rw [if_neg]
    rintro rfl
    exact hnv hv

theorem Off.closing {m : Str} (hm : m ∈ elementNames) : Off A U (fun n => if n = m then -1 else 0) (closeTag m) :=
  .of_cnt (.one (.closing m hm)) fun _ hn _ => cnt_close hn hm

theorem Bal.rule : Bal A U c!"<hr />" := .of_cnt (.one .rule) (by decide)

theorem Off.emptyHref : Off A U (fun n => if n = c!"a" then 1 else 0) c!"<a href=>" := .of_cnt (.one .emptyHref) (by decide)

/-- An element with balanced content. -/
theorem Bal.elem (hA : NoLt A) {m x : Str} {attrs : List (Str × Str)} (hm : m ∈ elementNames)
    (ha : ∀ a ∈ attrs, A a.1 a.2) (hx : Bal A U x) : Bal A U (openTag m attrs ++ (x ++ closeTag m)) :=
  (Off.append hA (.opening hA hm ha) (Off.append hA hx (.closing hm))).cast (by intro n _ _; split <;> simp)

/-! ### Trimming and replacing -/

theorem Off.tail (hA : NoLt A) {f : Str → Int} {c : Char} {s : Str} (h : Off A U f (c :: s)) (hc : c ≠ '<') : Off A U f s := by
  have e : ∀ n ∈ elementNames, cnt n (c :: s) = cnt n s := by
    intro n hn
    have := cnt_append hn s (Closed.of_no_lt (s := [c]) (by simpa using Ne.symm hc))
    rw [cnt_no_lt hn (s := [c]) (by simpa using Ne.symm hc)] at this
    simpa using this
  exact ⟨h.tagged.tail hc hA, fun n hn hv hu => by rw [← e n hn]; exact h.count n hn hv hu,
    by rw [← e _ ul_mem]; exact h.ul, fun u => by rw [← e _ ul_mem]; exact h.ulExact u⟩

theorem Off.init (hA : NoLt A) {f : Str → Int} {c : Char} {s : Str} (h : Off A U f (s ++ [c])) (hc : c ≠ '<') (hc' : c ≠ '>') :
    Off A U f s := by
  have ht := h.tagged.init hc' hA
  have e : ∀ n ∈ elementNames, cnt n (s ++ [c]) = cnt n s := by
    intro n hn
    rw [cnt_append hn [c] (ht.closed hA), cnt_no_lt hn (s := [c]) (by simpa using Ne.symm hc), Int.add_zero]
  exact ⟨ht, fun n hn hv hu => by rw [← e n hn]; exact h.count n hn hv hu,
    by rw [← e _ ul_mem]; exact h.ul, fun u => by rw [← e _ ul_mem]; exact h.ulExact u⟩

theorem ws_not_angle {c : Char} (h : isWs c = true) : c ≠ '<' ∧ c ≠ '>' := by
  constructor <;> (rintro rfl; revert h; decide)

theorem Off.trimStart (hA : NoLt A) {f : Str → Int} {s : Str} (h : Off A U f s) : Off A U f (trimStartP isWs s) := by
  unfold trimStartP
  induction s with
  | nil => exact h
  | cons c s ih =>
    rw [List.dropWhile_cons]
    split
    · next hc => exact ih (h.tail hA (ws_not_angle hc).1)
    · exact h

theorem trimEndP_snoc (p : Char → Bool) (s : Str) (c : Char) : trimEndP p (s ++ [c]) = if p c then trimEndP p s else s ++ [c] := by
  unfold trimEndP
  simp only [List.reverse_append, List.reverse_cons, List.reverse_nil, List.nil_append, List.cons_append, List.dropWhile_cons]
  split <;> simp

theorem Off.trimEnd (hA : NoLt A) {f : Str → Int} {s : Str} (h : Off A U f s) : Off A U f (trimEndP isWs s) := by
  induction hn : s.length using Nat.strongRecOn generalizing s with
  | ind n ih =>
    rcases List.eq_nil_or_concat s with rfl | ⟨t, c, rfl⟩
    · exact h
    · rw [List.concat_eq_append] at *
      rw [trimEndP_snoc]
      split
      · next hc => exact ih t.length (by simp at hn; omega) (h.init hA (ws_not_angle hc).1 (ws_not_angle hc).2) rfl
      · exact h

theorem Off.trim (hA : NoLt A) {f : Str → Int} {s : Str} (h : Off A U f s) : Off A U f (trim s) := (h.trimStart hA).trimEnd hA

/-- The only tag that starts like an attribute-free tag is this tag. -/
theorem _root_.Smd.Spec.TagOf.eq_of_prefix {t n : Str} (hn : n ∈ elementNames) (h : TagOf A t) (hp : openTag n [] <+: t) :
    t = openTag n [] := by
  have hn' : openTag n [] = '<' :: (n ++ ['>']) := by simp [openTag]
  rw [hn'] at hp ⊢
  obtain ⟨_, _, n3, n4, n5⟩ := name_chars n hn
  cases h with
  | opening m attrs hm ha =>
    obtain ⟨d, t, hd, he⟩ := openTag_form m attrs
    have hdn : d ∉ n := by rcases hd with rfl | rfl <;> assumption
    have hp2 := hp
    rw [he, List.prefix_cons_inj, name_prefix (name_chars m hm).2.2.1 hdn] at hp2
    obtain ⟨rfl, rfl⟩ := hp2
    cases attrs with
    | nil => simp [openTag]
    | cons a attrs => simp [openTag, attrText] at he
  | closing m hm =>
    exfalso
    have : closeTag m = '<' :: '/' :: (m ++ ['>']) := by simp [closeTag]
    rw [this, List.prefix_cons_inj] at hp
    cases n with
    | nil => simp at hp
    | cons x n =>
      rw [List.cons_append, List.cons_prefix_cons] at hp
      simp at n5
      exact n5.1 hp.1.symm
  | rule => revert hp; revert n; decide
  | emptyHref => revert hp; revert n; decide

/-- An attribute-free tag at the start of a text is a tag of the text. -/
theorem _root_.Smd.Spec.Tagged.drop_open (hA : NoLt A) {n s : Str} (hn : n ∈ elementNames) (h : Tagged A (openTag n [] ++ s)) :
    Tagged A s := by
  have hn' : openTag n [] = '<' :: (n ++ ['>']) := by simp [openTag]
  generalize e : openTag n [] ++ s = u at h
  cases h with
  | nil => rw [hn'] at e; cases e
  | text c u hc hu => rw [hn'] at e; injection e with e _; exact absurd e.symm hc
  | tag t u ht hu =>
    have key : t = openTag n [] := by
      refine ht.eq_of_prefix hn ?_
      rcases List.append_eq_append_iff.mp e with ⟨x, h1, h2⟩ | ⟨x, h1, h2⟩
      · exact ⟨x, h1.symm⟩
      · -- `t` is a prefix of the tag and ends with `>`
        obtain ⟨q, hq, _⟩ := ht.form hA
        rcases List.eq_nil_or_concat x with rfl | ⟨y, d, rfl⟩
        · exact ⟨[], by simpa using h1⟩
        · exfalso
          rw [hn', hq, List.cons_append] at h1
          injection h1 with _ h1
          rw [List.concat_eq_append, ← List.append_assoc] at h1
          have := List.append_inj_left' h1 rfl
          have h3 := (name_chars n hn).2.2.1
          rw [this] at h3
          simp at h3
    rw [key] at e
    have := List.append_cancel_left e
    rw [this]
    exact hu

theorem headingPost_bal (hA : NoLt A) {s : Str} (h : Bal A U s) : Bal A U (headingPost s) := by
  unfold headingPost
  refine Off.trim hA ?_
  cases h1 : stripPrefix c!"<p>" s with
  | none => exact Bal.nil
  | some x =>
    simp only [Option.getD_some]
    cases h2 : stripSuffix c!"</p>\n" x with
    | none => exact Bal.nil
    | some y =>
      simp only [Option.getD_some]
      have e1 := stripPrefix_some h1
      have e2 := stripSuffix_some h2
      have hp : c!"<p>" = openTag c!"p" [] := rfl
      have hq : c!"</p>\n" = closeTag c!"p" ++ c!"\n" := rfl
      subst e2
      have ht1 : Tagged A (y ++ c!"</p>\n") := by
        have := h.tagged
        rw [e1, hp] at this
        exact this.drop_open hA (by decide)
      have ht2 : Tagged A y := (ht1.cut hA (a := y) (b := c!"/p>\n")).1
      have hc1 : Closed c!"<p>" := (Tagged.one (A := A) (.opening c!"p" [] (by decide) (by simp))).closed hA
      have hc : ∀ n ∈ elementNames, cnt n s = cnt n y := by
        intro n hn
        rw [e1, cnt_append hn _ hc1, cnt_append hn _ (ht2.closed hA), hp,
          cnt_open (A := A) hA hn (by decide) (by simp), hq,
          cnt_append hn _ ((Tagged.one (A := A) (.closing c!"p" (by decide))).closed hA), cnt_close hn (by decide),
          cnt_no_lt hn (s := c!"\n") (by decide)]
        split <;> omega
      exact ⟨ht2, fun n hn hv hu => by rw [← hc n hn]; exact h.count n hn hv hu, by rw [← hc _ ul_mem]; exact h.ul,
        fun u => by rw [← hc _ ul_mem]; exact h.ulExact u⟩

theorem replaceStr_char (c : Char) (r : Str) : ∀ s : Str, replaceStr [c] r s = replaceC c r s
  | [] => rfl
  | x :: xs => by
    have ih := replaceStr_char c r xs
    unfold replaceStr at *
    have e : replaceC c r (x :: xs) = (if x = c then r else [x]) ++ replaceC c r xs := rfl
    rw [e, ← ih]
    conv => lhs; unfold replaceGo
    by_cases h : x = c
    · subst h
      simp
    · have : ¬ c = x := fun e => h e.symm
      simp [h, this]

/-- `A` is kept when tabs in attribute values are replaced; attribute names have no tabs. -/
def TabOk (A : Str → Str → Prop) : Prop := ∀ k v, A k v → '\t' ∉ k ∧ A k (replaceC '\t' c!"  " v)

theorem replaceC_id {c : Char} {r s : Str} (h : c ∉ s) : replaceC c r s = s := by
  induction s with
  | nil => rfl
  | cons x s ih =>
    simp at h
    have e : replaceC c r (x :: s) = (if x = c then r else [x]) ++ replaceC c r s := rfl
    rw [e, ih h.2, if_neg (Ne.symm h.1)]
    rfl

theorem name_no_tab : ∀ n ∈ elementNames, '\t' ∉ n := by decide

theorem tab_attrs (hT : TabOk A) : ∀ (attrs : List (Str × Str)), (∀ a ∈ attrs, A a.1 a.2) →
    replaceC '\t' c!"  " (attrs.flatMap attrText) =
      (attrs.map fun a => (a.1, replaceC '\t' c!"  " a.2)).flatMap attrText
  | [], _ => rfl
  | a :: attrs, h => by
    have ih := tab_attrs hT attrs (fun b hb => h b (by simp [hb]))
    have h1 := (hT _ _ (h a (by simp))).1
    simp only [List.flatMap_cons, List.map_cons, replaceC_append, ih]
    congr 1
    unfold attrText
    simp only [replaceC_append]
    rw [replaceC_id (s := c!"=\"") (by decide), replaceC_id (s := c!"\"") (by decide),
      replaceC_id (s := ' ' :: a.1) (by simp [h1])]

/-- Replacing tabs keeps tags and counts. -/
theorem tab_tagged (hA : NoLt A) (hT : TabOk A) {s : Str} (h : Tagged A s) :
    Tagged A (replaceC '\t' c!"  " s) ∧ ∀ n ∈ elementNames, cnt n (replaceC '\t' c!"  " s) = cnt n s := by
  induction h with
  | nil => exact ⟨.nil, fun _ _ => rfl⟩
  | text c s hc hs ih =>
    have e : replaceC '\t' c!"  " (c :: s) = (if c = '\t' then c!"  " else [c]) ++ replaceC '\t' c!"  " s := rfl
    have hno : '<' ∉ (if c = '\t' then c!"  " else [c]) := by
      split
      · decide
      · simpa using Ne.symm hc
    rw [e]
    refine ⟨.append (.of_no_lt hno) ih.1, fun n hn => ?_⟩
    have := cnt_append hn s (Closed.of_no_lt (s := [c]) (by simpa using Ne.symm hc))
    rw [cnt_no_lt hn (s := [c]) (by simpa using Ne.symm hc)] at this
    rw [cnt_append hn _ (.of_no_lt hno), cnt_no_lt hn hno, ih.2 n hn]
    simpa using this.symm
  | tag t s ht hs ih =>
    rw [replaceC_append]
    have key : TagOf A (replaceC '\t' c!"  " t) ∧ ∀ n ∈ elementNames, cnt n (replaceC '\t' c!"  " t) = cnt n t := by
      cases ht with
      | opening m attrs hm ha =>
        have ha' : ∀ a ∈ attrs.map (fun a => (a.1, replaceC '\t' c!"  " a.2)), A a.1 a.2 := by
          intro a haa
          obtain ⟨b, hb, rfl⟩ := List.mem_map.mp haa
          exact (hT _ _ (ha b hb)).2
        have e : replaceC '\t' c!"  " (openTag m attrs) =
            openTag m (attrs.map fun a => (a.1, replaceC '\t' c!"  " a.2)) := by
          unfold openTag
          rw [replaceC_append, replaceC_append, tab_attrs hT attrs ha, replaceC_id (s := c!">") (by decide),
            replaceC_id (s := '<' :: m) (by simp [name_no_tab m hm])]
        rw [e]
        refine ⟨.opening m _ hm ha', fun n hn => ?_⟩
        rw [cnt_open hA hn hm ha', cnt_open hA hn hm ha]
      | closing m hm =>
        rw [replaceC_id (s := closeTag m) (by simp [closeTag, name_no_tab m hm])]
        exact ⟨.closing m hm, fun _ _ => rfl⟩
      | rule => exact ⟨.rule, fun _ _ => rfl⟩
      | emptyHref => exact ⟨.emptyHref, fun _ _ => rfl⟩
    refine ⟨.tag _ _ key.1 ih.1, fun n hn => ?_⟩
    rw [cnt_append hn _ ((Tagged.one key.1).closed hA), cnt_append hn _ ((Tagged.one ht).closed hA), key.2 n hn, ih.2 n hn]

theorem Off.of_same {f : Str → Int} {s s' : Str} (h : Off A U f s) (ht : Tagged A s')
    (e : ∀ n ∈ elementNames, cnt n s' = cnt n s) : Off A U f s' :=
  ⟨ht, fun n hn hv hu => by rw [e n hn]; exact h.count n hn hv hu, by rw [e _ ul_mem]; exact h.ul,
    fun u => by rw [e _ ul_mem]; exact h.ulExact u⟩

theorem replaceGo_skip (p r : Str) : ∀ (b s : Str), replaceGo p r b.length (b ++ s) = replaceGo p r 0 s
  | [], s => rfl
  | c :: b, s => by
    rw [List.cons_append, List.length_cons, replaceGo]
    exact replaceGo_skip p r b s

theorem replaceStr_match {p : Str} (r s : Str) (hp : p ≠ []) : replaceStr p r (p ++ s) = r ++ replaceStr p r s := by
  cases p with
  | nil => exact absurd rfl hp
  | cons c p =>
    unfold replaceStr
    rw [List.cons_append]
    conv => lhs; unfold replaceGo
    rw [if_pos (List.isPrefixOf_iff_prefix.mpr ⟨s, by simp⟩), List.length_cons, Nat.add_sub_cancel, replaceGo_skip]

theorem replaceStr_nomatch {p : Str} (r : Str) {c : Char} {s : Str} (h : ¬ p <+: c :: s) :
    replaceStr p r (c :: s) = c :: replaceStr p r s := by
  unfold replaceStr
  conv => lhs; unfold replaceGo
  rw [if_neg (by rw [List.isPrefixOf_iff_prefix]; exact h)]

theorem replaceStr_pass {p : Str} (r : Str) (hp : p.head? = some '<') : ∀ {b : Str} (s : Str), '<' ∉ b →
    replaceStr p r (b ++ s) = b ++ replaceStr p r s
  | [], s, _ => rfl
  | c :: b, s, h => by
    simp at h
    rw [List.cons_append, replaceStr_nomatch r, replaceStr_pass r hp s h.2, List.cons_append]
    cases p with
    | nil => cases hp
    | cons d p =>
      simp at hp
      subst hp
      rw [List.cons_prefix_cons]
      exact fun e => h.1 e.1

theorem preCode_eq : c!"<pre><code>" = openTag c!"pre" [] ++ openTag c!"code" [] := by decide

theorem preCode_tagged : Tagged A c!"<pre><code>" := by
  rw [preCode_eq]
  exact .append (.one (.opening _ _ (by decide) (by simp))) (.one (.opening _ _ (by decide) (by simp)))

/-- Indenting code blocks keeps tags and counts. -/
theorem pre_tagged_aux (hA : NoLt A) {p r : Str} (hp : p = c!"<pre><code>") (hr : r = p ++ c!"  ") {s : Str} (h : Tagged A s) :
    Tagged A (replaceStr p r s) ∧ ∀ n ∈ elementNames, cnt n (replaceStr p r s) = cnt n s := by
  have tp : Tagged A p := hp ▸ preCode_tagged
  have tr : Tagged A r := hr ▸ tp.append (.of_no_lt (by decide))
  have hh : p.head? = some '<' := by rw [hp]; rfl
  have hne : p ≠ [] := by rw [hp]; simp
  induction hl : s.length using Nat.strongRecOn generalizing s with
  | ind k ih =>
    cases h with
    | nil => exact ⟨.nil, fun _ _ => rfl⟩
    | text c s hc hs =>
      obtain ⟨i1, i2⟩ := ih s.length (by rw [← hl]; simp) hs rfl
      rw [replaceStr_nomatch _ (by rw [hp, List.cons_prefix_cons]; exact fun e => hc e.1.symm)]
      refine ⟨.text c _ hc i1, fun n hn => ?_⟩
      have hno : '<' ∉ [c] := by simpa using Ne.symm hc
      have h1 := cnt_append hn s (Closed.of_no_lt hno)
      have h2 := cnt_append hn (replaceStr p r s) (Closed.of_no_lt hno)
      rw [cnt_no_lt hn hno] at h1 h2
      simp only [List.singleton_append] at h1 h2
      rw [h1, h2, i2 n hn]
    | tag t s ht hs =>
      by_cases hpre : p <+: t ++ s
      · obtain ⟨u, hu⟩ := hpre
        have htu : Tagged A u := by
          have hts : Tagged A (p ++ u) := by rw [hu]; exact .tag t s ht hs
          rw [hp, preCode_eq, List.append_assoc] at hts
          exact (hts.drop_open hA (by decide)).drop_open hA (by decide)
        have hlen : u.length < k := by
          have h1 := congrArg List.length hu
          have h2 := List.length_pos_iff.mpr hne
          rw [hl, List.length_append] at h1
          omega
        obtain ⟨i1, i2⟩ := ih u.length hlen htu rfl
        rw [← hu, replaceStr_match _ _ hne]
        refine ⟨tr.append i1, fun n hn => ?_⟩
        rw [cnt_append hn _ (tr.closed hA), cnt_append hn _ (tp.closed hA), i2 n hn, hr,
          cnt_append hn _ (tp.closed hA), cnt_no_lt hn (s := c!"  ") (by decide), Int.add_zero]
      · obtain ⟨q, hq, hno⟩ := ht.form hA
        have hlen : s.length < k := by
          have : 0 < t.length := by rw [hq]; simp
          rw [List.length_append] at hl
          omega
        obtain ⟨i1, i2⟩ := ih s.length hlen hs rfl
        have e : replaceStr p r (t ++ s) = t ++ replaceStr p r s := by
          rw [hq, List.cons_append] at hpre ⊢
          rw [replaceStr_nomatch _ hpre, replaceStr_pass _ hh _ (by simp [hno]), List.cons_append]
        rw [e]
        refine ⟨.tag t _ ht i1, fun n hn => ?_⟩
        rw [cnt_append hn _ ((Tagged.one ht).closed hA), cnt_append hn _ ((Tagged.one ht).closed hA), i2 n hn]

theorem pre_tagged (hA : NoLt A) {s : Str} (h : Tagged A s) :
    Tagged A (replaceStr c!"<pre><code>" c!"<pre><code>  " s) ∧
      ∀ n ∈ elementNames, cnt n (replaceStr c!"<pre><code>" c!"<pre><code>  " s) = cnt n s :=
  pre_tagged_aux hA rfl rfl h

theorem Off.tab (hA : NoLt A) (hT : TabOk A) {f : Str → Int} {s : Str} (h : Off A U f s) :
    Off A U f (replaceStr c!"\t" c!"  " s) := by
  rw [replaceStr_char]
  exact h.of_same (tab_tagged hA hT h.tagged).1 (tab_tagged hA hT h.tagged).2

theorem Off.pre (hA : NoLt A) {f : Str → Int} {s : Str} (h : Off A U f s) :
    Off A U f (replaceStr c!"<pre><code>" c!"<pre><code>  " s) := h.of_same (pre_tagged hA h.tagged).1 (pre_tagged hA h.tagged).2

end Smd.Gfm
