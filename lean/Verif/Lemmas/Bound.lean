import Verif.Lemmas.Size
import Verif.Lemmas.Fuel
import Verif.Lemmas.Chunks
import Verif.Lemmas.Run
import Mathlib.Tactic.Ring
import Mathlib.Tactic.Linarith

/-!
How long the rendering of a text can be.

The length of the rendering is counted with a weight `k` for every `<`: rendering a list entry replaces `<pre><code>` by
a text that is two characters longer, so nested list entries pay for every `<` once per level.
-/

namespace Smd.Gfm
open Smd.Rs Smd.Spec

/-- Length of a text, `<` weighing `k` more than other characters. -/
def wl (k : Nat) (h : Str) : Nat := h.length + k * h.count '<'

theorem wl_append (k : Nat) (a b : Str) : wl k (a ++ b) = wl k a + wl k b := by
  simp only [wl, List.length_append, List.count_append, Nat.mul_add]
  omega

theorem wl_nil (k : Nat) : wl k [] = 0 := by simp [wl]

theorem wl_le (k : Nat) (h : Str) : wl k h ≤ (1 + k) * h.length := by
  have := Nat.mul_le_mul_left k (List.count_le_length (a := '<') (l := h))
  unfold wl
  rw [Nat.add_mul, Nat.one_mul]
  omega

theorem wl_zero (h : Str) : wl 0 h = h.length := by simp [wl]

theorem wl_infix {k : Nat} {a b : Str} (h : a <:+: b) : wl k a ≤ wl k b :=
  Nat.add_le_add h.length_le (Nat.mul_le_mul_left k (h.sublist.count_le '<'))

theorem wl_cons (k : Nat) (c : Char) (s : Str) : wl k (c :: s) = wl k [c] + wl k s := wl_append k [c] s

theorem wl_detab (k : Nat) : ∀ h : Str, wl k (replaceC '\t' c!"  " h) ≤ 2 * wl k h
  | [] => by simp [replaceC, wl]
  | c :: cs => by
    have ih := wl_detab k cs
    have e : replaceC '\t' c!"  " (c :: cs) = (if c = '\t' then c!"  " else [c]) ++ replaceC '\t' c!"  " cs := rfl
    rw [e, wl_append, wl_cons]
    have : wl k (if c = '\t' then c!"  " else [c]) ≤ 2 * wl k [c] := by
      split
      · simp [wl]
      · omega
    omega

theorem wl_padGo (k : Nat) : ∀ (s : Str) (j : Nat),
    wl k (replaceGo c!"<pre><code>" c!"<pre><code>  " j s) ≤ wl (k + 1) (s.drop j)
  | [], j => by cases j <;> simp [replaceGo, wl]
  | c :: cs, j + 1 => by
    rw [replaceGo, List.drop_succ_cons]
    exact wl_padGo k cs j
  | c :: cs, 0 => by
    rw [replaceGo]
    split
    · next hp =>
      have ⟨t, ht⟩ := List.isPrefixOf_iff_prefix.mp hp
      have ih := wl_padGo k cs ((c!"<pre><code>").length - 1)
      have hcs : cs.drop ((c!"<pre><code>").length - 1) = t := by
        have : cs = (c!"pre><code>") ++ t := by
          have := congrArg List.tail ht
          simpa using this.symm
        rw [this]; rfl
      rw [hcs] at ih
      rw [List.drop_zero, ← ht, wl_append, wl_append]
      have e1 : wl k c!"<pre><code>  " = 13 + k * 2 := rfl
      have e2 : wl (k + 1) c!"<pre><code>" = 11 + (k + 1) * 2 := rfl
      omega
    · have ih := wl_padGo k cs 0
      rw [List.drop_zero] at ih ⊢
      rw [wl_cons k, wl_cons (k + 1)]
      have : wl k [c] ≤ wl (k + 1) [c] := by
        unfold wl
        exact Nat.add_le_add_left (Nat.mul_le_mul_right _ (Nat.le_succ k)) _
      omega

theorem wl_pad (k : Nat) (h : Str) : wl k (replaceStr c!"<pre><code>" c!"<pre><code>  " h) ≤ wl (k + 1) h :=
  wl_padGo k h 0

/-! ### The state of the parser -/

/-- What the state has written, and what it still has to write for open quotes and footnotes. -/
def pot (k : Nat) (st : PState) : Nat :=
  wl k st.html + (1 + k) * (14 * st.quoteLevel + (st.refs.flatMap noteOut).length)

theorem pot_push (k : Nat) (st : PState) (x : Str) : pot k (st.push x) = pot k st + wl k x := by
  simp only [pot, PState.push, wl_append]
  omega

theorem pot_le {k : Nat} {st st' : PState} (x : Str) (c : Nat) (hh : st'.html = st.html ++ x)
    (hc : x.length + 14 * st'.quoteLevel + (st'.refs.flatMap noteOut).length ≤
      14 * st.quoteLevel + (st.refs.flatMap noteOut).length + c) : pot k st' ≤ pot k st + (1 + k) * c := by
  unfold pot
  rw [hh, wl_append]
  have h1 := wl_le k x
  have h2 := Nat.mul_le_mul_left (1 + k) hc
  simp only [Nat.mul_add] at h1 h2 ⊢
  omega

theorem rep_length (n : Nat) (x : Str) : (rep n x).length = n * x.length := by
  simp [rep, List.length_flatten]

theorem ensurePara_pot (k : Nat) (st : PState) : pot k st.ensurePara ≤ pot k st + (1 + k) * 3 := by
  unfold PState.ensurePara
  split
  · exact pot_le c!"<p>" 3 rfl (by simp [PState.push]; omega)
  · omega

theorem pot_ite {k n : Nat} {c : Prop} [Decidable c] {a b : PState} (ha : c → pot k a ≤ n) (hb : ¬ c → pot k b ≤ n) :
    pot k (if c then a else b) ≤ n := by
  split
  · next h => exact ha h
  · next h => exact hb h

theorem pot_push_le {k n : Nat} {st : PState} {x : Str} (h : x.length ≤ n) : pot k (st.push x) ≤ pot k st + (1 + k) * n := by
  rw [pot_push]
  exact Nat.add_le_add_left (Nat.le_trans (wl_le k x) (Nat.mul_le_mul_left _ h)) _

theorem wl_six (k : Nat) (a b c d e f : Str) : wl k (a ++ b ++ c ++ d ++ e ++ f) ≤
    wl k a + (1 + k) * (b.length + c.length + e.length + f.length) + (1 + k) * d.length := by
  simp only [wl_append, Nat.mul_add]
  have h1 := wl_le k b
  have h2 := wl_le k c
  have h3 := wl_le k d
  have h4 := wl_le k e
  have h5 := wl_le k f
  omega

theorem step1_pot (k : Nat) (t : Token) (st : PState) : pot k (step1 t st) ≤ pot k st + (1 + k) * 20 := by
  have close : ∀ (st' : PState) (x : Str), st'.html = st.html ++ x → st'.quoteLevel = st.quoteLevel → st'.refs = st.refs →
      x.length ≤ 12 → pot k st' ≤ pot k st + (1 + k) * 12 := by
    intro st' x h1 h2 h3 h4
    refine pot_le x 12 h1 ?_
    rw [h2, h3]
    omega
  have hm : (1 + k) * 12 + (1 + k) * 3 ≤ (1 + k) * 20 := by omega
  have hsame : pot k st ≤ pot k st + (1 + k) * 20 := Nat.le_add_right _ _
  unfold step1
  refine pot_ite (fun _ => hsame) fun _ => ?_
  refine pot_ite (fun _ => hsame) fun _ => ?_
  refine pot_ite (fun _ => hsame) fun _ => ?_
  refine pot_ite (fun _ => hsame) fun _ => ?_
  refine pot_ite (fun _ => ?_) fun _ => ?_
  · refine pot_le (rep st.quoteLevel c!"</blockquote>" ++ c!"<p>") 20 (by simp [PState.push]) ?_
    simp only [PState.push, List.length_append, rep_length, List.length_cons, List.length_nil]
    omega
  refine pot_ite (fun _ => ?_) fun _ => ?_
  · have h1 := ensurePara_pot k ({ st with inOl := false }.push c!"</ol>\n")
    have h2 := close ({ st with inOl := false }.push c!"</ol>\n") _ rfl rfl rfl (by simp)
    omega
  refine pot_ite (fun _ => ?_) fun _ => ?_
  · have h1 := ensurePara_pot k ({ st with inUl := false }.push c!"</ul>\n")
    have h2 := close ({ st with inUl := false }.push c!"</ul>\n") _ rfl rfl rfl (by simp)
    omega
  refine pot_ite (fun _ => ?_) fun _ => ?_
  · have h1 := ensurePara_pot k ({ st with inTask := false }.push c!"</ul>\n")
    have h2 := close ({ st with inTask := false }.push c!"</ul>\n") _ rfl rfl rfl (by simp)
    omega
  refine pot_ite (fun _ => ?_) fun _ => ?_
  · have h2 := close ({ st with inPara := false }.push c!"</p>\n") _ rfl rfl rfl (by simp)
    omega
  refine pot_ite (fun _ => hsame) fun _ => ?_
  refine pot_ite (fun _ => ?_) fun _ => hsame
  have h2 := close ({ st with inCode := true }.push c!"<pre><code>") _ rfl rfl rfl (by simp)
  omega

theorem endNl_wl (k : Nat) (h : Str) : wl k (endNl h) ≤ wl k h + 1 := by
  unfold endNl
  split
  · rw [wl_append]
    simp [wl]
  · omega

theorem finish_pot (k : Nat) (st : PState) : wl k (finish st) ≤ pot k st + (1 + k) * 200 := by
  have c1 : ∀ (x : Str) (n : Nat), x.length ≤ n → wl k x ≤ (1 + k) * n := fun x n h =>
    Nat.le_trans (wl_le k x) (Nat.mul_le_mul_left _ h)
  unfold finish
  simp only
  generalize e1 : (if st.inPara then st.html ++ c!"</p>\n" else st.html) = h1
  have b1 : wl k h1 ≤ wl k st.html + (1 + k) * 5 := by
    subst e1
    split
    · rw [wl_append]
      have := c1 c!"</p>\n" 5 (by simp)
      omega
    · omega
  have b2 : wl k (h1 ++ rep st.quoteLevel c!"</blockquote>\n") ≤ wl k h1 + (1 + k) * (14 * st.quoteLevel) := by
    rw [wl_append]
    have := c1 (rep st.quoteLevel c!"</blockquote>\n") (14 * st.quoteLevel) (by
      rw [rep_length]; simp only [List.length_cons, List.length_nil]; omega)
    omega
  generalize h1 ++ rep st.quoteLevel c!"</blockquote>\n" = h2 at *
  generalize e3 : (if st.inTask || st.inUl then h2 ++ c!"</ul>" else h2) = h3
  have b3 : wl k h3 ≤ wl k h2 + (1 + k) * 5 := by
    subst e3
    split
    · rw [wl_append]
      have := c1 c!"</ul>" 5 (by simp)
      omega
    · omega
  generalize e4 : (if st.inOl then h3 ++ c!"</ol>" else h3) = h4
  have b4 : wl k h4 ≤ wl k h3 + (1 + k) * 5 := by
    subst e4
    split
    · rw [wl_append]
      have := c1 c!"</ol>" 5 (by simp)
      omega
    · omega
  have b5 := endNl_wl k h4
  generalize endNl h4 = h5 at *
  generalize e6 : (if st.inCode then endNl h5 ++ c!"</code></pre>" else h5) = h6
  have b6 : wl k h6 ≤ wl k h5 + (1 + k) * 14 := by
    subst e6
    split
    · rw [wl_append]
      have h1 := c1 c!"</code></pre>" 13 (by simp)
      have h2 := endNl_wl k h5
      omega
    · omega
  unfold pot
  rw [Nat.mul_add]
  split
  · refine Nat.le_trans (wl_six k _ _ _ _ _ _) ?_
    simp only [List.length_cons, List.length_nil]
    omega
  · omega

/-! ### Lengths of what single tokens write -/

theorem len_sanitize (x : Str) : (sanitize x).length ≤ 8 * x.length := sanitize_length x

theorem len_splitGo (p : Str) : ∀ (s : Str) (k : Nat),
    ((splitGo p k s).map List.length).sum ≤ s.length ∧ (splitGo p k s).length ≤ s.length + 1
  | [], k => by simp [splitGo]
  | c :: cs, k + 1 => by
    have ⟨a, b⟩ := len_splitGo p cs k
    simp only [splitGo, List.length_cons]
    omega
  | c :: cs, 0 => by
    simp only [splitGo]
    split
    · have ⟨a, b⟩ := len_splitGo p cs (p.length - 1)
      simp only [List.map_cons, List.sum_cons, List.length_cons, List.length_nil]
      omega
    · have ⟨a, b⟩ := len_splitGo p cs 0
      cases h : splitGo p 0 cs with
      | nil => simp [consHead]
      | cons x xs =>
        rw [h] at a b
        simp only [List.map_cons, List.sum_cons, List.length_cons] at a b
        simp only [consHead, List.map_cons, List.sum_cons, List.length_cons]
        omega

theorem len_footRefs {D : Nat} : ∀ (toks : List Str) (n : Nat), (∀ c, c ≤ n + toks.length → (dec c).length ≤ D) →
    (footRefs n toks).length ≤ 8 * (2 * (toks.map List.length).sum) + (110 + D) * toks.length
  | [], n, _ => by simp [footRefs]
  | t :: ts, n, h => by
    rw [footRefs]
    simp only [List.map_cons, List.sum_cons, List.length_cons, Nat.mul_add, Nat.mul_one]
    split
    · have ih := len_footRefs ts (n + 1) (fun c hc => h c (by simp only [List.length_cons]; omega))
      have hd := h n (by omega)
      have h1 := len_sanitize (trimEndP (· == ']') (trimEnd t))
      have h2 := (trimEndP_prefix (· == ']') (trimEnd t)).length_le
      have h3 := (trimEnd_prefix t).length_le
      rw [List.length_append]
      have h4 : (supTag (sanitize (trimEndP (· == ']') (trimEnd t))) n).length ≤
          110 + (dec n).length + 2 * (sanitize (trimEndP (· == ']') (trimEnd t))).length := by
        simp only [supTag, List.length_append, List.length_cons, List.length_nil]
        omega
      omega
    · have ih := len_footRefs ts n (fun c hc => h c (by simp only [List.length_cons]; omega))
      rw [List.length_append]
      omega

theorem len_plainOut {D : Nat} (t : Str) (h : ∀ c, c ≤ t.length + 2 → (dec c).length ≤ D) :
    (plainOut t).length ≤ (130 + D) * (t.length + 1) := by
  have hp := (plainTrim_prefix t).length_le
  unfold plainOut
  simp only
  generalize plainTrim t = u at *
  split
  · have ⟨h1, h2⟩ := len_splitGo c!"[^" u 0
    have h3 := len_footRefs (D := D) (splitStr c!"[^" u) 1 (fun c hc => h c (by
      unfold splitStr at hc; omega))
    unfold splitStr at h3 ⊢
    have h4 := Nat.mul_le_mul_left (110 + D) h2
    have h5 := Nat.mul_le_mul_left (110 + D) (Nat.succ_le_succ hp)
    have e : (130 + D) * (t.length + 1) = 20 * (t.length + 1) + (110 + D) * (t.length + 1) := by ring
    rw [e]
    simp only [Nat.succ_eq_add_one] at h5
    omega
  · have h1 := len_sanitize (u.dropWhile (· == '\n'))
    have h2 := (dropWhile_suffix (· == '\n') u).length_le
    have e : (130 + D) * (t.length + 1) = 130 * (t.length + 1) + D * (t.length + 1) := by ring
    rw [e]
    omega

theorem len_pct (c : Char) : (pct c).length ≤ 3 := by
  have h : ∀ c ∈ pctSpecial, (pct c).length ≤ 3 := by decide
  by_cases hc : c ∈ pctSpecial
  · exact h c hc
  · have : pct c = [c] := pct_other c hc
    rw [this]; simp

theorem len_flatMap_le {f : Char → Str} {n : Nat} (h : ∀ c, (f c).length ≤ n) : ∀ s : Str,
    (s.flatMap f).length ≤ n * s.length
  | [] => by simp
  | c :: cs => by
    have ih := len_flatMap_le h cs
    have := h c
    simp only [List.flatMap_cons, List.length_append, List.length_cons, Nat.mul_add, Nat.mul_one]
    omega

theorem len_amp (s : Str) : (replaceC '&' c!"&amp;" s).length ≤ 5 * s.length := by
  refine len_flatMap_le (fun c => ?_) s
  split <;> simp

theorem len_replaceC_one (a b : Char) (s : Str) : (replaceC a [b] s).length ≤ 1 * s.length := by
  refine len_flatMap_le (fun c => ?_) s
  split <;> simp

theorem len_percentEncode (s : Str) : (percentEncode s).length ≤ 3 * s.length := by
  rw [percentEncode_eq_flatMap]
  exact len_flatMap_le len_pct s

theorem len_display (u : ValidURL) :
    u.display.length ≤ 15 * u.content.length + ((u.scheme.map Scheme.display).getD []).length + 5 := by
  have h1 := len_amp (percentEncode u.content)
  have h2 := len_percentEncode u.content
  unfold ValidURL.display
  split
  · simp only [List.length_append, List.length_cons, List.length_nil]
    omega
  · next sc hs =>
    rw [hs]
    simp only [List.length_append, List.length_cons, List.length_nil, Option.map_some, Option.getD_some]
    omega

theorem len_fmtUnsafe (u : ValidURL) :
    u.fmtUnsafe.length ≤ 5 * u.content.length + ((u.scheme.map Scheme.display).getD []).length + 5 := by
  have h1 := len_amp u.content
  unfold ValidURL.fmtUnsafe
  simp only
  split
  · simp only [List.length_append, List.length_cons, List.length_nil]
    omega
  · omega
  · next sc hs =>
    rw [hs]
    simp only [List.length_append, List.length_cons, List.length_nil, Option.map_some, Option.getD_some]
    omega

theorem len_linkOut (u : ValidURL) (t h : Option Str) :
    (linkOut u t h).length ≤ 100 * (tsize (.link u t h) + 1) := by
  have h1 := len_display u
  have h2 := len_fmtUnsafe u
  cases t with
  | none =>
    cases h with
    | none =>
      simp only [linkOut, tsize, List.length_append, List.length_cons, List.length_nil, Option.getD_none]
      omega
    | some x =>
      have h3 := len_sanitize x
      simp only [linkOut, tsize, List.length_append, List.length_cons, List.length_nil, Option.getD_none, Option.getD_some]
      omega
  | some y =>
    have h4 := len_sanitize y
    cases h with
    | none =>
      simp only [linkOut, tsize, List.length_append, List.length_cons, List.length_nil, Option.getD_none, Option.getD_some]
      omega
    | some x =>
      simp only [linkOut, tsize, List.length_append, List.length_cons, List.length_nil, Option.getD_some]
      omega

theorem len_imageOut (l : Str) (t : Option Str) : (imageOut l t).length ≤ 100 * (tsize (.image l t) + 1) := by
  unfold imageOut
  cases t with
  | none =>
    simp only [tsize, Option.getD_none]
    split <;> simp only [List.length_append, List.length_cons, List.length_nil] <;> omega
  | some y =>
    have h4 := len_sanitize y
    simp only [tsize, Option.getD_some]
    split <;> simp only [List.length_append, List.length_cons, List.length_nil] <;> omega

theorem len_taskOut (b : TaskBox) (t : Str) : (taskOut b t).length ≤ 130 + 8 * t.length := by
  have h4 := len_sanitize t
  unfold taskOut
  split <;> simp only [List.length_append, List.length_cons, List.length_nil] <;> omega

theorem len_noteOut (n : Str × Str) : (noteOut n).length ≤ 200 + 8 * (n.1.length + n.2.length) := by
  have h1 := len_sanitize n.1
  have h2 := len_sanitize n.2
  simp only [noteOut, List.length_append, List.length_cons, List.length_nil]
  omega

/-- The weight of one unit of the bounds: enough for the fixed text around a token, for eight times a character and for a
number up to `N`. -/
def Unit (N W : Nat) : Prop := ∀ c, c ≤ N + 2 → (dec c).length + 400 ≤ W

theorem Unit.ge {N W : Nat} (h : Unit N W) : 400 ≤ W := by
  have := h 0 (by omega); omega

/-- A leafy token raises the potential by at most `W` for each character it shows, and `W`. -/
theorem step2_leaf {N W : Nat} (hW : Unit N W) (k : Nat) (r : Rec) (t : Token) (hl : leafy t = true) (ht : tsize t ≤ N)
    {st st' : PState} (h : step2 r t st = .ok st') : pot k st' + (1 + k) * 20 ≤ pot k st + (1 + k) * (W * (tsize t + 1)) := by
  have hge := hW.ge
  have push : ∀ (s : PState) (x : Str), pot k s ≤ pot k st + (1 + k) * 40 → x.length + 60 ≤ W * (tsize t + 1) →
      pot k (s.push x) + (1 + k) * 20 ≤ pot k st + (1 + k) * (W * (tsize t + 1)) := by
    intro s x hs hx
    rw [pot_push]
    have h1 := wl_le k x
    have h2 := Nat.mul_le_mul_left (1 + k) hx
    simp only [Nat.mul_add] at h1 h2 ⊢
    omega
  have hw1 : 400 * (tsize t + 1) ≤ W * (tsize t + 1) := Nat.mul_le_mul_right _ hge
  have hself : pot k st ≤ pot k st + (1 + k) * 40 := Nat.le_add_right _ _
  have hk20 : pot k st + (1 + k) * 20 ≤ pot k st + (1 + k) * (W * (tsize t + 1)) :=
    Nat.add_le_add_left (Nat.mul_le_mul_left _ (by omega)) _
  have san : ∀ x : Str, x.length ≤ tsize t → (sanitize x).length ≤ 8 * tsize t := fun x hx =>
    Nat.le_trans (len_sanitize x) (Nat.mul_le_mul_left _ hx)
  cases t with
  | plaintext x =>
    simp only [step2] at h
    split at h
    · have h := Outcome.ok.inj h; subst h; exact hk20
    · have h := Outcome.ok.inj h; subst h
      refine push _ _ hself ?_
      have hp := len_plainOut (D := W - 400) x (fun c hc => by
        have := hW c (by simp only [tsize] at ht; omega); omega)
      have e : (130 + (W - 400)) * (x.length + 1) + 270 * (x.length + 1) = W * (x.length + 1) := by
        rw [← Nat.add_mul]
        congr 1
        omega
      simp only [tsize]
      omega
  | header l x lbl => cases hl
  | unorderedListEntry toks => cases hl
  | blockQuote l x => cases hl
  | detail x y => cases hl
  | table x y => cases hl
  | orderedListEntry x =>
    simp only [step2] at h
    have h := Outcome.ok.inj h; subst h
    have h1 := san x (Nat.le_refl _)
    refine push _ _ ?_ ?_
    · split
      · exact pot_push_le (st := { st with inOl := true }) (by simp)
      · exact hself
    · simp only [tsize, List.length_append, List.length_cons, List.length_nil] at h1 hw1 ⊢
      omega
  | taskListItem b x =>
    simp only [step2] at h
    have h := Outcome.ok.inj h; subst h
    have h1 := len_taskOut b x
    refine push _ _ ?_ ?_
    · split
      · exact pot_push_le (st := { st with inTask := true }) (by simp)
      · exact hself
    · simp only [tsize] at h1 hw1 ⊢
      omega
  | italic x =>
    have h1 := san x (Nat.le_refl _)
    simp only [step2] at h
    have h := Outcome.ok.inj h; subst h
    refine push _ _ hself ?_
    simp only [tsize, List.length_append, List.length_cons, List.length_nil] at h1 hw1 ⊢
    omega
  | bold x =>
    have h1 := san x (Nat.le_refl _)
    simp only [step2] at h
    have h := Outcome.ok.inj h; subst h
    refine push _ _ hself ?_
    simp only [tsize, List.length_append, List.length_cons, List.length_nil] at h1 hw1 ⊢
    omega
  | boldItalic x =>
    have h1 := san x (Nat.le_refl _)
    simp only [step2] at h
    have h := Outcome.ok.inj h; subst h
    refine push _ _ hself ?_
    simp only [tsize, List.length_append, List.length_cons, List.length_nil] at h1 hw1 ⊢
    omega
  | strikethrough x =>
    have h1 := san x (Nat.le_refl _)
    simp only [step2] at h
    have h := Outcome.ok.inj h; subst h
    refine push _ _ hself ?_
    simp only [tsize, List.length_append, List.length_cons, List.length_nil] at h1 hw1 ⊢
    omega
  | code x =>
    have h1 := san x (Nat.le_refl _)
    simp only [step2] at h
    have h := Outcome.ok.inj h; subst h
    refine push _ _ hself ?_
    simp only [tsize] at h1 hw1 ⊢
    omega
  | image l x =>
    have h1 := len_imageOut l x
    simp only [step2] at h
    have h := Outcome.ok.inj h; subst h
    exact push _ _ hself (by omega)
  | link u x y =>
    have h1 := len_linkOut u x y
    simp only [step2] at h
    have h := Outcome.ok.inj h; subst h
    exact push _ _ hself (by omega)
  | footnote i x =>
    simp only [step2] at h
    have h := Outcome.ok.inj h; subst h
    have h1 := len_noteOut (i, x)
    simp only [tsize] at hw1 ⊢
    have := pot_le (k := k) (st := st) (st' := { st with refs := st.refs ++ [(i, x)] }) [] ((noteOut (i, x)).length)
      (by simp) (by simp; omega)
    have h2 : (noteOut (i, x)).length + 20 ≤ W * (i.length + x.length + 1) := by simp only at h1; omega
    have h3 := Nat.mul_le_mul_left (1 + k) h2
    simp only [Nat.mul_add (1 + k)] at h3
    omega
  | horizontalRule =>
    simp only [step2] at h
    have h := Outcome.ok.inj h; subst h
    exact push _ _ hself (by simp only [List.length_cons, List.length_nil]; omega)
  | tab =>
    simp only [step2] at h
    have h := Outcome.ok.inj h; subst h
    exact push _ _ hself (by simp only [List.length_cons, List.length_nil]; omega)
  | doubleTab =>
    simp only [step2] at h
    have h := Outcome.ok.inj h; subst h
    exact push _ _ hself (by simp only [List.length_cons, List.length_nil]; omega)
  | newline => simp only [step2] at h; have h := Outcome.ok.inj h; subst h; exact hk20
  | lineBreak => simp only [step2] at h; have h := Outcome.ok.inj h; subst h; exact hk20
  | codeBlock x y => simp only [step2] at h; have h := Outcome.ok.inj h; subst h; exact hk20

/-- Parsing the token raises the potential by at most `c`. -/
def Fits (r : Rec) (k : Nat) (t : Token) (c : Nat) : Prop :=
  ∀ st st', parseTok r t st = .ok st' → pot k st' ≤ pot k st + c

/-- Parsing the tokens raises the potential by at most `c`. -/
def FitsAll (r : Rec) (k : Nat) (ts : List Token) (c : Nat) : Prop :=
  ∀ st st', parseToks r ts st = .ok st' → pot k st' ≤ pot k st + c

theorem Fits.mono {r : Rec} {k : Nat} {t : Token} {c c' : Nat} (h : Fits r k t c) (hc : c ≤ c') : Fits r k t c' :=
  fun st st' e => Nat.le_trans (h st st' e) (Nat.add_le_add_left hc _)

theorem FitsAll.mono {r : Rec} {k : Nat} {ts : List Token} {c c' : Nat} (h : FitsAll r k ts c) (hc : c ≤ c') :
    FitsAll r k ts c' :=
  fun st st' e => Nat.le_trans (h st st' e) (Nat.add_le_add_left hc _)

theorem FitsAll.nil (r : Rec) (k : Nat) : FitsAll r k [] 0 := by
  intro st st' e
  rw [parseToks] at e
  injection e with e; subst e; omega

theorem FitsAll.cons {r : Rec} {k : Nat} {t : Token} {ts : List Token} {a b : Nat} (h1 : Fits r k t a)
    (h2 : FitsAll r k ts b) : FitsAll r k (t :: ts) (a + b) := by
  intro st st' e
  rw [parseToks] at e
  cases h : parseTok r t st with
  | panic => rw [h] at e; cases e
  | hang => rw [h] at e; cases e
  | fuelOut => rw [h] at e; cases e
  | ok s1 =>
    rw [h] at e
    have a1 := h1 _ _ h
    have a2 := h2 _ _ e
    omega

theorem FitsAll.append {r : Rec} {k : Nat} : ∀ {ts us : List Token} {a b : Nat}, FitsAll r k ts a → FitsAll r k us b →
    FitsAll r k (ts ++ us) (a + b) := by
  intro ts us a b h1 h2 st st' e
  rw [parseToks_append] at e
  cases h : parseToks r ts st with
  | panic => rw [h] at e; cases e
  | hang => rw [h] at e; cases e
  | fuelOut => rw [h] at e; cases e
  | ok s1 =>
    rw [h] at e
    have a1 := h1 _ _ h
    have a2 := h2 _ _ e
    omega

theorem FitsAll.doc {r : Rec} {k : Nat} {ts : List Token} {c : Nat} (h : FitsAll r k ts c) {out : Str}
    (e : parseDoc r ts = .ok out) : wl k out ≤ c + (1 + k) * 200 := by
  unfold parseDoc at e
  cases h1 : parseToks r ts {} with
  | panic => rw [h1] at e; cases e
  | hang => rw [h1] at e; cases e
  | fuelOut => rw [h1] at e; cases e
  | ok s1 =>
    rw [h1] at e
    injection e with e; subst e
    have a1 := h _ _ h1
    have a2 := finish_pot k s1
    have a3 : pot k {} = 0 := by simp [pot, wl]
    omega

theorem fits_of_step2 {r : Rec} {k : Nat} {t : Token} {c : Nat} (ht : ∀ st, parseTok r t st = step2 r t (step1 t st))
    (h : ∀ st st', step2 r t st = .ok st' → pot k st' + (1 + k) * 20 ≤ pot k st + c) : Fits r k t c := by
  intro st st' e
  rw [ht] at e
  have h1 := h _ _ e
  have h2 := step1_pot k t st
  omega

theorem fits_leaf {N W : Nat} (hW : Unit N W) (k : Nat) (r : Rec) {t : Token} (hl : leafy t = true) (ht : tsize t ≤ N) :
    Fits r k t ((1 + k) * (W * (tsize t + 1))) := by
  refine fits_of_step2 ?_ (fun st st' e => step2_leaf hW k r t hl ht e)
  intro st
  cases t with
  | detail x y => cases hl
  | table x y => cases hl
  | _ => rw [parseTok] <;> simp

theorem fits_header {N W : Nat} (hW : Unit N W) (k : Nat) (r : Rec) {n : Nat} (hn : n ≤ 6) (x : Str) :
    Fits r k (.header n x none) (wl k x + (1 + k) * W) := by
  have hge := hW.ge
  refine fits_of_step2 (fun st => by rw [parseTok] <;> simp) ?_
  intro st st' e
  simp only [step2] at e
  injection e with e; subst e
  rw [pot_push]
  have hd : (dec n).length ≤ 1 := by
    have : ∀ n, n ≤ 6 → (dec n).length ≤ 1 := by decide
    exact this n hn
  have : wl k (headerOut n x none) ≤ wl k x + (1 + k) * 20 := by
    simp only [headerOut, wl_append]
    have a1 := wl_le k c!"<h"
    have a2 := wl_le k (dec n)
    have a3 := wl_le k c!">"
    have a4 := wl_le k c!"</h"
    have a5 := wl_le k c!">\n"
    have a6 := Nat.mul_le_mul_left (1 + k) hd
    simp only [List.length_cons, List.length_nil] at a1 a3 a4 a5
    omega
  have h2 := Nat.mul_le_mul_left (1 + k) hge
  omega

/-- What the rendering of the plain texts of an entry adds up to. -/
theorem entryOut_wl {r : Rec} {k : Nat} {f : Token → Nat} : ∀ (ts : List Token) (out : Str),
    (∀ x, .plaintext x ∈ ts → ∀ out, r.render [] (entryArg x) = .ok out → wl (k + 1) out ≤ f (.plaintext x)) →
    entryOut r ts = .ok out → wl k out ≤ (ts.map f).sum
  | [], out, _, h => by
    have h := Outcome.ok.inj h
    subst h; simp [wl]
  | t :: ts, out, hr, h => by
    have ih := fun out => entryOut_wl ts out (fun x hx => hr x (List.mem_cons_of_mem _ hx))
    rw [List.map_cons, List.sum_cons]
    cases t with
    | plaintext x =>
      rw [entryOut] at h
      change (r.render [] (entryArg x) >>= fun h => entryOut r ts >>= fun rest =>
        .ok (replaceStr c!"<pre><code>" c!"<pre><code>  " h ++ rest)) = .ok out at h
      obtain ⟨a, h1, h⟩ := Outcome.bind_ok' h
      obtain ⟨b, h2, h⟩ := Outcome.bind_ok' h
      have h := Outcome.ok.inj h
      subst h
      rw [wl_append]
      have a1 := wl_pad k a
      have a2 := hr x (by simp) a h1
      have a3 := ih b h2
      omega
    | _ =>
      rw [entryOut] at h
      · have := ih out h
        omega
      · intro _ e; cases e

end Smd.Gfm
