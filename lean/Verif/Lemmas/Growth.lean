import Verif.Lemmas.Bound

/-! Bounds on the length of the rendering: first for texts of one line, then for all texts. -/

namespace Smd.Gfm
open Smd.Rs Smd.Spec

theorem fits_entry {N W : Nat} (hW : Unit N W) {k : Nat} {r : Rec} {toks : List Token} {C : Nat}
    (h : ∀ out, entryOut r toks = .ok out → wl k out ≤ C) : Fits r k (.unorderedListEntry toks) (C + (1 + k) * W) := by
  have hge := hW.ge
  refine fits_of_step2 (fun st => by rw [parseTok] <;> simp) ?_
  intro st st' e
  simp only [step2] at e
  obtain ⟨a, h1, h2⟩ := Outcome.bind_ok' e
  have h2 := Outcome.ok.inj h2
  subst h2
  have ha := h a h1
  rw [pot_push, pot_push]
  have b1 : pot k (if (!st.inUl) = true then { st with inUl := true }.push c!"<ul>\n" else st) ≤ pot k st + (1 + k) * 5 :=
    pot_ite (fun _ => pot_push_le (st := { st with inUl := true }) (by simp)) (fun _ => Nat.le_add_right _ _)
  generalize (if (!st.inUl) = true then { st with inUl := true }.push c!"<ul>\n" else st) = s1 at *
  have b2 : pot k (s1.push c!"<li>") ≤ pot k s1 + (1 + k) * 4 := pot_push_le (by simp)
  generalize s1.push c!"<li>" = s2 at *
  have b3 : pot k (if toks.all isPlaintext = true then s2.push c!"\n" else s2) ≤ pot k s2 + (1 + k) * 1 :=
    pot_ite (fun _ => pot_push_le (by simp)) (fun _ => Nat.le_add_right _ _)
  generalize (if toks.all isPlaintext = true then s2.push c!"\n" else s2) = s3 at *
  have b4 := wl_le k c!"</li>\n"
  simp only [List.length_cons, List.length_nil] at b4
  have b5 := Nat.mul_le_mul_left (1 + k) hge
  omega

theorem fits_quote {N W : Nat} (hW : Unit N W) {k : Nat} {r : Rec} {l : Nat} {x : Str} {C : Nat}
    (h : ∀ out, r.render [] (quoteArg x) = .ok out → wl k out ≤ C) :
    Fits r k (.blockQuote l x) (2 * C + (1 + k) * (W * (l + 1))) := by
  have hge := hW.ge
  have hw : 400 * (l + 1) ≤ W * (l + 1) := Nat.mul_le_mul_right _ hge
  refine fits_of_step2 (fun st => by rw [parseTok] <;> simp) ?_
  intro st st' e
  simp only [step2, quoteStep] at e
  have b1 : pot k (if st.inPara = true then { st with inPara := false }.push c!"</p>" else st) ≤ pot k st + (1 + k) * 4 :=
    pot_ite (fun _ => pot_push_le (st := { st with inPara := false }) (by simp)) (fun _ => Nat.le_add_right _ _)
  generalize (if st.inPara = true then { st with inPara := false }.push c!"</p>" else st) = s1 at *
  have b2 : pot k ({ s1 with quoteLevel := l }.push (quoteTags l s1.quoteLevel)) ≤ pot k s1 + (1 + k) * (27 * l) := by
    refine pot_le (quoteTags l s1.quoteLevel) (27 * l) rfl ?_
    have : (quoteTags l s1.quoteLevel).length + 14 * l ≤ 14 * s1.quoteLevel + 27 * l := by
      unfold quoteTags
      split
      · simp only [List.length_nil]; omega
      · split
        · rw [rep_length]; simp only [List.length_cons, List.length_nil]; omega
        · rw [rep_length]; simp only [List.length_cons, List.length_nil]; omega
    simp only [PState.push]
    omega
  generalize ({ s1 with quoteLevel := l }.push (quoteTags l s1.quoteLevel)) = s2 at *
  have b3 : (1 + k) * (4 + 27 * l + 20) ≤ (1 + k) * (W * (l + 1)) := Nat.mul_le_mul_left _ (by omega)
  simp only [Nat.mul_add (1 + k)] at b3
  split at e
  · have e := Outcome.ok.inj e
    subst e
    omega
  · obtain ⟨a, h1, h2⟩ := Outcome.bind_ok' e
    have h2 := Outcome.ok.inj h2
    subst h2
    have ha := h a h1
    rw [pot_push, replaceStr_char]
    have := wl_detab k a
    omega

/-- The bound for a text of one line with `n` characters, in units; `g` tells whether it may contain `>`. -/
def lineBound (g : Bool) (k n : Nat) : Nat := (if g then 128 else 1) * (40 * (n * n + (k + 1) * n))

theorem lineBound_add (g : Bool) (k p q : Nat) : lineBound g k p + lineBound g k q ≤ lineBound g k (p + q) := by
  unfold lineBound
  rw [← Nat.mul_add]
  refine Nat.mul_le_mul_left _ ?_
  have : 0 ≤ p * q := Nat.zero_le _
  nlinarith

theorem lineBound_mono {g : Bool} {k p q : Nat} (h : p ≤ q) : lineBound g k p ≤ lineBound g k q := by
  have := lineBound_add g k p (q - p)
  rw [Nat.add_sub_cancel' h] at this
  omega

theorem le_lineBound (g : Bool) (k p : Nat) : 40 * ((k + 1) * p) ≤ lineBound g k p := by
  unfold lineBound
  have h1 : 40 * ((k + 1) * p) ≤ 40 * (p * p + (k + 1) * p) := by
    have : 0 ≤ p * p := Nat.zero_le _
    omega
  split <;> omega

theorem lineBound_header (g : Bool) (k n : Nat) : lineBound g k n + 2 * (1 + k) ≤ lineBound g k (n + 1) := by
  have h1 := lineBound_add g k n 1
  have h2 := le_lineBound g k 1
  omega

theorem lineBound_entry (g : Bool) (k n : Nat) : lineBound g (k + 1) n + (2 * k + 3) ≤ lineBound g k (n + 1) := by
  have h : 40 * (n * n + (k + 1 + 1) * n) + (2 * k + 3) ≤ 40 * ((n + 1) * (n + 1) + (k + 1) * (n + 1)) := by
    nlinarith
  unfold lineBound
  cases g
  · simpa using h
  · simp only [if_true]
    omega

theorem lineBound_quote (k l n p : Nat) (h : l + n ≤ p) (hp : 1 ≤ p) :
    2 * (lineBound false k (8 * n) + (1 + k)) + (1 + k) * (l + 1) ≤ lineBound true k p := by
  unfold lineBound
  simp only [Bool.false_eq_true, if_false, if_true, Nat.one_mul]
  have hn : n ≤ p := by omega
  have hl : l ≤ p := by omega
  have h1 : n * n ≤ p * p := Nat.mul_le_mul hn hn
  have h2 : (k + 1) * n ≤ (k + 1) * p := Nat.mul_le_mul_left _ hn
  have h3 : (k + 1) * l ≤ (k + 1) * p := Nat.mul_le_mul_left _ hl
  have h4 : (k + 1) * 1 ≤ (k + 1) * p := Nat.mul_le_mul_left _ hp
  nlinarith

/-- The texts the bound for one line is about: `g` tells whether `>` is allowed. -/
structure LineOk (N : Nat) (g : Bool) (x : Str) : Prop where
  one : OneLine x
  gt : g = false → '>' ∉ x
  len : (if g then 320 else 40) * x.length ≤ N

theorem LineOk.infix {N : Nat} {g : Bool} {x y : Str} (h : LineOk N g x) (hy : y <:+: x) : LineOk N g y :=
  ⟨h.one.infix hy, fun hg hm => h.gt hg (hy.subset hm), Nat.le_trans (Nat.mul_le_mul_left _ hy.length_le) h.len⟩

theorem nl_not_mem_esc_special : ∀ c ∈ escSpecial, '\n' ∉ esc c := by decide

theorem nl_not_mem_sanitize {x : Str} (h : '\n' ∉ x) : '\n' ∉ sanitize x := by
  rw [sanitize_eq_flatMap]
  intro hm
  obtain ⟨c, hx, hc⟩ := List.mem_flatMap.mp hm
  by_cases hs : c ∈ escSpecial
  · exact nl_not_mem_esc_special c hs hc
  · rw [esc_other c hs] at hc
    have : '\n' = c := by simpa using hc
    exact h (this ▸ hx)

/-- The renderer meets the bound on texts of one line. -/
def LineGood (N W : Nat) (r : Rec) : Prop :=
  ∀ (g : Bool) (k : Nat) (ig : List Char) (x out : Str), LineOk N g x → r.render ig x = .ok out →
    wl k out ≤ W * (lineBound g k x.length + (1 + k))

theorem fits_line {N W : Nat} (hW : Unit N W) {r : Rec} (hr : LineGood N W r) {g : Bool} (k : Nat) {s : Str}
    (hs : LineOk N g s) {p : Nat} (hp : 1 ≤ p) (hps : p ≤ s.length) {t : Token} (h : Size r s p t) :
    Fits r k t (W * lineBound g k p) := by
  have hN : 40 * p ≤ N := by
    have := hs.len
    split at this <;> omega
  cases h with
  | leaf _ hl h =>
    refine (fits_leaf hW k r hl (by omega)).mono ?_
    have h1 := Nat.mul_le_mul_left (k + 1) h
    have h2 := le_lineBound g k p
    have e : (1 + k) * (W * (tsize t + 1)) = W * ((k + 1) * (tsize t + 1)) := by ring
    rw [e]
    refine Nat.mul_le_mul_left W ?_
    have e2 : (k + 1) * (40 * p) = 40 * ((k + 1) * p) := by ring
    omega
  | headerEmpty n h6 =>
    refine (fits_header hW k r h6 []).mono ?_
    rw [wl_nil, Nat.zero_add]
    have h1 := lineBound_header g k 0
    have h2 := lineBound_mono (g := g) (k := k) hp
    rw [Nat.mul_comm]
    exact Nat.mul_le_mul_left W (by simp only [Nat.zero_add] at h1; omega)
  | header n arg html h6 hpa ha h1 hr' =>
    refine (fits_header hW k r h6 _).mono ?_
    have b1 := hr g k _ arg html (hs.infix ha) hr'
    have hinf : headingPost html <:+: html :=
      (trim_infix _).trans ((stripSuffix_getD_infix _ _).trans (stripPrefix_getD_infix _ _))
    have b2 := wl_infix (k := k) hinf
    have b3 := lineBound_header g k arg.length
    have b4 := lineBound_mono (g := g) (k := k) hpa
    have b5 : W * (lineBound g k arg.length + (1 + k)) + (1 + k) * W ≤ W * lineBound g k p := by
      rw [Nat.mul_comm (1 + k) W, ← Nat.mul_add]
      exact Nat.mul_le_mul_left W (by omega)
    omega
  | ul xs hpx hx h1 =>
    have hl := h1 hs.one
    obtain ⟨x, rfl⟩ := List.length_eq_one_iff.mp hl
    have hx := hx x (by simp)
    simp only [List.map_cons, List.map_nil, List.sum_cons, List.sum_nil, Nat.add_zero] at hpx
    have hb : ∀ out, entryOut r ([x].map .plaintext) = .ok out → wl k out ≤ W * (lineBound g (k + 1) x.length + (k + 2)) := by
      intro out ho
      have := entryOut_wl (r := r) (k := k) (f := fun _ => W * (lineBound g (k + 1) x.length + (k + 2))) _ out ?_ ho
      · simpa using this
      · intro y hy out' ho'
        have hy : y = x := by simpa using hy
        subst hy
        have hsuf := entryArg_suffix y
        refine Nat.le_trans (hr g (k + 1) [] _ out' (hs.infix (hsuf.isInfix.trans hx.1)) ho') (Nat.mul_le_mul_left W ?_)
        have := lineBound_mono (g := g) (k := k + 1) hsuf.length_le
        omega
    refine (fits_entry hW hb).mono ?_
    have b3 := lineBound_entry g k x.length
    have b4 := lineBound_mono (g := g) (k := k) hpx
    rw [Nat.mul_comm (1 + k) W, ← Nat.mul_add]
    exact Nat.mul_le_mul_left W (by omega)
  | ulLex xs l ts hpx hx hl hl1 hr' hn => exact absurd hs.one hn
  | quote n x hpx hx h1 hg =>
    have hgt : g = true := by
      cases g with
      | true => rfl
      | false => exact absurd hg (hs.gt rfl)
    subst hgt
    have hq : LineOk N false (quoteArg x) := by
      unfold quoteArg
      refine ⟨.of_no_nl (nl_not_mem_sanitize (fun hm => h1 ((trimStartP_suffix _ _).subset hm))),
        fun _ => gt_not_mem_sanitize _, ?_⟩
      have a1 := len_sanitize (trimStartP (· == ' ') x)
      have a2 := (trimStartP_suffix (· == ' ') x).length_le
      have a3 := hx.length_le
      have a4 := hs.len
      simp only [if_true, Bool.false_eq_true, if_false] at a4 ⊢
      omega
    have hlen : (quoteArg x).length ≤ 8 * x.length := by
      unfold quoteArg
      have a1 := len_sanitize (trimStartP (· == ' ') x)
      have a2 := (trimStartP_suffix (· == ' ') x).length_le
      omega
    have hb : ∀ out, r.render [] (quoteArg x) = .ok out → wl k out ≤ W * (lineBound false k (8 * x.length) + (1 + k)) := by
      intro out ho
      refine Nat.le_trans (hr false k [] _ out hq ho) (Nat.mul_le_mul_left W ?_)
      have := lineBound_mono (g := false) (k := k) hlen
      omega
    refine (fits_quote hW hb).mono ?_
    have b := lineBound_quote k n x.length p hpx hp
    have e : 2 * (W * (lineBound false k (8 * x.length) + (1 + k))) + (1 + k) * (W * (n + 1)) =
        W * (2 * (lineBound false k (8 * x.length) + (1 + k)) + (1 + k) * (n + 1)) := by ring
    rw [e]
    exact Nat.mul_le_mul_left W b
  | detail sum x ts hpx hx hr' hn => exact absurd hs.one hn
  | table l0 l1 body rows hpx hb hr' hn _ => exact absurd hs.one hn

theorem lex_line {N W : Nat} (hW : Unit N W) {r : Rec} (hr : LineGood N W r) {g : Bool} (k : Nat) {ig : List Char}
    {last : Option Token} {s : Str} {ts : List Token} (h : Lexes r ig last s ts) (hs : LineOk N g s) :
    FitsAll r k ts (W * lineBound g k s.length) := by
  induction h with
  | nil => exact (FitsAll.nil r k).mono (Nat.zero_le _)
  | cons last s s' t ts h _ ih =>
    have ⟨_, hsuf, hlt⟩ := nextToken_shape r ig last s s' t h
    have h1 := fits_line hW hr k hs (p := s.length - s'.length) (by omega) (by omega) (nextToken_size h)
    refine (FitsAll.cons h1 (ih (hs.infix hsuf.isInfix))).mono ?_
    rw [← Nat.mul_add]
    refine Nat.mul_le_mul_left W ?_
    have := lineBound_add g k (s.length - s'.length) s'.length
    rw [Nat.sub_add_cancel (by omega)] at this
    exact this

/-- The bound for texts of one line. -/
theorem lineGood {N W : Nat} (hW : Unit N W) : ∀ n, LineGood N W (recF n)
  | 0 => fun _ _ _ _ _ _ h => by cases h
  | n + 1 => by
    intro g k ig x out hx h
    rw [recF_render] at h
    obtain ⟨ts, h1, h2⟩ := Outcome.bind_ok' h
    have h3 := (lex_line hW (lineGood hW n) k ((lexWith_ok_iff _ _ _ _).mp h1) hx).doc h2
    have h4 := Nat.mul_le_mul_left (1 + k) hW.ge
    rw [Nat.mul_add, Nat.mul_comm W (1 + k)]
    omega

/-! ### All texts -/

/-- What a leafy token counts. -/
def lsz (t : Token) : Nat := if leafy t then tsize t + 1 else 0

theorem lex_lsz {r : Rec} {ig : List Char} {last : Option Token} {s : Str} {ts : List Token} (h : Lexes r ig last s ts) :
    (ts.map lsz).sum ≤ 40 * s.length := by
  induction h with
  | nil => simp
  | cons last s s' t ts h _ ih =>
    have ⟨_, hsuf, hlt⟩ := nextToken_shape r ig last s s' t h
    have h1 : lsz t ≤ 40 * (s.length - s'.length) := by
      have := nextToken_size h
      unfold lsz
      cases this with
      | leaf _ hl h => rw [if_pos hl]; exact h
      | _ => simp [leafy]
    rw [List.map_cons, List.sum_cons]
    omega

theorem sum_sq_le {α : Type} (f : α → Nat) : ∀ l : List α,
    (l.map (fun x => f x * f x)).sum ≤ (l.map f).sum * (l.map f).sum
  | [] => by simp
  | x :: l => by
    have := sum_sq_le f l
    simp only [List.map_cons, List.sum_cons]
    nlinarith [Nat.zero_le (f x * (l.map f).sum)]

theorem sum_map_le {α : Type} {f g : α → Nat} : ∀ {l : List α}, (∀ x ∈ l, f x ≤ g x) → (l.map f).sum ≤ (l.map g).sum
  | [], _ => by simp
  | x :: l, h => by
    simp only [List.map_cons, List.sum_cons]
    have h1 := h x (by simp)
    have h2 := sum_map_le (l := l) (fun y hy => h y (List.mem_cons_of_mem _ hy))
    omega

theorem mem_sum_le {α : Type} (f : α → Nat) : ∀ {l : List α} {x : α}, x ∈ l → f x ≤ (l.map f).sum
  | y :: l, x, h => by
    rw [List.map_cons, List.sum_cons]
    rcases List.mem_cons.mp h with h | h
    · subst h; omega
    · have := mem_sum_le f h
      omega

theorem filter_sum_le {α : Type} (p : α → Bool) (f : α → Nat) : ∀ l : List α, ((l.filter p).map f).sum ≤ (l.map f).sum
  | [] => by simp
  | x :: l => by
    have := filter_sum_le p f l
    rw [List.filter_cons]
    split <;> simp only [List.map_cons, List.sum_cons] <;> omega

theorem sum_map_mul {α : Type} (c : Nat) (f : α → Nat) : ∀ l : List α, (l.map (fun x => c * f x)).sum = c * (l.map f).sum
  | [] => by simp
  | x :: l => by simp [sum_map_mul c f l, Nat.mul_add]

/-- What one token of a cell shows. -/
def cellTok (whole : Outcome Str) (t : Token) : Outcome Str :=
  match t with
  | .plaintext s => .ok (sanitize s)
  | .italic s => .ok (c!"<em>" ++ sanitize s ++ c!"</em>")
  | .bold s => .ok (c!"<strong>" ++ sanitize s ++ c!"</strong>")
  | .boldItalic s => .ok (c!"<strong><em>" ++ sanitize s ++ c!"</em></strong>")
  | .lineBreak => .ok c!"<br>"
  | .horizontalRule => .ok c!"<hr />"
  | .strikethrough s => .ok (c!"<strike>" ++ sanitize s ++ c!"</strike>")
  | _ => whole

theorem cellText_cons (whole : Outcome Str) (t : Token) (ts : List Token) :
    cellText whole (t :: ts) = (cellTok whole t >>= fun h => cellText whole ts >>= fun rest => .ok (h ++ rest)) := rfl

/-- A row of tokens, all leafy, costs at most the squares of what they count. -/
theorem parseCell_len {N W : Nat} (hW : Unit N W) (r : Rec) (al : Alignment) (ts : List Token)
    (hl : ∀ t ∈ ts, leafy t = true) (hn : ∀ t ∈ ts, tsize t ≤ N) {out : Str} (h : parseCell r (al, ts) = .ok out) :
    out.length ≤ W * (1 + (ts.map lsz).sum * ((ts.map lsz).sum + 1)) := by
  have hge := hW.ge
  have fits : ∀ us : List Token, (∀ t ∈ us, t ∈ ts) → FitsAll r 0 us (W * (us.map lsz).sum) := by
    intro us
    induction us with
    | nil => intro _; exact (FitsAll.nil r 0).mono (Nat.zero_le _)
    | cons u us ih =>
      intro hu
      have h1 := fits_leaf hW 0 r (hl u (hu u (by simp))) (hn u (hu u (by simp)))
      refine (FitsAll.cons h1 (ih (fun t ht => hu t (List.mem_cons_of_mem _ ht)))).mono ?_
      have e : lsz u = tsize u + 1 := by simp [lsz, hl u (hu u (by simp))]
      rw [List.map_cons, List.sum_cons, e, Nat.mul_add W (tsize u + 1)]
      omega
  rw [parseCell] at h
  obtain ⟨txt, h1, h2⟩ := Outcome.bind_ok' h
  have h2 := Outcome.ok.inj h2
  generalize hw : ((parseToks r ts {}).bind fun s => .ok (finish s)) = whole at h1
  have hwl : ∀ x, whole = .ok x → x.length ≤ W * ((ts.map lsz).sum + 1) := by
    intro x hx
    subst hx
    have := (fits ts (fun t ht => ht)).doc (out := x) hw
    rw [wl_zero] at this
    rw [Nat.mul_add]
    omega
  generalize hS : (ts.map lsz).sum = S at *
  have cell : ∀ (us : List Token) (txt : Str), (∀ t ∈ us, t ∈ ts) → (us.map lsz).sum ≤ S → cellText whole us = .ok txt →
      txt.length ≤ us.length * (W * (S + 1)) := by
    intro us
    induction us with
    | nil => intro txt _ _ h; have h := Outcome.ok.inj h; subst h; simp
    | cons u us ih =>
      intro txt hu hs h
      rw [List.map_cons, List.sum_cons] at hs
      rw [cellText_cons] at h
      obtain ⟨a, ha, h⟩ := Outcome.bind_ok' h
      obtain ⟨b, hb, h⟩ := Outcome.bind_ok' h
      have h := Outcome.ok.inj h
      subst h
      have i := ih b (fun t ht => hu t (List.mem_cons_of_mem _ ht)) (by omega) hb
      rw [List.length_append, List.length_cons, Nat.add_mul, Nat.one_mul]
      have hlu := hl u (hu u (by simp))
      have hls : lsz u = tsize u + 1 := by simp [lsz, hlu]
      have hww : 400 * (S + 1) ≤ W * (S + 1) := Nat.mul_le_mul_right _ hge
      suffices a.length ≤ W * (S + 1) by omega
      cases u with
      | plaintext x =>
        have ha := Outcome.ok.inj ha
        subst ha
        have := len_sanitize x
        simp only [tsize] at hls
        omega
      | italic x =>
        have ha := Outcome.ok.inj ha
        subst ha
        have := len_sanitize x
        simp only [tsize] at hls
        simp only [List.length_append, List.length_cons, List.length_nil]
        omega
      | bold x =>
        have ha := Outcome.ok.inj ha
        subst ha
        have := len_sanitize x
        simp only [tsize] at hls
        simp only [List.length_append, List.length_cons, List.length_nil]
        omega
      | boldItalic x =>
        have ha := Outcome.ok.inj ha
        subst ha
        have := len_sanitize x
        simp only [tsize] at hls
        simp only [List.length_append, List.length_cons, List.length_nil]
        omega
      | strikethrough x =>
        have ha := Outcome.ok.inj ha
        subst ha
        have := len_sanitize x
        simp only [tsize] at hls
        simp only [List.length_append, List.length_cons, List.length_nil]
        omega
      | lineBreak =>
        have ha := Outcome.ok.inj ha
        subst ha
        simp only [List.length_cons, List.length_nil]
        omega
      | horizontalRule =>
        have ha := Outcome.ok.inj ha
        subst ha
        simp only [List.length_cons, List.length_nil]
        omega
      | _ => exact hwl a ha
  have hc := cell ts txt (fun t ht => ht) (by omega) h1
  have hlen : ts.length ≤ S := by
    rw [← hS]
    have : (ts.map (fun _ => 1)).sum ≤ (ts.map lsz).sum := sum_map_le (fun t ht => by simp [lsz, hl t ht])
    simpa using this
  have hm : ts.length * (W * (S + 1)) ≤ S * (W * (S + 1)) := Nat.mul_le_mul_right _ hlen
  have e : W * (1 + S * (S + 1)) = W + S * (W * (S + 1)) := by ring
  have hal : al.display.length ≤ 6 := by cases al <;> simp [Alignment.display]
  subst h2
  rw [e]
  simp only [List.length_append, List.length_cons, List.length_nil]
  omega

theorem len_cells (l : Str) : ((cells l).map (fun e => e.length + 1)).sum ≤ 2 * l.length := by
  have h1 : ∀ xs : List Str, ((xs.filter (fun x => x ≠ [])).map (fun e => e.length + 1)).sum ≤ 2 * (xs.map List.length).sum := by
    intro xs
    induction xs with
    | nil => simp
    | cons x xs ih =>
      cases x with
      | nil => simpa using ih
      | cons c cs =>
        rw [List.filter_cons_of_pos (by simp)]
        simp only [List.map_cons, List.sum_cons, List.length_cons]
        omega
  have h2 := (len_splitGo c!"|" l 0).1
  exact Nat.le_trans (h1 (splitGo c!"|" 0 l)) (by omega)

theorem len_trim (x : Str) : (trim x).length ≤ x.length := (trim_infix x).length_le

theorem isUsable_leafy {t : Token} (h : t.isUsableInTable = true) : leafy t = true := by
  cases t <;> first | rfl | cases h

/-- Lexing with a positive amount of fuel. -/
theorem lex_lexes {n : Nat} {x : Str} {ts : List Token} (h : (recF n).lex x = .ok ts) :
    ∃ m, n = m + 1 ∧ Lexes (recF m) [] none x ts := by
  cases n with
  | zero => cases h
  | succ m => exact ⟨m, rfl, (lexWith_ok_iff _ _ _ _).mp h⟩

theorem parseRow_len {N W : Nat} (hW : Unit N W) (m n : Nat) : ∀ (es : List Str) (al : List Alignment) (row : List (List Token))
    (out : Str), (∀ e ∈ es, 40 * e.length ≤ N) → rowTokens (recF n) es = .ok row → parseRow (recF m) (al.zip row) = .ok out →
    out.length ≤ W * (1681 * (es.map (fun e => (e.length + 1) * (e.length + 1))).sum)
  | [], al, row, out, _, h, h' => by
    have h := Outcome.ok.inj h
    subst h
    rw [List.zip_nil_right, parseRow] at h'
    have h' := Outcome.ok.inj h'
    subst h'
    simp
  | e :: es, [], row, out, _, h, h' => by
    rw [List.zip_nil_left, parseRow] at h'
    have h' := Outcome.ok.inj h'
    subst h'
    simp
  | e :: es, a :: al, row, out, hn, h, h' => by
    rw [rowTokens] at h
    obtain ⟨ts, h1, h⟩ := Outcome.bind_ok' h
    obtain ⟨rest, h2, h⟩ := Outcome.bind_ok' h
    have h := Outcome.ok.inj h
    subst h
    rw [List.zip_cons_cons, parseRow] at h'
    obtain ⟨b, h3, h'⟩ := Outcome.bind_ok' h'
    obtain ⟨bs, h4, h'⟩ := Outcome.bind_ok' h'
    have h' := Outcome.ok.inj h'
    subst h'
    have ih := parseRow_len hW m n es al rest bs (fun x hx => hn x (List.mem_cons_of_mem _ hx)) h2 h4
    obtain ⟨q, rfl, hq⟩ := lex_lexes h1
    have hz := lex_lsz hq
    have he := hn e (by simp)
    have hf : ((ts.filter Token.isUsableInTable).map lsz).sum ≤ (ts.map lsz).sum :=
      filter_sum_le _ _ _
    have hlf : ∀ t ∈ ts.filter Token.isUsableInTable, leafy t = true := fun t ht => isUsable_leafy (List.mem_filter.mp ht).2
    have hc := parseCell_len hW (recF m) a _ hlf
      (fun t ht => by
        have h5 : lsz t ≤ ((ts.filter Token.isUsableInTable).map lsz).sum :=
          mem_sum_le lsz ht
        have h6 : lsz t = tsize t + 1 := by simp [lsz, hlf t ht]
        omega) h3
    rw [List.length_append, List.map_cons, List.sum_cons, Nat.mul_add 1681, Nat.mul_add W]
    refine Nat.add_le_add (Nat.le_trans hc (Nat.mul_le_mul_left W ?_)) ih
    generalize ((ts.filter Token.isUsableInTable).map lsz).sum = S at *
    have hS : S ≤ 40 * e.length := by omega
    have := Nat.mul_le_mul hS (Nat.add_le_add_right hS 1)
    nlinarith

theorem parseRows_len {N W : Nat} (hW : Unit N W) (m n : Nat) (al : List Alignment) : ∀ (body : List Str)
    (rows : List (List (Alignment × List Token))) (out : Str), (∀ l ∈ body, 40 * l.length ≤ N) →
    tableRows (recF n) al body = .ok rows → parseRows (recF m) rows = .ok out →
    out.length ≤ W * (6725 * (body.map (fun e => (e.length + 1) * (e.length + 1))).sum)
  | [], rows, out, _, h, h' => by
    have h := Outcome.ok.inj h
    subst h
    rw [parseRows] at h'
    have h' := Outcome.ok.inj h'
    subst h'
    simp
  | l :: body, rows, out, hn, h, h' => by
    rw [tableRows] at h
    obtain ⟨row, h1, h⟩ := Outcome.bind_ok' h
    obtain ⟨rest, h2, h⟩ := Outcome.bind_ok' h
    have h := Outcome.ok.inj h
    subst h
    rw [parseRows] at h'
    obtain ⟨b, h3, h'⟩ := Outcome.bind_ok' h'
    obtain ⟨bs, h4, h'⟩ := Outcome.bind_ok' h'
    have h' := Outcome.ok.inj h'
    subst h'
    have ih := parseRows_len hW m n al body rest bs (fun x hx => hn x (List.mem_cons_of_mem _ hx)) h2 h4
    have hl := hn l (by simp)
    have hcl := len_cells l
    have hce : ∀ e ∈ (cells l).map trim, 40 * e.length ≤ N := by
      intro e he
      obtain ⟨c, hc, rfl⟩ := List.mem_map.mp he
      have a1 := len_trim c
      have a2 : c.length ≤ l.length := by
        unfold cells splitStr at hc
        have := (len_splitGo c!"|" l 0).1
        have h5 : c.length ≤ ((splitGo c!"|" 0 l).map List.length).sum :=
          mem_sum_le List.length (List.mem_filter.mp hc).1
        omega
      omega
    have hr := parseRow_len hW m n _ al row b hce h1 h3
    have hq : (((cells l).map trim).map (fun e => (e.length + 1) * (e.length + 1))).sum ≤ (2 * l.length) * (2 * l.length) := by
      refine Nat.le_trans (sum_sq_le (fun e : Str => e.length + 1) _) ?_
      have : (((cells l).map trim).map (fun e => e.length + 1)).sum ≤ 2 * l.length := by
        refine Nat.le_trans ?_ hcl
        rw [List.map_map]
        exact sum_map_le (fun x _ => by have := len_trim x; simp only [Function.comp]; omega)
      exact Nat.mul_le_mul this this
    have hge := hW.ge
    have hb : b.length + 15 ≤ W * (6725 * ((l.length + 1) * (l.length + 1))) := by
      have a1 := Nat.mul_le_mul_left W (Nat.mul_le_mul_left 1681 hq)
      have a2 : 1681 * (2 * l.length * (2 * l.length)) + 1 ≤ 6725 * ((l.length + 1) * (l.length + 1)) := by nlinarith
      have a3 := Nat.mul_le_mul_left W a2
      rw [Nat.mul_add W] at a3
      omega
    rw [List.map_cons, List.sum_cons, Nat.mul_add 6725, Nat.mul_add W]
    simp only [List.length_append, List.length_cons, List.length_nil] at *
    omega

theorem len_headCells (al : List Alignment) (hs : List Str) :
    (headCells (al.zip hs)).length ≤ 60 * (hs.map (fun e => e.length + 1)).sum := by
  induction hs generalizing al with
  | nil => simp [headCells]
  | cons h hs ih =>
    cases al with
    | nil => simp [headCells]
    | cons a al =>
      have := ih al
      have a1 := len_sanitize h
      have hal : a.display.length ≤ 6 := by cases a <;> simp [Alignment.display]
      unfold headCells at this ⊢
      rw [List.zip_cons_cons, List.flatMap_cons]
      simp only [List.length_append, List.map_cons, List.sum_cons, List.length_cons, List.length_nil]
      omega

/-- The constant of the bound for all texts. -/
def growth : Nat := 10000000

theorem fits_detail {N W : Nat} (hW : Unit N W) {r : Rec} {sum : Str} {ts : List Token} {C : Nat} (h : FitsAll r 0 ts C) :
    Fits r 0 (.detail sum ts) (C + W * (sum.length + 1)) := by
  intro st st' e
  rw [parseTok] at e
  have h1 := step1_pot 0 (.detail sum ts) st
  generalize step1 (.detail sum ts) st = s1 at *
  have b1 : pot 0 (if s1.inPara = true then { s1 with inPara := false }.push c!"</p>\n" else s1) ≤ pot 0 s1 + (1 + 0) * 5 :=
    pot_ite (fun _ => pot_push_le (st := { s1 with inPara := false }) (by simp)) (fun _ => Nat.le_add_right _ _)
  generalize (if s1.inPara = true then { s1 with inPara := false }.push c!"</p>\n" else s1) = s2 at *
  obtain ⟨s3, h2, h3⟩ := Outcome.bind_ok' e
  have h3 := Outcome.ok.inj h3
  subst h3
  have h4 : wl 0 (finish s3) ≤ C + (1 + 0) * 200 := h.doc (by unfold parseDoc; rw [h2]; rfl)
  rw [wl_zero] at h4
  rw [pot_push, wl_zero]
  have a1 := len_sanitize sum
  have hge := Nat.mul_le_mul_right (sum.length + 1) hW.ge
  simp only [detailOut, List.length_append, List.length_cons, List.length_nil]
  omega

theorem plain_of_lex {r : Rec} {ig : List Char} {s : Str} {ts : List Token} (h : Lexes r ig none s ts) {x : Str}
    (hx : .plaintext x ∈ ts) : x <:+: s ∨ x ∈ errTexts := by
  obtain ⟨s', hs, hsh⟩ := lexWith_shape ((lexWith_ok_iff _ _ _ _).mpr h) _ hx
  cases hsh with
  | plain _ h => exact h.imp (fun h => h.trans hs.isInfix) id

theorem lineBound_one (n : Nat) : lineBound true 1 n + 2 ≤ 5120 * ((n + 1) * (n + 1)) := by
  unfold lineBound
  simp only [if_true]
  nlinarith

/-- What one entry of a list costs. -/
theorem entry_cost {N W : Nat} (hW : Unit N W) (m : Nat) {x : Str} (h1 : OneLine x) (hn : 320 * x.length ≤ N) {out : Str}
    (h : (recF m).render [] (entryArg x) = .ok out) : wl 1 out ≤ W * (5120 * ((x.length + 1) * (x.length + 1))) := by
  have hsuf := entryArg_suffix x
  have hx : LineOk N true x := ⟨h1, fun e => (by cases e), by simpa using hn⟩
  refine Nat.le_trans (lineGood hW m true 1 [] _ out (hx.infix hsuf.isInfix) h) (Nat.mul_le_mul_left W ?_)
  have a1 := lineBound_mono (g := true) (k := 1) hsuf.length_le
  have a2 := lineBound_one x.length
  omega

/-- What one token costs, for all texts: `n` is the fuel of the lexer, `m` that of the parser. -/
theorem fits_token {N W : Nat} (hW : Unit N W) (hN : 12160 ≤ N) (n : Nat)
    (ih : ∀ n', n' < n → ∀ (s : Str) (ts : List Token), Lexes (recF n') [] none s ts → 320 * s.length ≤ N →
      ∀ m, FitsAll (recF m) 0 ts (W * (growth * (s.length * s.length))))
    {s : Str} (hs : 320 * s.length ≤ N) {p : Nat} (hp : 1 ≤ p) (hps : p ≤ s.length) {t : Token} (h : Size (recF n) s p t) (m : Nat) :
    Fits (recF m) 0 t (W * (growth * (p * p))) := by
  have hge := hW.ge
  have hpp : p ≤ p * p := Nat.le_mul_of_pos_left p hp
  have hlo : ∀ x : Str, OneLine x → x <:+: s → LineOk N true x := fun x h1 hx =>
    ⟨h1, fun e => (by cases e), by have := hx.length_le; simp only [if_true]; omega⟩
  have hline : lineBound true 0 p ≤ growth * (p * p) := by
    unfold lineBound growth
    simp only [if_true]
    nlinarith
  cases h with
  | leaf _ hl h =>
    refine (fits_leaf hW 0 (recF m) hl (by omega)).mono ?_
    have e : (1 + 0) * (W * (tsize t + 1)) = W * (tsize t + 1) := by ring
    rw [e]
    refine Nat.mul_le_mul_left W ?_
    unfold growth
    omega
  | headerEmpty l h6 =>
    refine (fits_header hW 0 (recF m) h6 []).mono ?_
    rw [wl_nil]
    have : W * 1 ≤ W * (growth * (p * p)) := Nat.mul_le_mul_left W (by unfold growth; omega)
    omega
  | header l arg html h6 hpa ha h1 hr' =>
    refine (fits_header hW 0 (recF m) h6 _).mono ?_
    have b1 := lineGood hW n true 0 _ arg html (hlo arg (.of_no_nl h1) ha) hr'
    have hinf : headingPost html <:+: html :=
      (trim_infix _).trans ((stripSuffix_getD_infix _ _).trans (stripPrefix_getD_infix _ _))
    have b2 := wl_infix (k := 0) hinf
    have b3 := lineBound_header true 0 arg.length
    have b4 := lineBound_mono (g := true) (k := 0) hpa
    have b5 : W * (lineBound true 0 arg.length + (1 + 0)) + (1 + 0) * W ≤ W * (growth * (p * p)) := by
      rw [Nat.mul_comm (1 + 0) W, ← Nat.mul_add]
      exact Nat.mul_le_mul_left W (by omega)
    omega
  | ul xs hpx hx h1 =>
    have hb : ∀ out, entryOut (recF m) (xs.map .plaintext) = .ok out → wl 0 out ≤ W * (5120 * (p * p)) := by
      intro out ho
      refine Nat.le_trans (entryOut_wl (f := fun t => W * (5120 * ((tsize t + 1) * (tsize t + 1)))) _ out ?_ ho) ?_
      · intro x hxm out' ho'
        obtain ⟨y, hy, e⟩ := List.mem_map.mp hxm
        injection e with e
        subst e
        have := (hx y hy).1.length_le
        exact entry_cost hW m (hx y hy).2 (by omega) ho'
      · rw [sum_map_mul W, sum_map_mul 5120, List.map_map]
        refine Nat.mul_le_mul_left W (Nat.mul_le_mul_left 5120 ?_)
        exact Nat.le_trans (sum_sq_le (fun x : Str => x.length + 1) xs) (Nat.mul_le_mul hpx hpx)
    refine (fits_entry hW hb).mono ?_
    rw [Nat.mul_comm (1 + 0) W, ← Nat.mul_add]
    exact Nat.mul_le_mul_left W (by unfold growth; omega)
  | ulLex xs l ts hpx hx hl hl1 hr' hn =>
    obtain ⟨q, rfl, hq⟩ := lex_lexes hr'
    have hll := hl.length_le
    have hb : ∀ out, entryOut (recF m) (xs.map .plaintext ++ ts) = .ok out →
        wl 0 out ≤ W * (5120 * (p * p)) + W * (5120 * (1600 * (p * p))) := by
      intro out ho
      refine Nat.le_trans (entryOut_wl (f := fun t => W * (5120 * (lsz t * lsz t))) _ out ?_ ho) ?_
      · intro x hxm out' ho'
        rcases List.mem_append.mp hxm with hxm | hxm
        · obtain ⟨y, hy, e⟩ := List.mem_map.mp hxm
          injection e with e
          subst e
          have := (hx y hy).1.length_le
          exact entry_cost hW m (hx y hy).2 (by omega) ho'
        · rcases plain_of_lex hq hxm with h5 | h5
          · have := h5.length_le
            exact entry_cost hW m (hl1.infix h5) (by omega) ho'
          · refine entry_cost hW m ?_ ?_ ho'
            · rcases mem_errTexts h5 with e | e <;> subst e <;> exact .of_no_nl (by decide)
            · rcases mem_errTexts h5 with e | e <;> subst e <;> simp only [List.length_cons, List.length_nil] <;> omega
      · rw [List.map_append, List.sum_append, sum_map_mul W, sum_map_mul 5120, sum_map_mul W, sum_map_mul 5120, List.map_map]
        refine Nat.add_le_add (Nat.mul_le_mul_left W (Nat.mul_le_mul_left 5120 ?_))
          (Nat.mul_le_mul_left W (Nat.mul_le_mul_left 5120 ?_))
        · have hpx' : (xs.map (fun x => x.length + 1)).sum ≤ p := by omega
          exact Nat.le_trans (sum_sq_le (fun x : Str => x.length + 1) xs) (Nat.mul_le_mul hpx' hpx')
        · have hz : (ts.map lsz).sum ≤ 40 * p := Nat.le_trans (lex_lsz hq) (by omega)
          have := Nat.mul_le_mul hz hz
          refine Nat.le_trans (sum_sq_le lsz ts) (Nat.le_trans this ?_)
          rw [show 40 * p * (40 * p) = 1600 * (p * p) by ring]
    refine (fits_entry hW hb).mono ?_
    rw [Nat.mul_comm (1 + 0) W, ← Nat.mul_add, ← Nat.mul_add]
    exact Nat.mul_le_mul_left W (by unfold growth; omega)
  | quote l x hpx hx h1 hg =>
    have a1 := len_sanitize (trimStartP (· == ' ') x)
    have a2 := (trimStartP_suffix (· == ' ') x).length_le
    have a3 := hx.length_le
    have hq : LineOk N false (quoteArg x) := by
      unfold quoteArg
      refine ⟨.of_no_nl (nl_not_mem_sanitize (fun hm => h1 ((trimStartP_suffix _ _).subset hm))),
        fun _ => gt_not_mem_sanitize _, ?_⟩
      simp only [Bool.false_eq_true, if_false]
      omega
    have hlen : (quoteArg x).length ≤ 8 * x.length := by
      unfold quoteArg
      omega
    have hb : ∀ out, (recF m).render [] (quoteArg x) = .ok out → wl 0 out ≤ W * (lineBound false 0 (8 * x.length) + (1 + 0)) := by
      intro out ho
      refine Nat.le_trans (lineGood hW m false 0 [] _ out hq ho) (Nat.mul_le_mul_left W ?_)
      have := lineBound_mono (g := false) (k := 0) hlen
      omega
    refine (fits_quote hW hb).mono ?_
    have b := lineBound_quote 0 l x.length p hpx hp
    have e : 2 * (W * (lineBound false 0 (8 * x.length) + (1 + 0))) + (1 + 0) * (W * (l + 1)) =
        W * (2 * (lineBound false 0 (8 * x.length) + (1 + 0)) + (1 + 0) * (l + 1)) := by ring
    rw [e]
    exact Nat.mul_le_mul_left W (Nat.le_trans b hline)
  | detail sum x ts hpx hx hr' hn =>
    obtain ⟨q, rfl, hq⟩ := lex_lexes hr'
    have := hx.length_le
    refine (fits_detail hW (ih q (by omega) x ts hq (by omega) m)).mono ?_
    rw [← Nat.mul_add]
    refine Nat.mul_le_mul_left W ?_
    have h1 : x.length * x.length + (sum.length + 1) ≤ p * p := by
      have := Nat.mul_le_mul hpx hpx
      nlinarith
    have := Nat.mul_le_mul_left growth h1
    rw [Nat.mul_add] at this
    unfold growth at *
    omega
  | table l0 l1 body rows hpx hb hr' hn =>
    intro st st' e
    have h1 := step1_pot 0 (.table (((cells l1).map cellAlign).zip ((cells l0).map trim)) rows) st
    cases rows with
    | nil => rw [parseTok] at e; cases e
    | cons r0 rs =>
      rw [parseTok] at e
      generalize step1 (.table (((cells l1).map cellAlign).zip ((cells l0).map trim)) (r0 :: rs)) st = s1 at *
      have hW1 : W * 1 ≤ W * (growth * (p * p)) := Nat.mul_le_mul_left W (by unfold growth; omega)
      split at e
      · have e := Outcome.ok.inj e
        subst e
        omega
      · obtain ⟨b0, h2, e⟩ := Outcome.bind_ok' e
        obtain ⟨bs, h3, e⟩ := Outcome.bind_ok' e
        have e := Outcome.ok.inj e
        subst e
        have hrows : parseRows (recF m) (r0 :: rs) = .ok ((c!"\n\t<tr>" ++ b0 ++ c!"\n\t</tr>") ++ bs) := by
          rw [parseRows, h2]
          show ((parseRows (recF m) rs).bind _) = _
          rw [h3]
          rfl
        have hb40 : ∀ l ∈ body, 40 * l.length ≤ N := fun l hl => by have := (hb l hl).1.length_le; omega
        have a1 := parseRows_len hW m n _ body _ _ hb40 hr' hrows
        have a2 := sum_sq_le (fun l : Str => l.length + 1) body
        generalize hB : (body.map (fun l : Str => l.length + 1)).sum = B at *
        have a3 := Nat.mul_le_mul_left W (Nat.mul_le_mul_left 6725 a2)
        have a4 := len_headCells ((cells l1).map cellAlign) ((cells l0).map trim)
        have a5 : (((cells l0).map trim).map (fun e => e.length + 1)).sum ≤ 2 * l0.length := by
          refine Nat.le_trans ?_ (len_cells l0)
          rw [List.map_map]
          exact sum_map_le (fun x _ => by have := len_trim x; simp only [Function.comp]; omega)
        have a6 : W * (6725 * (B * B)) + W * (l0.length + 1) ≤ W * (growth * (p * p)) := by
          rw [← Nat.mul_add]
          refine Nat.mul_le_mul_left W ?_
          have hBp : B ≤ p := by omega
          have := Nat.mul_le_mul hBp hBp
          unfold growth
          omega
        have a7 := Nat.mul_le_mul_right (l0.length + 1) hge
        rw [pot_push, wl_zero]
        simp only [List.length_append, List.length_cons, List.length_nil] at a1 ⊢
        omega

theorem lex_all {N W : Nat} (hW : Unit N W) (hN : 12160 ≤ N) (n : Nat) : ∀ (ig : List Char) (last : Option Token) (s : Str)
    (ts : List Token), Lexes (recF n) ig last s ts → 320 * s.length ≤ N →
    ∀ m, FitsAll (recF m) 0 ts (W * (growth * (s.length * s.length))) := by
  induction n using Nat.strongRecOn with
  | ind n ihn =>
    intro ig last s ts h hs m
    induction h with
    | nil => exact (FitsAll.nil _ 0).mono (Nat.zero_le _)
    | cons last s s' t ts h _ ih =>
      have ⟨_, hsuf, hlt⟩ := nextToken_shape _ ig last s s' t h
      have h1 := fits_token hW hN n (fun n' hn' s ts => ihn n' hn' [] none s ts) hs (p := s.length - s'.length) (by omega)
        (by omega) (nextToken_size h) m
      refine (FitsAll.cons h1 (ih (by omega))).mono ?_
      rw [← Nat.mul_add, ← Nat.mul_add]
      refine Nat.mul_le_mul_left W (Nat.mul_le_mul_left growth ?_)
      obtain ⟨d, hd⟩ : ∃ d, s.length = d + s'.length := ⟨s.length - s'.length, by omega⟩
      rw [hd, Nat.add_sub_cancel]
      nlinarith [Nat.zero_le (d * s'.length)]

/-- The bound for all documents. -/
theorem render_length {N W : Nat} (hW : Unit N W) (hN : 12160 ≤ N) {d html : Str} (hd : 320 * d.length ≤ N)
    (h : render d = .ok html) : html.length ≤ W * (growth * (d.length * d.length) + 1) := by
  unfold render renderIgnore at h
  obtain ⟨f, hf, _⟩ := fuelFor_succ d
  rw [hf, recF_render] at h
  obtain ⟨ts, h1, h2⟩ := Outcome.bind_ok' h
  have := (lex_all hW hN _ _ _ _ _ ((lexWith_ok_iff _ _ _ _).mp h1) hd _).doc h2
  have hge := hW.ge
  rw [wl_zero] at this
  rw [Nat.mul_add]
  omega

end Smd.Gfm
