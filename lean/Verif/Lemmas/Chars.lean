import Verif.Lemmas.ElementSigns

/-! Where the characters of the output come from. -/

namespace Smd.Gfm
open Smd.Rs

/-- All characters of a text have a property. -/
def Of (A : Char → Prop) (x : Str) : Prop := ∀ c ∈ x, A c

/-- The characters of the renderer's own texts, but for the arrow of the endnotes. -/
def ownChar (c : Char) : Bool := (decide (' ' ≤ c) && decide (c ≤ '~')) || c == '\n' || c == '\t'

/-- A set with the renderer's own characters. -/
def Rich (A : Char → Prop) : Prop := ∀ c, ownChar c = true → A c

variable {A : Char → Prop}

theorem Of.nil : Of A [] := by simp [Of]

theorem Of.append {x y : Str} (hx : Of A x) (hy : Of A y) : Of A (x ++ y) := by
  intro c hc
  rcases List.mem_append.mp hc with h | h
  · exact hx c h
  · exact hy c h

theorem Of.infix {x y : Str} (h : Of A x) (hy : y <:+: x) : Of A y := fun c hc => h c (hy.subset hc)

theorem Of.const (hA : Rich A) {x : Str} (h : x.all ownChar = true) : Of A x := fun c hc => hA c (List.all_eq_true.mp h c hc)

theorem Of.flat {α : Type} {l : List α} {f : α → Str} (h : ∀ x ∈ l, Of A (f x)) : Of A (l.flatMap f) := by
  intro c hc
  obtain ⟨x, hx, hc⟩ := List.mem_flatMap.mp hc
  exact h x hx c hc

theorem Of.rep {x : Str} (h : Of A x) (n : Nat) : Of A (rep n x) := by
  intro c hc
  obtain ⟨y, hy, hc⟩ := List.mem_flatten.mp hc
  rw [List.eq_of_mem_replicate hy] at hc
  exact h c hc

theorem Of.replace {c : Char} {r x : Str} (hr : Of A r) (hx : Of A x) : Of A (replaceC c r x) := fun d hd =>
  (mem_replaceC hd).elim (hx d) (hr d)

theorem Of.replaceStr {p r : Str} (hr : Of A r) {x : Str} (hx : Of A x) : Of A (replaceStr p r x) := by
  have : ∀ (x : Str) (k : Nat), Of A x → Of A (replaceGo p r k x) := by
    intro x
    induction x with
    | nil => intro k _; cases k <;> exact .nil
    | cons c x ih =>
      intro k h
      have h' : Of A x := h.infix (List.suffix_cons c x).isInfix
      cases k with
      | succ k => exact ih k h'
      | zero =>
        unfold replaceGo
        split
        · exact hr.append (ih _ h')
        · exact Of.append (x := [c]) (fun d hd => h d (by simp at hd; simp [hd])) (ih 0 h')
  exact this x 0 hx

theorem Of.san (hA : Rich A) {x : Str} (h : Of A x) : Of A (sanitize x) := by
  unfold sanitize
  simp only
  repeat refine Of.replace (.const hA (by decide)) ?_
  exact h

theorem Of.percent (hA : Rich A) {x : Str} (h : Of A x) : Of A (percentEncode x) := by
  unfold percentEncode
  simp only
  repeat refine Of.replace (.const hA (by decide)) ?_
  exact h

theorem Of.dec (hA : Rich A) (n : Nat) : Of A (dec n) := by
  intro c hc
  refine hA c ?_
  have h := Nat.isDigit_of_mem_toDigits (b := 10) (by decide) (by decide) hc
  simp only [Char.isDigit, Bool.and_eq_true, decide_eq_true_eq] at h
  simp only [ownChar, Bool.or_eq_true, Bool.and_eq_true, decide_eq_true_eq]
  refine .inl (.inl ⟨?_, ?_⟩)
  · exact Char.le_def.mpr (UInt32.le_trans (by decide) h.1)
  · exact Char.le_def.mpr (UInt32.le_trans h.2 (by decide))

/-! ### Addresses -/

theorem validate_chars {l : Str} {u : ValidURL} (h : validateLink l = .ok u) :
    (∀ c ∈ u.content, c ∈ l) ∧ ∀ s, u.scheme = some s → ∀ c ∈ s.display, c ∈ l ∨ c ∈ c!"mailto" := by
  have hs : ∀ s, sourceScheme l = some s → ∀ c ∈ s.display, c ∈ l ∨ c ∈ c!"mailto" := by
    intro s hs c hc
    unfold sourceScheme at hs
    simp only at hs
    have : s.display = l.takeWhile (· != ':') := by
      split at hs
      · split at hs
        · injection hs with hs; subst hs; rfl
        · split at hs
          · injection hs with hs; subst hs; rfl
          · split at hs
            · injection hs with hs; subst hs; rfl
            · injection hs with hs; subst hs; rfl
      · cases hs
    rw [this] at hc
    exact .inl ((List.takeWhile_prefix _).subset hc)
  have hp : ∀ p x : Str, ∀ c ∈ (stripPrefix p x).getD [], c ∈ x := by
    intro p x c hc
    unfold stripPrefix at hc
    split at hc
    · exact List.mem_of_mem_drop hc
    · simp at hc
  have hst : ∀ s : Str, ∀ c ∈ stripScheme s l, c ∈ l := fun s c hc => hp _ _ c (hp _ _ c hc)
  have hlast : ∀ c ∈ afterLastColon l, c ∈ l := by
    intro c hc
    unfold afterLastColon at hc
    have := (List.takeWhile_prefix _).subset (List.mem_reverse.mp hc)
    exact List.mem_reverse.mp this
  unfold validateLink at h
  simp only at h
  split at h
  · cases h
  split at h
  · cases h
  split at h
  · cases h
  split at h
  · cases h
  split at h
  · split at h
    · next sc e => injection h with h; subst h; exact ⟨hlast, fun s hs' => by injection hs' with hs'; exact hs' ▸ hs sc e⟩
    · injection h with h; subst h
      refine ⟨fun c hc => hc, fun s hs' c hc => ?_⟩
      injection hs' with hs'
      subst hs'
      exact .inr hc
  split at h
  · cases h
  split at h
  · next s e => injection h with h; subst h; exact ⟨hst s, fun s hs' => by injection hs' with hs'; exact hs' ▸ hs _ e⟩
  · next s e => injection h with h; subst h; exact ⟨hst s, fun s hs' => by injection hs' with hs'; exact hs' ▸ hs _ e⟩
  · next s e => injection h with h; subst h; exact ⟨hst s, fun s hs' => by injection hs' with hs'; exact hs' ▸ hs _ e⟩
  · next s e => injection h with h; subst h; exact ⟨hst s, fun s hs' => by injection hs' with hs'; exact hs' ▸ hs _ e⟩
  · injection h with h; subst h; exact ⟨fun c hc => hc, fun s hs' => by cases hs'⟩

theorem validate_of (hA : Rich A) {l : Str} {u : ValidURL} (hl : Of A l) (h : validateLink l = .ok u) :
    Of A u.content ∧ Of A u.display ∧ Of A u.fmtUnsafe := by
  obtain ⟨h1, h2⟩ := validate_chars h
  have hc : Of A u.content := fun c hc => hl c (h1 c hc)
  have hsc : ∀ s, u.scheme = some s → Of A s.display := fun s hs c hc =>
    (h2 s hs c hc).elim (hl c) (Of.const (x := c!"mailto") hA (by decide) c)
  refine ⟨hc, ?_, ?_⟩
  · unfold ValidURL.display
    split
    · exact (Of.const hA (by decide)).append (Of.replace (.const hA (by decide)) (.percent hA hc))
    · next s e => exact ((hsc s e).append (.const hA (by decide))).append (Of.replace (.const hA (by decide)) (.percent hA hc))
  · unfold ValidURL.fmtUnsafe
    simp only
    split
    · exact (Of.const hA (by decide)).append (Of.replace (.const hA (by decide)) hc)
    · exact Of.replace (.const hA (by decide)) hc
    · next s _ e => exact ((hsc _ e).append (.const hA (by decide))).append (Of.replace (.const hA (by decide)) hc)

/-! ### The state -/

/-- What has been written and what is to be written. -/
structure CHolds (A : Char → Prop) (st : PState) : Prop where
  html : Of A st.html
  refs : ∀ p ∈ st.refs, A '↩' ∧ Of A p.1 ∧ Of A p.2

theorem CHolds.init : CHolds A {} := ⟨.nil, by simp⟩

theorem CHolds.push {st : PState} (h : CHolds A st) {x : Str} (hx : Of A x) : CHolds A (st.push x) := ⟨h.html.append hx, h.refs⟩

theorem CHolds.same {st st' : PState} (h : CHolds A st) (h1 : st'.html = st.html) (h2 : st'.refs = st.refs) : CHolds A st' :=
  ⟨h1 ▸ h.html, h2 ▸ h.refs⟩

theorem CHolds.add {st st' : PState} (h : CHolds A st) {x : Str} (hx : Of A x) (h1 : st'.html = st.html := by rfl)
    (h2 : st'.refs = st.refs := by rfl) : CHolds A (st'.push x) := (h.same h1 h2).push hx

theorem CHolds.ensurePara (hA : Rich A) {st : PState} (h : CHolds A st) : CHolds A st.ensurePara := by
  unfold PState.ensurePara
  split
  · exact h.add (.const hA (by decide))
  · exact h

theorem cstep1 (hA : Rich A) (t : Token) {st : PState} (h : CHolds A st) : CHolds A (step1 t st) := by
  unfold step1
  refine ite_ind (fun _ => h) fun _ => ?_
  refine ite_ind (fun _ => h) fun _ => ?_
  refine ite_ind (fun _ => h) fun _ => ?_
  refine ite_ind (fun _ => h) fun _ => ?_
  refine ite_ind (fun _ => CHolds.push (h.add (.rep (.const hA (by decide)) _)) (.const hA (by decide))) fun _ => ?_
  refine ite_ind (fun _ => CHolds.ensurePara hA (h.add (.const hA (by decide)))) fun _ => ?_
  refine ite_ind (fun _ => CHolds.ensurePara hA (h.add (.const hA (by decide)))) fun _ => ?_
  refine ite_ind (fun _ => CHolds.ensurePara hA (h.add (.const hA (by decide)))) fun _ => ?_
  refine ite_ind (fun _ => h.add (.const hA (by decide))) fun _ => ?_
  refine ite_ind (fun _ => h) fun _ => ?_
  exact ite_ind (fun _ => h.add (.const hA (by decide))) fun _ => h

theorem Of.noteOut (hA : Rich A) {n : Str × Str} (h0 : A '↩') (h : Of A n.1 ∧ Of A n.2) : Of A (noteOut n) := by
  unfold Gfm.noteOut
  refine Of.append (Of.append (Of.append (Of.append (Of.append (.append (.const hA (by decide)) (.const hA (by decide))) (.san hA h.2))
    (.const hA (by decide))) (.san hA h.1)) ?_) (.const hA (by decide))
  intro c hc
  have : ∀ c ∈ c!"\" class=\"reversefootnote\" role=\"doc-backlink\">↩</a></p>", c = '↩' ∨ ownChar c = true := by decide
  rcases this c hc with rfl | h
  · exact h0
  · exact hA c h

theorem CHolds.finish (hA : Rich A) {st : PState} (h : CHolds A st) : Of A (finish st) := by
  have hnl : ∀ x, Of A x → Of A (endNl x) := by
    intro x hx
    unfold endNl
    split
    · exact hx.append (.const hA (by decide))
    · exact hx
  have hi : ∀ (b : Bool) (x y : Str), Of A x → Of A y → Of A (if b then x ++ y else x) := by
    intro b x y hx hy
    split
    · exact hx.append hy
    · exact hx
  unfold Gfm.finish
  simp only
  have h1 := hi st.inPara st.html c!"</p>\n" h.html (.const hA (by decide))
  generalize (if st.inPara then st.html ++ c!"</p>\n" else st.html) = s1 at *
  have h2 : Of A (s1 ++ rep st.quoteLevel c!"</blockquote>\n") := h1.append (.rep (.const hA (by decide)) _)
  generalize s1 ++ rep st.quoteLevel c!"</blockquote>\n" = s2 at *
  have h3 := hi (st.inTask || st.inUl) s2 c!"</ul>" h2 (.const hA (by decide))
  generalize (if st.inTask || st.inUl then s2 ++ c!"</ul>" else s2) = s3 at *
  have h4 := hi st.inOl s3 c!"</ol>" h3 (.const hA (by decide))
  generalize (if st.inOl then s3 ++ c!"</ol>" else s3) = s4 at *
  have h5 : Of A (if st.inCode then endNl (endNl s4) ++ c!"</code></pre>" else endNl s4) := by
    split
    · exact (hnl _ (hnl _ h4)).append (.const hA (by decide))
    · exact hnl _ h4
  split
  · exact ((((h5.append (.const hA (by decide))).append (.const hA (by decide))).append (Of.flat fun n hn => .noteOut hA (h.refs n hn).1 (h.refs n hn).2)).append
      (.const hA (by decide))).append (.const hA (by decide))
  · exact h5

/-- The characters a token needs. -/
def CNeed (A : Char → Prop) (r : Rec) (t : Token) : Prop :=
  (∀ k h, IsKid t k → r.render [] k = .ok h → Of A h) ∧
  match t with
  | .plaintext x | .orderedListEntry x | .italic x | .bold x | .boldItalic x | .strikethrough x | .code x => Of A x
  | .header _ t l => Of A t ∧ l = none
  | .image l x => Of A l ∧ ∀ y, x = some y → Of A y
  | .link u x y => Of A u.display ∧ Of A u.fmtUnsafe ∧ (∀ z, x = some z → Of A z) ∧ ∀ z, y = some z → Of A z
  | .taskListItem _ x => Of A x
  | .footnote i x => A '↩' ∧ Of A i ∧ Of A x
  | .detail s _ => Of A s
  | .table hs _ => ∀ h ∈ hs, Of A h.2
  | _ => True

theorem centryOut (hA : Rich A) (r : Rec) : ∀ (ts : List Token) (h : Str),
    (∀ x, Token.plaintext x ∈ ts → ∀ h, r.render [] (entryArg x) = .ok h → Of A h) → entryOut r ts = .ok h → Of A h
  | [], h, _, e => by injection e with e; subst e; exact .nil
  | t :: ts, h, hk, e => by
    have ih := fun h => centryOut hA r ts h (fun x hx => hk x (by simp [hx]))
    cases t with
    | plaintext x =>
      simp only [entryOut] at e
      obtain ⟨h1, e1, e⟩ := Outcome.bind_ok' e
      obtain ⟨h2, e2, e⟩ := Outcome.bind_ok' e
      injection e with e
      subst e
      exact (Of.replaceStr (.const hA (by decide)) (hk x (by simp) h1 e1)).append (ih h2 e2)
    | _ => exact ih h e

theorem Of.footRefs (hA : Rich A) : ∀ (toks : List Str) (n : Nat), (∀ t ∈ toks, Of A t) → Of A (footRefs n toks)
  | [], _, _ => .nil
  | t :: ts, n, h => by
    unfold Gfm.footRefs
    have ht := h t (by simp)
    split
    · refine Of.append ?_ (Of.footRefs hA ts (n + 1) fun x hx => h x (by simp [hx]))
      have hs : Of A (sanitize (trimEndP (· == ']') (trimEnd t))) :=
        .san hA (ht.infix ((trimEndP_prefix _ _).isInfix.trans (trimEndP_prefix _ _).isInfix))
      unfold supTag
      exact ((((((Of.const hA (by decide)).append hs).append (.const hA (by decide))).append hs).append (.const hA (by decide))).append (.dec hA n)).append
        (.const hA (by decide))
    · exact ht.append (Of.footRefs hA ts n fun x hx => h x (by simp [hx]))

theorem Of.plainOut (hA : Rich A) {x : Str} (h : Of A x) : Of A (plainOut x) := by
  unfold Gfm.plainOut
  simp only
  have ht := h.infix (plainTrim_prefix x).isInfix
  split
  · exact Of.footRefs hA _ _ fun t htm => ht.infix (splitStr_infix _ _ t htm)
  · exact .san hA (ht.infix (dropWhile_suffix _ _).isInfix)

theorem cquote (hA : Rich A) (r : Rec) (l : Nat) (x : Str) {st st' : PState} (h : CHolds A st)
    (hk : ∀ h, r.render [] (quoteArg x) = .ok h → Of A h) (e : quoteStep r l x st = .ok st') : CHolds A st' := by
  unfold quoteStep at e
  simp only at e
  have h1 : CHolds A (if st.inPara then { st with inPara := false }.push c!"</p>" else st) := by
    split
    · exact h.add (.const hA (by decide))
    · exact h
  generalize (if st.inPara then { st with inPara := false }.push c!"</p>" else st) = st1 at *
  have h2 : CHolds A ({ st1 with quoteLevel := l }.push (quoteTags l st1.quoteLevel)) := by
    refine h1.add ?_
    unfold quoteTags
    split
    · exact .nil
    · split <;> exact .rep (.const hA (by decide)) _
  split at e
  · injection e with e
    subst e
    exact h2
  · obtain ⟨y, e1, e⟩ := Outcome.bind_ok' e
    injection e with e
    subst e
    exact h2.push (Of.replaceStr (.const hA (by decide)) (hk y e1))

theorem Of.wrapped (hA : Rich A) {o x c : Str} (ho : o.all ownChar = true) (hx : Of A x) (hc : c.all ownChar = true) : Of A (o ++ sanitize x ++ c) :=
  ((Of.const hA ho).append (.san hA hx)).append (.const hA hc)

theorem cstep2 (hA : Rich A) (r : Rec) (t : Token) {st st' : PState} (h : CHolds A st) (need : CNeed A r t) (e : step2 r t st = .ok st') :
    CHolds A st' := by
  obtain ⟨hk, need⟩ := need
  cases t with
  | plaintext x =>
    simp only [step2] at e
    split at e
    · injection e with e; subst e; exact h
    · injection e with e; subst e; exact h.push (.plainOut hA need)
  | header l x lbl =>
    obtain ⟨hx, rfl⟩ := need
    injection e with e; subst e
    exact h.push ((((((Of.const hA (by decide)).append (.dec hA l)).append (.const hA (by decide))).append hx).append (.const hA (by decide))).append (.dec hA l)
      |>.append (.const hA (by decide)))
  | orderedListEntry x =>
    injection e with e; subst e
    refine CHolds.push ?_ (.wrapped hA (by decide) need (by decide))
    split
    · exact h.add (.const hA (by decide))
    · exact h
  | unorderedListEntry toks =>
    simp only [step2] at e
    obtain ⟨y, e1, e⟩ := Outcome.bind_ok' e
    injection e with e; subst e
    have hy := centryOut hA r toks y (fun x hx h' => hk _ h' ⟨x, hx, rfl⟩) e1
    refine CHolds.push (CHolds.push ?_ hy) (.const hA (by decide))
    have h1 : CHolds A ((if !st.inUl then { st with inUl := true }.push c!"<ul>\n" else st).push c!"<li>") := by
      refine CHolds.push ?_ (.const hA (by decide))
      split
      · exact h.add (.const hA (by decide))
      · exact h
    split
    · exact h1.push (.const hA (by decide))
    · exact h1
  | image l x =>
    injection e with e; subst e
    refine h.push ?_
    unfold imageOut
    split
    · split
      · exact .const hA (by decide)
      · exact ((Of.const hA (by decide)).append need.1).append (.const hA (by decide))
    · next y =>
      have hy := need.2 y rfl
      split
      · exact .wrapped hA (by decide) hy (by decide)
      · exact ((((Of.const hA (by decide)).append need.1).append (.const hA (by decide))).append (.san hA hy)).append (.const hA (by decide))
  | link u x y =>
    obtain ⟨h1, h2, h3, h4⟩ := need
    injection e with e; subst e
    refine h.push ?_
    unfold linkOut
    split
    · exact ((((((Of.const hA (by decide)).append h1).append (.const hA (by decide))).append (h4 _ rfl)).append (.const hA (by decide))).append (.san hA (h3 _ rfl))).append
        (.const hA (by decide))
    · exact ((((Of.const hA (by decide)).append h1).append (.const hA (by decide))).append (.san hA (h3 _ rfl))).append (.const hA (by decide))
    · exact ((((((Of.const hA (by decide)).append h1).append (.const hA (by decide))).append (.san hA (h4 _ rfl))).append (.const hA (by decide))).append h1).append
        (.const hA (by decide))
    · exact ((((Of.const hA (by decide)).append h1).append (.const hA (by decide))).append h2).append (.const hA (by decide))
  | italic x => injection e with e; subst e; exact h.push (.wrapped hA (by decide) need (by decide))
  | bold x => injection e with e; subst e; exact h.push (.wrapped hA (by decide) need (by decide))
  | boldItalic x => injection e with e; subst e; exact h.push (.wrapped hA (by decide) need (by decide))
  | blockQuote l x => exact cquote hA r l x h (fun h' => hk _ h' rfl) e
  | taskListItem b x =>
    injection e with e; subst e
    refine CHolds.push ?_ ?_
    · split
      · exact h.add (.const hA (by decide))
      · exact h
    · cases b <;> exact .wrapped hA (by decide) need (by decide)
  | strikethrough x => injection e with e; subst e; exact h.push (.wrapped hA (by decide) need (by decide))
  | code x => injection e with e; subst e; exact h.push (.san hA need)
  | horizontalRule => injection e with e; subst e; exact h.push (.const hA (by decide))
  | newline => injection e with e; subst e; exact h
  | tab => injection e with e; subst e; exact h.push (.const hA (by decide))
  | doubleTab => injection e with e; subst e; exact h.push (.const hA (by decide))
  | footnote i x =>
    injection e with e; subst e
    refine ⟨h.html, fun p hp => ?_⟩
    rcases List.mem_append.mp hp with hp | hp
    · exact h.refs p hp
    · rw [List.mem_singleton.mp hp]
      exact need
  | lineBreak => injection e with e; subst e; exact h
  | codeBlock x l => injection e with e; subst e; exact h
  | detail s i => injection e with e; subst e; exact h
  | table a b => injection e with e; subst e; exact h

/-! ### Tokens -/

theorem cparseToks_of (r : Rec) : ∀ (ts : List Token),
    (∀ t ∈ ts, ∀ st st', CHolds A st → parseTok r t st = .ok st' → CHolds A st') →
    ∀ st st', CHolds A st → parseToks r ts st = .ok st' → CHolds A st'
  | [], _, st, st', h, e => by
    simp only [parseToks] at e
    injection e with e
    exact e ▸ h
  | t :: ts, hq, st, st', h, e => by
    simp only [parseToks] at e
    obtain ⟨st1, e1, e⟩ := Outcome.bind_ok e
    exact cparseToks_of r ts (fun u hu => hq u (by simp [hu])) st1 st' (hq t (by simp) st st1 h e1) e

theorem cparseDoc_of (hA : Rich A) (r : Rec) (ts : List Token)
    (hq : ∀ t ∈ ts, ∀ st st', CHolds A st → parseTok r t st = .ok st' → CHolds A st') (x : Str)
    (e : ((parseToks r ts {}).bind fun s => .ok (finish s)) = .ok x) : Of A x := by
  obtain ⟨st1, e1, e⟩ := Outcome.bind_ok e
  injection e with e
  subst e
  exact (cparseToks_of r ts hq {} st1 .init e1).finish hA

theorem ccellText (hA : Rich A) (r : Rec) (w : Outcome Str) (hw : ∀ x, w = .ok x → Of A x) : ∀ (ts : List Token) (x : Str),
    (∀ t ∈ ts, CNeed A r t) → cellText w ts = .ok x → Of A x
  | [], x, _, e => by injection e with e; subst e; exact .nil
  | t :: ts, x, hn, e => by
    have hnt := (hn t (by simp)).2
    unfold cellText at e
    obtain ⟨h1, e1, e⟩ := Outcome.bind_ok' e
    obtain ⟨h2, e2, e⟩ := Outcome.bind_ok' e
    injection e with e
    subst e
    refine Of.append ?_ (ccellText hA r w hw ts h2 (fun u h => hn u (by simp [h])) e2)
    split at e1
    · injection e1 with e1; subst e1; exact .san hA hnt
    · injection e1 with e1; subst e1; exact .wrapped hA (by decide) hnt (by decide)
    · injection e1 with e1; subst e1; exact .wrapped hA (by decide) hnt (by decide)
    · injection e1 with e1; subst e1; exact .wrapped hA (by decide) hnt (by decide)
    · injection e1 with e1; subst e1; exact .const hA (by decide)
    · injection e1 with e1; subst e1; exact .const hA (by decide)
    · injection e1 with e1; subst e1; exact .wrapped hA (by decide) hnt (by decide)
    · exact hw h1 e1

theorem align_own (al : Alignment) : al.display.all ownChar = true := by cases al <;> decide

theorem cparseCell_of (hA : Rich A) (r : Rec) (c : Alignment × List Token) (hn : ∀ t ∈ c.2, CNeed A r t)
    (hq : ∀ t ∈ c.2, ∀ st st', CHolds A st → parseTok r t st = .ok st' → CHolds A st') (x : Str) (e : parseCell r c = .ok x) : Of A x := by
  obtain ⟨a, toks⟩ := c
  simp only [parseCell] at e
  obtain ⟨txt, e1, e⟩ := Outcome.bind_ok e
  injection e with e
  subst e
  exact ((((Of.const hA (by decide)).append (.const hA (align_own a))).append (.const hA (by decide))).append
    (ccellText hA r _ (cparseDoc_of hA r toks hq) toks txt hn e1)).append (.const hA (by decide))

theorem cparseRow_of (hA : Rich A) (r : Rec) : ∀ (row : List (Alignment × List Token)), (∀ c ∈ row, ∀ t ∈ c.2, CNeed A r t) →
    (∀ c ∈ row, ∀ t ∈ c.2, ∀ st st', CHolds A st → parseTok r t st = .ok st' → CHolds A st') → ∀ x : Str, parseRow r row = .ok x → Of A x
  | [], _, _, x, e => by
    simp only [parseRow] at e
    injection e with e
    subst e
    exact .nil
  | c :: row, hn, hq, x, e => by
    simp only [parseRow] at e
    obtain ⟨h1, e1, e⟩ := Outcome.bind_ok e
    obtain ⟨h2, e2, e⟩ := Outcome.bind_ok e
    injection e with e
    subst e
    exact Of.append (cparseCell_of hA r c (hn c (by simp)) (hq c (by simp)) h1 e1)
      (cparseRow_of hA r row (fun u h => hn u (by simp [h])) (fun u h => hq u (by simp [h])) h2 e2)

theorem cparseRows_of (hA : Rich A) (r : Rec) : ∀ (rows : List (List (Alignment × List Token))),
    (∀ row ∈ rows, ∀ c ∈ row, ∀ t ∈ c.2, CNeed A r t) →
    (∀ row ∈ rows, ∀ c ∈ row, ∀ t ∈ c.2, ∀ st st', CHolds A st → parseTok r t st = .ok st' → CHolds A st') → ∀ x : Str,
    parseRows r rows = .ok x → Of A x
  | [], _, _, x, e => by
    simp only [parseRows] at e
    injection e with e
    subst e
    exact .nil
  | row :: rows, hn, hq, x, e => by
    simp only [parseRows] at e
    obtain ⟨h1, e1, e⟩ := Outcome.bind_ok e
    obtain ⟨h2, e2, e⟩ := Outcome.bind_ok e
    injection e with e
    subst e
    refine Of.append (((Of.const hA (by decide)).append ?_).append (.const hA (by decide)))
      (cparseRows_of hA r rows (fun u h => hn u (by simp [h])) (fun u h => hq u (by simp [h])) h2 e2)
    exact cparseRow_of hA r row (hn row (by simp)) (hq row (by simp)) h1 e1

theorem cparseTok (hA : Rich A) (r : Rec) {t : Token} (h : TokAll (CNeed A r) t) :
    ∀ st st', CHolds A st → parseTok r t st = .ok st' → CHolds A st' := by
  induction h with
  | mk t h hs ih =>
    intro st st' hst e
    cases t with
    | detail s inner =>
      have hneed : Of A s := h.2
      simp only [parseTok] at e
      obtain ⟨s1, e1, e⟩ := Outcome.bind_ok e
      injection e with e
      subst e
      have h1 := cstep1 hA (.detail s inner) hst
      refine CHolds.push ?_ ?_
      · split
        · exact h1.add (.const hA (by decide))
        · exact h1
      · exact ((Of.wrapped hA (by decide) hneed (by decide)).append ((cparseToks_of r inner ih _ _ .init e1).finish hA)).append (.const hA (by decide))
    | table heads rows =>
      have h1 := cstep1 hA (.table heads rows) hst
      have hneed : ∀ h ∈ heads, Of A h.2 := h.2
      have hsub : ∀ row ∈ rows, ∀ c ∈ row, ∀ t ∈ c.2, CNeed A r t := fun row hr c hc t ht =>
        (hs t (mem_subToks_table.mpr ⟨row, hr, c, hc, ht⟩)).head
      cases rows with
      | nil => simp only [parseTok] at e; cases e
      | cons r0 rs =>
        have hall : ∀ row ∈ r0 :: rs, ∀ c ∈ row, ∀ t ∈ c.2, ∀ st st', CHolds A st → parseTok r t st = .ok st' → CHolds A st' := by
          intro row hr c hc t ht
          exact ih t (mem_subToks_table.mpr ⟨row, hr, c, hc, ht⟩)
        simp only [parseTok] at e
        split at e
        · injection e with e
          subst e
          exact h1
        · obtain ⟨b0, e1, e⟩ := Outcome.bind_ok e
          obtain ⟨bs, e2, e⟩ := Outcome.bind_ok e
          injection e with e
          subst e
          have hb0 := cparseRow_of hA r r0 (hsub r0 (by simp)) (hall r0 (by simp)) b0 e1
          have hbs := cparseRows_of hA r rs (fun row h => hsub row (by simp [h])) (fun row h => hall row (by simp [h])) bs e2
          have hh : Of A (headCells heads) := Of.flat fun x hx =>
            ((((Of.const hA (by decide)).append (.const hA (align_own x.1))).append (.const hA (by decide))).append (.san hA (hneed x hx))).append (.const hA (by decide))
          exact h1.push ((((((Of.const hA (by decide)).append hh).append (Of.const hA (by decide))).append
            (((Of.const hA (by decide)).append hb0).append (.const hA (by decide)))).append hbs).append (Of.const hA (by decide)))
    | _ =>
      simp only [parseTok] at e
      exact cstep2 hA r _ (cstep1 hA _ hst) h e

/-! ### Rendering -/

theorem err_own {x : Str} (h : x ∈ errTexts) : x.all ownChar = true := by
  simp only [errTexts, List.mem_cons, List.not_mem_nil, or_false] at h
  rcases h with rfl | rfl <;> decide

theorem err_bracket {x : Str} (h : x ∈ errTexts) : '[' ∉ x := by
  simp only [errTexts, List.mem_cons, List.not_mem_nil, or_false] at h
  rcases h with rfl | rfl <;> decide

theorem render_chars (hA : Rich A) : ∀ (n : Nat) (ig : List Char) (d html : Str), Of A d → ('[' ∈ d ∧ '^' ∈ d → A '↩') → (recF n).render ig d = .ok html → Of A html := by
  intro n
  induction n using Nat.strongRecOn with
  | ind n ihn =>
    intro ig d html hd hf e
    cases n with
    | zero => cases e
    | succ n =>
      obtain ⟨ts, e1, e⟩ := Outcome.bind_ok' (show (lexWith (recF n) ig d >>= fun ts => parseDoc (recF n) ts) = .ok html from e)
      refine cparseDoc_of hA (recF n) ts (fun t ht => cparseTok hA (recF n) ?_) html e
      refine ((deep_shape n ig d ts e1 t ht).and (deep_kids e1 t ht)).mono ?_
      rintro t ⟨⟨m, s', hm, hs', hsh⟩, hk⟩
      have hs := hd.infix hs'
      refine ⟨fun k h hk' hr => ?_, ?_⟩
      · refine ihn n (by omega) [] k h ?_ (fun hb => hf ?_) hr
        · cases hk k hk' with
          | child _ h _ => exact hd.infix h.1
          | quote x h _ => exact .san hA (hd.infix h.1)
          | err _ h _ => exact .const hA (err_own h)
        · cases hk k hk' with
          | child _ h _ => exact ⟨h.1.subset hb.1, h.1.subset hb.2⟩
          | quote x h _ => exact ⟨h.1.subset (mem_san (by decide) hb.1), h.1.subset (mem_san (by decide) hb.2)⟩
          | err _ h _ => exact absurd hb.1 (err_bracket h)
      · cases hsh with
        | plain x h hg => exact h.elim hs.infix fun h => .const hA (err_own h)
        | headerEmpty l h h1 h6 hsep => exact ⟨.nil, rfl⟩
        | header l arg html h h1 h6 ha hr hsep =>
          have h' := ihn m (by omega) _ arg html (hs.infix ha.1)
            (fun hb => hf ⟨hs'.subset (ha.1.subset hb.1), hs'.subset (ha.1.subset hb.2)⟩) hr
          refine ⟨?_, rfl⟩
          unfold headingPost
          refine Of.infix ?_ (trim_infix _)
          cases h1 : stripPrefix c!"<p>" html with
          | none => exact .nil
          | some y =>
            simp only [Option.getD_some]
            cases h2 : stripSuffix c!"</p>\n" y with
            | none => exact .nil
            | some z =>
              rw [stripPrefix_some h1, stripSuffix_some h2] at h'
              exact h'.infix ⟨c!"<p>", c!"</p>\n", by simp⟩
        | ol x h hg => exact hs.infix h
        | italic x h hg => exact hs.infix h
        | bold x h hg => exact hs.infix h
        | boldItalic x h hg => exact hs.infix h
        | strike x h hg => exact hs.infix h
        | code x h hg => exact hs.infix h
        | image l title u hv hl hc ht hg =>
          have := validate_of hA (hs.infix ((List.suffix_append _ _).isInfix.trans hl)) hv
          exact ⟨this.1, fun y hy => by injection hy with hy; subst hy; exact hs.infix ht⟩
        | link l title hover u hv hl hc ht =>
          have hlh := hs.infix ((List.suffix_append _ _).isInfix.trans hl)
          have := validate_of hA (hlh.infix (List.prefix_append _ _).isInfix) hv
          refine ⟨this.2.1, this.2.2, fun y hy => by injection hy with hy; subst hy; exact hs.infix ht, fun y hy => ?_⟩
          subst hy
          exact hlh.infix (List.suffix_append _ _).isInfix
        | autolink l u hv hl hg hs1 =>
          have := validate_of hA (hs.infix ((show l <:+: '<' :: (l ++ c!">") from ⟨c!"<", c!">", by simp⟩).trans hl)) hv
          exact ⟨this.2.1, this.2.2, by simp, by simp⟩
        | detail sum x ts hsum hx hr hg => exact hs.infix hsum
        | table heads aligns body rows hh hb hne hp hrows =>
          intro h hm
          exact hs.infix (hh h.2 (List.of_mem_zip hm).2)
        | task b x h hg hl => exact hs.infix h
        | footnote i x hi hx hg => exact ⟨hf ⟨hs'.subset hg.1, hs'.subset hg.2⟩, hs.infix hi, hs.infix hx⟩
        | _ => trivial

/-- Every character of the output is one of the renderer's own or of the document. -/
theorem render_chars' {d html : Str} (e : render d = .ok html) :
    Of (fun c => c ∈ d ∨ ownChar c = true ∨ (c = '↩' ∧ '[' ∈ d ∧ '^' ∈ d)) html := by
  have : (recF (fuelFor d)).render [] d = .ok html := by
    have := wt_le d
    rw [render_eq d _ (by unfold fuelFor; omega)]
    exact e
  exact render_chars (fun c h => .inr (.inl h)) _ _ _ _ (fun c h => .inl h) (fun h => .inr (.inr ⟨rfl, h⟩)) this

end Smd.Gfm
