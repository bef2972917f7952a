import Verif.Lemmas.RenameLex

/-! The parser commutes with renaming characters without a meaning. -/

namespace Smd.Gfm
open Smd.Rs Smd.Spec

variable {f : Char → Char}

theorem ren_sanitize [hf : Ren f] (s : Str) : sanitize (s.map f) = (sanitize s).map f := by
  unfold sanitize
  ren

theorem ren_percentEncode [hf : Ren f] (s : Str) : percentEncode (s.map f) = (percentEncode s).map f := by
  unfold percentEncode
  ren

theorem ren_schemeDisplay (s : Scheme) : (renScheme f s).display = s.display.map f := by
  cases s <;> rfl

theorem ren_urlDisplay [hf : Ren f] (u : ValidURL) : (renUrl f u).display = u.display.map f := by
  obtain ⟨x, s⟩ := u
  cases s with
  | none =>
    simp only [renUrl, ValidURL.display, Option.map_none, ren_percentEncode]
    ren
    simp only [List.map_append, ren_kept (f := f) (p := c!"http:") (by decide)]
  | some s =>
    simp only [renUrl, ValidURL.display, Option.map_some, ren_percentEncode, ren_schemeDisplay]
    ren
    simp only [List.map_append, ren_kept (f := f) (p := c!":") (by decide)]

theorem ren_fmtUnsafe [hf : Ren f] (u : ValidURL) : (renUrl f u).fmtUnsafe = u.fmtUnsafe.map f := by
  obtain ⟨x, s⟩ := u
  cases s with
  | none =>
    simp only [renUrl, ValidURL.fmtUnsafe, Option.map_none]
    ren
    simp only [List.map_append, ren_kept (f := f) (p := c!"http:") (by decide)]
  | some s =>
    cases s <;> simp only [renUrl, ValidURL.fmtUnsafe, Option.map_some, renScheme, Scheme.display] <;> ren <;>
      simp only [List.map_append, ren_kept (f := f) (p := c!":") (by decide)]

/-- A state of the parser with its texts renamed. -/
def renSt (f : Char → Char) (st : PState) : PState :=
  { st with html := st.html.map f, refs := st.refs.map (Prod.map (List.map f) (List.map f)) }

theorem ren_push (st : PState) (x : Str) : (renSt f st).push (x.map f) = renSt f (st.push x) := by
  simp [PState.push, renSt]

theorem ren_pushK [hf : Ren f] (st : PState) {x : Str} (h : Kept x) : (renSt f st).push x = renSt f (st.push x) := by
  rw [← ren_push, ren_kept h]

theorem kept_rep {x : Str} (h : Kept x) (n : Nat) : Kept (rep n x) := by
  intro c hc
  simp only [rep, List.mem_flatten] at hc
  obtain ⟨l, hl, hc⟩ := hc
  rw [List.eq_of_mem_replicate hl] at hc
  exact h c hc

theorem ren_isBlankPlain [hf : Ren f] (t : Token) : isBlankPlain (renTok f t) = isBlankPlain t := by
  cases t <;> simp [isBlankPlain, renTok, ren_trim]

theorem ren_ensurePara [hf : Ren f] (st : PState) : (renSt f st).ensurePara = renSt f st.ensurePara := by
  unfold PState.ensurePara
  have : (renSt f st).inPara = st.inPara := rfl
  rw [this]
  split
  · exact ren_pushK { st with inPara := true } (by decide)
  · rfl

theorem ren_step1 [hf : Ren f] (t : Token) (st : PState) : step1 (renTok f t) (renSt f st) = renSt f (step1 t st) := by
  have h1 : isTab (renTok f t) = isTab t := by cases t <;> rfl
  have h2 : staysInList (renTok f t) = staysInList t := by cases t <;> rfl
  have h3 : staysInTask (renTok f t) = staysInTask t := by cases t <;> rfl
  have h4 : opensPara (renTok f t) = opensPara t := by cases t <;> rfl
  have h5 : closesPara (renTok f t) = closesPara t := by cases t <;> rfl
  have h6 : staysInQuote (renTok f t) = staysInQuote t := by cases t <;> rfl
  have h7 : isCode (renTok f t) = isCode t := by cases t <;> rfl
  have hk : Kept (rep st.quoteLevel c!"</blockquote>") := kept_rep (by decide) _
  have k1 : (({ renSt f st with quoteLevel := 0, inPara := true }.push (rep st.quoteLevel c!"</blockquote>")).push c!"<p>") =
      renSt f (({ st with quoteLevel := 0, inPara := true }.push (rep st.quoteLevel c!"</blockquote>")).push c!"<p>") := by
    rw [← ren_pushK _ (by decide), ← ren_pushK _ hk]; rfl
  have k2 : ({ renSt f st with inOl := false }.push c!"</ol>\n").ensurePara =
      renSt f ({ st with inOl := false }.push c!"</ol>\n").ensurePara := by
    rw [← ren_ensurePara, ← ren_pushK _ (by decide)]; rfl
  have k3 : ({ renSt f st with inUl := false }.push c!"</ul>\n").ensurePara =
      renSt f ({ st with inUl := false }.push c!"</ul>\n").ensurePara := by
    rw [← ren_ensurePara, ← ren_pushK _ (by decide)]; rfl
  have k4 : ({ renSt f st with inTask := false }.push c!"</ul>\n").ensurePara =
      renSt f ({ st with inTask := false }.push c!"</ul>\n").ensurePara := by
    rw [← ren_ensurePara, ← ren_pushK _ (by decide)]; rfl
  have k5 : { renSt f st with inPara := false }.push c!"</p>\n" = renSt f ({ st with inPara := false }.push c!"</p>\n") := by
    rw [← ren_pushK _ (by decide)]; rfl
  have k6 : { renSt f st with inCode := true }.push c!"<pre><code>" =
      renSt f ({ st with inCode := true }.push c!"<pre><code>") := by
    rw [← ren_pushK _ (by decide)]; rfl
  have e1 : (renSt f st).inOl = st.inOl := rfl
  have e2 : (renSt f st).inUl = st.inUl := rfl
  have e3 : (renSt f st).inTask = st.inTask := rfl
  have e4 : (renSt f st).inPara = st.inPara := rfl
  have e5 : (renSt f st).inCode = st.inCode := rfl
  have e6 : (renSt f st).quoteLevel = st.quoteLevel := rfl
  unfold step1
  rw [ren_isBlankPlain, h1, h2, h3, h4, h5, h6, h7, e1, e2, e3, e4, e5, e6]
  have hi : ∀ (c : Prop) [Decidable c] {x y x' y' : PState}, x = renSt f x' → y = renSt f y' →
      (if c then x else y) = renSt f (if c then x' else y') := by
    intro c _ x y x' y' hx hy; split <;> assumption
  exact hi _ rfl (hi _ rfl (hi _ rfl (hi _ rfl (hi _ k1 (hi _ k2 (hi _ k3 (hi _ k4 (hi _ k5 (hi _ rfl (hi _ k6 rfl))))))))))

theorem ren_supTag [hf : Ren f] (x : Str) (n : Nat) : supTag (x.map f) n = (supTag x n).map f := by
  simp only [supTag, List.map_append, ren_kept (f := f) (kept_dec n), ren_kept (f := f) (p := c!"<sup id=\"fnref:") (by decide),
    ren_kept (f := f) (p := c!"\" role=\"doc-noteref\"><a href=\"#fn:") (by decide),
    ren_kept (f := f) (p := c!"\" class=\"footnote\" rel=\"footnote\">") (by decide),
    ren_kept (f := f) (p := c!"</a></sup>") (by decide)]

theorem ren_footRefs [hf : Ren f] (n : Nat) (l : List Str) : footRefs n (l.map (List.map f)) = (footRefs n l).map f := by
  induction l generalizing n with
  | nil => rfl
  | cons x l ih =>
    simp only [List.map_cons, footRefs]
    ren
    simp only [ren_sanitize, ren_supTag, ih, ← List.map_append]
    ren

theorem kept_ws {s : Str} (h : s.all isWs = true) : Kept s := by
  intro c hc hfree
  have := isWs_free hfree
  rw [List.all_eq_true] at h
  rw [h c hc] at this
  cases this

theorem ren_plainTrim [hf : Ren f] (s : Str) : plainTrim (s.map f) = (plainTrim s).map f := by
  unfold plainTrim
  ren
  cases afterLast '\n' s with
  | none => rfl
  | some a =>
    simp only [Option.map_some]
    ren
    split
    · rename_i h
      rw [ren_kept (kept_ws h), ren_trimEndStr (kept_ws h)]
    · rfl

theorem ren_plainOut [hf : Ren f] (s : Str) : plainOut (s.map f) = (plainOut s).map f := by
  unfold plainOut
  simp only [ren_plainTrim]
  ren
  simp only [ren_footRefs, ren_sanitize]
  ren

syntax "lits" : tactic
macro_rules
  | `(tactic| lits) => `(tactic| simp (disch := first | exact kept_dec _ | decide) only [List.map_append, ren_kept])

theorem ren_headerOut [hf : Ren f] (l : Nat) (t : Str) (lbl : Option Str) :
    headerOut l (t.map f) (lbl.map (List.map f)) = (headerOut l t lbl).map f := by
  cases lbl with
  | none =>
    simp only [headerOut, Option.map_none]
    lits
  | some x =>
    simp only [headerOut, Option.map_some]
    ren
    simp only [ren_sanitize]
    lits

theorem ren_imageOut [hf : Ren f] (l : Str) (t : Option Str) :
    imageOut (l.map f) (t.map (List.map f)) = (imageOut l t).map f := by
  cases t with
  | none =>
    simp only [imageOut, Option.map_none]
    simp only [ren_trim, List.map_eq_nil_iff]
    split <;> lits
  | some t =>
    simp only [imageOut, Option.map_some]
    simp only [ren_trim, ren_sanitize, List.map_eq_nil_iff]
    split <;> lits

theorem ren_linkOut [hf : Ren f] (u : ValidURL) (t h : Option Str) :
    linkOut (renUrl f u) (t.map (List.map f)) (h.map (List.map f)) = (linkOut u t h).map f := by
  cases t <;> cases h <;>
    simp only [linkOut, Option.map_none, Option.map_some, ren_urlDisplay, ren_fmtUnsafe, ren_sanitize] <;> lits

theorem ren_taskOut [hf : Ren f] (b : TaskBox) (t : Str) : taskOut b (t.map f) = (taskOut b t).map f := by
  cases b <;> simp only [taskOut, ren_sanitize] <;> lits

theorem ren_entryOut [hf : Ren f] {r : Rec} (hr : RecRen f r) (ts : List Token) :
    entryOut r (ts.map (renTok f)) = mapO (List.map f) (entryOut r ts) := by
  induction ts with
  | nil => rfl
  | cons t ts ih =>
    cases t
    case plaintext x =>
      simp only [List.map_cons, renTok, entryOut]
      ren
      simp only [hr.render, ih, bind_mapO, mapO_bind]
      ren
      simp only [mapO, List.map_append]
    all_goals exact ih

theorem kept_quoteTags (l q : Nat) : Kept (quoteTags l q) := by
  unfold quoteTags
  split
  · exact fun _ h => nomatch h
  · split
    · exact kept_rep (by decide) _
    · exact kept_rep (by decide) _

theorem ren_quoteStep [hf : Ren f] {r : Rec} (hr : RecRen f r) (l : Nat) (t : Str) (st : PState) :
    quoteStep r l (t.map f) (renSt f st) = mapO (renSt f) (quoteStep r l t st) := by
  unfold quoteStep
  have h1 : (if (renSt f st).inPara = true then { renSt f st with inPara := false }.push c!"</p>" else renSt f st) =
      renSt f (if st.inPara = true then { st with inPara := false }.push c!"</p>" else st) := by
    have : (renSt f st).inPara = st.inPara := rfl
    rw [this]
    split
    · rw [← ren_pushK _ (by decide)]; rfl
    · rfl
  simp only [h1]
  generalize (if st.inPara = true then { st with inPara := false }.push c!"</p>" else st) = st1
  have h2 : { renSt f st1 with quoteLevel := l }.push (quoteTags l (renSt f st1).quoteLevel) =
      renSt f ({ st1 with quoteLevel := l }.push (quoteTags l st1.quoteLevel)) := by
    rw [← ren_pushK _ (kept_quoteTags _ _)]; rfl
  simp only [h2]
  generalize { st1 with quoteLevel := l }.push (quoteTags l st1.quoteLevel) = st2
  simp only [List.isEmpty_map]
  split
  · rfl
  · ren
    rw [ren_sanitize, hr.render, bind_mapO, mapO_bind]
    congr 1
    funext h
    ren
    rw [ren_push]
    rfl

theorem ren_headCells [hf : Ren f] (hs : List (Alignment × Str)) :
    headCells (hs.map (Prod.map id (List.map f))) = (headCells hs).map f := by
  induction hs with
  | nil => rfl
  | cons h hs ih =>
    have hk : Kept h.1.display := by cases h.1 <;> decide
    simp only [headCells] at ih
    simp only [headCells, List.map_cons, List.flatMap_cons, ih, Prod.map_fst, Prod.map_snd, ren_sanitize, id]
    simp (disch := first | exact hk | decide) only [List.map_append, ren_kept]

/-- The text of one token in a table cell. -/
def cellTok1 (whole : Outcome Str) : Token → Outcome Str
  | .plaintext s => .ok (sanitize s)
  | .italic s => .ok (c!"<em>" ++ sanitize s ++ c!"</em>")
  | .bold s => .ok (c!"<strong>" ++ sanitize s ++ c!"</strong>")
  | .boldItalic s => .ok (c!"<strong><em>" ++ sanitize s ++ c!"</em></strong>")
  | .lineBreak => .ok c!"<br>"
  | .horizontalRule => .ok c!"<hr />"
  | .strikethrough s => .ok (c!"<strike>" ++ sanitize s ++ c!"</strike>")
  | _ => whole

theorem cellText_eq (whole : Outcome Str) (t : Token) (ts : List Token) :
    cellText whole (t :: ts) = cellTok1 whole t >>= fun h => cellText whole ts >>= fun rest => .ok (h ++ rest) := by
  cases t <;> rfl

theorem ren_cellTok1 [hf : Ren f] (whole : Outcome Str) (t : Token) :
    cellTok1 (mapO (List.map f) whole) (renTok f t) = mapO (List.map f) (cellTok1 whole t) := by
  cases t <;> simp only [renTok, cellTok1, ren_sanitize, mapO] <;> lits

theorem ren_cellText [hf : Ren f] (whole : Outcome Str) (ts : List Token) :
    cellText (mapO (List.map f) whole) (ts.map (renTok f)) = mapO (List.map f) (cellText whole ts) := by
  induction ts with
  | nil => rfl
  | cons t ts ih =>
    rw [List.map_cons, cellText_eq, cellText_eq, ih, ren_cellTok1]
    simp only [bind_mapO, mapO_bind]
    simp only [mapO, List.map_append]

theorem ren_noteOut [hf : Ren f] (n : Str × Str) :
    noteOut (Prod.map (List.map f) (List.map f) n) = (noteOut n).map f := by
  simp only [noteOut, Prod.map_fst, Prod.map_snd, ren_sanitize]
  lits

theorem ren_endNl [hf : Ren f] (h : Str) : endNl (h.map f) = (endNl h).map f := by
  unfold endNl
  rw [List.getLast?_map]
  have : ((h.getLast?.map f).getD ' ' ≠ '\n') = (h.getLast?.getD ' ' ≠ '\n') := by
    cases h.getLast? with
    | none => rfl
    | some c => simp only [Option.map_some, Option.getD_some, ne_eq, ren_eq (f := f) (k := '\n') (by decide)]
  simp only [this]
  split <;> lits

theorem ren_finish [hf : Ren f] (st : PState) : finish (renSt f st) = (finish st).map f := by
  have hq : Kept (rep st.quoteLevel c!"</blockquote>\n") := kept_rep (by decide) _
  have h1 : ∀ (c : Prop) [Decidable c] {k : Str} (_ : Kept k) (x : Str),
      (if c then x.map f ++ k else x.map f) = (if c then x ++ k else x).map f := by
    intro c _ k hk x; split
    · rw [List.map_append, ren_kept hk]
    · rfl
  have hl : ∀ {k : Str} (_ : Kept k) (x : Str), x.map f ++ k = (x ++ k).map f := by
    intro k hk x; rw [List.map_append, ren_kept hk]
  unfold finish
  have e1 : (renSt f st).inOl = st.inOl := rfl
  have e2 : (renSt f st).inUl = st.inUl := rfl
  have e3 : (renSt f st).inTask = st.inTask := rfl
  have e4 : (renSt f st).inPara = st.inPara := rfl
  have e5 : (renSt f st).inCode = st.inCode := rfl
  have e6 : (renSt f st).quoteLevel = st.quoteLevel := rfl
  have e7 : (renSt f st).refs = st.refs.map (Prod.map (List.map f) (List.map f)) := rfl
  have e8 : (renSt f st).html = st.html.map f := rfl
  have e9 : ∀ l : List (Str × Str), (l.map (Prod.map (List.map f) (List.map f))).flatMap noteOut = (l.flatMap noteOut).map f := by
    intro l
    induction l with
    | nil => rfl
    | cons n l ih => simp only [List.map_cons, List.flatMap_cons, ih, ren_noteOut, List.map_append]
  simp only [e1, e2, e3, e4, e5, e6, e7, e8, e9, List.length_map]
  rw [h1 _ (by decide), hl hq, h1 _ (by decide), h1 _ (by decide)]
  generalize ((if st.inOl = true then _ else _) : Str) = h
  simp only [ren_endNl]
  generalize hh : endNl h = h'
  have h2 : (if st.inCode = true then (endNl h').map f ++ c!"</code></pre>" else h'.map f) =
      (if st.inCode = true then endNl h' ++ c!"</code></pre>" else h').map f := by
    split <;> lits
  rw [h2]
  split <;> lits

theorem ren_step2 [hf : Ren f] {r : Rec} (hr : RecRen f r) (t : Token) (st : PState) :
    step2 r (renTok f t) (renSt f st) = mapO (renSt f) (step2 r t st) := by
  have hp : ∀ (st : PState) (x : Str), Outcome.ok ((renSt f st).push (x.map f)) = mapO (renSt f) (.ok (st.push x)) := by
    intro st x; rw [ren_push]; rfl
  have hk : ∀ (st : PState) {x : Str}, Kept x → Outcome.ok ((renSt f st).push x) = mapO (renSt f) (.ok (st.push x)) := by
    intro st x h; rw [ren_pushK st h]; rfl
  cases t
  case plaintext x =>
    simp only [renTok, step2, ren_trim, List.isEmpty_map, ren_plainOut]
    split
    · rfl
    · exact hp _ _
  case header l x lbl => simp only [renTok, step2, ren_headerOut]; exact hp _ _
  case orderedListEntry x =>
    simp only [renTok, step2, ren_sanitize]
    have h1 : (if (!(renSt f st).inOl) = true then { renSt f st with inOl := true }.push c!"<ol>\n" else renSt f st) =
        renSt f (if (!st.inOl) = true then { st with inOl := true }.push c!"<ol>\n" else st) := by
      have : (renSt f st).inOl = st.inOl := rfl
      rw [this]
      split
      · rw [← ren_pushK _ (by decide)]; rfl
      · rfl
    rw [h1, ← hp]
    lits
  case unorderedListEntry ts =>
    simp only [renTok, step2, renToks_eq, ren_entryOut hr]
    have h1 : (if (!(renSt f st).inUl) = true then { renSt f st with inUl := true }.push c!"<ul>\n" else renSt f st) =
        renSt f (if (!st.inUl) = true then { st with inUl := true }.push c!"<ul>\n" else st) := by
      have : (renSt f st).inUl = st.inUl := rfl
      rw [this]
      split
      · rw [← ren_pushK _ (by decide)]; rfl
      · rfl
    have h2 : (ts.map (renTok f)).all isPlaintext = ts.all isPlaintext := by
      rw [List.all_map]; congr 1; funext t; cases t <;> rfl
    rw [h1, h2, ren_pushK _ (by decide)]
    have h3 : ∀ (c : Prop) [Decidable c] (st : PState), (if c then (renSt f st).push c!"\n" else renSt f st) =
        renSt f (if c then st.push c!"\n" else st) := by
      intro c _ st
      split
      · rw [ren_pushK _ (by decide)]
      · rfl
    rw [h3, bind_mapO, mapO_bind]
    congr 1
    funext h
    rw [ren_push, ren_pushK _ (by decide)]
    rfl
  case image l x => simp only [renTok, step2, ren_imageOut]; exact hp _ _
  case link u x h => simp only [renTok, step2, ren_linkOut]; exact hp _ _
  case italic x => simp only [renTok, step2, ren_sanitize]; rw [← hp]; lits
  case bold x => simp only [renTok, step2, ren_sanitize]; rw [← hp]; lits
  case boldItalic x => simp only [renTok, step2, ren_sanitize]; rw [← hp]; lits
  case blockQuote l x => simp only [renTok, step2, ren_quoteStep hr]
  case taskListItem b x =>
    simp only [renTok, step2, ren_taskOut]
    have h1 : (if (!(renSt f st).inTask) = true then { renSt f st with inTask := true }.push c!"<ul class=\"contains-task-list\">"
        else renSt f st) =
        renSt f (if (!st.inTask) = true then { st with inTask := true }.push c!"<ul class=\"contains-task-list\">" else st) := by
      have : (renSt f st).inTask = st.inTask := rfl
      rw [this]
      split
      · rw [← ren_pushK _ (by decide)]; rfl
      · rfl
    rw [h1, ← hp]
  case strikethrough x => simp only [renTok, step2, ren_sanitize]; rw [← hp]; lits
  case code x => simp only [renTok, step2, ren_sanitize]; exact hp _ _
  case horizontalRule => exact hk _ (by decide)
  case newline => rfl
  case tab => exact hk _ (by decide)
  case doubleTab => exact hk _ (by decide)
  case footnote i x => simp [renTok, step2, mapO, renSt]
  case lineBreak => rfl
  case codeBlock => rfl
  case detail => rfl
  case table => rfl

theorem bind_mapO' {α β γ : Type} (g : α → β) (x : Outcome α) (k : β → Outcome γ) :
    (mapO g x).bind k = x.bind fun a => k (g a) := by cases x <;> rfl

theorem mapO_bind' {α β γ : Type} (g : β → γ) (x : Outcome α) (k : α → Outcome β) :
    mapO g (x.bind k) = x.bind fun a => mapO g (k a) := by cases x <;> rfl

theorem ren_detailOut [hf : Ren f] (a b : Str) : detailOut (a.map f) (b.map f) = (detailOut a b).map f := by
  simp only [detailOut, ren_sanitize]
  lits

theorem renSt_empty : renSt f {} = {} := rfl

theorem parseTok_other (r : Rec) {t : Token} (h1 : ∀ s ts, t ≠ .detail s ts) (h2 : ∀ hs rows, t ≠ .table hs rows) (st : PState) :
    parseTok r t st = step2 r t (step1 t st) := by
  cases t <;> first | rfl | exact absurd rfl (h1 _ _) | exact absurd rfl (h2 _ _)

theorem ren_parseTok_other [hf : Ren f] {r : Rec} (hr : RecRen f r) {t : Token} (h1 : ∀ s ts, t ≠ .detail s ts)
    (h2 : ∀ hs rows, t ≠ .table hs rows) (st : PState) :
    parseTok r (renTok f t) (renSt f st) = mapO (renSt f) (parseTok r t st) := by
  rw [parseTok_other r h1 h2, ← ren_step2 hr, ← ren_step1]
  refine parseTok_other r ?_ ?_ _
  · intro s ts h
    cases t <;> simp only [renTok] at h <;> first | exact h1 _ _ rfl | cases h
  · intro s ts h
    cases t <;> simp only [renTok] at h <;> first | exact h2 _ _ rfl | cases h

mutual

theorem ren_parseTok [hf : Ren f] {r : Rec} (hr : RecRen f r) : (t : Token) → (st : PState) →
    parseTok r (renTok f t) (renSt f st) = mapO (renSt f) (parseTok r t st)
  | .detail s ts, st => by
    have ih := ren_parseToks hr ts {}
    have h1 := ren_step1 (f := f) (.detail s ts) st
    rw [renTok] at h1 ⊢
    rw [renSt_empty] at ih
    simp only [parseTok, h1, ih, bind_mapO', mapO_bind', ren_finish, ren_detailOut]
    congr 1
    funext x
    generalize step1 (.detail s ts) st = st1
    have h3 : (if (renSt f st1).inPara = true then { renSt f st1 with inPara := false }.push c!"</p>\n" else renSt f st1) =
        renSt f (if st1.inPara = true then { st1 with inPara := false }.push c!"</p>\n" else st1) := by
      have : (renSt f st1).inPara = st1.inPara := rfl
      rw [this]
      split
      · rw [← ren_pushK _ (by decide)]; rfl
      · rfl
    rw [h3, ren_push]
    rfl
  | .table hs [], st => by
    rw [renTok, renRows, parseTok, parseTok]
    rfl
  | .table hs (r0 :: rs), st => by
    have ih0 := ren_parseRow hr r0
    have ih1 := ren_parseRows hr rs
    have h1 := ren_step1 (f := f) (.table hs (r0 :: rs)) st
    rw [renTok, renRows] at h1 ⊢
    have hl : (renRow f r0).length = r0.length := by rw [renRow_eq, List.length_map]
    rw [parseTok, parseTok, h1, List.length_map, hl]
    generalize step1 (.table hs (r0 :: rs)) st = st1
    dsimp only
    split
    · rfl
    · rw [ih0, ih1, bind_mapO', mapO_bind']
      congr 1
      funext b0
      rw [bind_mapO', mapO_bind']
      congr 1
      funext bs
      rw [ren_headCells]
      show _ = Outcome.ok (renSt f _)
      rw [← ren_push]
      lits
  | .plaintext _, st => ren_parseTok_other hr (by simp) (by simp) st
  | .header _ _ _, st => ren_parseTok_other hr (by simp) (by simp) st
  | .unorderedListEntry _, st => ren_parseTok_other hr (by simp) (by simp) st
  | .orderedListEntry _, st => ren_parseTok_other hr (by simp) (by simp) st
  | .italic _, st => ren_parseTok_other hr (by simp) (by simp) st
  | .bold _, st => ren_parseTok_other hr (by simp) (by simp) st
  | .boldItalic _, st => ren_parseTok_other hr (by simp) (by simp) st
  | .lineBreak, st => ren_parseTok_other hr (by simp) (by simp) st
  | .newline, st => ren_parseTok_other hr (by simp) (by simp) st
  | .horizontalRule, st => ren_parseTok_other hr (by simp) (by simp) st
  | .tab, st => ren_parseTok_other hr (by simp) (by simp) st
  | .doubleTab, st => ren_parseTok_other hr (by simp) (by simp) st
  | .strikethrough _, st => ren_parseTok_other hr (by simp) (by simp) st
  | .code _, st => ren_parseTok_other hr (by simp) (by simp) st
  | .codeBlock _ _, st => ren_parseTok_other hr (by simp) (by simp) st
  | .blockQuote _ _, st => ren_parseTok_other hr (by simp) (by simp) st
  | .image _ _, st => ren_parseTok_other hr (by simp) (by simp) st
  | .link _ _ _, st => ren_parseTok_other hr (by simp) (by simp) st
  | .taskListItem _ _, st => ren_parseTok_other hr (by simp) (by simp) st
  | .footnote _ _, st => ren_parseTok_other hr (by simp) (by simp) st

theorem ren_parseToks [hf : Ren f] {r : Rec} (hr : RecRen f r) : (ts : List Token) → (st : PState) →
    parseToks r (renToks f ts) (renSt f st) = mapO (renSt f) (parseToks r ts st)
  | [], st => rfl
  | t :: ts, st => by
    rw [renToks, parseToks, parseToks, ren_parseTok hr t st, bind_mapO', mapO_bind']
    congr 1
    funext st
    exact ren_parseToks hr ts st

theorem ren_parseRows [hf : Ren f] {r : Rec} (hr : RecRen f r) : (rs : List (List (Alignment × List Token))) →
    parseRows r (renRows f rs) = mapO (List.map f) (parseRows r rs)
  | [] => rfl
  | row :: rs => by
    rw [renRows, parseRows, parseRows, ren_parseRow hr row, ren_parseRows hr rs, bind_mapO', mapO_bind']
    congr 1
    funext b
    rw [bind_mapO', mapO_bind']
    congr 1
    funext bs
    simp only [mapO]
    lits

theorem ren_parseRow [hf : Ren f] {r : Rec} (hr : RecRen f r) : (row : List (Alignment × List Token)) →
    parseRow r (renRow f row) = mapO (List.map f) (parseRow r row)
  | [] => rfl
  | c :: row => by
    rw [renRow, parseRow, parseRow, ren_parseCell hr c, ren_parseRow hr row, bind_mapO', mapO_bind']
    congr 1
    funext b
    rw [bind_mapO', mapO_bind']
    congr 1
    funext bs
    simp only [mapO, List.map_append]

theorem ren_parseCell [hf : Ren f] {r : Rec} (hr : RecRen f r) : (c : Alignment × List Token) →
    parseCell r (renCell f c) = mapO (List.map f) (parseCell r c)
  | (a, ts) => by
    have ih := ren_parseToks hr ts {}
    rw [renSt_empty] at ih
    have h1 : ((parseToks r (renToks f ts) {}).bind fun s => Outcome.ok (finish s)) =
        mapO (List.map f) ((parseToks r ts {}).bind fun s => .ok (finish s)) := by
      rw [ih, bind_mapO', mapO_bind']
      simp only [ren_finish, mapO]
    have hk : Kept a.display := by cases a <;> decide
    rw [renCell, parseCell, parseCell, h1, renToks_eq, ren_cellText, bind_mapO', mapO_bind']
    congr 1
    funext txt
    simp only [mapO]
    simp (disch := first | exact hk | decide) only [List.map_append, ren_kept]

end

theorem ren_parseDoc [hf : Ren f] {r : Rec} (hr : RecRen f r) (ts : List Token) :
    parseDoc r (ts.map (renTok f)) = mapO (List.map f) (parseDoc r ts) := by
  have ih := ren_parseToks hr ts {}
  rw [renSt_empty, renToks_eq] at ih
  unfold parseDoc
  rw [ih, bind_mapO', mapO_bind']
  simp only [ren_finish, mapO]

theorem ren_recF [hf : Ren f] : ∀ n, RecRen f (recF n)
  | 0 => ⟨fun _ => rfl, fun _ _ => rfl⟩
  | n + 1 => by
    have ih := ren_recF n
    refine ⟨fun s => ren_lexWith ih [] s, fun ig s => ?_⟩
    show (lexWith (recF n) ig (s.map f) >>= fun ts => parseDoc (recF n) ts) =
      mapO (List.map f) (lexWith (recF n) ig s >>= fun ts => parseDoc (recF n) ts)
    rw [ren_lexWith ih, bind_mapO, mapO_bind]
    simp only [ren_parseDoc ih]

theorem ren_render (hf : Renaming f) (d : Str) : render (d.map f) = mapO (List.map f) (render d) := by
  have : Ren f := ⟨hf⟩
  unfold render renderIgnore fuelFor
  rw [List.length_map]
  exact (ren_recF _).render [] d

end Smd.Gfm
