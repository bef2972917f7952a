import Verif.Lemmas.Rename

/-! The lexer commutes with renaming characters without a meaning. -/

namespace Smd.Gfm
open Smd.Rs Smd.Spec

variable {f : Char → Char}

def renScheme (f : Char → Char) : Scheme → Scheme
  | .http s => .http (s.map f)
  | .email s => .email (s.map f)
  | .irc s => .irc (s.map f)
  | .other s => .other (s.map f)

def renUrl (f : Char → Char) (u : ValidURL) : ValidURL := ⟨u.content.map f, u.scheme.map (renScheme f)⟩

mutual

def renTok (f : Char → Char) : Token → Token
  | .plaintext t => .plaintext (t.map f)
  | .header l t lbl => .header l (t.map f) (lbl.map (List.map f))
  | .unorderedListEntry ts => .unorderedListEntry (renToks f ts)
  | .orderedListEntry t => .orderedListEntry (t.map f)
  | .italic t => .italic (t.map f)
  | .bold t => .bold (t.map f)
  | .boldItalic t => .boldItalic (t.map f)
  | .lineBreak => .lineBreak
  | .newline => .newline
  | .horizontalRule => .horizontalRule
  | .tab => .tab
  | .doubleTab => .doubleTab
  | .strikethrough t => .strikethrough (t.map f)
  | .code t => .code (t.map f)
  | .codeBlock t l => .codeBlock (t.map f) (l.map f)
  | .blockQuote l t => .blockQuote l (t.map f)
  | .image l t => .image (l.map f) (t.map (List.map f))
  | .link u t h => .link (renUrl f u) (t.map (List.map f)) (h.map (List.map f))
  | .detail s ts => .detail (s.map f) (renToks f ts)
  | .table hs rows => .table (hs.map (Prod.map id (List.map f))) (renRows f rows)
  | .taskListItem b t => .taskListItem b (t.map f)
  | .footnote i t => .footnote (i.map f) (t.map f)

def renToks (f : Char → Char) : List Token → List Token
  | [] => []
  | t :: ts => renTok f t :: renToks f ts

def renRows (f : Char → Char) : List (List (Alignment × List Token)) → List (List (Alignment × List Token))
  | [] => []
  | r :: rs => renRow f r :: renRows f rs

def renRow (f : Char → Char) : List (Alignment × List Token) → List (Alignment × List Token)
  | [] => []
  | c :: cs => renCell f c :: renRow f cs

def renCell (f : Char → Char) : Alignment × List Token → Alignment × List Token
  | (a, ts) => (a, renToks f ts)

end

theorem renToks_eq (ts : List Token) : renToks f ts = ts.map (renTok f) := by
  induction ts with
  | nil => rfl
  | cons t ts ih => rw [renToks, ih]; rfl

theorem renRow_eq (r : List (Alignment × List Token)) : renRow f r = r.map (Prod.map id (List.map (renTok f))) := by
  induction r with
  | nil => rfl
  | cons c cs ih => rw [renRow, ih]; obtain ⟨a, ts⟩ := c; simp [renCell, renToks_eq]

theorem renRows_eq (rs : List (List (Alignment × List Token))) :
    renRows f rs = rs.map (List.map (Prod.map id (List.map (renTok f)))) := by
  induction rs with
  | nil => rfl
  | cons r rs ih => rw [renRows, ih, renRow_eq]; rfl

def renRes (f : Char → Char) : LexRes → LexRes
  | .ok t => .ok (renTok f t)
  | .error e => .error (e.map f)

def renP (f : Char → Char) (x : LexRes × Str) : LexRes × Str := (renRes f x.1, x.2.map f)

def mapO {α β : Type} (g : α → β) : Outcome α → Outcome β
  | .ok a => .ok (g a)
  | .panic => .panic
  | .hang => .hang
  | .fuelOut => .fuelOut

theorem mapO_bind {α β γ : Type} (g : β → γ) (x : Outcome α) (k : α → Outcome β) :
    mapO g (x >>= k) = x >>= fun a => mapO g (k a) := by cases x <;> rfl

theorem bind_mapO {α β γ : Type} (g : α → β) (x : Outcome α) (k : β → Outcome γ) :
    (mapO g x >>= k) = x >>= fun a => k (g a) := by cases x <;> rfl

theorem ren_headB [hf : Ren f] {k : Char} (hk : ¬ Free k) (s : Str) :
    ((s.map f).head? == some k) = (s.head? == some k) := by
  rw [Bool.eq_iff_iff]; simp only [beq_iff_eq, ren_head hk]

theorem ren_headN [hf : Ren f] {k : Char} (hk : ¬ Free k) (s : Str) :
    ((s.map f).head? ≠ some k) = (s.head? ≠ some k) := by
  simp only [ne_eq, ren_head hk]

theorem ren_filter {p : Char → Bool} (h : ∀ c, p (f c) = p c) (s : Str) : (s.map f).filter p = (s.filter p).map f := by
  rw [List.filter_map]; congr 2; funext c; exact h c

theorem ren_ifNil (c : Prop) [Decidable c] (s : Str) : (if c then [] else s.map f) = (if c then [] else s).map f := by
  split <;> rfl

theorem ren_if (c : Prop) [Decidable c] (s t : Str) : (if c then s.map f else t.map f) = (if c then s else t).map f := by
  split <;> rfl

theorem ren_au [hf : Ren f] (c : Char) : isAU (f c) = isAU c := by
  unfold isAU
  rw [ren_beq (by decide), ren_beq (by decide)]

theorem ren_getD (o : Option Str) : (o.map (List.map f)).getD [] = (o.getD []).map f := by cases o <;> rfl

syntax "ren_disch" : tactic
macro_rules
  | `(tactic| ren_disch) =>
    `(tactic| first
      | decide
      | exact ren_ws
      | (intro c; simp (disch := decide) only [ren_beq, ren_bne, ren_au]))

syntax "ren" : tactic
macro_rules
  | `(tactic| ren) =>
    `(tactic| simp (disch := ren_disch) only [ren_takeWhile, ren_dropWhile, ren_all, ren_any, ren_contains, ren_head, ren_headB,
        ren_headN, ren_text, ren_startsWith, ren_endsWith, ren_stripPrefix, ren_stripSuffix, ren_trimStartP, ren_trimEndP,
        ren_trimEnd, ren_trim, ren_trimEndStr, ren_containsStr, ren_splitStr, ren_countStr, ren_replaceStr, ren_replaceC,
        ren_splitOnce, ren_rsplitOnce, ren_afterLast, ren_isAscii, ren_untilTail, ren_skipIf, ren_slice, ren_lineAhead,
        ren_filter, ren_getD, ren_ifNil, ren_if, List.length_map, ← List.map_drop, ← List.map_take])

syntax "ren_push" : tactic
macro_rules
  | `(tactic| ren_push) => `(tactic| (simp only [apply_ite (renP f)]; rfl))

theorem ren_headingSep [hf : Ren f] (s : Str) : headingSep (s.map f) = (headingSep s).map (List.map f) := by
  cases s with
  | nil => rfl
  | cons c s =>
    by_cases hc : c = ' ' ∨ c = '\t' ∨ c = '\n'
    · rcases hc with rfl | rfl | rfl <;> simp only [List.map_cons, hf.out.fixes ' ' (by decide), hf.out.fixes '\t' (by decide), hf.out.fixes '\n' (by decide)] <;> simp [headingSep]
      exact (hf.out.fixes '\n' (by decide)).symm
    · have h1 : f c ≠ ' ' ∧ f c ≠ '\t' ∧ f c ≠ '\n' := by
        simp only [not_or] at hc
        simp (disch := decide) only [ne_eq, ren_eq]; exact hc
      simp only [not_or] at hc
      have h2 : ∀ (c : Char) (t : Str), c ≠ ' ' ∧ c ≠ '\t' ∧ c ≠ '\n' → headingSep (c :: t) = none := by
        rintro c t ⟨h1, h2, h3⟩
        unfold headingSep
        split <;> simp_all
      rw [List.map_cons, h2 _ _ h1, h2 _ _ hc]; rfl

theorem stripPrefix_takeWhile (p : Char → Bool) (s : Str) : stripPrefix (s.takeWhile p) s = some (s.dropWhile p) := by
  have : (s.takeWhile p).isPrefixOf s = true := by
    rw [List.isPrefixOf_iff_prefix]; exact List.takeWhile_prefix p
  rw [stripPrefix, if_pos this]
  congr 1
  induction s with
  | nil => rfl
  | cons c s ih =>
    rw [List.takeWhile_cons, List.dropWhile_cons]
    split
    · simp only [List.length_cons, List.drop_succ_cons]
      exact ih (by rw [List.isPrefixOf_iff_prefix]; exact List.takeWhile_prefix p)
    · rfl

theorem headingLabel_eq (s : Str) : headingLabel s =
    if (Rs.contains s c!"{#" && s.contains '}') = true then
      if s.contains '{' = true then
        match stripPrefix c!"{#" (s.dropWhile (· != '{')) with
        | none => .panic
        | some x => match stripSuffix c!"}" x with
          | none => .panic
          | some y => .ok y
      else .panic
    else .ok s := by
  unfold headingLabel splitOnce
  split
  · by_cases h : s.contains '{' = true
    · simp only [if_pos h, stripPrefix_takeWhile]
      rfl
    · simp only [if_neg h]
  · rfl

theorem ren_headingLabel [hf : Ren f] (s : Str) :
    headingLabel (s.map f) = mapO (List.map f) (headingLabel s) := by
  rw [headingLabel_eq, headingLabel_eq]
  ren
  split
  · split
    · cases stripPrefix c!"{#" (s.dropWhile (· != '{')) with
      | none => rfl
      | some x =>
        simp only [Option.map_some]
        ren
        cases stripSuffix c!"}" x <;> rfl
    · rfl
  · rfl

theorem ren_headingTrim [hf : Ren f] (s : Str) : headingTrim (s.map f) = (headingTrim s).map f := by
  unfold headingTrim
  ren
  cases rsplitOnce ' ' (trimEnd s) with
  | none => rfl
  | some p =>
    obtain ⟨a, b⟩ := p
    simp only [Option.map_some, Prod.map]
    ren

theorem ren_headingPost [hf : Ren f] (s : Str) : headingPost (s.map f) = (headingPost s).map f := by
  unfold headingPost
  ren

theorem ren_lexNewlines [hf : Ren f] (s : Str) : lexNewlines (s.map f) = renP f (lexNewlines s) := by
  unfold lexNewlines
  ren
  ren_push

theorem ren_lexTilde [hf : Ren f] (s : Str) : lexTilde (s.map f) = renP f (lexTilde s) := by
  unfold lexTilde
  ren
  ren_push

/-- The result of `lex_tabs_spaces` when it has called itself. -/
def tabsRest (s : Str) : LexRes × Str → LexRes × Str
  | (.ok (.codeBlock _ _), s3) => (.ok (.codeBlock (slice s s3) []), s3)
  | (.error e, s3) => (.error e, s3)
  | (.ok _, s3) => (.error [], s3)

theorem ren_tabsRest (s : Str) (x : LexRes × Str) : tabsRest (s.map f) (renP f x) = renP f (tabsRest s x) := by
  obtain ⟨r, x⟩ := x
  cases r with
  | error e => rfl
  | ok t => cases t <;> simp [tabsRest, renP, renRes, renTok, ren_slice]

theorem lexTabsSpacesGo_succ (last : Option Token) (n : Nat) (s : Str) : lexTabsSpacesGo last (n + 1) s =
    let ws := s.takeWhile (fun c => c == '\t' || c == ' ')
    let s1 := s.dropWhile (fun c => c == '\t' || c == ' ')
    if decide (1 ≤ ws.length) && decide (ws.length ≤ 3) && !ws.contains '\t' then (.error ws, s1)
    else if decide (2 ≤ ws.length) && !ws.contains '\t' && s1.head? == some '\n' then (.ok .lineBreak, s1)
    else
      let line := (untilTail c!"\n" s1).1
      let s2 := (untilTail c!"\n" s1).2
      if ws = c!"    " ∧ isPlain last = true ∧ line.contains '#' = true then (.error line, s2)
      else if ws = c!"    " ∧ isNewline last = true ∧ line.contains '#' = true then (.error line, s2)
      else if ws = c!"\t" ∨ ws = c!"    " ∨ ws = c!"  \t" then (.ok (.code line), s2)
      else if ws = c!"\t\t" then (.ok (.code (c!"\t" ++ line)), s2)
      else if s2.head? = some '\t' ∨ s2.head? = some ' ' then tabsRest s (lexTabsSpacesGo last n s2)
      else (.error (slice s s2), s2) := rfl

theorem ren_lexTabsSpaces [hf : Ren f] (last : Option Token) (s : Str) :
    lexTabsSpaces (last.map (renTok f)) (s.map f) = renP f (lexTabsSpaces last s) := by
  have hp : isPlain (last.map (renTok f)) = isPlain last := by
    cases last with
    | none => rfl
    | some t => cases t <;> rfl
  have hn : isNewline (last.map (renTok f)) = isNewline last := by
    cases last with
    | none => rfl
    | some t => cases t <;> rfl
  unfold lexTabsSpaces
  rw [List.length_map]
  generalize s.length = n
  induction n generalizing s with
  | zero => rfl
  | succ n ih =>
    simp only [lexTabsSpacesGo_succ]
    ren
    simp only [Prod.map_fst, Prod.map_snd]
    ren
    simp only [hp, hn, ih, ren_tabsRest]
    simp only [apply_ite (renP f)]
    simp [renP, renRes, renTok, hf.out.fixes '\t' (by decide)]

theorem ren_lexNumbers [hf : Ren f] (s : Str) : lexNumbers (s.map f) = renP f (lexNumbers s) := by
  have key : ∀ s : Str, lexNumbers s = match s with
      | [] => (.error [], [])
      | c :: s1 =>
        if s1.head? = some '.' then
          if (s1.drop 1).head? = some ' ' then
            (.ok (.orderedListEntry ((s1.drop 2).takeWhile (· != '\n'))), (s1.drop 2).dropWhile (· != '\n'))
          else (.error [c, '.'], s1.drop 1)
        else (.error [c], s1) := by
    intro s
    rcases s with _ | ⟨c, _ | ⟨d, s⟩⟩
    · rfl
    · rfl
    · by_cases hd : d = '.'
      · subst hd
        rcases s with _ | ⟨e, s⟩
        · rfl
        · by_cases he : e = ' '
          · subst he; rfl
          · simp [lexNumbers, he]
      · simp [lexNumbers, hd]
  rw [key, key]
  cases s with
  | nil => rfl
  | cons c s =>
    simp only [List.map_cons]
    ren
    simp only [apply_ite (renP f)]
    simp [renP, renRes, renTok, hf.out.fixes '.' (by decide)]

theorem ren_lexEscaped [hf : Ren f] (s : Str) : lexEscaped (s.map f) = renP f (lexEscaped s) := by
  unfold lexEscaped
  ren
  cases s.drop 1 with
  | nil => simp only [renP, renRes, ren_kept (f := f) (p := c!"EOF") (by decide)]; rfl
  | cons c t =>
    simp only [List.map_cons]
    rw [← List.map_cons]
    simp (disch := decide) only [ren_eq]
    ren
    ren_push

theorem ren_lexAU [hf : Ren f] (s : Str) : lexAsteriskUnderscore (s.map f) = renP f (lexAsteriskUnderscore s) := by
  unfold lexAsteriskUnderscore
  ren
  ren_push

theorem ren_lexBlockquotes [hf : Ren f] (s : Str) : lexBlockquotes (s.map f) = renP f (lexBlockquotes s) := by
  unfold lexBlockquotes
  ren
  ren_push

theorem ren_contLines [hf : Ren f] (n : Nat) (s : Str) :
    contLines n (s.map f) = Prod.map (List.map (List.map f)) (List.map f) (contLines n s) := by
  induction n generalizing s with
  | zero => rfl
  | succ n ih =>
    simp only [contLines]
    ren
    simp only [ih]
    split <;> rfl

theorem ren_lexBackticks [hf : Ren f] (s : Str) : lexBackticks (s.map f) = renP f (lexBackticks s) := by
  unfold lexBackticks
  have hk : ∀ n, Kept (List.replicate n '`') := by
    intro n c hc
    rw [List.eq_of_mem_replicate hc]; decide
  ren
  simp only [ren_untilTail (hk _), Prod.map_fst, Prod.map_snd, ren_endsWith (hk _), ren_trimEndStr (hk _)]
  ren
  ren_push

theorem ren_footnoteLoop [hf : Ren f] (n : Nat) (s : Str) :
    footnoteLoop n (s.map f) = Prod.map id (List.map f) (footnoteLoop n s) := by
  induction n generalizing s with
  | zero => rfl
  | succ n ih =>
    simp only [footnoteLoop]
    ren
    simp only [ih, apply_ite (Prod.map id (List.map f))]
    rfl

theorem toLower_free {c : Char} (h : Free c) : c.toLower ∉ c!"javscriptd" := by
  rcases h with h | h
  · have : c.toLower = c := by
      unfold Char.toLower
      rw [dif_neg]
      rintro ⟨_, h2⟩
      have : c.toNat ≤ 90 := h2
      omega
    rw [this]
    intro hc
    have H : ∀ c ∈ c!"javscriptd", c.toNat < 128 := by decide
    have := H c hc
    omega
  · revert c; decide

theorem ren_toLower [hf : Ren f] {k : Char} (hk : k ∈ c!"javscriptd") (c : Char) : (f c).toLower = k ↔ c.toLower = k := by
  by_cases hc : Free c
  · constructor
    · intro h; exact absurd (h ▸ hk) (toLower_free (hf.out.free c hc))
    · intro h; exact absurd (h ▸ hk) (toLower_free hc)
  · rw [hf.out.fixes c hc]

theorem ren_lower [hf : Ren f] {w : Str} (hw : ∀ k ∈ w, k ∈ c!"javscriptd") (s : Str) :
    (lower (s.map f) == w) = (lower s == w) := by
  rw [Bool.eq_iff_iff]
  simp only [beq_iff_eq]
  induction w generalizing s with
  | nil => simp [lower]
  | cons k w ih =>
    cases s with
    | nil => simp [lower]
    | cons c s =>
      have h1 := ih (fun k hk => hw k (by simp [hk])) s
      simp only [lower] at h1
      simp only [lower, List.map_cons, List.cons.injEq, ren_toLower (hw k (by simp)), h1]

theorem ren_schemeAscii [hf : Ren f] (c : Char) : schemeAscii.contains (f c) = schemeAscii.contains c := by
  by_cases hc : Free c
  · have hf2 := hf.out.free c hc
    have H1 : ∀ c ∈ c!"GHKLMQUWYZwz", schemeAscii.contains c = true ∧ c.toNat < 128 := by decide
    have H2 : ∀ c ∈ schemeAscii, c.toNat < 128 := by decide
    have H3 : ∀ c : Char, 128 ≤ c.toNat → schemeAscii.contains c = false := by
      intro c h
      rw [Bool.eq_false_iff]; intro hm
      have := H2 c (by simpa using hm)
      omega
    have ha := hf.out.ascii c
    rcases hc with h | h <;> rcases hf2 with h' | h'
    · rw [H3 _ h.1, H3 _ h'.1]
    · have := (H1 _ h').2; omega
    · have := (H1 _ h).2; omega
    · rw [(H1 _ h).1, (H1 _ h').1]
  · rw [hf.out.fixes c hc]

theorem ren_splitScheme [hf : Ren f] (s : Str) :
    splitScheme (s.map f) = Prod.map (List.map f) (List.map f) (splitScheme s) := by
  unfold splitScheme
  ren
  split <;> rfl

theorem ren_sourceScheme [hf : Ren f] (s : Str) : sourceScheme (s.map f) = (sourceScheme s).map (renScheme f) := by
  unfold sourceScheme
  ren
  rw [ren_all (p := fun c => schemeAscii.contains c) ren_schemeAscii]
  simp only [apply_ite (Option.map (renScheme f))]
  rfl

theorem ren_afterLastColon [hf : Ren f] (s : Str) : afterLastColon (s.map f) = (afterLastColon s).map f := by
  unfold afterLastColon
  rw [← List.map_reverse]
  ren
  rw [List.map_reverse]

theorem ren_stripScheme [hf : Ren f] (s : Str) :
    stripScheme ((s.takeWhile (· != ':')).map f) (s.map f) = (stripScheme (s.takeWhile (· != ':')) s).map f := by
  unfold stripScheme
  have h := stripPrefix_takeWhile (· != ':') (s.map f)
  rw [ren_takeWhile (ren_bne (by decide)), ren_dropWhile (ren_bne (by decide))] at h
  rw [h, stripPrefix_takeWhile, Option.getD_some, Option.getD_some]
  ren

theorem ren_count [hf : Ren f] {k : Char} (hk : ¬ Free k) (s : Str) : (s.map f).count k = s.count k := by
  induction s with
  | nil => rfl
  | cons c s ih => simp only [List.map_cons, List.count_cons, ih, ren_beq hk]

def renLink (f : Char → Char) : Except Str ValidURL → Except Str ValidURL
  | .ok u => .ok (renUrl f u)
  | .error e => .error (e.map f)

theorem sourceScheme_text {s : Str} {sc : Scheme} (h : sourceScheme s = some sc) :
    sc.display = s.takeWhile (· != ':') := by
  unfold sourceScheme at h
  simp only at h
  split at h
  · split at h
    · rw [← Option.some.inj h]; rfl
    · split at h
      · rw [← Option.some.inj h]; rfl
      · split at h <;> (rw [← Option.some.inj h]; rfl)
  · simp at h

theorem ren_validateLink [hf : Ren f] (s : Str) : validateLink (s.map f) = renLink f (validateLink s) := by
  unfold validateLink
  simp only [ren_splitScheme, Prod.map_fst, Prod.map_snd]
  ren
  simp (disch := decide) only [ren_lower, ren_count, ren_sourceScheme, ren_afterLastColon]
  simp only [apply_ite (renLink f)]
  cases hs : sourceScheme s with
  | none =>
    simp [renLink, renUrl, renScheme, ren_kept (f := f) (p := c!"mailto") (by decide)]
  | some sc =>
    have ht := sourceScheme_text hs
    have := ren_stripScheme (f := f) s
    rw [← ht] at this
    cases sc <;> simp only [Scheme.display] at this <;> simp [renLink, renUrl, renScheme, this]

theorem ren_lexLinks [hf : Ren f] (s : Str) : lexLinks (s.map f) = renP f (lexLinks s) := by
  unfold lexLinks
  ren
  simp only [ren_validateLink, ren_footnoteLoop, Prod.map_fst, Prod.map_snd, id]
  ren
  simp only [apply_ite (renP f)]
  generalize validateLink _ = v
  cases v <;> rfl

theorem ren_lexImages [hf : Ren f] (s : Str) : lexImages (s.map f) = renP f (lexImages s) := by
  unfold lexImages
  ren
  simp only [ren_lexLinks]
  split
  · rfl
  · obtain ⟨r, x⟩ := lexLinks (s.drop 1)
    cases r with
    | error e => simp only [renP, renRes, ren_slice]
    | ok t =>
      have hk : c!"Non link token returned from lex_links".map f = c!"Non link token returned from lex_links" :=
        ren_kept (by decide)
      cases t <;> simp only [renP, renRes, renTok, hk] <;> rfl

/-- The entry points of the parser commute with the renaming. -/
structure RecRen (f : Char → Char) (r : Rec) : Prop where
  lex : ∀ s, r.lex (s.map f) = mapO (List.map (renTok f)) (r.lex s)
  render : ∀ ig s, r.render ig (s.map f) = mapO (List.map f) (r.render ig s)

def renO (f : Char → Char) : Outcome (LexRes × Str) → Outcome (LexRes × Str) := mapO (renP f)

theorem ren_lexHeading [hf : Ren f] {r : Rec} (hr : RecRen f r) (s : Str) :
    lexHeading r (s.map f) = renO f (lexHeading r s) := by
  unfold lexHeading
  simp only [ren_dropWhile (f := f) (p := (· == '#')) (ren_beq (by decide)), ren_headingSep]
  ren
  simp only [apply_ite (renO f)]
  cases headingSep (s.dropWhile (· == '#')) with
  | none => rfl
  | some s2 =>
    simp only [Option.map_some]
    ren
    simp only [ren_headingLabel, renO, mapO_bind, bind_mapO]
    cases headingLabel (s2.takeWhile (· != '\n')) with
    | panic => rfl
    | hang => rfl
    | fuelOut => rfl
    | ok line =>
      simp only [Outcome.ok_bind, ren_headingTrim]
      ren
      simp only [hr.render, bind_mapO, apply_ite (mapO (renP f)), mapO_bind, ren_headingPost]
      rfl

theorem ren_lexPlusMinus [hf : Ren f] {r : Rec} (hr : RecRen f r) (s : Str) :
    lexPlusMinus r (s.map f) = renO f (lexPlusMinus r s) := by
  unfold lexPlusMinus
  ren
  simp only [ren_contLines, Prod.map_fst, Prod.map_snd]
  ren
  simp only [apply_ite (renO f)]
  have hk : c!"string length error".map f = c!"string length error" := ren_kept (by decide)
  generalize lineAhead _ = o
  generalize (contLines _ _).1 = more
  have he : ∀ l : List Str, (l.map (List.map f)).map Token.plaintext = (l.map Token.plaintext).map (renTok f) := by
    intro l; simp [renTok]
  rw [← List.map_cons, he]
  cases o with
  | none => simp only [Option.map_none, renO, mapO, renP, renRes, renTok, renToks_eq, hk]
  | some x =>
    obtain ⟨l, s5⟩ := x
    simp only [Option.map_some, Prod.map]
    ren
    simp only [hr.lex, bind_mapO, apply_ite (renO f)]
    simp only [renO, mapO_bind]
    simp only [mapO, renP, renRes, renTok, renToks_eq, hk, List.map_append]

theorem ren_detailsLoop [hf : Ren f] (a : Str) (n : Nat) (s : Str) :
    detailsLoop (a.map f) n (s.map f) = mapO (Prod.map (List.map f) (List.map f)) (detailsLoop a n s) := by
  induction n generalizing s with
  | zero =>
    unfold detailsLoop
    ren
    split <;> rfl
  | succ n ih =>
    unfold detailsLoop
    ren
    simp only [Prod.map_snd, ih, apply_ite (mapO (Prod.map (List.map f) (List.map f)))]
    rfl

theorem ren_parseDetails [hf : Ren f] {r : Rec} (hr : RecRen f r) (s : Str) :
    parseDetails r (s.map f) = renO f (parseDetails r s) := by
  unfold parseDetails
  ren
  simp only [apply_ite (renO f)]
  split
  · rfl
  · cases stripPrefix c!"<summary>" (s.takeWhile (fun c => c != '\n' && c != '\r')) with
    | none => rfl
    | some x =>
      simp only [Option.map_some, Prod.map_fst, Prod.map_snd]
      ren
      have hif : ∀ (c : Prop) [Decidable c] (x : Outcome (Str × Str)) (a b : Str),
          (if c then mapO (Prod.map (List.map f) (List.map f)) x else .ok (a.map f, b.map f)) =
            mapO (Prod.map (List.map f) (List.map f)) (if c then x else .ok (a, b)) := by
        intro c _ x a b; split <;> rfl
      simp only [renO, mapO_bind, ren_detailsLoop, hif, bind_mapO, Prod.map_fst, Prod.map_snd]
      ren
      simp only [hr.lex, bind_mapO]
      simp only [mapO, renP, renRes, renTok, renToks_eq]

theorem ren_lexSideCarrot [hf : Ren f] {r : Rec} (hr : RecRen f r) (s : Str) :
    lexSideCarrot r (s.map f) = renO f (lexSideCarrot r s) := by
  unfold lexSideCarrot
  ren
  simp only [ren_validateLink, ren_parseDetails hr]
  simp only [apply_ite (renO f)]
  have hk : c!"<>".map f = c!"<>" := ren_kept (by decide)
  generalize validateLink _ = v
  cases v with
  | error e => simp only [renLink, renO, mapO, renP, renRes, hk, List.map_nil]
  | ok u =>
    have hs : (renUrl f u).scheme.isSome = u.scheme.isSome := by simp [renUrl]
    simp only [renLink, hs, apply_ite (renO f)]
    simp only [renO, mapO, renP, renRes, renTok, hk, Option.map_none, List.map_nil]

theorem ren_pipeLines [hf : Ren f] (n : Nat) (s : Str) :
    pipeLines n (s.map f) = Prod.map (List.map (List.map f)) (List.map f) (pipeLines n s) := by
  induction n generalizing s with
  | zero => rfl
  | succ n ih =>
    simp only [pipeLines]
    ren
    simp only [ih]
    split <;> rfl

theorem ren_cells [hf : Ren f] (l : Str) : cells (l.map f) = (cells l).map (List.map f) := by
  unfold cells
  ren
  rw [List.filter_map]
  congr 2
  funext x
  simp

theorem ren_cellAlign [hf : Ren f] (x : Str) : cellAlign (x.map f) = cellAlign x := by
  unfold cellAlign
  ren

theorem ren_usable (t : Token) : (renTok f t).isUsableInTable = t.isUsableInTable := by
  cases t <;> rfl

theorem ren_rowTokens {r : Rec} (hr : RecRen f r) (es : List Str) :
    rowTokens r (es.map (List.map f)) = mapO (List.map (List.map (renTok f))) (rowTokens r es) := by
  induction es with
  | nil => rfl
  | cons e es ih =>
    simp only [List.map_cons, rowTokens, hr.lex, ih, bind_mapO, mapO_bind]
    congr 1
    funext ts
    congr 1
    funext rest
    have : (ts.map (renTok f)).filter Token.isUsableInTable = (ts.filter Token.isUsableInTable).map (renTok f) := by
      rw [List.filter_map]; congr 2; funext t; exact ren_usable t
    simp only [mapO, this, List.map_cons]

theorem ren_tableRows [hf : Ren f] {r : Rec} (hr : RecRen f r) (al : List Alignment) (ls : List Str) :
    tableRows r al (ls.map (List.map f)) = mapO (renRows f) (tableRows r al ls) := by
  induction ls with
  | nil => rfl
  | cons l ls ih =>
    have h1 : ((cells l).map (List.map f)).map trim = ((cells l).map trim).map (List.map f) := by
      simp [ren_trim]
    simp only [List.map_cons, tableRows, ren_cells, h1, ren_rowTokens hr, ih, bind_mapO, mapO_bind]
    congr 1
    funext row
    congr 1
    funext rest
    simp only [mapO, renRows, renRow_eq]
    congr 2
    rw [List.zip_map_right]

theorem ren_lexPipes [hf : Ren f] {r : Rec} (hr : RecRen f r) (s : Str) :
    lexPipes r (s.map f) = renO f (lexPipes r s) := by
  unfold lexPipes
  ren
  simp only [ren_pipeLines, Prod.map_fst, Prod.map_snd]
  ren
  generalize (pipeLines s.length s).1 = lines
  have hall : ∀ l0 : Str, (lines.map (List.map f)).all (fun l => countStr c!"|" l == countStr c!"|" (l0.map f)) =
      lines.all (fun l => countStr c!"|" l == countStr c!"|" l0) := by
    intro l0
    rw [List.all_map]
    congr 1
    funext l
    simp only [Function.comp]
    ren
  by_cases hlen : lines.length < 3
  · simp only [if_pos hlen]; rfl
  · simp only [if_neg hlen]
    rcases lines with _ | ⟨l0, _ | ⟨l1, body⟩⟩
    · rfl
    · rfl
    · have h := hall l0
      simp only [List.map_cons] at h
      have h2 : ((cells l1).map (List.map f)).map cellAlign = (cells l1).map cellAlign := by simp [ren_cellAlign]
      have h3 : ((cells l0).map (List.map f)).map trim = ((cells l0).map trim).map (List.map f) := by simp [ren_trim]
      by_cases hc : (l0 :: l1 :: body).all (fun l => countStr c!"|" l == countStr c!"|" l0) = true
      · simp only [List.map_cons, h, hc, ren_cells, h2, h3, ren_tableRows hr, bind_mapO, Bool.not_true, Bool.false_eq_true, if_false,
          renO, mapO_bind]
        simp only [mapO, renP, renRes, renTok, List.zip_map_right]
      · rw [Bool.not_eq_true] at hc
        simp only [List.map_cons, h, hc, Bool.not_false, if_true]
        rfl

theorem ren_mem [hf : Ren f] {l : Str} (hl : Kept l) (c : Char) : f c ∈ l ↔ c ∈ l := by
  induction l with
  | nil => simp
  | cons k l ih =>
    simp only [List.mem_cons, ren_eq (hl k (by simp)), ih (fun c hc => hl c (by simp [hc]))]

theorem ren_dispatch [hf : Ren f] {r : Rec} (hr : RecRen f r) (ig : List Char) (last : Option Token) (c : Char) (s : Str) :
    lexDispatch r ig (last.map (renTok f)) (f c) (s.map f) = renO f (lexDispatch r ig last c s) := by
  unfold lexDispatch
  have e : ∀ k, ¬ Free k → (f c = k) = (c = k) := fun k hk => propext (ren_eq hk c)
  have hm : (f c ∈ c!"1234567890") = (c ∈ c!"1234567890") := propext (ren_mem (by decide) c)
  simp only [hm, e '#' (by decide), e '\n' (by decide), e ' ' (by decide), e '\t' (by decide), e '*' (by decide), e '_' (by decide),
    e '-' (by decide), e '+' (by decide), e '>' (by decide), e '~' (by decide), e '`' (by decide), e '[' (by decide),
    e '!' (by decide), e '<' (by decide), e '|' (by decide), e '\\' (by decide)]
  simp only [ren_lexHeading hr, ren_lexNewlines, ren_lexTabsSpaces, ren_lexNumbers, ren_lexAU,
    ren_lexPlusMinus hr, ren_lexBlockquotes, ren_lexTilde, ren_lexBackticks, ren_lexLinks, ren_lexImages,
    ren_lexSideCarrot hr, ren_lexPipes hr, ren_lexEscaped, ← List.map_drop]
  simp only [apply_ite (renO f)]
  rfl

theorem ren_resToken (x : LexRes) : resToken (renRes f x) = renTok f (resToken x) := by
  cases x <;> rfl

theorem ren_nextToken [hf : Ren f] {r : Rec} (hr : RecRen f r) (ig : List Char) (last : Option Token) (s : Str) :
    nextToken r ig (last.map (renTok f)) (s.map f) =
      mapO (Option.map (Prod.map (renTok f) (List.map f))) (nextToken r ig last s) := by
  cases s with
  | nil => rfl
  | cons c s =>
    have := ren_dispatch hr ig last c (c :: s)
    simp only [List.map_cons] at this
    simp only [List.map_cons, nextToken, this, renO, bind_mapO, mapO_bind]
    simp only [mapO, Option.map_some, Prod.map, renP, ren_resToken]

theorem ren_lexLoop [hf : Ren f] {r : Rec} (hr : RecRen f r) (ig : List Char) (n : Nat) (acc : List Token) (s : Str) :
    lexLoop r ig n (acc.map (renTok f)) (s.map f) = mapO (List.map (renTok f)) (lexLoop r ig n acc s) := by
  induction n generalizing acc s with
  | zero => rfl
  | succ n ih =>
    simp only [lexLoop, List.getLast?_map, ren_nextToken hr, bind_mapO, mapO_bind]
    congr 1
    funext o
    cases o with
    | none => rfl
    | some x =>
      have := ih (acc ++ [x.1]) x.2
      simpa using this

theorem ren_lexWith [hf : Ren f] {r : Rec} (hr : RecRen f r) (ig : List Char) (s : Str) :
    lexWith r ig (s.map f) = mapO (List.map (renTok f)) (lexWith r ig s) := by
  unfold lexWith
  rw [List.length_map]
  exact ren_lexLoop hr ig _ [] s

end Smd.Gfm
