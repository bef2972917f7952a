import Verif.Lemmas.Leads
import Verif.Lemmas.Notes
import Verif.Lemmas.Tables
import Verif.Lemmas.Sections

/-! Documents. -/

namespace Smd.Gfm
open Smd.Rs Smd.Spec

variable {stop : Str}

variable {r : Rec} {ig : List Char} {rest : Str} {ts : List Token}

theorem LexTo.image {text target : Str} {u : ValidURL} (h1 : ']' ∉ text) (h2 : ')' ∉ target) (h3 : ' ' ∉ target)
    (hu : validateLink target = .ok u) (hr : LexTo (stop := stop) r ig rest ts) :
    LexTo (stop := stop) r ig ((c!"![" ++ text ++ c!"](" ++ target ++ c!")") ++ rest) ([.image u.content (some text)] ++ ts) := by
  refine LexTo.one (fun last => ?_) hr
  have e := lexLinks_inline (rest := rest) h1 h2 h3
  rw [hu] at e
  have e' : c!"![" ++ text ++ c!"](" ++ target ++ c!")" ++ rest = '!' :: (c!"[" ++ text ++ c!"](" ++ target ++ c!")" ++ rest) := by simp
  have el : lexImages ('!' :: (c!"[" ++ text ++ c!"](" ++ target ++ c!")" ++ rest)) = (.ok (.image u.content (some text)), rest) := by
    unfold lexImages
    rw [if_neg (by simp), List.drop_one, List.tail_cons, e]
  rw [e']
  generalize c!"[" ++ text ++ c!"](" ++ target ++ c!")" ++ rest = z at el
  unfold nextToken lexDispatch
  simp [el, resToken]

theorem image_html {text target : Str} (h : PlainTarget target) (hne : afterColon target ≠ []) :
    imageOut (afterColon target) (some text) = (Block.image text target).html := by
  have hall : ∀ c ∈ afterColon target, isWs c = false := fun c hc =>
    (h.chars c ((List.drop_suffix 1 _).trans (List.dropWhile_suffix _) |>.subset hc)).2.1
  have ht : trim (afterColon target) ≠ [] := by
    cases he : afterColon target with
    | nil => exact absurd he hne
    | cons c cs =>
      rw [← he]
      exact trim_ne_nil (c := c) (by simp [he]) (hall c (by simp [he]))
  simp only [imageOut, if_neg ht, Block.html, sanitize_eq_escape]

theorem parseTok_image_clean (r : Rec) (l t h : Str) :
    parseTok r (.image l (some t)) (clean h) = .ok (clean (h ++ imageOut l (some t))) := by
  simp [parseTok, step1, step2, isBlankPlain, isTab, staysInList, staysInTask, opensPara, closesPara, staysInQuote, isCode, PState.push]

/-! ### Code between fences -/

theorem LexTo.fence {lang body : Str} (h1 : '\n' ∉ lang) (h2 : '`' ∉ lang) (h3 : '`' ∉ body) (h4 : rest.head? ≠ some '`')
    (hr : LexTo (stop := stop) r ig rest ts) :
    LexTo (stop := stop) r ig (c!"```" ++ lang ++ '\n' :: (body ++ (c!"```" ++ rest))) (.codeBlock body lang :: ts) := by
  refine .cons (fun last => ?_) hr
  have e := lexBackticks_fence h1 h2 h3 h4
  have e' : c!"```" ++ lang ++ '\n' :: (body ++ (c!"```" ++ rest)) = '`' :: (c!"``" ++ lang ++ '\n' :: (body ++ (c!"```" ++ rest))) := by simp
  rw [e'] at e ⊢
  rw [nextToken_tick, e]
  rfl

theorem parseTok_fence_clean (r : Rec) (lang body h : Str) : parseTok r (.codeBlock body lang) (clean h) = .ok (clean h) := by
  simp [parseTok, step1, step2, isBlankPlain, isTab, staysInList, staysInTask, opensPara, closesPara, staysInQuote, isCode]

/-- A fence ends the paragraph before it. -/
theorem parseTok_fence_inP (r : Rec) (lang body h : Str) :
    parseTok r (.codeBlock body lang) (inP h) = .ok (clean (h ++ c!"</p>\n")) := by
  simp [parseTok, step1, step2, isBlankPlain, isTab, staysInList, staysInTask, opensPara, closesPara, PState.push]

/-! ### Documents -/

/-- What a text renders to. -/
abbrev RendersTo (s x : Str) : Prop := render s = .ok x

/-- A block that is a paragraph, without the closing tag of the paragraph. -/
def openHtml : Block → Str
  | .para is => c!"<p>" ++ inlineHtml is
  | .quoted lines is => quoteHtml 0 lines ++ copies (quoteEnd 0 lines) c!"</blockquote>" ++ c!"<p>" ++ inlineHtml is
  | .listed l a b is => l.opened ++ c!"<p>" ++ escape [a] ++ l.close ++ escape [b] ++ inlineHtml is
  | .listedHeading l n is => l.opened ++ l.close ++ c!"<p>" ++ headerOut n (inlineHtml is) none
  | .listedRule l _ _ => l.opened ++ l.close ++ c!"<p>" ++ c!"<hr />\n"
  | _ => []

theorem openHtml_html {b : Block} (h : b.isPara = true) : openHtml b ++ c!"</p>\n" = b.html := by
  cases b <;> first | (cases h; done) | simp [openHtml, Block.html, elem, headerOut]

/-- The state after a block and `n` line ends. -/
def afterBlock (h : Str) (n : Nat) (b : Block) : PState :=
  if b.isPara = true ∧ n < 2 then inP (h ++ openHtml b) else clean (h ++ b.html)

theorem afterBlock_closed {n : Nat} {b : Block} (hb : b.isPara = false) (h : Str) : afterBlock h n b = clean (h ++ b.html) :=
  if_neg (by simp [hb])

/-- The line ends after a paragraph. -/
theorem para_gaps {b : Block} (hb : b.isPara = true) {t1 : List Token} {h : Str} {st : PState} (h1 : parseToks self t1 st = .ok (inP (h ++ openHtml b)))
    (n : Nat) : parseToks self (t1 ++ gapToks n) st = .ok (afterBlock h n b) := by
  unfold afterBlock
  by_cases h2 : 2 ≤ n
  · rw [if_neg (by omega), ← openHtml_html hb, ← List.append_assoc]
    exact parseToks_two h1 (parseToks_gaps_inP self _ h2)
  · rw [if_pos ⟨hb, by omega⟩]
    exact parseToks_two h1 (parseToks_gap1_inP self _ (by omega))

/-- The blocks that end a paragraph. -/
def endsPara : Block → Bool
  | .heading _ _ => true
  | .details _ _ _ => true
  | .fenced _ _ => true
  | _ => false

theorem atEol_head {rest : Str} (h : AtEol rest) : rest.head? = some '\n' ∨ rest.head? = none := by
  rcases h with rfl | ⟨t, rfl⟩
  · exact .inr rfl
  · exact .inl rfl

theorem nextLine_of {a : Char} {u : Str} (h : isWs a = false) : NextLine (a :: u) := by
  refine ⟨?_, ?_, ?_⟩ <;>
    · rintro e
      injection e with e
      subst e
      revert h; decide

/-- A block with the line ends after it. -/
theorem block_sem {b : Block} (h : b.Good RendersTo) (n : Nat) : ∃ tb,
    (∀ R ts, (1 ≤ n ∨ R = []) → R.head? ≠ some '\n' → (∀ t, b = .table t → 2 ≤ n ∨ R.head? ≠ some '|') → LexTo (stop := stop) self [] R ts →
      LexTo (stop := stop) self [] (b.src ++ (times n '\n' ++ R)) (tb ++ ts)) ∧
    (∀ h, parseToks self tb (clean h) = .ok (afterBlock h n b)) ∧
    (endsPara b = true → ∀ p, parseToks self tb (inP p) = .ok (clean (p ++ c!"</p>\n" ++ b.html))) := by
  cases b with
  | para is =>
    obtain ⟨hg, hv⟩ := h
    obtain ⟨t1, hl1, _, ho1⟩ := inlines_sem hg
    refine ⟨t1 ++ gapToks n, fun R ts hn hR _ ht => ?_, fun h => ?_, fun hh => by cases hh⟩
    · rw [List.append_assoc]
      refine hl1 self [] _ _ ?_ (LexTo.gaps hR ht)
      rcases atEol_head (atEol_gap hn) with e | e <;> rw [e]
      · exact hg
      · exact inlineGood_none hg
    · refine para_gaps rfl ?_ n
      rw [(ho1 hv).clean self h, openHtml, List.append_assoc]
  | heading m is =>
    obtain ⟨h1, h6, hg, hn, hh, hv, hlast⟩ := h
    have he := head_ends hg hv
    have hl := last_ends hg hlast
    refine ⟨.header m (inlineHtml is) none :: gapToks n, ?_,
      fun h => parseToks_cons (parseTok_header_clean self m _ h) (parseToks_gaps_clean self n _),
      fun _ p => parseToks_cons (parseTok_header_inP self m _ p) (parseToks_gaps_clean self n _)⟩
    intro R ts hk hR _ ht
    have := LexTo.heading h1 h6 hn hh ⟨he.1, hl.1⟩ ⟨he.2, hl.2⟩ (atEol_gap hk) (renderIgnore_inlines ['#'] (inlineGood_none hg) hv)
      (LexTo.gaps hR ht)
    simpa [Block.src] using this
  | rule m c =>
    exact ⟨.horizontalRule :: gapToks n, fun R ts hk hR _ ht => LexTo.rule h (atEol_gap hk) (LexTo.gaps hR ht),
      fun h => parseToks_cons (parseTok_rule_clean self h) (parseToks_gaps_clean self n _), fun hh => by cases hh⟩
  | table t =>
    obtain ⟨tok, h1, h2⟩ := table_sem h
    exact ⟨tok :: gapToks (n - 1), fun R ts hk hR hp ht => h1 n R _ hk (hp t rfl) (LexTo.gaps hR ht),
      fun h => parseToks_cons (h2 h) (parseToks_gaps_clean self _ _), fun hh => by cases hh⟩
  | image text target =>
    obtain ⟨h1, h2, h3⟩ := h
    obtain ⟨u, hu, _, _, _, hc⟩ := plainTarget_ok h2
    refine ⟨.image u.content (some text) :: gapToks n, fun R ts hk hR _ ht => ?_, fun h => ?_, fun hh => by cases hh⟩
    · exact LexTo.image h1 (target_chars h2).1 (target_chars h2).2.1 hu (LexTo.gaps hR ht)
    · refine parseToks_cons (parseTok_image_clean self _ _ h) ?_
      rw [hc, image_html h2 h3]
      exact parseToks_gaps_clean self _ _
  | details sum inner shown =>
    obtain ⟨h1, h2, h3, h4⟩ := h
    obtain ⟨tok, h5, h6, h7⟩ := details_sem h1 h2 h3 h4
    exact ⟨tok :: gapToks n, fun R ts hk hR _ ht => h5 _ _ (LexTo.gaps hR ht),
      fun h => parseToks_cons (h6 h) (parseToks_gaps_clean self n _),
      fun _ p => parseToks_cons (h7 p) (parseToks_gaps_clean self n _)⟩
  | quoted lines is =>
    obtain ⟨⟨_, hq, hok⟩, hs, hg, hv⟩ := h
    obtain ⟨t0, hl0, hp0⟩ := quotes_sem (r := self) lines 0 hok hq
    obtain ⟨t1, hl1, _, ho1⟩ := inlines_sem hg
    obtain ⟨⟨a, u, e, ha⟩, _⟩ := head_ends hg hv
    refine ⟨(t0 ++ t1) ++ gapToks n, fun R ts hn hR _ ht => ?_, fun h => ?_, fun hh => by cases hh⟩
    · simp only [Block.src, Ending.src, List.append_assoc]
      refine hl0 [] _ _ ?_ (.inr hs) (hl1 self [] _ _ ?_ (LexTo.gaps hR ht))
      · rw [e]; simp; rintro rfl; revert ha; decide
      · rcases atEol_head (atEol_gap hn) with e | e <;> rw [e]
        · exact hg
        · exact inlineGood_none hg
    · refine para_gaps rfl (parseToks_two (hp0 h) ?_) n
      rw [ho1 hv self]
      simp [openHtml, copies, rep]
  | listed l a b is =>
    obtain ⟨hgl, hs, hw, hg⟩ := h
    obtain ⟨t0, hl0, hp0⟩ := lists_sem hgl hs
    obtain ⟨t1, hl1, ha1, _⟩ := inlines_sem hg
    have ha := hw.2 a (by simp)
    have hb := hw.2 b (by simp)
    refine ⟨(t0 ++ ([.plaintext [a], .plaintext [b]] ++ t1)) ++ gapToks n, fun R ts hn hR _ ht => ?_, fun h => ?_, fun hh => by cases hh⟩
    · simp only [Block.src, List.append_assoc]
      refine hl0 _ _ (nextLine_of ha.2) (LexTo.word (w := [a, b]) hw.2 (hl1 self [] _ _ ?_ (LexTo.gaps hR ht)))
      rcases atEol_head (atEol_gap hn) with e | e <;> rw [e]
      · exact hg
      · exact inlineGood_none hg
    · refine para_gaps rfl (parseToks_two (hp0 h) (parseToks_two (parseTok_two_list self hs (shown_plain ha) (shown_plain hb) _) ?_)) n
      rw [ha1]
      simp [openHtml]
  | listedHeading l m is =>
    obtain ⟨hgl, hs, h1, h6, hg, hn, hh, hv, hlast⟩ := h
    obtain ⟨t0, hl0, hp0⟩ := lists_sem hgl hs
    have he := head_ends hg hv
    have hl := last_ends hg hlast
    refine ⟨(t0 ++ [.header m (inlineHtml is) none]) ++ gapToks n, fun R ts hk hR _ ht => ?_, fun h => ?_, fun hh => by cases hh⟩
    · simp only [Block.src, List.append_assoc]
      have := LexTo.heading h1 h6 hn hh ⟨he.1, hl.1⟩ ⟨he.2, hl.2⟩ (atEol_gap hk) (renderIgnore_inlines ['#'] (inlineGood_none hg) hv)
        (LexTo.gaps hR ht)
      refine hl0 _ _ ?_ (by simpa using this)
      obtain ⟨u, hu⟩ := times_head (c := '#') h1 (c!" " ++ (inlineSrc is ++ (times n '\n' ++ R)))
      simp only [List.cons_append, List.nil_append] at hu ⊢
      rw [hu]; exact nextLine_of (by decide)
    · refine para_gaps rfl (parseToks_two (hp0 h) (parseToks_one ?_)) n
      rw [parseTok_header_list self hs]
      simp [openHtml]
  | listedRule l m c =>
    obtain ⟨hgl, hs, hc⟩ := h
    obtain ⟨t0, hl0, hp0⟩ := lists_sem hgl hs
    refine ⟨(t0 ++ [.horizontalRule]) ++ gapToks n, fun R ts hk hR _ ht => ?_, fun h => ?_, fun hh => by cases hh⟩
    · simp only [Block.src, List.append_assoc]
      have := LexTo.rule (r := self) (ig := []) hc (atEol_gap hk) (LexTo.gaps hR ht)
      refine hl0 _ _ ?_ (by simpa using this)
      obtain ⟨u, hu⟩ := times_head (c := c) (n := m) (by rcases hc with h | h <;> omega) (times n '\n' ++ R)
      rw [hu]
      rcases hc with ⟨h, _⟩ | ⟨h, _⟩ <;> rcases h with rfl | rfl <;> exact nextLine_of (by decide)
    · refine para_gaps rfl (parseToks_two (hp0 h) (parseToks_one ?_)) n
      rw [parseTok_rule_list self hs]
      simp [openHtml]

  | fenced lang body =>
    obtain ⟨h1, h2, h3⟩ := h
    refine ⟨.codeBlock body lang :: gapToks n, fun R ts hk hR _ ht => ?_,
      fun h => parseToks_cons (parseTok_fence_clean self lang body h) (by
        rw [afterBlock_closed rfl, Block.html, List.append_nil]; exact parseToks_gaps_clean self n _),
      fun _ p => parseToks_cons (parseTok_fence_inP self lang body p) (by
        rw [Block.html, List.append_nil]; exact parseToks_gaps_clean self n _)⟩
    have := LexTo.fence (r := self) (ig := []) (stop := stop) h1 h2 h3 (by
      rcases atEol_head (atEol_gap hk) with e | e <;> rw [e] <;> simp) (LexTo.gaps (n := n) hR ht)
    simpa [Block.src] using this

/-- The states in which a document may continue: after a closed block, or inside a paragraph before a block that ends it. -/
def Entry (bs : List (Block × Nat)) (st : PState) (h : Str) : Prop :=
  st = clean h ∨ ∃ p b, st = inP p ∧ h = p ++ c!"</p>\n" ∧ bs.head? = some b ∧ endsPara b.1 = true

theorem entry_block {b : Block} {n : Nat} {bs : List (Block × Nat)} {st : PState} {h : Str} {tb : List Token}
    (he : Entry ((b, n) :: bs) st h) (h1 : ∀ h, parseToks self tb (clean h) = .ok (afterBlock h n b))
    (h2 : endsPara b = true → ∀ p, parseToks self tb (inP p) = .ok (clean (p ++ c!"</p>\n" ++ b.html))) :
    parseToks self tb st = .ok (afterBlock h n b) := by
  rcases he with rfl | ⟨p, b', rfl, rfl, hb, hh⟩
  · exact h1 h
  · have e : b' = (b, n) := by simpa using hb.symm
    subst e
    rw [h2 hh, afterBlock_closed]
    cases b <;> first | rfl | cases hh

theorem gap_pos (a b : Block) : 1 ≤ a.gap b := by
  unfold Block.gap
  split <;> first | omega | (split <;> omega)

theorem gap_ends {a b : Block} (h : a.isPara = true) (hg : a.gap b < 2) : endsPara b = true := by
  revert hg
  unfold Block.gap
  split <;> intro hg
  · omega
  · rfl
  · rfl
  · rfl
  · rw [if_pos h] at hg; omega

/-- The number of line ends an ending needs before it. -/
def endGap (b : Block) : Nat := if b.isPara then 2 else 1

theorem endGap_pos (b : Block) : 1 ≤ endGap b := by unfold endGap; split <;> omega

theorem spaced_ne {l : Ending} (h : l.Spaced) : l ≠ .none := by rintro rfl; exact h

theorem ending_head {R : Str → Str → Prop} {l : Ending} (h : l.Good R) (hne : l ≠ .none) :
    ∃ a u, l.src = a :: u ∧ isWs a = false ∧ a ≠ '|' := by
  cases l with
  | none => exact absurd rfl hne
  | bullets items =>
    cases items with
    | nil => exact absurd rfl h.1
    | cons i is =>
      refine ⟨i.1, _, by rw [Ending.src, List.flatMap_cons]; rfl, ?_⟩
      rcases (h.2.2 i (by simp)).1 with e | e | e <;> rw [e] <;> decide
  | ordered items =>
    cases items with
    | nil => exact absurd rfl h.1
    | cons i is =>
      refine ⟨i.1, _, by rw [Ending.src, List.flatMap_cons]; rfl, ?_⟩
      have : ∀ c ∈ c!"0123456789", isWs c = false ∧ c ≠ '|' := by decide
      exact this _ (h.2.2 i (by simp)).1
  | tasks items =>
    cases items with
    | nil => exact absurd rfl h.1
    | cons i is =>
      refine ⟨i.1, _, by rw [Ending.src, List.flatMap_cons]; rfl, ?_⟩
      rcases (h.2.2 i (by simp)).1 with e | e <;> rw [e] <;> decide
  | quotes lines =>
    cases lines with
    | nil => exact absurd rfl h.1
    | cons l ls =>
      have := quoteLine_head (h.2.2 l (by simp)).1 (ls.flatMap fun l => l.1.src)
      rw [Ending.src, List.flatMap_cons]
      cases e : l.1.src ++ ls.flatMap fun l => l.1.src with
      | nil => rw [e] at this; cases this
      | cons a u =>
        rw [e] at this
        have : a = '>' := by simpa using this
        exact ⟨a, u, rfl, by rw [this]; decide, by rw [this]; decide⟩
  | code n t =>
    obtain ⟨u, hu⟩ := times_head (c := '`') h.1 (t ++ times n '`')
    exact ⟨'`', u, by rw [Ending.src, List.append_assoc, hu], by decide, by decide⟩
  | notes defs =>
    cases defs with
    | nil => exact absurd rfl h.1
    | cons d ds => exact ⟨'[', _, by rw [Ending.src, List.flatMap_cons]; simp [NoteDef.src]; rfl, by decide, by decide⟩

theorem block_head {b : Block} (h : b.Good RendersTo) : ∃ a u, b.src = a :: u ∧ isWs a = false ∧ (a = '|' → ∃ t, b = .table t) := by
  have hp : ∀ {is : List Inline} {next : Option Char} {i : Inline} {a : Char} {u : Str}, InlineGood next is → is.head? = some i → i.Visible →
      inlineSrc is = a :: u → a ≠ '|' := by
    intro is next i a u hg hi hv e
    obtain ⟨is', rfl⟩ : ∃ is', is = i :: is' := by cases is with | nil => cases hi | cons j js => exact ⟨js, by simpa using hi⟩
    have hgi := hg.1
    have e : i.src ++ inlineSrc is' = a :: u := by rw [← e]; simp [inlineSrc]
    rintro rfl
    cases i with
    | word w =>
      obtain ⟨hw, hc⟩ : Word w := hgi
      cases w with
      | nil => exact hw rfl
      | cons c w =>
        have : c = '|' := by simpa [Inline.src] using congrArg List.head? e
        exact (hc c (by simp)).1 (by rw [this]; decide)
    | space n => exact hv
    | eol => exact hv
    | digit c =>
      have : c = '|' := by simpa [Inline.src] using congrArg List.head? e
      have h1 := hgi.1
      rw [this] at h1
      revert h1; decide
    | em m t =>
      have : m = '|' := by simpa [Inline.src] using congrArg List.head? e
      rcases hgi.1 with h | h <;> (rw [h] at this; revert this; decide)
    | strong m t =>
      have : m = '|' := by simpa [Inline.src, List.replicate] using congrArg List.head? e
      rcases hgi.1 with h | h <;> (rw [h] at this; revert this; decide)
    | strongEm m t =>
      have : m = '|' := by simpa [Inline.src, List.replicate] using congrArg List.head? e
      rcases hgi.1 with h | h <;> (rw [h] at this; revert this; decide)
    | tildes n =>
      obtain ⟨v, hv⟩ := times_head (c := '~') hgi.1 (inlineSrc is')
      rw [Inline.src, hv] at e
      injection e with e _
      revert e; decide
    | arrows n =>
      obtain ⟨v, hv⟩ := times_head (c := '>') hgi.1 (inlineSrc is')
      rw [Inline.src, hv] at e
      injection e with e _
      revert e; decide
    | digitDot c =>
      have : c = '|' := by simpa [Inline.src] using congrArg List.head? e
      have h1 := hgi.1
      rw [this] at h1
      revert h1; decide
    | dashes a b =>
      have : a = '|' := by simpa [Inline.src] using congrArg List.head? e
      rcases hgi.1 with h | h <;> (rw [h] at this; revert this; decide)
    | _ =>
      simp [Inline.src, List.replicate] at e
  cases b with
  | para is =>
    obtain ⟨⟨a, u, e, ha⟩, _⟩ := head_ends h.1 h.2
    obtain ⟨i, hi, hv⟩ := h.2
    exact ⟨a, u, e, ha, fun ea => absurd ea (hp h.1 hi hv e)⟩
  | heading n is =>
    obtain ⟨u, hu⟩ := times_head (c := '#') h.1 (c!" " ++ inlineSrc is)
    exact ⟨'#', u, by rw [Block.src, List.append_assoc, hu], by decide, fun e => absurd e (by decide)⟩
  | rule n c =>
    have hn : 1 ≤ n := by rcases h with h | h <;> omega
    obtain ⟨u, hu⟩ := times_head (c := c) hn []
    rw [List.append_nil] at hu
    refine ⟨c, u, hu, ?_, ?_⟩
    · rcases h with ⟨h, _⟩ | ⟨h, _⟩ <;> rcases h with rfl | rfl <;> decide
    · rcases h with ⟨h, _⟩ | ⟨h, _⟩ <;> rcases h with rfl | rfl <;> exact fun e => absurd e (by decide)
  | table t => exact ⟨'|', _, rfl, by decide, fun _ => ⟨t, rfl⟩⟩
  | image text target => exact ⟨'!', _, rfl, by decide, fun e => absurd e (by decide)⟩
  | details s i x => exact ⟨'<', _, rfl, by decide, fun e => absurd e (by decide)⟩
  | quoted lines is =>
    obtain ⟨a, u, e, ha, hb⟩ := ending_head (l := .quotes lines) h.1 nofun
    exact ⟨a, _, by rw [Block.src, e]; rfl, ha, fun e => absurd e hb⟩
  | listed l c d is =>
    obtain ⟨a, u, e, ha, hb⟩ := ending_head h.1 (spaced_ne h.2.1)
    exact ⟨a, _, by rw [Block.src, e]; rfl, ha, fun e => absurd e hb⟩
  | listedHeading l n is =>
    obtain ⟨a, u, e, ha, hb⟩ := ending_head h.1 (spaced_ne h.2.1)
    exact ⟨a, _, by rw [Block.src, e]; rfl, ha, fun e => absurd e hb⟩
  | listedRule l n c =>
    obtain ⟨a, u, e, ha, hb⟩ := ending_head h.1 (spaced_ne h.2.1)
    exact ⟨a, _, by rw [Block.src, e]; rfl, ha, fun e => absurd e hb⟩
  | fenced lang body => exact ⟨'`', _, rfl, by decide, fun e => absurd e (by decide)⟩

theorem docGood_head {R : Str → Str → Prop} {b : Block} {n : Nat} {bs : List (Block × Nat)} (h : DocGood R ((b, n) :: bs)) : b.Good R := by
  cases bs with
  | nil => exact h
  | cons c cs => exact h.1

theorem docGood_tail {R : Str → Str → Prop} {b : Block} {n : Nat} {bs : List (Block × Nat)} (h : DocGood R ((b, n) :: bs)) : DocGood R bs := by
  cases bs with
  | nil => trivial
  | cons c cs => exact h.2.2

theorem blocks_head {bs : List (Block × Nat)} (h : DocGood RendersTo bs) (hne : bs ≠ []) (rest : Str) :
    (docSrc bs ++ rest).head? ≠ some '\n' ∧ ((docSrc bs ++ rest).head? = some '|' → ∃ t n, bs.head? = some (.table t, n)) := by
  cases bs with
  | nil => exact absurd rfl hne
  | cons b bs =>
    obtain ⟨a, u, e, ha, hp⟩ := block_head (docGood_head h)
    have : docSrc (b :: bs) = b.1.src ++ (times b.2 '\n' ++ docSrc bs) := by simp [docSrc]
    rw [this, e]
    refine ⟨?_, fun hh => ?_⟩
    · simp
      rintro rfl
      revert ha; decide
    · obtain ⟨t, ht⟩ := hp (by simpa using hh)
      exact ⟨t, b.2, by rw [← ht]; rfl⟩

theorem _root_.Smd.Spec.Ending.Good.mono {R S : Str → Str → Prop} (hRS : ∀ s x, R s x → S s x) {e : Ending} (h : e.Good R) : e.Good S := by
  cases e with
  | quotes lines => exact ⟨h.1, h.2.1, fun l hl => ⟨(h.2.2 l hl).1, (h.2.2 l hl).2.imp fun x hx => ⟨hRS _ _ hx.1, hx.2⟩⟩⟩
  | _ => exact h

theorem _root_.Smd.Spec.Block.Good.mono {R S : Str → Str → Prop} (hRS : ∀ s x, R s x → S s x) {b : Block} (h : b.Good R) : b.Good S := by
  cases b with
  | details sum inner shown => exact ⟨h.1, h.2.1, h.2.2.1, hRS _ _ h.2.2.2⟩
  | quoted lines is => exact ⟨h.1.mono hRS, h.2⟩
  | listed l c d is => exact ⟨h.1.mono hRS, h.2⟩
  | listedHeading l n is => exact ⟨h.1.mono hRS, h.2⟩
  | listedRule l n c => exact ⟨h.1.mono hRS, h.2⟩
  | _ => exact h

theorem docGood_mono {R S : Str → Str → Prop} (hRS : ∀ s x, R s x → S s x) : ∀ {bs : List (Block × Nat)}, DocGood R bs → DocGood S bs
  | [], _ => trivial
  | [(_, _)], h => Block.Good.mono hRS h
  | (_, _) :: (_, _) :: _, h => ⟨h.1.mono hRS, h.2.1, docGood_mono hRS h.2.2⟩

theorem _root_.Smd.Spec.Doc.Good.mono {R S : Str → Str → Prop} {d : Doc} (h : d.Good R) (hRS : ∀ s x, R s x → S s x) : d.Good S :=
  ⟨docGood_mono hRS h.blocks, h.ending.mono hRS, h.between⟩

/-- Blocks followed by `rest`, which is empty or far enough from the last block. -/
theorem blocks_sem {rest : Str} {ts : List Token} (hrest : rest.head? ≠ some '\n') (hbar : rest.head? ≠ some '|') (ht : LexTo (stop := stop) self [] rest ts) :
    ∀ (bs : List (Block × Nat)), DocGood RendersTo bs → bs ≠ [] →
    (rest = [] ∨ ∀ b, bs.getLast? = some b → endGap b.1 ≤ b.2) →
    ∃ toks, LexTo (stop := stop) self [] (docSrc bs ++ rest) (toks ++ ts) ∧ ∀ st h, Entry bs st h →
      parseToks self toks st = .ok (clean (h ++ docHtml bs)) ∨
      rest = [] ∧ ∃ p, parseToks self toks st = .ok (inP p) ∧ p ++ c!"</p>\n" = h ++ docHtml bs
  | [], _, hne, _ => absurd rfl hne
  | [(b, n)], hg, _, hgap => by
    obtain ⟨tb, hl, hp1, hp2⟩ := block_sem (show b.Good RendersTo from hg) n
    have hn : 1 ≤ n ∨ rest = [] := by
      rcases hgap with h | h
      · exact .inr h
      · exact .inl (Nat.le_trans (endGap_pos b) (h _ rfl))
    refine ⟨tb, ?_, fun st h he => ?_⟩
    · have := hl _ _ hn hrest (fun _ _ => .inr hbar) ht
      simpa [docSrc] using this
    · have hb := entry_block he hp1 hp2
      have e : docHtml [(b, n)] = b.html := by simp [docHtml]
      rw [e, hb]
      unfold afterBlock
      split
      · next hpn =>
        right
        refine ⟨?_, _, rfl, by rw [List.append_assoc, openHtml_html hpn.1]⟩
        rcases hgap with h | h
        · exact h
        · have : endGap b ≤ n := h (b, n) rfl
          rw [endGap, if_pos hpn.1] at this
          omega
      · exact .inl rfl
  | (b, n) :: (b', n') :: bs, hg, _, hgap => by
    obtain ⟨hb, hn, htail⟩ := hg
    obtain ⟨tb, hl, hp1, hp2⟩ := block_sem hb n
    obtain ⟨toks, hl2, hp⟩ := blocks_sem hrest hbar ht ((b', n') :: bs) htail (by simp) (by
      rcases hgap with h | h
      · exact .inl h
      · exact .inr fun c hc => h c (by simpa using hc))
    have hn1 : 1 ≤ n := by
      refine Nat.le_trans ?_ hn
      exact gap_pos b b'
    have hhead := blocks_head htail (by simp) rest
    refine ⟨tb ++ toks, ?_, fun st h he => ?_⟩
    · have := hl _ _ (.inl hn1) hhead.1 (by
        rintro t rfl
        by_cases hbar : (docSrc ((b', n') :: bs) ++ rest).head? = some '|'
        · obtain ⟨t', m, e⟩ := hhead.2 hbar
          have : b' = .table t' := by simpa using congrArg (Option.map Prod.fst) e
          subst this
          exact .inl hn
        · exact .inr hbar) hl2
      simpa [docSrc] using this
    · have hbk := entry_block he hp1 hp2
      have e : docHtml ((b, n) :: (b', n') :: bs) = b.html ++ docHtml ((b', n') :: bs) := by simp [docHtml]
      rw [e, ← List.append_assoc]
      have hent : Entry ((b', n') :: bs) (afterBlock h n b) (h ++ b.html) := by
        unfold afterBlock
        split
        · next hpn =>
          refine .inr ⟨_, (b', n'), rfl, by rw [List.append_assoc, openHtml_html hpn.1], rfl, ?_⟩
          exact gap_ends hpn.1 (Nat.lt_of_le_of_lt hn hpn.2)
        · exact .inl rfl
      rcases hp _ _ hent with h1 | ⟨h0, p, h1, h2⟩
      · exact .inl (parseToks_two hbk h1)
      · exact .inr ⟨h0, p, parseToks_two hbk h1, h2⟩

/-- Line ends in front of a document do not matter. -/
theorem lead_sem {s : Str} {ts : List Token} (n : Nat) (hs : s.head? ≠ some '\n') (ht : LexTo (stop := stop) self [] s ts) :
    ∃ toks, LexTo (stop := stop) self [] (times n '\n' ++ s) toks ∧ ∀ h, parseToks self toks (clean h) = parseToks self ts (clean h) := by
  refine ⟨gapToks n ++ ts, LexTo.gaps hs ht, fun h => ?_⟩
  rw [parseToks_append, parseToks_gaps_clean]
  rfl

/-! ### The ending -/

/-- A document with this ending, given the HTML of what comes before. -/
def _root_.Smd.Spec.Ending.after (l : Ending) (h : Str) : Str :=
  match l with
  | .none => endLine h
  | .notes defs => endLine h ++ notesHtml defs
  | e => h ++ e.html

theorem head_facts {s : Str} {c : Char} (h : s.head? = some c) (h1 : c ≠ '\n') (h2 : c ≠ '|') :
    s ≠ [] ∧ s.head? ≠ some '\n' ∧ s.head? ≠ some '|' := by
  cases s with
  | nil => cases h
  | cons a s => simp at h; subst h; simp [h1, h2]

theorem and4 {a b c d : Prop} (h : a ∧ b ∧ c) (hd : d) : a ∧ b ∧ c ∧ d := ⟨h.1, h.2.1, h.2.2, hd⟩

theorem ending_sem {l : Ending} (hg : l.Good RendersTo) (hne : l ≠ .none) :
    l.src ≠ [] ∧ l.src.head? ≠ some '\n' ∧ l.src.head? ≠ some '|' ∧ ∃ ts, LexTo self [] l.src ts ∧
    ∀ h, ∃ st, parseToks self ts (clean h) = .ok st ∧ finish st = l.after h := by
  cases l with
  | none => exact absurd rfl hne
  | bullets items =>
    obtain ⟨h0, hgap, hok⟩ := hg
    refine and4 ?_ ?_
    · cases items with
      | nil => exact absurd rfl h0
      | cons i is =>
        rcases (hok i (by simp)).1 with e | e | e <;>
          exact head_facts (by rw [Ending.src, List.flatMap_cons]; rfl) (by rw [e]; decide) (by rw [e]; decide)
    · let items' : List (Char × Str × Nat × Str) :=
        items.map fun i => (i.1, inlineSrc i.2.1, i.2.2, c!"<p>" ++ inlineHtml i.2.1 ++ c!"</p>\n")
      obtain ⟨ts, h1, h2⟩ := bullets_sem self [] items' (by
        intro i hi
        obtain ⟨j, hj, rfl⟩ := List.mem_map.mp hi
        obtain ⟨hm, hgood, hnl, hv, hbox⟩ := hok j hj
        obtain ⟨⟨a, u, e, ha⟩, _⟩ := head_ends hgood hv
        refine ⟨⟨hm, hnl, ?_, ?_, hbox⟩, renderIgnore_inlines [] (inlineGood_none hgood) hv, para_noPre hgood⟩
        · simp only [e]; simp; rintro rfl; revert ha; decide
        · simp only [e]; simp; rintro rfl; revert ha; decide) (by
        intro i hi
        rw [← List.map_dropLast] at hi
        obtain ⟨j, hj, rfl⟩ := List.mem_map.mp hi
        exact hgap j hj)
      refine ⟨ts, ?_, fun h => ⟨_, h2 (by simpa [items'] using h0) h, ?_⟩⟩
      · simpa [Ending.src, items', List.flatMap_map] using h1
      · rw [finish_ul]
        simp [Ending.after, Ending.html, items', List.flatMap_map, elem]
  | ordered items =>
    obtain ⟨h0, hgap, hok⟩ := hg
    refine and4 ?_ ?_
    · cases items with
      | nil => exact absurd rfl h0
      | cons i is =>
        have := (hok i (by simp)).1
        refine head_facts (by rw [Ending.src, List.flatMap_cons]; rfl) ?_ ?_ <;>
          · intro e
            rw [e] at this
            revert this; decide
    · obtain ⟨ts, h1, h2⟩ := ordered_sem self [] items hok hgap
      refine ⟨ts, h1, fun h => ⟨_, h2 h0 h, ?_⟩⟩
      rw [finish_ol]
      simp [Ending.after, Ending.html]
  | tasks items =>
    obtain ⟨h0, hgap, hok⟩ := hg
    refine and4 ?_ ?_
    · cases items with
      | nil => exact absurd rfl h0
      | cons i is =>
        rcases (hok i (by simp)).1 with e | e <;>
          exact head_facts (by rw [Ending.src, List.flatMap_cons]; rfl) (by rw [e]; decide) (by rw [e]; decide)
    · obtain ⟨ts, h1, h2⟩ := tasks_sem self [] items hok hgap
      refine ⟨ts, h1, fun h => ⟨_, h2 h0 h, ?_⟩⟩
      rw [finish_task]
      simp [Ending.after, Ending.html]
  | quotes lines =>
    obtain ⟨h0, hgap, hok⟩ := hg
    obtain ⟨ts, h1, h2⟩ := quotes_sem (r := self) lines 0 hok hgap
    refine and4 ?_ ⟨ts, ?_, fun h => ⟨_, h2 h, ?_⟩⟩
    · cases lines with
      | nil => exact absurd rfl h0
      | cons l ls =>
        refine head_facts (c := '>') ?_ (by decide) (by decide)
        rw [Ending.src, List.flatMap_cons]
        exact quoteLine_head (hok l (by simp)).1 _
    · simpa [Ending.src] using h1 [] [] [] (by simp) (.inl rfl) LexTo.nil
    · rw [finish_inQ _ _ (.inr ?_)]
      · simp [Ending.after, Ending.html]
      · obtain ⟨l, hl⟩ : ∃ l, lines.getLast? = some l := by
          cases e : lines.getLast? with
          | none => exact absurd (List.getLast?_eq_none_iff.mp e) h0
          | some l => exact ⟨l, rfl⟩
        rw [quoteEnd, hl]
        exact (hok l (List.mem_of_getLast? hl)).1.level.1
  | code n t =>
    obtain ⟨h1, h3, ht⟩ := hg
    refine and4 ?_ ⟨[.code (codeShown t)], ?_, fun h => ⟨_, parseToks_one (parseTok_code_clean self _ h), ?_⟩⟩
    · obtain ⟨u, hu⟩ := times_head (c := '`') h1 (t ++ times n '`')
      refine head_facts (c := '`') ?_ (by decide) (by decide)
      rw [Ending.src, List.append_assoc, hu]
      rfl
    · simpa [Ending.src] using LexTo.code (r := self) (ig := []) h1 h3 ht LexTo.nil
    · rw [finish_code]
      simp [Ending.after, Ending.html]
  | notes defs =>
    obtain ⟨h0, hgap, hok⟩ := hg
    obtain ⟨ts, h1, h2⟩ := notes_sem self [] defs hok hgap
    refine and4 ?_ ⟨ts, h1, fun h => ⟨_, h2 h [], ?_⟩⟩
    · cases defs with
      | nil => exact absurd rfl h0
      | cons d ds =>
        refine head_facts (c := '[') ?_ (by decide) (by decide)
        rw [Ending.src, List.flatMap_cons]
        simp [NoteDef.src]
    · exact finish_note h h0

theorem finish_none (h : Str) : finish (clean h) = endLine h := by
  simp [finish, rep, endNl_eq]

theorem finish_para (p : Str) : finish (inP p) = endLine (p ++ c!"</p>\n") := by
  rw [finish_inP, endLine, if_pos (by simp)]

/-- The documents of `Spec.Doc` are rendered as they should be, also after other blocks. -/
theorem doc_sem {d : Doc} (hd : d.Good RendersTo) : ∃ ts, LexTo self [] d.src ts ∧
    ∀ h, ∃ st, parseToks self ts (clean h) = .ok st ∧ finish st = d.ending.after (h ++ docHtml d.blocks) := by
  obtain ⟨n, bs, l⟩ := d
  obtain ⟨hb, hl, hbetween⟩ := hd
  simp only at hb hl hbetween
  have main : ∃ ts, (docSrc bs ++ l.src).head? ≠ some '\n' ∧ LexTo self [] (docSrc bs ++ l.src) ts ∧
      ∀ h, ∃ st, parseToks self ts (clean h) = .ok st ∧ finish st = l.after (h ++ docHtml bs) := by
    by_cases hne : l = .none
    · subst hne
      by_cases hbs : bs = []
      · subst hbs
        refine ⟨[], by simp [docSrc, Ending.src], LexTo.nil, fun h => ⟨_, rfl, ?_⟩⟩
        rw [finish_none]
        simp [docHtml, Ending.after]
      · obtain ⟨toks, h1, h2⟩ := blocks_sem (rest := []) (ts := []) (by simp) (by simp) LexTo.nil bs hb hbs (.inl rfl)
        rw [List.append_nil toks] at h1
        refine ⟨toks, (blocks_head hb hbs _).1, h1, fun h => ?_⟩
        rcases h2 (clean h) h (.inl rfl) with h3 | ⟨_, p, h3, e⟩
        · exact ⟨_, h3, finish_none _⟩
        · exact ⟨_, h3, by rw [finish_para, e]; rfl⟩
    · obtain ⟨hne', hhead, hbar, ts, h1, h2⟩ := ending_sem hl hne
      by_cases hbs : bs = []
      · subst hbs
        refine ⟨ts, hhead, h1, fun h => ?_⟩
        simpa [docHtml] using h2 h
      · have hgap : l.src = [] ∨ ∀ b, bs.getLast? = some b → endGap b.1 ≤ b.2 := by
          rcases hbetween with h | h
          · exact absurd h hne
          · right
            intro b hb
            have := h b hb
            unfold endGap
            exact this
        obtain ⟨toks, h3, h4⟩ := blocks_sem hhead hbar h1 bs hb hbs hgap
        refine ⟨_, (blocks_head hb hbs _).1, h3, fun h => ?_⟩
        rcases h4 (clean h) h (.inl rfl) with h5 | ⟨h0, _⟩
        · obtain ⟨st, h6, h7⟩ := h2 (h ++ docHtml bs)
          exact ⟨st, parseToks_two h5 h6, h7⟩
        · exact absurd h0 hne'
  obtain ⟨ts, h1, h2, h3⟩ := main
  obtain ⟨toks, h5, h6⟩ := lead_sem n h1 h2
  refine ⟨toks, ?_, fun h => ?_⟩
  · have e : Doc.src ⟨n, bs, l⟩ = times n '\n' ++ (docSrc bs ++ l.src) := by simp [Doc.src]
    rw [e]; exact h5
  · obtain ⟨st, h7, h8⟩ := h3 h
    exact ⟨st, (h6 h).trans h7, h8⟩

/-- The documents of `Spec.Doc` are rendered as they should be. -/
theorem render_doc {d : Doc} (hd : d.Good RendersTo) : render d.src = .ok d.html := by
  obtain ⟨ts, h1, h2⟩ := doc_sem hd
  obtain ⟨st, h3, h4⟩ := h2 []
  rw [render_of h1 h3, h4]
  rfl

end Smd.Gfm
