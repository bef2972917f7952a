import Mathlib.Data.List.Forall2
import Verif.Lemmas.Infix

/-!
What one call of `Lexer::next_token` can produce: the kind of token, where its texts come from, and that at least one
character is consumed.
-/

namespace Smd.Gfm
open Smd.Rs

/-- `t` is a proper contiguous part of `s`. -/
def Child (s t : Str) : Prop := t <:+: s ∧ t.length < s.length

theorem Child.of_tail {c : Char} {cs t : Str} (h : t <:+: cs) : Child (c :: cs) t :=
  ⟨h.trans (List.suffix_cons c cs).isInfix, by have := h.length_le; simp; omega⟩

theorem Child.infix {s t u : Str} (h : Child s t) (hu : u <:+: t) : Child s u :=
  ⟨hu.trans h.1, by have := hu.length_le; have := h.2; omega⟩

theorem Child.trans {s t u : Str} (h : Child s t) (hu : Child t u) : Child s u := h.infix hu.1

theorem Child.of_infix {s t u : Str} (h : t <:+: s) (hu : Child t u) : Child s u :=
  ⟨hu.1.trans h, by have := h.length_le; have := hu.2; omega⟩

/-- Error texts of the lexer that do not come from the document (lexer.rs 361, 553, 810). -/
def errTexts : List Str := [c!"EOF", c!"Non link token returned from lex_links"]

/-- The run of `#` at the start is followed by a space, a tab or the end of the line. -/
def HeadSep (s : Str) : Prop := ∃ c ∈ c!" \t\n", (s.dropWhile (· == '#')).head? = some c

/-- What begins an entry of a list. -/
def ListSign (s : Str) : Prop := '-' ∈ s ∨ '+' ∈ s ∨ '*' ∈ s ∨ c!"_ " <:+: s

/-- What begins a rule. -/
def RuleSign (s : Str) : Prop := '-' ∈ s ∨ '+' ∈ s ∨ '*' ∈ s ∨ c!"__" <:+: s

/-- What begins code. -/
def CodeSign (s : Str) : Prop := '`' ∈ s ∨ '\t' ∈ s ∨ c!"    " <:+: s

/-- The tokens `next_token` can produce on the text `s`. -/
inductive Shape (r : Rec) (s : Str) : Token → Prop
  | plain (x : Str) (h : x <:+: s ∨ x ∈ errTexts) (hg : x <:+: s ∨ x = c!"EOF" ∨ '!' ∈ s) : Shape r s (.plaintext x)
  | headerEmpty (n : Nat) (h : n = (s.takeWhile (· == '#')).length) (h1 : 1 ≤ n) (h6 : n ≤ 6)
      (hsep : HeadSep s) : Shape r s (.header n [] none)
  | header (n : Nat) (arg html : Str) (h : n = (s.takeWhile (· == '#')).length) (h1 : 1 ≤ n) (h6 : n ≤ 6)
      (ha : Child s arg) (hr : r.render ['#'] arg = .ok html) (hsep : HeadSep s) :
      Shape r s (.header n (headingPost html) none)
  | ul (elems : List Str) (h : ∀ x ∈ elems, Child s x ∧ OneLine x) (hg : ListSign s) :
      Shape r s (.unorderedListEntry (elems.map .plaintext))
  | ulLex (elems : List Str) (l : Str) (ts : List Token) (h : ∀ x ∈ elems, Child s x ∧ OneLine x)
      (hl : Child s l) (hl1 : OneLine l) (hr : r.lex l = .ok ts) (hg : ListSign s) :
      Shape r s (.unorderedListEntry (elems.map .plaintext ++ ts))
  | ol (x : Str) (h : x <:+: s) (hg : ∃ c ∈ c!"1234567890", [c, '.', ' '] <:+: s) : Shape r s (.orderedListEntry x)
  | italic (x : Str) (h : x <:+: s) (hg : '*' ∈ s ∨ '_' ∈ s) : Shape r s (.italic x)
  | bold (x : Str) (h : x <:+: s) (hg : '*' ∈ s ∨ c!"__" <:+: s) : Shape r s (.bold x)
  | boldItalic (x : Str) (h : x <:+: s) (hg : '*' ∈ s ∨ c!"__" <:+: s) : Shape r s (.boldItalic x)
  | lineBreak : Shape r s .lineBreak
  | newline : Shape r s .newline
  | rule (hg : RuleSign s) : Shape r s .horizontalRule
  | strike (x : Str) (h : x <:+: s) (hg : '~' ∈ s) : Shape r s (.strikethrough x)
  | code (x : Str) (h : x <:+: s) (hg : CodeSign s) : Shape r s (.code x)
  | codeBlock (x lang : Str) (h : x <:+: s) (hl : lang <:+: s) : Shape r s (.codeBlock x lang)
  | quote (n : Nat) (x : Str) (h : Child s x) (hg : '>' ∈ s) : Shape r s (.blockQuote (n % 256) x)
  | image (l title : Str) (u : ValidURL) (hv : validateLink l = .ok u) (hl : c!"](" ++ l <:+: s) (hc : ')' ∉ l)
      (ht : title <:+: s) (hg : '!' ∈ s) : Shape r s (.image u.content (some title))
  | link (l title : Str) (hover : Option Str) (u : ValidURL) (hv : validateLink l = .ok u)
      (hl : c!"](" ++ (l ++ hover.getD []) <:+: s) (hc : ')' ∉ l ++ hover.getD []) (ht : title <:+: s) :
      Shape r s (.link u (some title) hover)
  | autolink (l : Str) (u : ValidURL) (hv : validateLink l = .ok u) (hl : '<' :: (l ++ c!">") <:+: s) (hg : '>' ∉ l)
      (hs : u.scheme.isSome) : Shape r s (.link u none none)
  | detail (sum x : Str) (ts : List Token) (hs : sum <:+: s) (hx : Child s x) (hr : r.lex x = .ok ts) (hg : '<' ∈ s) :
      Shape r s (.detail sum ts)
  | table (heads : List Str) (aligns : List Alignment) (body : List (List Str))
      (rows : List (List (Alignment × List Token)))
      (hh : ∀ x ∈ heads, x <:+: s) (hb : ∀ l ∈ body, ∀ x ∈ l, Child s x) (hne : body ≠ []) (hp : '|' ∈ s)
      (hrows : List.Forall₂ (fun l row => ∃ toks, rowTokens r l = .ok toks ∧ row = aligns.zip toks) body rows) :
      Shape r s (.table (aligns.zip heads) rows)
  | task (b : TaskBox) (x : Str) (h : x <:+: s) (hg : '[' ∈ s) (hl : ListSign s) : Shape r s (.taskListItem b x)
  | footnote (i x : Str) (hi : i <:+: s) (hx : x <:+: s) (hg : '[' ∈ s ∧ '^' ∈ s) : Shape r s (.footnote i x)

theorem Shape.err {r : Rec} {s x : Str} (h : x <:+: s) : Shape r s (resToken (.error x)) := .plain x (.inl h) (.inl h)

theorem dropWhile_tail {p : Char → Bool} {c : Char} {cs : Str} (h : p c = true) : (c :: cs).dropWhile p <:+ cs := by
  rw [List.dropWhile_cons, if_pos h]
  exact dropWhile_suffix p cs

theorem takeWhile_len_pos {p : Char → Bool} {c : Char} {cs : Str} (h : p c = true) :
    1 ≤ ((c :: cs).takeWhile p).length := by
  rw [List.takeWhile_cons, if_pos h]
  simp

theorem headingSep_suffix {s t : Str} (h : headingSep s = some t) : t <:+ s := by
  unfold headingSep at h
  split at h
  · injection h with h; subst h; exact List.suffix_cons _ _
  · injection h with h; subst h; exact List.suffix_cons _ _
  · injection h with h; subst h; exact List.suffix_refl _
  · cases h

theorem headingSep_head {s t : Str} (h : headingSep s = some t) : ∃ c ∈ c!" \t\n", s.head? = some c := by
  unfold headingSep at h
  split at h
  · exact ⟨' ', by simp, rfl⟩
  · exact ⟨'\t', by simp, rfl⟩
  · exact ⟨'\n', by simp, rfl⟩
  · cases h

theorem lexHeading_shape (r : Rec) (cs : Str) (res : LexRes × Str) (h : lexHeading r ('#' :: cs) = .ok res) :
    Shape r ('#' :: cs) (resToken res.1) ∧ res.2 <:+ cs := by
  have hs1 : ('#' :: cs).dropWhile (· == '#') <:+ cs := dropWhile_tail (by decide)
  have hpos : 1 ≤ (('#' :: cs).takeWhile (· == '#')).length := takeWhile_len_pos (by decide)
  unfold lexHeading at h
  simp only at h
  split at h
  · injection h with h
    subst h
    exact ⟨.err (takeWhile_infix _ _), hs1⟩
  · next h6 =>
    split at h
    · injection h with h
      subst h
      exact ⟨.err (takeWhile_infix _ _), hs1⟩
    · next s2 hsep =>
      have hs2 : s2 <:+ cs := (headingSep_suffix hsep).trans hs1
      have hs3 : s2.dropWhile (· != '\n') <:+ cs := (dropWhile_suffix _ _).trans hs2
      cases hl : headingLabel (s2.takeWhile (· != '\n')) with
      | panic => rw [hl] at h; cases h
      | hang => rw [hl] at h; cases h
      | fuelOut => rw [hl] at h; cases h
      | ok line =>
        rw [hl] at h
        simp only [Outcome.ok_bind] at h
        split at h
        · injection h with h
          subst h
          exact ⟨.headerEmpty _ rfl hpos (by omega) (headingSep_head hsep), hs3⟩
        · generalize harg : trimEndP (fun c => c == ' ' || c == '\t') (headingTrim line) = arg at h
          have hai : arg <:+: cs := by
            subst harg
            exact (trimEndP_prefix _ _).isInfix.trans ((headingTrim_prefix _).isInfix.trans
              ((headingLabel_ok hl).trans ((takeWhile_infix _ _).trans hs2.isInfix)))
          cases hr : r.render ['#'] arg with
          | panic => rw [hr] at h; cases h
          | hang => rw [hr] at h; cases h
          | fuelOut => rw [hr] at h; cases h
          | ok html =>
            rw [hr] at h
            simp only [Outcome.ok_bind] at h
            injection h with h
            subst h
            exact ⟨.header _ arg html rfl hpos (by omega) (.of_tail hai) hr (headingSep_head hsep), hs3⟩

theorem lexNewlines_shape (r : Rec) (cs : Str) :
    Shape r ('\n' :: cs) (resToken (lexNewlines ('\n' :: cs)).1) ∧ (lexNewlines ('\n' :: cs)).2 <:+ cs := by
  have hs1 : ('\n' :: cs).dropWhile (· == '\n') <:+ cs := dropWhile_tail (by decide)
  unfold lexNewlines
  simp only
  split
  · exact ⟨.newline, hs1⟩
  · exact ⟨.err (takeWhile_infix _ _), hs1⟩

theorem lexTabsSpacesGo_shape (r : Rec) (last : Option Token) : ∀ (n : Nat) (c : Char) (cs : Str),
    (c = '\t' ∨ c = ' ') → (c :: cs).length ≤ n →
    Shape r (c :: cs) (resToken (lexTabsSpacesGo last n (c :: cs)).1) ∧ (lexTabsSpacesGo last n (c :: cs)).2 <:+ cs ∧
      (∀ x, (lexTabsSpacesGo last n (c :: cs)).1 = .error x → x <:+: c :: cs)
  | 0, c, cs, hc, hn => by simp at hn
  | n + 1, c, cs, hc, hn => by
    have hpc : (fun c : Char => c == '\t' || c == ' ') c = true := by
      rcases hc with rfl | rfl <;> decide
    have hs1 : (c :: cs).dropWhile (fun c => c == '\t' || c == ' ') <:+ cs := dropWhile_tail hpc
    have hsplit := split_while (fun c : Char => c == '\t' || c == ' ') (c :: cs)
    unfold lexTabsSpacesGo
    generalize hs : c :: cs = s at *
    generalize hws : s.takeWhile (fun c => c == '\t' || c == ' ') = ws at *
    generalize hsd : s.dropWhile (fun c => c == '\t' || c == ' ') = s1 at *
    simp only
    have hwsi : ws <:+: s := hws ▸ takeWhile_infix _ s
    have hs1s : s1 <:+ s := hsd ▸ dropWhile_suffix _ s
    have hli : (untilTail c!"\n" s1).1 <:+: s := (untilTail_prefix _ _).isInfix.trans hs1s.isInfix
    have hs2 : (untilTail c!"\n" s1).2 <:+ cs := (untilTail_suffix _ _).trans hs1
    have hs2s : (untilTail c!"\n" s1).2 <:+ s := (untilTail_suffix _ _).trans hs1s
    split
    · exact ⟨.err hwsi, hs1, fun x hx => by injection hx with hx; exact hx ▸ hwsi⟩
    · split
      · exact ⟨.lineBreak, hs1, fun x hx => by cases hx⟩
      · split
        · exact ⟨.err hli, hs2, fun x hx => by injection hx with hx; exact hx ▸ hli⟩
        · split
          · exact ⟨.err hli, hs2, fun x hx => by injection hx with hx; exact hx ▸ hli⟩
          · split
            · next hw =>
              refine ⟨.code _ hli ?_, hs2, fun x hx => by cases hx⟩
              rcases hw with hw | hw | hw
              · exact .inr (.inl (hwsi.subset (by simp [hw])))
              · exact .inr (.inr (hw ▸ hwsi))
              · exact .inr (.inl (hwsi.subset (by simp [hw])))
            · split
              · next hw =>
                refine ⟨.code _ ?_ (.inr (.inl (hwsi.subset (by simp [hw])))), hs2, fun x hx => by cases hx⟩
                have e2 := untilTail_append c!"\n" s1
                rw [hw, ← e2] at hsplit
                exact ⟨c!"\t", (untilTail c!"\n" s1).2, by rw [← hsplit]; simp⟩
              · split
                · next hh =>
                  cases hd : (untilTail c!"\n" s1).2 with
                  | nil => rw [hd] at hh; simp at hh
                  | cons d ds =>
                    rw [hd] at hh hs2 hs2s
                    have hdc : d = '\t' ∨ d = ' ' := by simpa using hh
                    have hlen : (d :: ds).length ≤ n := by
                      have := hs2.length_le
                      have e : s.length = cs.length + 1 := by rw [← hs]; rfl
                      omega
                    have ⟨i1, i2, i3⟩ := lexTabsSpacesGo_shape r last n d ds hdc hlen
                    have hds : ds <:+ cs := (List.suffix_cons d ds).trans hs2
                    split
                    · next x y s3 he =>
                      rw [he] at i2
                      exact ⟨.codeBlock _ _ (slice_infix _ _) List.nil_infix, i2.trans hds, fun x hx => by cases hx⟩
                    · next x s3 he =>
                      rw [he] at i2 i3
                      have hxi := (i3 x rfl).trans hs2s.isInfix
                      exact ⟨.err hxi, i2.trans hds, fun y hy => by injection hy with hy; exact hy ▸ hxi⟩
                    · next s3 he =>
                      rw [he] at i2
                      exact ⟨.err List.nil_infix, i2.trans hds, fun y hy => by
                        injection hy with hy; exact hy ▸ List.nil_infix⟩
                · exact ⟨.err (slice_infix _ _), hs2, fun x hx => by injection hx with hx; exact hx ▸ slice_infix _ _⟩

theorem lexNumbers_shape (r : Rec) (c : Char) (cs : Str) (hc : c ∈ c!"1234567890") :
    Shape r (c :: cs) (resToken (lexNumbers (c :: cs)).1) ∧ (lexNumbers (c :: cs)).2 <:+ cs := by
  unfold lexNumbers
  split
  · next t h =>
    injection h with h1 h2
    have ht : t <:+ cs := by rw [h2]; exact ⟨c!". ", rfl⟩
    exact ⟨.ol _ ((takeWhile_infix _ _).trans (ht.isInfix.trans (List.suffix_cons _ _).isInfix))
      ⟨c, hc, [], t, by rw [h2]; rfl⟩, (dropWhile_suffix _ _).trans ht⟩
  · next d t h h' =>
    injection h' with h1 h2
    subst h1 h2
    exact ⟨.err ⟨[], t, rfl⟩, List.suffix_cons _ _⟩
  · next d t h h' h'' =>
    injection h'' with h1 h2
    subst h1 h2
    exact ⟨.err ⟨[], cs, rfl⟩, List.suffix_refl _⟩
  · next h => cases h

theorem lexEscaped_shape (r : Rec) (c : Char) (cs : Str) :
    Shape r (c :: cs) (resToken (lexEscaped (c :: cs)).1) ∧ (lexEscaped (c :: cs)).2 <:+ cs := by
  unfold lexEscaped
  simp only [List.drop_succ_cons, List.drop_zero]
  have hcs : cs <:+: c :: cs := (List.suffix_cons _ _).isInfix
  split
  · exact ⟨.plain _ (.inr (by simp [errTexts])) (.inr (.inl rfl)), List.nil_suffix⟩
  · next d t =>
    split
    · exact ⟨.plain _ (.inl ((takeWhile_infix _ _).trans hcs)) (.inl ((takeWhile_infix _ _).trans hcs)), dropWhile_suffix _ _⟩
    · exact ⟨.plain _ (.inl (⟨[c], t, rfl⟩)) (.inl (⟨[c], t, rfl⟩)), List.suffix_cons _ _⟩

theorem lexAsteriskUnderscore_shape (r : Rec) (c : Char) (cs : Str) (hc : c = '*' ∨ c = '_') :
    Shape r (c :: cs) (resToken (lexAsteriskUnderscore (c :: cs)).1) ∧ (lexAsteriskUnderscore (c :: cs)).2 <:+ cs := by
  have hpc : (fun c : Char => c == '*' || c == '_' || c == '\t') c = true := by
    rcases hc with rfl | rfl <;> decide
  have hs1 : (c :: cs).dropWhile (fun c => c == '*' || c == '_' || c == '\t') <:+ cs := dropWhile_tail hpc
  have hcs : cs <:+ c :: cs := List.suffix_cons _ _
  unfold lexAsteriskUnderscore
  have hsplit := split_while (fun c : Char => c == '*' || c == '_' || c == '\t') (c :: cs)
  have hhead : ((c :: cs).takeWhile (fun c => c == '*' || c == '_' || c == '\t')).head? = some c := by rw [List.takeWhile_cons, if_pos hpc]; rfl
  generalize hd : (c :: cs).dropWhile (fun c => c == '*' || c == '_' || c == '\t') = s1 at *
  have hau := takeWhile_infix (fun c => c == '*' || c == '_' || c == '\t') (c :: cs)
  generalize (c :: cs).takeWhile (fun c => c == '*' || c == '_' || c == '\t') = au at *
  have hs1i : s1 <:+: c :: cs := (hs1.trans hcs).isInfix
  have ht : ∀ p : Char → Bool, s1.takeWhile p <:+: c :: cs := fun p => (takeWhile_infix p s1).trans hs1i
  have hs2 : ∀ p : Char → Bool, s1.dropWhile p <:+ cs := fun p => (dropWhile_suffix p s1).trans hs1
  have hg2 : '*' ∈ c :: cs ∨ '_' ∈ c :: cs := by rcases hc with rfl | rfl <;> simp
  have hdbl : ∀ p : Char → Bool, 2 ≤ ((s1.dropWhile p).takeWhile isAU).length → '*' ∈ c :: cs ∨ c!"__" <:+: c :: cs := by
    intro p hl
    have hin : (s1.dropWhile p).takeWhile isAU <:+: c :: cs := (takeWhile_infix _ _).trans ((dropWhile_suffix _ _).isInfix.trans hs1i)
    have hall : ∀ d ∈ (s1.dropWhile p).takeWhile isAU, isAU d = true := fun d hd => mem_takeWhile_true _ _ _ hd
    generalize (s1.dropWhile p).takeWhile isAU = w at *
    match w, hl with
    | a :: b :: w, _ =>
      have ha := hall a (by simp)
      have hb := hall b (by simp)
      simp only [isAU, Bool.or_eq_true, beq_iff_eq] at ha hb
      rcases ha with rfl | rfl
      · exact .inl (hin.subset (by simp))
      · rcases hb with rfl | rfl
        · exact .inl (hin.subset (by simp))
        · exact .inr (List.IsInfix.trans ⟨[], w, rfl⟩ hin)
  have hstar : c = '*' → RuleSign (c :: cs) := fun e => .inr (.inr (.inl (by simp [e])))
  have hall : ∀ p : Char → Bool, au.all p = true → p c = true := fun p h => List.all_eq_true.mp h c (List.mem_of_mem_head? hhead)
  simp only
  split
  · next hone =>
    have hg : ListSign (c :: cs) := by
      rcases hc with rfl | rfl
      · exact .inr (.inr (.inl (by simp)))
      · refine .inr (.inr (.inr ?_))
        match au, s1, hone.1, hone.2, hhead, hsplit with
        | [a], b :: u, _, h2, h3, h4 =>
          injection h3 with h3
          injection h2 with h2
          subst h2 h3
          exact ⟨[], u, h4⟩
    have h1 : s1.drop 1 <:+ cs := (List.drop_suffix 1 s1).trans hs1
    refine ⟨.ul [(s1.drop 1).takeWhile (· != '\n')] ?_ hg, (List.drop_suffix 1 _).trans ((dropWhile_suffix _ _).trans h1)⟩
    intro x hx
    have hx : x = (s1.drop 1).takeWhile (· != '\n') := by simpa using hx
    subst hx
    exact ⟨.of_tail ((takeWhile_infix _ _).trans h1.isInfix), .takeWhile _⟩
  · split
    · next hr => exact ⟨.rule (hstar (by simpa using hall _ hr.1)), hs1⟩
    · split
      · split
        · exact ⟨.italic _ (ht _) hg2, (List.drop_suffix 1 _).trans (hs2 _)⟩
        · exact ⟨.err (slice_infix _ _), hs2 _⟩
      · split
        · split
          · next hl => exact ⟨.bold _ (ht _) (hdbl (fun c => !isAU c) (by omega)), (dropWhile_suffix _ _).trans (hs2 _)⟩
          · exact ⟨.err (slice_infix _ _), (dropWhile_suffix _ _).trans (hs2 _)⟩
        · split
          · split
            · next hl => exact ⟨.boldItalic _ (ht _) (hdbl (fun c => !isAU c) (by omega)), (dropWhile_suffix _ _).trans (hs2 _)⟩
            · exact ⟨.err (slice_infix _ _), (dropWhile_suffix _ _).trans (hs2 _)⟩
          · split
            · next hn1 hn2 hn3 hr =>
              refine ⟨.rule ?_, hs1⟩
              match au, hn1, hn2, hhead, hr, hau with
              | [_], hn1, _, _, _, _ => exact absurd rfl hn1
              | a :: b :: u, _, _, h3, hr, hau =>
                injection h3 with h3
                subst h3
                rcases hc with rfl | rfl
                · exact hstar rfl
                · refine .inr (.inr (.inr (List.IsInfix.trans ⟨[], u, ?_⟩ hau)))
                  rcases Bool.or_eq_true _ _ |>.mp hr with hr | hr
                  · simp at hr
                  · simp at hr
                    simp [hr.1]
            · exact ⟨.err hau, hs1⟩

theorem lexBlockquotes_shape (r : Rec) (cs : Str) :
    Shape r ('>' :: cs) (resToken (lexBlockquotes ('>' :: cs)).1) ∧ (lexBlockquotes ('>' :: cs)).2 <:+ cs := by
  have hs1 : ('>' :: cs).dropWhile (· == '>') <:+ cs := dropWhile_tail (by decide)
  unfold lexBlockquotes
  simp only
  split
  · exact ⟨.quote _ _ (.of_tail ((takeWhile_infix _ _).trans hs1.isInfix)) (by simp),
      (skipIf_suffix _ _).trans ((dropWhile_suffix _ _).trans hs1)⟩
  · exact ⟨.err (takeWhile_infix _ _), hs1⟩

theorem lexPlusMinus_shape (r : Rec) (c : Char) (cs : Str) (hc : c = '-' ∨ c = '+') (res : LexRes × Str)
    (h : lexPlusMinus r (c :: cs) = .ok res) : Shape r (c :: cs) (resToken res.1) ∧ res.2 <:+ cs := by
  have hpc : (fun c : Char => c == '-' || c == '+') c = true := by
    rcases hc with rfl | rfl <;> decide
  have hs1 : (c :: cs).dropWhile (fun c => c == '-' || c == '+') <:+ cs := dropWhile_tail hpc
  have hpos : 1 ≤ ((c :: cs).takeWhile (fun c => c == '-' || c == '+')).length := takeWhile_len_pos hpc
  have hcs : cs <:+ c :: cs := List.suffix_cons _ _
  unfold lexPlusMinus at h
  generalize hd : (c :: cs).dropWhile (fun c => c == '-' || c == '+') = s1 at *
  generalize (c :: cs).takeWhile (fun c => c == '-' || c == '+') = run at *
  have hg : ListSign (c :: cs) := by rcases hc with rfl | rfl <;> simp [ListSign]
  have hg2 : RuleSign (c :: cs) := by rcases hc with rfl | rfl <;> simp [RuleSign]
  simp only at h
  split at h
  · injection h with h; subst h; exact ⟨.rule hg2, hs1⟩
  · split at h
    · injection h with h; subst h; exact ⟨.err (slice_infix _ _), hs1⟩
    · split at h
      · have hs2 : s1.dropWhile (· != '\n') <:+ cs := (dropWhile_suffix _ _).trans hs1
        have ⟨hc1, hc2⟩ := contLines_spec (s1.dropWhile (· != '\n')).length (s1.dropWhile (· != '\n'))
        generalize hmore : contLines (s1.dropWhile (· != '\n')).length (s1.dropWhile (· != '\n')) = cl at *
        have hs3 : cl.2 <:+ cs := hc1.trans hs2
        have hs4 : skipIf '\n' cl.2 <:+ cs := (skipIf_suffix _ _).trans hs3
        have hline : ∀ k, (slice s1 cl.2).drop k <:+: c :: cs := fun k =>
          (List.drop_suffix k _).isInfix.trans ((slice_infix _ _).trans (hs1.trans hcs).isInfix)
        have helems : ∀ x ∈ s1.takeWhile (· != '\n') :: cl.1, Child (c :: cs) x ∧ OneLine x := by
          intro x hx
          rcases List.mem_cons.mp hx with rfl | hx
          · exact ⟨.of_tail ((takeWhile_infix _ _).trans hs1.isInfix), .takeWhile _⟩
          · exact ⟨.of_tail ((hc2 x hx).1.trans hs2.isInfix), (hc2 x hx).2⟩
        have hbr : ∀ p : Str, '[' ∈ p → startsWith (slice s1 cl.2) p = true → '[' ∈ c :: cs := fun p hp hst =>
          (hline 0).subset ((List.isPrefixOf_iff_prefix.mp hst).subset hp)
        split at h
        · next hst =>
          injection h with h; subst h; exact ⟨.task _ _ (hline 5) (hbr _ (by simp) hst) hg, hs4⟩
        · split at h
          · next hst =>
            have hg' : '[' ∈ c :: cs := by
              rcases Bool.or_eq_true _ _ |>.mp hst with h | h <;> exact hbr _ (by simp) h
            injection h with h; subst h; exact ⟨.task _ _ (hline 5) hg' hg, hs4⟩
          · split at h
            · next l s5 hla =>
              have e := lineAhead_parts hla
              have hl1 := lineAhead_oneLine hla
              have hl : l <:+: cs := by
                have : l <+: skipIf '\n' cl.2 := ⟨s5, e.symm⟩
                exact this.isInfix.trans hs4.isInfix
              have hs5 : s5 <:+ cs := by
                have : s5 <:+ skipIf '\n' cl.2 := ⟨l, e.symm⟩
                exact this.trans hs4
              split at h
              · cases hr : r.lex l with
                | panic => rw [hr] at h; cases h
                | hang => rw [hr] at h; cases h
                | fuelOut => rw [hr] at h; cases h
                | ok ts =>
                  rw [hr] at h
                  simp only [Outcome.ok_bind] at h
                  injection h with h; subst h
                  exact ⟨.ulLex _ l ts helems (.of_tail hl) hl1 hr hg, hs5⟩
              · split at h
                · cases hr : r.lex (l.drop 1) with
                  | panic => rw [hr] at h; cases h
                  | hang => rw [hr] at h; cases h
                  | fuelOut => rw [hr] at h; cases h
                  | ok ts =>
                    rw [hr] at h
                    simp only [Outcome.ok_bind] at h
                    injection h with h; subst h
                    exact ⟨.ulLex _ _ ts helems (.of_tail ((List.drop_suffix 1 l).isInfix.trans hl))
                      (hl1.infix (List.drop_suffix 1 l).isInfix) hr hg, hs5⟩
                · injection h with h; subst h; exact ⟨.ul _ helems hg, hs4⟩
            · injection h with h; subst h; exact ⟨.ul _ helems hg, hs4⟩
      · omega

theorem lexTilde_shape (r : Rec) (cs : Str) :
    Shape r ('~' :: cs) (resToken (lexTilde ('~' :: cs)).1) ∧ (lexTilde ('~' :: cs)).2 <:+ cs := by
  have hs1 : ('~' :: cs).dropWhile (· == '~') <:+ cs := dropWhile_tail (by decide)
  have hcs : cs <:+ '~' :: cs := List.suffix_cons _ _
  unfold lexTilde
  have hau := takeWhile_infix (· == '~') ('~' :: cs)
  generalize ('~' :: cs).takeWhile (· == '~') = lead at *
  generalize ('~' :: cs).dropWhile (· == '~') = s1 at *
  have hs3 : (s1.dropWhile (· != '~')).dropWhile (· == '~') <:+ cs :=
    (dropWhile_suffix _ _).trans ((dropWhile_suffix _ _).trans hs1)
  simp only
  split
  · exact ⟨.err hau, hs1⟩
  · split
    · split
      · exact ⟨.err (slice_infix _ _), hs3⟩
      · exact ⟨.strike _ ((takeWhile_infix _ _).trans (hs1.trans hcs).isInfix) (by simp), hs3⟩
    · exact ⟨.err hau, hs1⟩

theorem lexBackticks_shape (r : Rec) (cs : Str) :
    Shape r ('`' :: cs) (resToken (lexBackticks ('`' :: cs)).1) ∧ (lexBackticks ('`' :: cs)).2 <:+ cs := by
  have hs1 : ('`' :: cs).dropWhile (· == '`') <:+ cs := dropWhile_tail (by decide)
  have hcs : cs <:+ '`' :: cs := List.suffix_cons _ _
  unfold lexBackticks
  have hau := takeWhile_infix (· == '`') ('`' :: cs)
  generalize ('`' :: cs).takeWhile (· == '`') = ticks at *
  generalize ('`' :: cs).dropWhile (· == '`') = s1 at *
  have hs1s := hs1.trans hcs
  simp only
  split
  · have hs2 : (if s1.head? = some '\n' then s1.drop 1 else (s1.dropWhile (· != '\n')).drop 1) <:+ cs := by
      split
      · exact (List.drop_suffix 1 _).trans hs1
      · exact (List.drop_suffix 1 _).trans ((dropWhile_suffix _ _).trans hs1)
    have hlang : (if s1.head? = some '\n' then [] else s1.takeWhile (· != '\n')) <:+: '`' :: cs := by
      split
      · exact List.nil_infix
      · exact (takeWhile_infix _ _).trans hs1s.isInfix
    generalize (if s1.head? = some '\n' then s1.drop 1 else (s1.dropWhile (· != '\n')).drop 1) = s2 at *
    have hs4 : (s2.dropWhile (· != '`')).dropWhile (· == '`') <:+ cs :=
      (dropWhile_suffix _ _).trans ((dropWhile_suffix _ _).trans hs2)
    split
    · exact ⟨.err (slice_infix _ _), hs4⟩
    · exact ⟨.codeBlock _ _ ((takeWhile_infix _ _).trans (hs2.trans hcs).isInfix) hlang, hs4⟩
  · generalize List.replicate ticks.length '`' = tail
    have hb : (untilTail tail s1).1 <:+: '`' :: cs := (untilTail_prefix _ _).isInfix.trans hs1s.isInfix
    have hs2 : (untilTail tail s1).2 <:+ cs := (untilTail_suffix _ _).trans hs1
    have hbody : trimEndStr tail (untilTail tail s1).1 <:+: '`' :: cs := (trimEndStr_prefix _ _).isInfix.trans hb
    split
    · exact ⟨.err (slice_infix _ _), hs2⟩
    · split
      · exact ⟨.code _ ((trimEndP_prefix _ _).isInfix.trans ((trimStartP_suffix _ _).isInfix.trans hbody)) (.inl (by simp)), hs2⟩
      · exact ⟨.code _ hbody (.inl (by simp)), hs2⟩

/-- `lex_links` on any text: the token, and the remaining text is a suffix. -/
theorem lexLinks_shape (s : Str) :
    (lexLinks s).2 <:+ s ∧ (∀ c cs, s = c :: cs → c = '[' → (lexLinks s).2 <:+ cs) ∧
    ((∃ x, (lexLinks s).1 = .error x ∧ x <:+: s) ∨ (∃ i x, (lexLinks s).1 = .ok (.footnote i x) ∧ i <:+: s ∧ x <:+: s ∧ '[' ∈ s ∧ '^' ∈ s) ∨
      (∃ l title hover u, (lexLinks s).1 = .ok (.link u (some title) hover) ∧ validateLink l = .ok u ∧
        c!"](" ++ (l ++ hover.getD []) <:+: s ∧ ')' ∉ l ++ hover.getD [] ∧ title <:+: s)) := by
  have verr : ∀ l e, validateLink l = .error e → e = l := by
    intro l e h
    unfold validateLink at h
    split at h
    · injection h with h; exact h.symm
    · simp only at h
      split at h
      · injection h with h; exact h.symm
      · split at h
        · injection h with h; exact h.symm
        · split at h
          · injection h with h; exact h.symm
          · split at h
            · split at h <;> cases h
            · split at h
              · injection h with h; exact h.symm
              · split at h <;> cases h
  cases s with
  | nil =>
    refine ⟨by simp [lexLinks], by simp, .inl ⟨[], by simp [lexLinks], List.nil_infix⟩⟩
  | cons c cs =>
    by_cases hb : c = '['
    · subst hb
      have hcs : cs <:+ '[' :: cs := List.suffix_cons _ _
      suffices hmain : (lexLinks ('[' :: cs)).2 <:+ cs ∧
          ((∃ x, (lexLinks ('[' :: cs)).1 = .error x ∧ x <:+: '[' :: cs) ∨
          (∃ i x, (lexLinks ('[' :: cs)).1 = .ok (.footnote i x) ∧ i <:+: '[' :: cs ∧ x <:+: '[' :: cs ∧ '[' ∈ '[' :: cs ∧ '^' ∈ '[' :: cs) ∨
          (∃ l title hover u, (lexLinks ('[' :: cs)).1 = .ok (.link u (some title) hover) ∧ validateLink l = .ok u ∧
            c!"](" ++ (l ++ hover.getD []) <:+: '[' :: cs ∧ ')' ∉ l ++ hover.getD [] ∧ title <:+: '[' :: cs)) by
        refine ⟨hmain.1.trans hcs, ?_, hmain.2⟩
        intro d ds e _
        injection e with _ e
        subst e
        exact hmain.1
      unfold lexLinks
      rw [if_neg (by simp)]
      simp only [List.drop_succ_cons, List.drop_zero]
      have hti : cs.takeWhile (· != ']') <:+: '[' :: cs := (takeWhile_infix _ _).trans hcs.isInfix
      generalize cs.takeWhile (· != ']') = title at *
      have hs2 := dropWhile_suffix (· != ']') cs
      generalize cs.dropWhile (· != ']') = s2 at *
      split
      · exact ⟨hs2, .inl ⟨_, rfl, slice_infix _ _⟩⟩
      · next hhd2 =>
        have hs3 : s2.drop 1 <:+ cs := (List.drop_suffix 1 _).trans hs2
        have e2 : s2 = ']' :: s2.drop 1 := by
          cases s2 with
          | nil => simp at hhd2
          | cons a b => simp at hhd2; simp [hhd2]
        generalize s2.drop 1 = s3 at *
        split
        · next hfoot =>
          have hs4 : s3.drop 1 <:+ cs := (List.drop_suffix 1 _).trans hs3
          generalize s3.drop 1 = s4 at *
          have hfl := (footnoteLoop_suffix (s4.length + 1) s4).trans hs4
          split
          · exact ⟨hfl, .inl ⟨_, rfl, slice_infix _ _⟩⟩
          · split
            · exact ⟨hfl, .inl ⟨_, rfl, slice_infix _ _⟩⟩
            · exact ⟨hfl, .inr (.inl ⟨_, _, rfl, (stripPrefix_getD_infix _ _).trans hti,
                (trim_infix _).trans ((slice_infix _ _).trans (hs4.trans hcs).isInfix), by simp,
                hti.subset ((List.isPrefixOf_iff_prefix.mp hfoot.1).subset (by simp))⟩)⟩
        · split
          · exact ⟨hs3, .inl ⟨_, rfl, slice_infix _ _⟩⟩
          · next hhd3 =>
            have hs4 : s3.drop 1 <:+ cs := (List.drop_suffix 1 _).trans hs3
            have e3 : s3 = '(' :: s3.drop 1 := by
              cases s3 with
              | nil => simp at hhd3
              | cons a b => simp at hhd3; simp [hhd3]
            generalize s3.drop 1 = s4 at *
            have hall : c!"](" ++ s4 <:+: '[' :: cs := by
              have : c!"](" ++ s4 = s2 := by rw [e2, e3]; rfl
              rw [this]
              exact (hs2.trans hcs).isInfix
            have hlink : s4.takeWhile (fun c => c != ')' && c != ' ') <:+: '[' :: cs :=
              (takeWhile_infix _ _).trans (hs4.trans hcs).isInfix
            have hsp := split_while (fun c => c != ')' && c != ' ') s4
            have hnp : ')' ∉ s4.takeWhile (fun c => c != ')' && c != ' ') := by
              intro hm
              have := mem_takeWhile_true _ _ _ hm
              simp at this
            generalize s4.takeWhile (fun c => c != ')' && c != ' ') = link at *
            have hs5 := (dropWhile_suffix (fun c => c != ')' && c != ' ') s4).trans hs4
            generalize s4.dropWhile (fun c => c != ')' && c != ' ') = s5 at *
            split
            · exact ⟨hs5, .inl ⟨_, rfl, slice_infix _ _⟩⟩
            · split
              · have hs6 : s5.drop 1 <:+ cs := (List.drop_suffix 1 _).trans hs5
                split
                · next vl hv =>
                  refine ⟨hs6, .inr (.inr ⟨link, title, none, vl, rfl, hv, ?_, by simpa using hnp, hti⟩)⟩
                  rw [← hsp] at hall
                  refine List.IsInfix.trans ⟨[], s5, ?_⟩ hall
                  simp
                · next e he => exact ⟨hs6, .inl ⟨_, rfl, by rw [verr _ _ he]; exact hlink⟩⟩
              · have hs6 : ((s5.dropWhile (· != ')')).dropWhile (· != '\n')).drop 1 <:+ cs :=
                  (List.drop_suffix 1 _).trans ((dropWhile_suffix _ _).trans ((dropWhile_suffix _ _).trans hs5))
                split
                · next vl hv =>
                  have hsp5 := split_while (· != ')') s5
                  refine ⟨hs6, .inr (.inr ⟨link, title, _, vl, rfl, hv, ?_, ?_, hti⟩)⟩
                  · rw [← hsp, ← hsp5] at hall
                    refine List.IsInfix.trans ⟨[], s5.dropWhile (· != ')'), ?_⟩ hall
                    simp
                  · intro hm
                    rcases List.mem_append.mp hm with hm | hm
                    · exact hnp hm
                    · have := mem_takeWhile_true _ _ _ hm
                      simp at this
                · next e he => exact ⟨hs6, .inl ⟨_, rfl, by rw [verr _ _ he]; exact hlink⟩⟩
    · refine ⟨by simp [lexLinks, hb], ?_, .inl ⟨[], by simp [lexLinks, hb], List.nil_infix⟩⟩
      intro d ds e hd
      injection e with e _
      subst e
      exact absurd hd hb

theorem lexLinks_shape' (r : Rec) (cs : Str) :
    Shape r ('[' :: cs) (resToken (lexLinks ('[' :: cs)).1) ∧ (lexLinks ('[' :: cs)).2 <:+ cs := by
  have ⟨_, h2, h3⟩ := lexLinks_shape ('[' :: cs)
  refine ⟨?_, h2 _ _ rfl rfl⟩
  rcases h3 with ⟨x, e, hx⟩ | ⟨i, x, e, hi, hx, hg⟩ | ⟨l, t, hv, u, e, h4, h5, h6, h7⟩
  · rw [e]; exact .err hx
  · rw [e]; exact .footnote i x hi hx hg
  · rw [e]; exact .link l t hv u h4 h5 h6 h7

theorem lexImages_shape (r : Rec) (cs : Str) :
    Shape r ('!' :: cs) (resToken (lexImages ('!' :: cs)).1) ∧ (lexImages ('!' :: cs)).2 <:+ cs := by
  have ⟨h1, _, h3⟩ := lexLinks_shape cs
  have hcs : cs <:+: '!' :: cs := (List.suffix_cons _ _).isInfix
  unfold lexImages
  rw [if_neg (by simp)]
  simp only [List.drop_succ_cons, List.drop_zero]
  split
  · next e s1 he =>
    rw [he] at h1
    exact ⟨.err (slice_infix _ _), h1⟩
  · next u t hv s1 he =>
    rw [he] at h1 h3
    refine ⟨?_, h1⟩
    rcases h3 with ⟨x, e, hx⟩ | ⟨i, x, e, hi, hx⟩ | ⟨l, t', hv', u', e, h4, h5, h6, h7⟩
    · cases e
    · cases e
    · injection e with e
      injection e with e1 e2 e3
      subst e1 e2
      refine .image l t' u h4 (List.IsInfix.trans ⟨[], hv'.getD [], by simp⟩ (h5.trans hcs)) (fun h => h6 (by simp [h]))
        (h7.trans hcs) (by simp)
  · next tok s1 hn he =>
    rw [he] at h1
    exact ⟨.plain _ (.inr (by simp [errTexts])) (.inr (.inr (by simp))), h1⟩

theorem parseDetails_shape (r : Rec) (s0 s : Str) (hs : Child s0 s ∨ s = []) (hss : s <:+: s0) (hlt : '<' ∈ s0) (res : LexRes × Str)
    (h : parseDetails r s = .ok res) : Shape r s0 (resToken res.1) ∧ res.2 <:+ s := by
  unfold parseDetails at h
  have hsum := takeWhile_infix (fun c => c != '\n' && c != '\r') s
  have hs1 : skipIf '\r' (s.dropWhile (fun c => c != '\n' && c != '\r')) <:+ s :=
    (skipIf_suffix _ _).trans (dropWhile_suffix _ _)
  generalize s.takeWhile (fun c => c != '\n' && c != '\r') = summary at *
  generalize skipIf '\r' (s.dropWhile (fun c => c != '\n' && c != '\r')) = s1 at *
  simp only at h
  split at h
  · injection h with h; subst h; exact ⟨.err (hsum.trans hss), hs1⟩
  · next hguard =>
    have hsne : Child s0 s := by
      rcases hs with hs | hs
      · exact hs
      · subst hs
        have := List.eq_nil_of_infix_nil hsum
        subst this
        exact absurd (by decide) hguard
    split at h
    · cases h
    · next sum1 hsp =>
      have hs2 := untilTail_suffix c!"</details>" s1
      have hp2 := untilTail_prefix c!"</details>" s1
      generalize untilTail c!"</details>" s1 = ut at *
      cases hres : (if contains ut.1 c!"<details>" then detailsLoop s1 ut.2.length ut.2 else .ok (ut.1, ut.2)) with
      | panic => rw [hres] at h; cases h
      | hang => rw [hres] at h; cases h
      | fuelOut => rw [hres] at h; cases h
      | ok rr =>
        rw [hres] at h
        simp only [Outcome.ok_bind] at h
        have hrr : rr.2 <:+ s1 ∧ rr.1 <+: s1 := by
          split at hres
          · have ⟨a, b⟩ := detailsLoop_ok _ _ _ _ hres
            exact ⟨a.trans hs2, b⟩
          · injection hres with hres
            subst hres
            exact ⟨hs2, hp2⟩
        cases hr : r.lex ((stripSuffix c!"</details>" rr.1).getD []) with
        | panic => rw [hr] at h; cases h
        | hang => rw [hr] at h; cases h
        | fuelOut => rw [hr] at h; cases h
        | ok inner =>
          rw [hr] at h
          simp only [Outcome.ok_bind] at h
          injection h with h; subst h
          refine ⟨.detail _ _ inner ?_ ?_ hr hlt, hrr.1.trans hs1⟩
          · have : sum1 <:+ summary := by rw [stripPrefix_some hsp]; exact List.suffix_append _ _
            exact (stripSuffix_getD_infix _ _).trans (this.isInfix.trans (hsum.trans hss))
          · exact hsne.infix ((stripSuffix_getD_infix _ _).trans (hrr.2.isInfix.trans hs1.isInfix))

theorem lexSideCarrot_shape (r : Rec) (cs : Str) (res : LexRes × Str) (h : lexSideCarrot r ('<' :: cs) = .ok res) :
    Shape r ('<' :: cs) (resToken res.1) ∧ res.2 <:+ cs := by
  have hcs : cs <:+ '<' :: cs := List.suffix_cons _ _
  unfold lexSideCarrot at h
  rw [if_neg (by simp)] at h
  simp only [List.drop_succ_cons, List.drop_zero] at h
  have ht := (takeWhile_infix (· != '>') cs).trans hcs.isInfix
  have hs2 := dropWhile_suffix (· != '>') cs
  have hnt : '>' ∉ cs.takeWhile (· != '>') := by
    intro hm
    have := mem_takeWhile_true _ _ _ hm
    simp at this
  have hsplit := split_while (· != '>') cs
  generalize cs.takeWhile (· != '>') = t at *
  generalize cs.dropWhile (· != '>') = s2 at *
  split at h
  · next hgt =>
    have hs3 : s2.drop 1 <:+ cs := (List.drop_suffix 1 _).trans hs2
    split at h
    · have hs4 : skipIf '\r' (s2.drop 1) <:+ cs := (skipIf_suffix _ _).trans hs3
      generalize skipIf '\r' (s2.drop 1) = s4 at *
      split at h
      · have hs5 : s4.drop 1 <:+ cs := (List.drop_suffix 1 _).trans hs4
        have ⟨a, b⟩ := parseDetails_shape r ('<' :: cs) (s4.drop 1) (.inl (.of_tail hs5.isInfix))
          (hs5.trans hcs).isInfix (by simp) res h
        exact ⟨a, b.trans hs5⟩
      · injection h with h; subst h; exact ⟨.err ht, hs4⟩
    · split at h
      · split at h
        · injection h with h; subst h; exact ⟨.err (slice_infix _ _), hs3⟩
        · split at h
          · next vl hv =>
            split at h
            · next hsome =>
              injection h with h; subst h
              refine ⟨.autolink t vl hv ?_ hnt hsome, hs3⟩
              cases s2 with
              | nil => simp at hgt
              | cons d ds =>
                simp at hgt
                subst hgt
                rw [← hsplit]
                exact ⟨[], ds, by simp⟩
            · injection h with h; subst h; exact ⟨.err (slice_infix _ _), hs3⟩
          · injection h with h; subst h; exact ⟨.err (slice_infix _ _), hs3⟩
      · next hlen =>
        injection h with h; subst h
        refine ⟨.err ?_, hs3⟩
        have : t = [] := List.length_eq_zero_iff.mp (by omega)
        subst this
        cases s2 with
        | nil => simp at hgt
        | cons d ds =>
          simp at hgt
          subst hgt
          rw [← hsplit]
          exact ⟨[], ds, rfl⟩
  · injection h with h; subst h; exact ⟨.err ht, hs2⟩

theorem tableRows_shape (r : Rec) (aligns : List Alignment) : ∀ (body : List Str)
    (rows : List (List (Alignment × List Token))), tableRows r aligns body = .ok rows →
    List.Forall₂ (fun l row => ∃ toks, rowTokens r l = .ok toks ∧ row = aligns.zip toks)
      (body.map (fun l => (cells l).map trim)) rows
  | [], rows, h => by
    injection h with h
    subst h
    exact .nil
  | l :: ls, rows, h => by
    unfold tableRows at h
    cases hr : rowTokens r ((cells l).map trim) with
    | panic => rw [hr] at h; cases h
    | hang => rw [hr] at h; cases h
    | fuelOut => rw [hr] at h; cases h
    | ok row =>
      rw [hr] at h
      simp only [Outcome.ok_bind] at h
      cases hrs : tableRows r aligns ls with
      | panic => rw [hrs] at h; cases h
      | hang => rw [hrs] at h; cases h
      | fuelOut => rw [hrs] at h; cases h
      | ok rest =>
        rw [hrs] at h
        simp only [Outcome.ok_bind] at h
        injection h with h; subst h
        exact .cons ⟨row, hr, rfl⟩ (tableRows_shape r aligns ls rest hrs)

theorem lexPipes_shape (r : Rec) (cs : Str) (res : LexRes × Str) (h : lexPipes r ('|' :: cs) = .ok res) :
    Shape r ('|' :: cs) (resToken res.1) ∧ res.2 <:+ cs := by
  have hp : (pipeLines ('|' :: cs).length ('|' :: cs)).2 <:+ cs := by
    have e : (pipeLines ('|' :: cs).length ('|' :: cs)).2 =
        (pipeLines cs.length ((cs.dropWhile (· != '\n')).drop 1)).2 := by
      simp [pipeLines]
    rw [e]
    exact ((pipeLines_spec _ _).1).trans ((List.drop_suffix 1 _).trans (dropWhile_suffix _ _))
  have ⟨_, hlines⟩ := pipeLines_spec ('|' :: cs).length ('|' :: cs)
  unfold lexPipes at h
  generalize pipeLines ('|' :: cs).length ('|' :: cs) = pl at *
  obtain ⟨lines, s1⟩ := pl
  simp only at h hp hlines
  split at h
  · injection h with h; subst h; exact ⟨.err (slice_infix _ _), hp⟩
  · next hlen =>
    split at h
    · next l0 l1 body _ =>
      split at h
      · injection h with h; subst h; exact ⟨.err (slice_infix _ _), hp⟩
      · cases hr : tableRows r ((cells l1).map cellAlign) body with
        | panic => rw [hr] at h; cases h
        | hang => rw [hr] at h; cases h
        | fuelOut => rw [hr] at h; cases h
        | ok rows =>
          rw [hr] at h
          simp only [Outcome.ok_bind] at h
          injection h with h; subst h
          have hcell : ∀ l ∈ l0 :: l1 :: body, ∀ x ∈ (cells l).map trim, x <:+: l := by
            intro l _ x hx
            obtain ⟨y, hy, rfl⟩ := List.mem_map.mp hx
            exact (trim_infix y).trans (cells_infix l y hy)
          refine ⟨.table ((cells l0).map trim) ((cells l1).map cellAlign) (body.map (fun l => (cells l).map trim)) rows
            ?_ ?_ ?_ (by simp) (tableRows_shape r _ body rows hr), hp⟩
          · intro x hx
            exact (hcell l0 (by simp) x hx).trans (hlines l0 (by simp)).1
          · intro l hl x hx
            obtain ⟨l', hl', rfl⟩ := List.mem_map.mp hl
            have ⟨a, b⟩ := hlines l' (by simp [hl'])
            have c := hcell l' (by simp [hl']) x hx
            exact Child.infix ⟨a, b⟩ c
          · intro e
            have := congrArg List.length e
            simp at this hlen
            subst this
            simp at hlen
    · cases h

/-- One call of `next_token`: the shape of the token, and strict progress. -/
theorem lexDispatch_shape (r : Rec) (ignore : List Char) (last : Option Token) (c : Char) (cs : Str) (res : LexRes × Str)
    (h : lexDispatch r ignore last c (c :: cs) = .ok res) :
    Shape r (c :: cs) (resToken res.1) ∧ res.2 <:+ cs := by
  unfold lexDispatch at h
  by_cases hc : c = '#' ∧ ignore.contains '#' = false
  · rw [if_pos hc] at h
    obtain ⟨rfl, _⟩ := hc; exact lexHeading_shape r cs res h
  rw [if_neg hc] at h
  clear hc
  by_cases hc : c = '\n'
  · rw [if_pos hc] at h
    subst hc; injection h with h; subst h; exact lexNewlines_shape r cs
  rw [if_neg hc] at h
  clear hc
  by_cases hc : c = ' ' ∨ c = '\t'
  · rw [if_pos hc] at h
    injection h with h; subst h
    have ⟨a, b, _⟩ := lexTabsSpacesGo_shape r last (c :: cs).length c cs hc.symm (Nat.le_refl _)
    exact ⟨a, b⟩
  rw [if_neg hc] at h
  clear hc
  by_cases hc : c ∈ c!"1234567890"
  · rw [if_pos hc] at h
    injection h with h; subst h; exact lexNumbers_shape r c cs hc
  rw [if_neg hc] at h
  clear hc
  by_cases hc : c = '*' ∨ c = '_'
  · rw [if_pos hc] at h
    injection h with h; subst h; exact lexAsteriskUnderscore_shape r c cs hc
  rw [if_neg hc] at h
  clear hc
  by_cases hc : c = '-' ∨ c = '+'
  · rw [if_pos hc] at h
    exact lexPlusMinus_shape r c cs hc res h
  rw [if_neg hc] at h
  clear hc
  by_cases hc : c = '>'
  · rw [if_pos hc] at h
    subst hc; injection h with h; subst h; exact lexBlockquotes_shape r cs
  rw [if_neg hc] at h
  clear hc
  by_cases hc : c = '~'
  · rw [if_pos hc] at h
    subst hc; injection h with h; subst h; exact lexTilde_shape r cs
  rw [if_neg hc] at h
  clear hc
  by_cases hc : c = '`'
  · rw [if_pos hc] at h
    subst hc; injection h with h; subst h; exact lexBackticks_shape r cs
  rw [if_neg hc] at h
  clear hc
  by_cases hc : c = '['
  · rw [if_pos hc] at h
    subst hc; injection h with h; subst h; exact lexLinks_shape' r cs
  rw [if_neg hc] at h
  clear hc
  by_cases hc : c = '!'
  · rw [if_pos hc] at h
    subst hc; injection h with h; subst h; exact lexImages_shape r cs
  rw [if_neg hc] at h
  clear hc
  by_cases hc : c = '<'
  · rw [if_pos hc] at h
    subst hc; exact lexSideCarrot_shape r cs res h
  rw [if_neg hc] at h
  clear hc
  by_cases hc : c = '|'
  · rw [if_pos hc] at h
    subst hc; exact lexPipes_shape r cs res h
  rw [if_neg hc] at h
  clear hc
  by_cases hc : c = '\\'
  · rw [if_pos hc] at h
    injection h with h; subst h; exact lexEscaped_shape r c cs
  rw [if_neg hc] at h
  clear hc
  injection h with h; subst h
  exact ⟨.plain _ (.inl ⟨[], cs, rfl⟩) (.inl ⟨[], cs, rfl⟩), by simp⟩

theorem nextToken_shape (r : Rec) (ignore : List Char) (last : Option Token) (s s' : Str) (t : Token)
    (h : nextToken r ignore last s = .ok (some (t, s'))) :
    Shape r s t ∧ s' <:+ s ∧ s'.length < s.length := by
  cases s with
  | nil => simp [nextToken] at h
  | cons c cs =>
    unfold nextToken at h
    cases hd : lexDispatch r ignore last c (c :: cs) with
    | panic => simp only [hd] at h; cases h
    | hang => simp only [hd] at h; cases h
    | fuelOut => simp only [hd] at h; cases h
    | ok res =>
      simp only [hd, Outcome.ok_bind] at h
      injection h with h
      injection h with h
      injection h with h1 h2
      subst h1 h2
      have ⟨a, b⟩ := lexDispatch_shape r ignore last c cs res hd
      exact ⟨a, b.trans (List.suffix_cons c cs), by have := b.length_le; simp; omega⟩

theorem mem_errTexts {x : Str} (h : x ∈ errTexts) :
    x = c!"EOF" ∨ x = c!"Non link token returned from lex_links" := by
  simpa [errTexts] using h

attribute [irreducible] errTexts

end Smd.Gfm
