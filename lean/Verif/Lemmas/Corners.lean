import Verif.Lemmas.Forms
import Verif.Lemmas.Corollaries

/-! Texts that are no markup after all, indented lines and entries of lists. -/

namespace Smd.Gfm
open Smd.Rs Smd.Spec

variable {r : Rec} {ig : List Char} {rest : Str} {ts : List Token}

/-- Running text, a token, and running text. -/
theorem render_between {is js : List Inline} {s x : Str} {t : Token} (hi : InlineGood (s ++ inlineSrc js).head? is) (hj : InlineGood none js)
    (hv : is = [] ∨ ∃ i, is.head? = some i ∧ i.Visible) (h : ∀ last, nextToken self [] last (s ++ inlineSrc js) = .ok (some (t, inlineSrc js)))
    (ht : ShowsTok t x) : render (inlineSrc is ++ s ++ inlineSrc js) = .ok (elem c!"p" (inlineHtml is ++ x ++ inlineHtml js) ++ c!"\n") := by
  rcases hv with rfl | hv
  · simpa [inlineSrc, inlineHtml] using render_token_inlines hj h ht
  · obtain ⟨t1, hl1, _, ho1⟩ := inlines_sem hi
    obtain ⟨t2, hl2, ha2, _⟩ := inlines_sem hj
    have l2 := hl2 self [] [] [] hj LexTo.nil
    rw [List.append_nil, List.append_nil] at l2
    have l1 := hl1 self [] (s ++ inlineSrc js) _ hi (LexTo.cons h l2)
    have hp := parseToks_two ((ho1 hv).clean self []) (parseToks_cons (ht.1 self _ false) (ha2 self _ false))
    rw [List.append_assoc, render_of l1 hp, finish_inP, elem_p]
    simp

/-! ### Text that ends with a blank line -/

theorem afterLast_end {s w : Str} (hw : '\n' ∉ w) : afterLast '\n' (s ++ '\n' :: w) = some ('\n' :: w) := by
  unfold afterLast
  rw [if_pos (by simp)]
  have : ((s ++ '\n' :: w).reverse.takeWhile (· != '\n')) = w.reverse := by
    rw [List.reverse_append, List.reverse_cons, List.append_assoc]
    have := run_split (fun c => c != '\n') (s := w.reverse) (rest := c!"\n" ++ s.reverse) (by
      intro x hx; simp; rintro rfl; exact hw (by simpa using hx)) (by simp)
    exact this.1
  rw [this, List.reverse_reverse]

/-- The last line of a text is left out if it is blank. -/
theorem plainTrim_blank {s w : Str} (hw : ∀ c ∈ w, isWs c = true) (hn : '\n' ∉ w) (h : ¬ '\n' :: w <:+ s) : plainTrim (s ++ '\n' :: w) = s := by
  unfold plainTrim
  rw [afterLast_end hn]
  have : ('\n' :: w).all isWs = true := by
    simp only [List.all_cons, Bool.and_eq_true, List.all_eq_true]
    exact ⟨by decide, hw⟩
  simp only [this, if_true]
  exact trimEndStr_once (by simp) h

theorem plainTrim_full {s w : Str} (hw : ∃ c ∈ w, isWs c = false) (hn : '\n' ∉ w) : plainTrim (s ++ '\n' :: w) = s ++ '\n' :: w := by
  unfold plainTrim
  rw [afterLast_end hn]
  obtain ⟨c, hc, hcw⟩ := hw
  have : ¬ ('\n' :: w).all isWs = true := by
    simp only [List.all_eq_true, not_forall]
    exact ⟨c, by simp [hc], by simp [hcw]⟩
  simp only [if_neg this]

theorem plainOut_of_trim {s t : Str} (h : plainTrim s = t) (hb : '[' ∉ t ∨ ']' ∉ t) (hh : t.head? ≠ some '\n') : plainOut s = escape t := by
  unfold plainOut
  simp only [h]
  rw [if_neg, sanitize_eq_escape]
  · congr 1
    cases t with
    | nil => rfl
    | cons c t =>
      have : c ≠ '\n' := by simpa using hh
      simp [this]
  · intro hc
    simp only [Bool.and_eq_true] at hc
    rcases hb with hb | hb
    · exact hb ((contains_infix (by simp) hc.1).subset (by simp))
    · exact hb ((contains_infix (by simp) hc.2).subset (by simp))

theorem shows_of_plainOut {t x : Str} (hv : ∃ c ∈ t, isWs c = false) (h : plainOut t = x) : ShowsTok (.plaintext t) x := by
  obtain ⟨c, hc, hw⟩ := hv
  have hne := trim_ne_nil hc hw
  refine showsTok_of rfl (by simp [isBlankPlain, hne]) (fun r st => ?_) (fun r st => by simp only [parseTok])
  simp [step2, hne, h]

/-! ### A bar and the line after it -/

theorem pipe_then {t : Str} (h : '\n' ∉ t) (hr : rest.head? ≠ some '|') (last : Option Token) :
    nextToken r ig last ('|' :: t ++ c!"\n" ++ rest) = .ok (some (.plaintext ('|' :: t ++ c!"\n"), rest)) := by
  have e1 : (t ++ c!"\n" ++ rest).dropWhile (· != '\n') = '\n' :: rest := by
    have := dropWhile_eol h (rest := '\n' :: rest) (.inr ⟨_, rfl⟩)
    simpa using this
  have hpl : ∀ n, pipeLines n rest = ([], rest) := fun n => by cases n <;> simp [pipeLines, hr]
  have hsl := slice_self_append ('|' :: t ++ c!"\n") rest
  have e : lexPipes r ('|' :: t ++ c!"\n" ++ rest) = .ok (.error ('|' :: t ++ c!"\n"), rest) := by
    unfold lexPipes
    have h1 : pipeLines ('|' :: t ++ c!"\n" ++ rest).length ('|' :: t ++ c!"\n" ++ rest) =
        ([(t ++ c!"\n" ++ rest).takeWhile (· != '\n')], rest) := by
      rw [List.cons_append, List.cons_append, List.length_cons]
      simp only [pipeLines, List.head?_cons, if_true, List.drop_one, List.tail_cons, e1, hpl]
    simp only [h1, hsl]
    rw [if_pos (by simp)]
  rw [List.cons_append, List.cons_append] at e ⊢
  rw [nextToken_pipe, e]
  rfl

/-! ### Empty angle brackets -/

theorem angles_empty (last : Option Token) : nextToken r ig last (c!"<>" ++ rest) = .ok (some (.plaintext c!"<>", rest)) := by
  have e : lexSideCarrot r ('<' :: '>' :: rest) = .ok (.error c!"<>", rest) := by
    unfold lexSideCarrot
    simp
  show nextToken r ig last ('<' :: '>' :: rest) = _
  rw [nextToken_lt, e]
  rfl

/-! ### The last backslash -/

theorem backslash_end (last : Option Token) : nextToken r ig last c!"\\" = .ok (some (.plaintext c!"EOF", [])) := by
  simp [nextToken, lexDispatch, lexEscaped, resToken]

/-! ### Names of footnotes with white space -/

theorem footnoteLoop_line {t : Str} (n : Nat) (h : '\n' ∉ t) : footnoteLoop (n + 1) t = (true, []) := by
  have e : t.dropWhile (· != '\n') = [] := dropWhile_all _ _ (by intro x hx; simp; rintro rfl; exact h hx)
  simp [footnoteLoop, e]

theorem note_named {id t : Str} (hi : ∃ c ∈ id, isWs c = true) (hb : ']' ∉ id) (ht : '\n' ∉ t) (last : Option Token) :
    nextToken r ig last (c!"[^" ++ id ++ c!"]:" ++ t) = .ok (some (.plaintext (c!"[^" ++ id ++ c!"]:" ++ t), [])) := by
  have hs := run_split (fun c => c != ']') (s := '^' :: id) (rest := c!"]:" ++ t) (by
    intro x hx; simp; rintro rfl; simp at hx; exact hb hx) (by simp)
  have hsl : slice (c!"[^" ++ id ++ c!"]:" ++ t) [] = c!"[^" ++ id ++ c!"]:" ++ t := by
    have := slice_self_append (c!"[^" ++ id ++ c!"]:" ++ t) []
    rwa [List.append_nil] at this
  have e0 : (c!"[^" ++ id ++ c!"]:" ++ t).drop 1 = ('^' :: id) ++ (c!"]:" ++ t) := by simp
  have hany : id.any isWs = true := by
    obtain ⟨c, hc, hw⟩ := hi
    exact List.any_eq_true.mpr ⟨c, hc, hw⟩
  have e : lexLinks (c!"[^" ++ id ++ c!"]:" ++ t) = (.error (c!"[^" ++ id ++ c!"]:" ++ t), []) := by
    unfold lexLinks
    rw [if_neg (by simp)]
    simp only [e0, hs.1, hs.2]
    rw [if_neg (by simp), if_pos (by simp [startsWith])]
    have e2 : (stripPrefix c!"^" ('^' :: id)).getD [] = id := by simp [stripPrefix]
    have e3 : ((c!"]:" ++ t).drop 1).drop 1 = t := by simp
    simp only [e2, e3, footnoteLoop_line _ ht, hany, hsl]
    simp
  have : c!"[^" ++ id ++ c!"]:" ++ t = '[' :: ('^' :: (id ++ c!"]:" ++ t)) := by simp
  rw [this] at e ⊢
  rw [nextToken_bracket, e]
  rfl

theorem plainOut_named {id t : Str} (h1 : '[' ∉ id ++ t) (hn : '\n' ∉ id ++ t)
    (he : (trimEnd (id ++ c!"]:" ++ t)).getLast? ≠ some ']') : plainOut (c!"[^" ++ id ++ c!"]:" ++ t) = id ++ c!"]:" ++ t := by
  have e1 : plainTrim (c!"[^" ++ id ++ c!"]:" ++ t) = c!"[^" ++ id ++ c!"]:" ++ t := by
    unfold plainTrim afterLast
    rw [if_neg (by simpa using hn)]
  have e2 : splitStr c!"[^" (c!"[^" ++ id ++ c!"]:" ++ t) = [[], id ++ c!"]:" ++ t] := by
    have := splitStr_none (c := '[') (p := c!"^") (s := id ++ c!"]:" ++ t) (by simpa using h1)
    unfold splitStr at this ⊢
    simp only [List.append_assoc, List.cons_append, List.nil_append] at this ⊢
    simp [splitGo, List.isPrefixOf, this]
  have c1 : contains (c!"[^" ++ id ++ c!"]:" ++ t) c!"[^" = true := contains_of_infix ⟨[], id ++ c!"]:" ++ t, by simp⟩
  have c2 : contains (c!"[^" ++ id ++ c!"]:" ++ t) c!"]" = true := contains_of_infix ⟨c!"[^" ++ id, ':' :: t, by simp⟩
  have e5 : endsWith (trimEnd []) c!"]" = false := by decide
  have e6 : endsWith (trimEnd (id ++ c!"]:" ++ t)) c!"]" = false := by
    rw [Bool.eq_false_iff]
    intro h
    have h : c!"]" <:+ trimEnd (id ++ c!"]:" ++ t) := List.isSuffixOf_iff_suffix.mp h
    obtain ⟨u, hu⟩ := h
    exact he (by rw [← hu]; simp)
  unfold plainOut
  simp only [e1, c1, c2, Bool.and_self, if_true, e2, footRefs, e5, e6]
  simp

/-! ### Several references in one text -/

theorem splitStr_skip {p : Str} (a : Str) (h : ∀ x y, a = x ++ y → y ≠ [] → ¬ p <+: y ++ rest) :
    splitStr p (a ++ rest) = (splitStr p rest).modifyHead (a ++ ·) := by
  unfold splitStr
  induction a with
  | nil => rw [List.nil_append]; cases splitGo p 0 rest <;> rfl
  | cons c a ih =>
    have h0 : ¬ p <+: c :: (a ++ rest) := h [] (c :: a) rfl (by simp)
    rw [List.cons_append]
    simp only [splitGo]
    rw [if_neg (by simpa using h0), ih (fun x y e hy => h (c :: x) y (by rw [e]; rfl) hy)]
    have hne : splitGo p 0 rest ≠ [] := by
      cases rest with
      | nil => simp [splitGo]
      | cons d rest =>
        simp only [splitGo]
        split
        · simp
        · cases splitGo p 0 rest <;> simp [consHead]
    cases e : splitGo p 0 rest with
    | nil => exact absurd e hne
    | cons x xs => rfl

theorem splitStr_match {p : Str} (hp : p ≠ []) : splitStr p (p ++ rest) = [] :: splitStr p rest := by
  obtain ⟨c, q, rfl⟩ : ∃ c q, p = c :: q := by
    cases p with
    | nil => exact absurd rfl hp
    | cons c q => exact ⟨c, q, rfl⟩
  have skip : ∀ (q' rest : Str), splitGo (c :: q) q'.length (q' ++ rest) = splitGo (c :: q) 0 rest := by
    intro q' rest
    induction q' with
    | nil => rfl
    | cons d q' ih => simp only [List.length_cons, List.cons_append, splitGo, ih]
  unfold splitStr
  rw [List.cons_append]
  simp only [splitGo]
  rw [if_pos (by simp)]
  simp [skip]

/-- References to footnotes one after the other. -/
def refsSrc (ids : List Str) : Str := ids.flatMap fun id => c!"[^" ++ id ++ c!"]"

theorem splitStr_refs : ∀ {ids : List Str} {a : Str}, '[' ∉ a → (∀ id ∈ ids, '[' ∉ id) →
    splitStr c!"[^" (a ++ refsSrc ids) = a :: ids.map (· ++ c!"]")
  | [], a, ha, _ => by
    rw [refsSrc, List.flatMap_nil, List.append_nil]
    exact splitStr_none ha
  | id :: ids, a, ha, hi => by
    have ih := splitStr_refs (ids := ids) (a := id ++ c!"]") (by simpa using hi id (by simp)) (fun x hx => hi x (by simp [hx]))
    have e : refsSrc (id :: ids) = c!"[^" ++ (id ++ c!"]" ++ refsSrc ids) := by simp [refsSrc]
    rw [splitStr_skip, e, splitStr_match (by simp), ih]
    · simp
    · intro x y exy hy hp
      cases y with
      | nil => exact hy rfl
      | cons c y =>
        rw [List.cons_append, List.cons_prefix_cons] at hp
        exact ha (by rw [exy, ← hp.1]; simp)

theorem noteId_ends {id : Str} (h : NoteId id) : endsWith (trimEnd (id ++ c!"]")) c!"]" = true ∧
    trimEndP (· == ']') (trimEnd (id ++ c!"]")) = id := by
  obtain ⟨hne, hc⟩ := h
  have e3 : trimEnd (id ++ c!"]") = id ++ c!"]" := trimEnd_last (by decide)
  rw [e3]
  refine ⟨by simp [endsWith, List.isSuffixOf_iff_suffix], ?_⟩
  obtain ⟨u, a, rfl⟩ : ∃ u a, id = u ++ [a] := by
    rcases List.eq_nil_or_concat id with rfl | ⟨u, a, rfl⟩
    · exact absurd rfl hne
    · exact ⟨u, a, by simp⟩
  have : a ≠ ']' := (hc a (by simp)).2.2
  simp [trimEndP, this]

theorem footRefs_refs : ∀ {ids : List Str} (k : Nat), (∀ id ∈ ids, NoteId id) →
    footRefs k (ids.map (· ++ c!"]")) = (ids.zipIdx k).flatMap fun x => supTag (escape x.1) x.2
  | [], _, _ => rfl
  | id :: ids, k, h => by
    have h1 := noteId_ends (h id (by simp))
    rw [List.map_cons, List.zipIdx_cons, List.flatMap_cons, ← footRefs_refs (ids := ids) (k + 1) (fun x hx => h x (by simp [hx]))]
    simp only [footRefs, h1.1, h1.2, if_true, sanitize_eq_escape]

theorem plainOut_refs {ids : List Str} {a : Str} (ha : '[' ∉ a) (he : (trimEnd a).getLast? ≠ some ']') (hn : '\n' ∉ a) (hne : ids ≠ [])
    (h : ∀ id ∈ ids, NoteId id) : plainOut (a ++ refsSrc ids) = a ++ (ids.zipIdx 1).flatMap fun x => supTag (escape x.1) x.2 := by
  have hnl : '\n' ∉ a ++ refsSrc ids := by
    rw [List.mem_append, refsSrc, List.mem_flatMap]
    rintro (h1 | ⟨id, hid, hm⟩)
    · exact hn h1
    · simp at hm
      have := ((h id hid).2 _ hm).1
      revert this
      decide
  have e1 : plainTrim (a ++ refsSrc ids) = a ++ refsSrc ids := by
    unfold plainTrim afterLast
    rw [if_neg (by simpa using hnl)]
  obtain ⟨id, u, rfl⟩ : ∃ id u, ids = id :: u := by
    cases ids with
    | nil => exact absurd rfl hne
    | cons id u => exact ⟨id, u, rfl⟩
  have e : a ++ refsSrc (id :: u) = a ++ c!"[^" ++ (id ++ c!"]" ++ refsSrc u) := by simp [refsSrc]
  have c1 : contains (a ++ refsSrc (id :: u)) c!"[^" = true := contains_of_infix ⟨a, id ++ c!"]" ++ refsSrc u, by rw [e]⟩
  have c2 : contains (a ++ refsSrc (id :: u)) c!"]" = true := contains_of_infix ⟨a ++ c!"[^" ++ id, refsSrc u, by rw [e]; simp⟩
  have e2 := splitStr_refs (ids := id :: u) ha (fun x hx hm => ((h x hx).2 _ hm).2.1 rfl)
  have e6 : endsWith (trimEnd a) c!"]" = false := by
    rw [Bool.eq_false_iff]
    intro h
    have h : c!"]" <:+ trimEnd a := List.isSuffixOf_iff_suffix.mp h
    obtain ⟨v, hv⟩ := h
    exact he (by rw [← hv]; simp)
  unfold plainOut
  simp only [e1, c1, c2, Bool.and_self, if_true, e2]
  rw [footRefs, if_neg (by simp [e6]), footRefs_refs 1 h]

/-! ### Two tabs -/

theorem lexTabsSpaces_tabs (last : Option Token) {t : Str} (h1 : t.head? ≠ some ' ') (h2 : t.head? ≠ some '\t') :
    lexTabsSpaces last (c!"\t\t" ++ t) = (.ok (.code ('\t' :: (untilTail c!"\n" t).1)), (untilTail c!"\n" t).2) := by
  obtain ⟨f, hf⟩ := lexTabsSpaces_succ last (s := c!"\t\t" ++ t) (by simp)
  rw [hf]
  unfold lexTabsSpacesGo
  simp only [ws_split (w := c!"\t\t") (by decide) h1 h2]
  rw [if_neg (by simp), if_neg (by simp), if_neg (by simp), if_neg (by simp), if_neg (by simp), if_pos trivial]
  rfl

theorem LexTo.tabs {t : Str} (h1 : t.head? ≠ some ' ') (h2 : t.head? ≠ some '\t') (h : LexTo r ig (untilTail c!"\n" t).2 ts) :
    LexTo r ig (c!"\t\t" ++ t) (.code ('\t' :: (untilTail c!"\n" t).1) :: ts) := by
  refine .cons (fun last => ?_) h
  have e := lexTabsSpaces_tabs last h1 h2
  rw [show c!"\t\t" ++ t = '\t' :: '\t' :: t from rfl] at e ⊢
  rw [nextToken_ws (.inr rfl), e]
  rfl

theorem LexTo.tabLines : ∀ {ls : List Str}, (∀ l ∈ ls, '\n' ∉ l ∧ l.head? ≠ some ' ' ∧ l.head? ≠ some '\t') → LexTo r ig rest ts →
    LexTo r ig (ls.flatMap (fun l => c!"\t\t" ++ l ++ c!"\n") ++ rest) (ls.map (fun l => Token.code ('\t' :: l ++ c!"\n")) ++ ts)
  | [], _, h => h
  | l :: ls, hl, h => by
    have ih := LexTo.tabLines (ls := ls) (fun x hx => hl x (by simp [hx])) h
    obtain ⟨h1, h2, h3⟩ := hl l (by simp)
    have e := untilTail_nl (rest := ls.flatMap (fun l => c!"\t\t" ++ l ++ c!"\n") ++ rest) h1
    have := LexTo.tabs (r := r) (ig := ig) (ts := ls.map (fun l => Token.code ('\t' :: l ++ c!"\n")) ++ ts)
      (t := l ++ '\n' :: (ls.flatMap (fun l => c!"\t\t" ++ l ++ c!"\n") ++ rest))
      (by cases l <;> simp_all) (by cases l <;> simp_all) (by rw [e]; exact ih)
    rw [e] at this
    simpa using this

/-! ### The next line of an entry -/

theorem lexPlusMinus_tab {c : Char} {w l : Str} {toks : List Token} (hc : c = '-' ∨ c = '+') (hw : '\n' ∉ w) (hl : '\n' ∉ l)
    (hb : ∀ x ∈ c!" xX", ¬ ['[', x, ']', ' '] <+: w) (hx : r.lex l = .ok toks) :
    lexPlusMinus r ((c :: ' ' :: w) ++ '\n' :: '\t' :: l) = .ok (.ok (.unorderedListEntry (.plaintext (' ' :: w) :: toks)), []) := by
  have hw' : '\n' ∉ ' ' :: w := by simp [hw]
  have heol : AtEol ('\n' :: '\t' :: l) := .inr ⟨_, rfl⟩
  have e : ' ' :: (w ++ '\n' :: '\t' :: l) = (' ' :: w) ++ '\n' :: '\t' :: l := rfl
  have hla : lineAhead ('\t' :: l) = some ('\t' :: l, []) := by
    unfold lineAhead
    rw [if_neg (by simp [hl]), if_neg (by simp)]
  unfold lexPlusMinus
  rw [(bullet_split hc).1, (bullet_split hc).2, e]
  simp only [takeWhile_eol hw' heol, dropWhile_eol hw' heol, contLines_none (s := '\n' :: '\t' :: l) (by simp), slice_self_append]
  rw [if_neg (by simp), if_neg (by simp), if_pos (by simp)]
  have hb1 := hb ' ' (by decide)
  have hb2 := hb 'x' (by decide)
  have hb3 := hb 'X' (by decide)
  rw [if_neg (by simpa [startsWith] using hb1), if_neg (by simpa [startsWith] using ⟨hb2, hb3⟩)]
  simp only [skipIf, if_true, hla]
  rw [if_neg (by simp [startsWith]), if_pos (by simp [startsWith])]
  simp [hx]

end Smd.Gfm
