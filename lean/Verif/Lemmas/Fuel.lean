import Verif.Lemmas.Tree
import Verif.Lemmas.Escape

/-!
The fuel of `recF` is adequate: from a bound linear in the length of the text on, the result does not depend on it and
is never `fuelOut`.
-/

namespace Smd.Gfm
open Smd.Rs Smd.Spec

/-- The recursive entry points agree on the proper parts of `s`. -/
def AgreeBelow (r r' : Rec) (s : Str) : Prop :=
  ∀ t, Child s t → r.lex t = r'.lex t ∧ r.render ['#'] t = r'.render ['#'] t

theorem AgreeBelow.suffix {r r' : Rec} {s s' : Str} (h : AgreeBelow r r' s) (hs : s' <:+ s) : AgreeBelow r r' s' :=
  fun t ht => h t (Child.of_infix hs.isInfix ht)

theorem lexHeading_congr {r r' : Rec} {cs : Str} (h : AgreeBelow r r' ('#' :: cs)) :
    lexHeading r ('#' :: cs) = lexHeading r' ('#' :: cs) := by
  have hs1 : ('#' :: cs).dropWhile (· == '#') <:+ cs := dropWhile_tail (by decide)
  unfold lexHeading
  simp only
  split
  · rfl
  · split
    · rfl
    · next s2 hsep =>
      have hs2 : s2 <:+ cs := (headingSep_suffix hsep).trans hs1
      have hline : s2.takeWhile (· != '\n') <:+: cs := (takeWhile_infix _ _).trans hs2.isInfix
      cases hl : headingLabel (s2.takeWhile (· != '\n')) with
      | panic => rfl
      | hang => rfl
      | fuelOut => rfl
      | ok line =>
        simp only [Outcome.ok_bind]
        split
        · rfl
        · rw [(h _ (.of_tail ((trimEndP_prefix _ _).isInfix.trans ((headingTrim_prefix _).isInfix.trans
              ((headingLabel_ok hl).trans hline))))).2]

theorem lexPlusMinus_congr {r r' : Rec} {c : Char} {cs : Str} (hc : c = '-' ∨ c = '+')
    (h : AgreeBelow r r' (c :: cs)) : lexPlusMinus r (c :: cs) = lexPlusMinus r' (c :: cs) := by
  have hpc : (fun c : Char => c == '-' || c == '+') c = true := by
    rcases hc with rfl | rfl <;> decide
  have hs1 : (c :: cs).dropWhile (fun c => c == '-' || c == '+') <:+ cs := dropWhile_tail hpc
  unfold lexPlusMinus
  generalize hd : (c :: cs).dropWhile (fun c => c == '-' || c == '+') = s1 at *
  generalize (c :: cs).takeWhile (fun c => c == '-' || c == '+') = run at *
  simp only
  have hs2 : s1.dropWhile (· != '\n') <:+ cs := (dropWhile_suffix _ _).trans hs1
  have ⟨hc1, _⟩ := contLines_spec (s1.dropWhile (· != '\n')).length (s1.dropWhile (· != '\n'))
  generalize hmore : contLines (s1.dropWhile (· != '\n')).length (s1.dropWhile (· != '\n')) = cl at *
  have hs4 : skipIf '\n' cl.2 <:+ cs := (skipIf_suffix _ _).trans (hc1.trans hs2)
  split
  · rfl
  · split
    · rfl
    · split
      · split
        · rfl
        · split
          · rfl
          · split
            · next l s5 hla =>
              have e := lineAhead_parts hla
              have hl : l <:+: cs := by
                have : l <+: skipIf '\n' cl.2 := ⟨s5, e.symm⟩
                exact this.isInfix.trans hs4.isInfix
              rw [(h l (.of_tail hl)).1, (h (l.drop 1) (.of_tail ((List.drop_suffix 1 l).isInfix.trans hl))).1]
            · rfl
      · rfl

theorem parseDetails_congr {r r' : Rec} {s0 s : Str} (hs : Child s0 s) (h : AgreeBelow r r' s0) :
    parseDetails r s = parseDetails r' s := by
  unfold parseDetails
  have hs1 : skipIf '\r' (s.dropWhile (fun c => c != '\n' && c != '\r')) <:+ s :=
    (skipIf_suffix _ _).trans (dropWhile_suffix _ _)
  generalize skipIf '\r' (s.dropWhile (fun c => c != '\n' && c != '\r')) = s1 at *
  simp only
  split
  · rfl
  · split
    · rfl
    · have hp2 := untilTail_prefix c!"</details>" s1
      generalize untilTail c!"</details>" s1 = ut at *
      cases hres : (if contains ut.1 c!"<details>" then detailsLoop s1 ut.2.length ut.2 else .ok (ut.1, ut.2)) with
      | panic => rfl
      | hang => rfl
      | fuelOut => rfl
      | ok rr =>
        simp only [Outcome.ok_bind]
        have hrr : rr.1 <+: s1 := by
          split at hres
          · exact (detailsLoop_ok _ _ _ _ hres).2
          · injection hres with hres
            subst hres
            exact hp2
        rw [(h _ (hs.infix ((stripSuffix_getD_infix _ _).trans (hrr.isInfix.trans hs1.isInfix)))).1]

theorem lexSideCarrot_congr {r r' : Rec} {cs : Str} (h : AgreeBelow r r' ('<' :: cs)) :
    lexSideCarrot r ('<' :: cs) = lexSideCarrot r' ('<' :: cs) := by
  unfold lexSideCarrot
  rw [if_neg (c := ('<' :: cs).head? ≠ some '<') (by simp), if_neg (c := ('<' :: cs).head? ≠ some '<') (by simp)]
  simp only [List.drop_succ_cons, List.drop_zero]
  have hs2 := dropWhile_suffix (· != '>') cs
  generalize cs.takeWhile (· != '>') = t at *
  generalize cs.dropWhile (· != '>') = s2 at *
  split
  · split
    · split
      · refine parseDetails_congr (.of_tail ?_) h
        exact ((List.drop_suffix 1 _).trans ((skipIf_suffix _ _).trans ((List.drop_suffix 1 _).trans hs2))).isInfix
      · rfl
    · rfl
  · rfl

theorem rowTokens_congr (r r' : Rec) : ∀ (l : List Str), (∀ x ∈ l, r.lex x = r'.lex x) → rowTokens r l = rowTokens r' l
  | [], _ => rfl
  | x :: xs, h => by
    unfold rowTokens
    rw [h x (by simp), rowTokens_congr r r' xs (fun y hy => h y (by simp [hy]))]

theorem tableRows_congr (r r' : Rec) (aligns : List Alignment) : ∀ (l : List Str),
    (∀ x ∈ l, ∀ y ∈ (cells x).map trim, r.lex y = r'.lex y) → tableRows r aligns l = tableRows r' aligns l
  | [], _ => rfl
  | x :: xs, h => by
    unfold tableRows
    rw [rowTokens_congr r r' _ (h x (by simp)), tableRows_congr r r' aligns xs (fun y hy => h y (by simp [hy]))]

theorem lexPipes_congr {r r' : Rec} {cs : Str} (h : AgreeBelow r r' ('|' :: cs)) :
    lexPipes r ('|' :: cs) = lexPipes r' ('|' :: cs) := by
  have ⟨_, hlines⟩ := pipeLines_spec ('|' :: cs).length ('|' :: cs)
  unfold lexPipes
  generalize pipeLines ('|' :: cs).length ('|' :: cs) = pl at *
  obtain ⟨lines, s1⟩ := pl
  simp only at hlines ⊢
  split
  · rfl
  · split
    · next l0 l1 body _ _ =>
      split
      · rfl
      · rw [tableRows_congr r r' _ body ?_]
        intro x hx y hy
        obtain ⟨z, hz, rfl⟩ := List.mem_map.mp hy
        exact (h _ (Child.infix (hlines x (by simp [hx])) ((trim_infix z).trans (cells_infix x z hz)))).1
    · rfl

theorem lexDispatch_congr {r r' : Rec} {ig : List Char} {last : Option Token} {c : Char} {cs : Str}
    (h : AgreeBelow r r' (c :: cs)) : lexDispatch r ig last c (c :: cs) = lexDispatch r' ig last c (c :: cs) := by
  unfold lexDispatch
  by_cases hc : c = '#' ∧ ig.contains '#' = false
  · rw [if_pos hc, if_pos hc]
    obtain ⟨rfl, _⟩ := hc
    exact lexHeading_congr h
  rw [if_neg hc, if_neg hc]
  clear hc
  congr 1
  congr 1
  congr 1
  congr 1
  by_cases hc : c = '-' ∨ c = '+'
  · rw [if_pos hc, if_pos hc]; exact lexPlusMinus_congr hc h
  rw [if_neg hc, if_neg hc]
  clear hc
  congr 1
  congr 1
  congr 1
  congr 1
  congr 1
  by_cases hc : c = '<'
  · rw [if_pos hc, if_pos hc]; subst hc; exact lexSideCarrot_congr h
  rw [if_neg hc, if_neg hc]
  clear hc
  by_cases hc : c = '|'
  · rw [if_pos hc, if_pos hc]; subst hc; exact lexPipes_congr h
  rw [if_neg hc, if_neg hc]

theorem nextToken_congr {r r' : Rec} {ig : List Char} {last : Option Token} {s : Str}
    (h : AgreeBelow r r' s) : nextToken r ig last s = nextToken r' ig last s := by
  cases s with
  | nil => rfl
  | cons c cs => simp only [nextToken, lexDispatch_congr h]

theorem lexLoop_congr {r r' : Rec} {ig : List Char} : ∀ (fuel : Nat) (acc : List Token) (s : Str),
    AgreeBelow r r' s → lexLoop r ig fuel acc s = lexLoop r' ig fuel acc s
  | 0, _, _, _ => rfl
  | fuel + 1, acc, s, h => by
    unfold lexLoop
    rw [nextToken_congr h]
    cases hn : nextToken r' ig acc.getLast? s with
    | panic => rfl
    | hang => rfl
    | fuelOut => rfl
    | ok o =>
      cases o with
      | none => rfl
      | some p =>
        obtain ⟨t, s'⟩ := p
        have ⟨_, hsuf, _⟩ := nextToken_shape r' ig _ s s' t hn
        exact lexLoop_congr fuel (acc ++ [t]) s' (h.suffix hsuf)

theorem lexWith_congr {r r' : Rec} {ig : List Char} {s : Str} (h : AgreeBelow r r' s) :
    lexWith r ig s = lexWith r' ig s := lexLoop_congr _ _ _ h

/-- The texts rendered while parsing the tokens of `s`. -/
inductive KidOf (s : Str) : Str → Prop
  | child (k : Str) (h : Child s k) (h1 : OneLine k) : KidOf s k
  | quote (x : Str) (h : Child s x) (hg : '>' ∈ s) : KidOf s (sanitize x)
  | err (k : Str) (h : k ∈ errTexts) (hg : k = c!"EOF" ∨ '!' ∈ s) : KidOf s k

theorem entryArg_err {x : Str} (h : x ∈ errTexts) : entryArg x = x := by
  rcases mem_errTexts h with h | h
  · rw [h]; decide +kernel
  · rw [h]; decide +kernel

theorem KidOf.of_infix {s s' k : Str} (hs : s' <:+: s) (h : KidOf s' k) : KidOf s k := by
  cases h with
  | child k h h1 => exact .child _ (Child.of_infix hs h) h1
  | quote x h hg => exact .quote x (Child.of_infix hs h) (hs.subset hg)
  | err k h hg => exact .err _ h (hg.imp id fun h => hs.subset h)

theorem shape_kid {m : Nat} {s k : Str} {t : Token} (h : Shape (recF m) s t) (hk : IsKid t k) : KidOf s k := by
  have helem : ∀ elems : List Str, (∀ x ∈ elems, Child s x ∧ OneLine x) → ∀ x, Token.plaintext x ∈ elems.map Token.plaintext →
      KidOf s (entryArg x) := by
    intro elems h x hx
    obtain ⟨y, hy, e⟩ := List.mem_map.mp hx
    injection e with e
    subst e
    exact .child _ ((h y hy).1.infix (entryArg_suffix y).isInfix) ((h y hy).2.infix (entryArg_suffix y).isInfix)
  cases h with
  | ul elems h =>
    obtain ⟨x, hx, rfl⟩ := hk
    exact helem elems h x hx
  | ulLex elems l ts h hl hl1 hr =>
    obtain ⟨x, hx, rfl⟩ := hk
    rcases List.mem_append.mp hx with hx | hx
    · exact helem elems h x hx
    · cases m with
      | zero => cases hr
      | succ m =>
        obtain ⟨s', hs', hsh⟩ := lexWith_shape (r := recF m) hr _ hx
        cases hsh with
        | plain _ hp hg =>
          rcases em (x <:+: s') with hp' | hp'
          · have hin := (entryArg_suffix x).isInfix.trans (hp'.trans hs'.isInfix)
            exact .child _ (hl.infix hin) (hl1.infix hin)
          · have hp := hp.resolve_left hp'
            rw [entryArg_err hp]
            exact .err _ hp ((hg.resolve_left hp').imp id fun h => (hs'.isInfix.trans hl.1).subset h)
  | quote n x hx hg =>
    have : k = sanitize (trimStartP (· == ' ') x) := hk
    rw [this]
    exact .quote _ (hx.infix (trimStartP_suffix _ _).isInfix) hg
  | _ => exact hk.elim

theorem deep_kids {n : Nat} {ig : List Char} {s : Str} {ts : List Token} (h : lexWith (recF n) ig s = .ok ts) :
    ∀ t ∈ ts, TokAll (fun t => ∀ k, IsKid t k → KidOf s k) t := by
  intro t ht
  refine (deep_shape n ig s ts h t ht).mono ?_
  rintro t ⟨m, s', _, hs', hsh⟩ k hk
  exact (shape_kid hsh hk).of_infix hs'

theorem deep_tables {n : Nat} {ig : List Char} {s : Str} {ts : List Token} (h : lexWith (recF n) ig s = .ok ts) :
    ∀ t ∈ ts, TokAll (fun t => ∀ heads, t ≠ .table heads []) t := by
  intro t ht
  refine (deep_shape n ig s ts h t ht).mono ?_
  rintro t ⟨m, s', _, hs', hsh⟩ heads e
  subst e
  cases hsh with
  | table heads aligns body _ hh hb hne hp hrows =>
    cases hrows
    exact hne rfl

/-- The measure that decreases from a text to the texts rendered while rendering it. -/
def wt (s : Str) : Nat := if '>' ∈ s then 8 * s.length else s.length

theorem wt_child {s t : Str} (h : Child s t) : wt t < wt s := by
  have h1 := h.2
  unfold wt
  by_cases ht : '>' ∈ t
  · rw [if_pos ht, if_pos (h.1.subset ht)]
    omega
  · rw [if_neg ht]
    split <;> omega

theorem esc_length_special : ∀ c ∈ escSpecial, (esc c).length ≤ 8 := by decide

theorem esc_length (c : Char) : (esc c).length ≤ 8 := by
  by_cases h : c ∈ escSpecial
  · exact esc_length_special c h
  · rw [esc_other c h]
    simp

theorem sanitize_length (x : Str) : (sanitize x).length ≤ 8 * x.length := by
  rw [sanitize_eq_flatMap]
  induction x with
  | nil => simp
  | cons c cs ih =>
    have := esc_length c
    simp only [List.flatMap_cons, List.length_append, List.length_cons]
    omega

theorem gt_not_mem_esc_special : ∀ c ∈ escSpecial, '>' ∉ esc c := by decide

theorem gt_not_mem_esc (c : Char) : '>' ∉ esc c := by
  by_cases h : c ∈ escSpecial
  · exact gt_not_mem_esc_special c h
  · rw [esc_other c h]
    intro e
    have : '>' = c := by simpa using e
    subst this
    exact h (by decide)

theorem gt_not_mem_sanitize (x : Str) : '>' ∉ sanitize x := by
  rw [sanitize_eq_flatMap]
  intro h
  obtain ⟨c, _, hc⟩ := List.mem_flatMap.mp h
  exact gt_not_mem_esc c hc

theorem wt_kid {s k : Str} (h : KidOf s k) : wt k < wt s ∨ k ∈ errTexts := by
  cases h with
  | child _ h => exact .inl (wt_child h)
  | err _ h => exact .inr h
  | quote x hx hg =>
    left
    unfold wt
    rw [if_neg (gt_not_mem_sanitize x), if_pos hg]
    have := sanitize_length x
    have := hx.2
    omega

/-- The characters that start a routine that renders or lexes a part of the text. -/
def recChars : List Char := c!"#-+<|"

theorem nextToken_noRec (r r' : Rec) (ig ig' : List Char) (last : Option Token) {c : Char} {cs : Str} (h : c ∉ recChars) :
    nextToken r ig last (c :: cs) = nextToken r' ig' last (c :: cs) := by
  simp only [recChars, List.mem_cons, List.not_mem_nil, not_or, or_false] at h
  obtain ⟨h1, h2, h3, h4, h5⟩ := h
  simp only [nextToken, lexDispatch, h1, h2, h3, h4, h5, false_and, or_false, if_false]

theorem lexLoop_noRec (r r' : Rec) (ig ig' : List Char) : ∀ (fuel : Nat) (acc : List Token) (s : Str),
    (∀ c ∈ s, c ∉ recChars) → lexLoop r ig fuel acc s = lexLoop r' ig' fuel acc s
  | 0, _, _, _ => rfl
  | fuel + 1, acc, s, h => by
    cases s with
    | nil => rfl
    | cons c cs =>
      unfold lexLoop
      rw [nextToken_noRec r r' ig ig' _ (h c (by simp))]
      cases hn : nextToken r' ig' acc.getLast? (c :: cs) with
      | panic => rfl
      | hang => rfl
      | fuelOut => rfl
      | ok o =>
        cases o with
        | none => rfl
        | some p =>
          obtain ⟨t, s'⟩ := p
          have ⟨_, hsuf, _⟩ := nextToken_shape r' ig' _ _ s' t hn
          exact lexLoop_noRec r r' ig ig' fuel (acc ++ [t]) s' (fun x hx => h x (hsuf.subset hx))

theorem err_noRec {x : Str} (h : x ∈ errTexts) : ∀ c ∈ x, c ∉ recChars := by
  rcases mem_errTexts h with h | h
  · rw [h]; decide +kernel
  · rw [h]; decide +kernel

/-- `Parser::lex` on a fixed text that needs no recursion. -/
theorem lexWith_err (r r' : Rec) (ig ig' : List Char) {x : Str} (h : x ∈ errTexts) :
    lexWith r ig x = lexWith r' ig' x :=
  lexLoop_noRec r r' ig ig' _ _ x (err_noRec h)

/-- Tokens of the fixed texts. -/
def isLeaf : Token → Bool
  | .plaintext _ => true
  | .italic _ => true
  | _ => false

theorem isLeaf_tokAll {r r' : Rec} {t : Token} (h : isLeaf t = true) : TokAll (AgreeOn r r') t := by
  cases t with
  | plaintext x => exact .mk _ (fun k hk => hk.elim) (by simp [subToks])
  | italic x => exact .mk _ (fun k hk => hk.elim) (by simp [subToks])
  | _ => cases h

theorem isLeaf_noFail {r : Rec} {e : Fail} {t : Token} (h : isLeaf t = true) : TokAll (NoFail r e) t := by
  cases t with
  | plaintext x => exact .mk _ ⟨fun k hk => hk.elim, by simp⟩ (by simp [subToks])
  | italic x => exact .mk _ ⟨fun k hk => hk.elim, by simp⟩ (by simp [subToks])
  | _ => cases h

theorem lex_err_leaf (r : Rec) (ig : List Char) {x : Str} (h : x ∈ errTexts) :
    ∃ ts, lexWith r ig x = .ok ts ∧ ∀ t ∈ ts, isLeaf t = true := by
  rw [lexWith_err r (recF 0) ig [] h]
  have key : (match lexWith (recF 0) [] x with | .ok ts => ts.all isLeaf | _ => false) = true := by
    rcases mem_errTexts h with h | h
    · rw [h]; decide +kernel
    · rw [h]; decide +kernel
  cases hl : lexWith (recF 0) [] x with
  | ok ts =>
    rw [hl] at key
    exact ⟨ts, rfl, by simpa using key⟩
  | panic => rw [hl] at key; cases key
  | hang => rw [hl] at key; cases key
  | fuelOut => rw [hl] at key; cases key

theorem recF_err (a a' : Nat) {k : Str} (h : k ∈ errTexts) : (recF (a + 1)).lex k = (recF (a' + 1)).lex k ∧
    ∀ ig, (recF (a + 1)).render ig k = (recF (a' + 1)).render ig k := by
  refine ⟨lexWith_err _ _ _ _ h, fun ig => ?_⟩
  show (lexWith (recF a) ig k >>= fun ts => parseDoc (recF a) ts) = (lexWith (recF a') ig k >>= fun ts => parseDoc (recF a') ts)
  obtain ⟨ts, h1, h2⟩ := lex_err_leaf (recF a) ig h
  rw [lexWith_err (recF a') (recF a) ig ig h, h1]
  simp only [Outcome.ok_bind]
  exact parseDoc_congr _ _ ts (fun tok htok => isLeaf_tokAll (h2 tok htok))

theorem recF_err_ok (a : Nat) (ig : List Char) {k : Str} (h : k ∈ errTexts) (e : Fail) :
    ((recF (a + 1)).lex k).fail ≠ some e ∧ ((recF (a + 1)).render ig k).fail ≠ some e := by
  constructor
  · obtain ⟨ts, h1, h2⟩ := lex_err_leaf (recF a) [] h
    show (lexWith (recF a) [] k).fail ≠ some e
    simp [h1]
  · obtain ⟨ts, h1, h2⟩ := lex_err_leaf (recF a) ig h
    show (lexWith (recF a) ig k >>= fun ts => parseDoc (recF a) ts).fail ≠ some e
    rw [h1]
    exact parseDoc_fail _ _ ts (fun tok htok => isLeaf_noFail (h2 tok htok))

theorem lex_wt_pos {r : Rec} {ig : List Char} {t : Str} {ts : List Token} {tok : Token} (h : lexWith r ig t = .ok ts)
    (ht : tok ∈ ts) : 1 ≤ wt t := by
  cases t with
  | nil =>
    have : lexWith r ig [] = .ok [] := rfl
    rw [this] at h
    injection h with h
    subst h
    simp at ht
  | cons c cs =>
    unfold wt
    split
    · simp; omega
    · simp

theorem recF_agree_step (m n n' : Nat) (hn : m + 1 ≤ n) (hn' : m + 1 ≤ n') (t : Str) (ht : wt t ≤ m)
    (ih : ∀ k, k < m → ∀ a a', k + 1 ≤ a → k + 1 ≤ a' → ∀ u, wt u ≤ k →
      (recF a).lex u = (recF a').lex u ∧ ∀ ig, (recF a).render ig u = (recF a').render ig u) :
    (recF n).lex t = (recF n').lex t ∧ ∀ ig, (recF n).render ig t = (recF n').render ig t := by
  obtain ⟨a, rfl⟩ : ∃ a, n = a + 1 := ⟨n - 1, by omega⟩
  obtain ⟨a', rfl⟩ : ∃ a', n' = a' + 1 := ⟨n' - 1, by omega⟩
  have hlex : ∀ ig, lexWith (recF a) ig t = lexWith (recF a') ig t := by
    intro ig
    refine lexWith_congr ?_
    intro u hu
    have := wt_child hu
    have := ih (m - 1) (by omega) a a' (by omega) (by omega) u (by omega)
    exact ⟨this.1, this.2 _⟩
  refine ⟨hlex [], fun ig => ?_⟩
  show (lexWith (recF a) ig t >>= fun ts => parseDoc (recF a) ts) = (lexWith (recF a') ig t >>= fun ts => parseDoc (recF a') ts)
  rw [← hlex ig]
  cases hl : lexWith (recF a) ig t with
  | panic => rfl
  | hang => rfl
  | fuelOut => rfl
  | ok ts =>
    simp only [Outcome.ok_bind]
    refine parseDoc_congr _ _ ts (fun tok htok => ?_)
    refine (deep_kids hl tok htok).mono (fun tok' hk k hkid => ?_)
    rcases wt_kid (hk k hkid) with h | h
    · exact (ih (m - 1) (by omega) a a' (by omega) (by omega) k (by omega)).2 []
    · obtain ⟨b, rfl⟩ : ∃ b, a = b + 1 := ⟨a - 1, by have := lex_wt_pos hl htok; omega⟩
      obtain ⟨b', rfl⟩ : ∃ b, a' = b + 1 := ⟨a' - 1, by have := lex_wt_pos hl htok; omega⟩
      exact (recF_err b b' h).2 []

/-- From `wt t + 1` nested calls on, the result does not depend on the number of nested calls allowed. -/
theorem recF_agree (m : Nat) : ∀ (n n' : Nat), m + 1 ≤ n → m + 1 ≤ n' → ∀ t, wt t ≤ m →
    (recF n).lex t = (recF n').lex t ∧ ∀ ig, (recF n).render ig t = (recF n').render ig t := by
  induction m using Nat.strongRecOn with
  | ind m ih =>
    intro n n' hn hn' t ht
    exact recF_agree_step m n n' hn hn' t ht (fun k hk a a' ha ha' u hu => ih k hk a a' ha ha' u hu)

/-- A failure of rendering or lexing with enough fuel is never `fuelOut`. -/
theorem recF_no_fuelOut (m : Nat) : ∀ (n : Nat), m + 1 ≤ n → ∀ t, wt t ≤ m →
    ((recF n).lex t).fail ≠ some .fuelOut ∧ ∀ ig, ((recF n).render ig t).fail ≠ some .fuelOut := by
  induction m using Nat.strongRecOn with
  | ind m ih =>
    intro n hn t ht
    obtain ⟨a, rfl⟩ : ∃ a, n = a + 1 := ⟨n - 1, by omega⟩
    have hlex : ∀ ig, (lexWith (recF a) ig t).fail ≠ some .fuelOut := by
      intro ig hf
      obtain ⟨last, s', hs', hf⟩ := lexWith_fail hf
      cases nextToken_fail hf with
      | lex u _ hc _ hf =>
        have := wt_child (Child.of_infix hs'.isInfix hc)
        exact (ih (m - 1) (by omega) a (by omega) u (by omega)).1 hf
      | render u _ hc _ hf =>
        have := wt_child (Child.of_infix hs'.isInfix hc)
        exact (ih (m - 1) (by omega) a (by omega) u (by omega)).2 _ hf
    refine ⟨hlex [], fun ig hf => ?_⟩
    rcases Outcome.fail_bind' hf with hf | ⟨ts, hl, hf⟩
    · exact hlex ig hf
    · refine parseDoc_fail _ _ ts (fun tok htok => ?_) hf
      refine ((deep_kids hl tok htok).and (deep_tables hl tok htok)).mono ?_
      rintro tok' ⟨hk, htab⟩
      refine ⟨fun k hkid => ?_, htab⟩
      rcases wt_kid (hk k hkid) with h | h
      · exact (ih (m - 1) (by omega) a (by omega) k (by omega)).2 []
      · obtain ⟨b, rfl⟩ : ∃ b, a = b + 1 := ⟨a - 1, by have := lex_wt_pos hl htok; omega⟩
        exact (recF_err_ok b [] h _).2

theorem wt_le (s : Str) : wt s ≤ 8 * s.length := by
  unfold wt
  split <;> omega

/-- `render` is `recF n` for every large enough `n`. -/
theorem render_eq (s : Str) (n : Nat) (h : wt s + 1 ≤ n) : (recF n).render [] s = render s := by
  have := wt_le s
  unfold render renderIgnore
  exact (recF_agree (wt s) n (fuelFor s) h (by unfold fuelFor; omega) s (Nat.le_refl _)).2 []

theorem lex_eq (s : Str) (n : Nat) (h : wt s + 1 ≤ n) : (recF n).lex s = lex s := by
  have := wt_le s
  unfold lex
  exact (recF_agree (wt s) n (fuelFor s) h (by unfold fuelFor; omega) s (Nat.le_refl _)).1

theorem renderIgnore_eq (ig : List Char) (s : Str) (n : Nat) (h : wt s + 1 ≤ n) :
    (recF n).render ig s = renderIgnore ig s := by
  have := wt_le s
  unfold renderIgnore
  exact (recF_agree (wt s) n (fuelFor s) h (by unfold fuelFor; omega) s (Nat.le_refl _)).2 ig

theorem fuelFor_succ (s : Str) : ∃ b, fuelFor s = b + 1 ∧ wt s ≤ b := by
  have := wt_le s
  exact ⟨9 * s.length + 1, rfl, by omega⟩

theorem recF_lex (n : Nat) (s : Str) : (recF (n + 1)).lex s = lexWith (recF n) [] s := rfl

theorem recF_render (n : Nat) (ig : List Char) (s : Str) :
    (recF (n + 1)).render ig s = (lexWith (recF n) ig s >>= fun ts => parseDoc (recF n) ts) := rfl

theorem renderIgnore_err_ok (ig : List Char) {k : Str} (h : k ∈ errTexts) (e : Fail) :
    (renderIgnore ig k).fail ≠ some e := by
  obtain ⟨b, hb, _⟩ := fuelFor_succ k
  unfold renderIgnore
  rw [hb]
  exact (recF_err_ok b ig h e).2

theorem recF_err_self (a : Nat) (ig : List Char) {k : Str} (h : k ∈ errTexts) :
    (recF (a + 1)).render ig k = renderIgnore ig k := by
  obtain ⟨b, hb, _⟩ := fuelFor_succ k
  unfold renderIgnore
  rw [hb]
  exact (recF_err a b h).2 ig

theorem lexWith_self (s : Str) (ig : List Char) (n : Nat) (h : wt s ≤ n) : lexWith (recF n) ig s = lexWith self ig s := by
  refine lexWith_congr ?_
  intro u hu
  have := wt_child hu
  exact ⟨lex_eq u n (by omega), renderIgnore_eq _ u n (by omega)⟩

theorem parseDoc_self {s : Str} {ig : List Char} {n m : Nat} {ts : List Token} (h : wt s ≤ n)
    (hl : lexWith (recF m) ig s = .ok ts) : parseDoc (recF n) ts = parseDoc self ts := by
  refine parseDoc_congr _ _ ts (fun tok htok => ?_)
  refine (deep_kids hl tok htok).mono (fun tok' hk k hkid => ?_)
  rcases wt_kid (hk k hkid) with h' | h'
  · exact renderIgnore_eq [] k n (by omega)
  · obtain ⟨b, rfl⟩ : ∃ b, n = b + 1 := ⟨n - 1, by have := lex_wt_pos hl htok; omega⟩
    exact recF_err_self b [] h'

/-- The recursion equation of `Parser::lex`. -/
theorem lex_unfold (s : Str) : lex s = lexWith self [] s := by
  obtain ⟨b, hb, hle⟩ := fuelFor_succ s
  unfold lex
  rw [hb, recF_lex]
  exact lexWith_self s [] b hle

/-- The recursion equation of `Parser::render_ignore`. -/
theorem renderIgnore_unfold (ig : List Char) (s : Str) :
    renderIgnore ig s = (lexWith self ig s >>= fun ts => parseDoc self ts) := by
  obtain ⟨b, hb, hle⟩ := fuelFor_succ s
  have e := lexWith_self s ig b hle
  have u : renderIgnore ig s = (recF (fuelFor s)).render ig s := by unfold renderIgnore; rfl
  rw [u, hb, recF_render, ← e]
  cases hl : lexWith (recF b) ig s with
  | ok ts => exact parseDoc_self hle hl
  | panic => rfl
  | hang => rfl
  | fuelOut => rfl

/-- The recursion equation of `Parser::render`. -/
theorem render_unfold (s : Str) : render s = (lexWith self [] s >>= fun ts => parseDoc self ts) :=
  renderIgnore_unfold [] s

theorem lexWith_self_recF {ig : List Char} {s : Str} {ts : List Token} (h : lexWith self ig s = .ok ts) :
    lexWith (recF (wt s)) ig s = .ok ts := by
  rw [lexWith_self s ig (wt s) (Nat.le_refl _)]
  exact h

theorem lexWith_self_ne_fuelOut (ig : List Char) (s : Str) : (lexWith self ig s).fail ≠ some .fuelOut := by
  rw [← lexWith_self s ig (wt s) (Nat.le_refl _)]
  intro hf
  obtain ⟨last, s', hs', hf⟩ := lexWith_fail hf
  cases nextToken_fail hf with
  | lex u _ hc _ hf =>
    have := wt_child (Child.of_infix hs'.isInfix hc)
    exact (recF_no_fuelOut (wt u) _ (by omega) u (Nat.le_refl _)).1 hf
  | render u _ hc _ hf =>
    have := wt_child (Child.of_infix hs'.isInfix hc)
    exact (recF_no_fuelOut (wt u) _ (by omega) u (Nat.le_refl _)).2 _ hf

theorem renderIgnore_ne_fuelOut (ig : List Char) (s : Str) : (renderIgnore ig s).fail ≠ some .fuelOut := by
  have := wt_le s
  unfold renderIgnore
  exact (recF_no_fuelOut (wt s) (fuelFor s) (by unfold fuelFor; omega) s (Nat.le_refl _)).2 ig

theorem self_lex (s : Str) : self.lex s = lex s := rfl

theorem self_render (ig : List Char) (s : Str) : self.render ig s = renderIgnore ig s := rfl


/-- Rendering a text of a class of texts that is closed under parts and escapes never fails in the way `e` if the two
sources of failure cannot occur in the class. -/
theorem no_fail (e : Fail) (D : Str → Prop) (hinf : ∀ s t, D s → t <:+: s → D t) (hsan : ∀ x, D (sanitize x))
    (hlabel : e = .panic → ∀ sep line, sep = ' ' ∨ sep = '\t' → '\n' ∉ line → D ('#' :: sep :: line) →
      headingLabel line ≠ .panic)
    (hdetails : e = .hang → ∀ p s1, DetailsStart p → D (p ++ s1) →
      contains (untilTail c!"</details>" s1).1 c!"<details>" = true →
      detailsLoop s1 (untilTail c!"</details>" s1).2.length (untilTail c!"</details>" s1).2 ≠ .hang) :
    ∀ (m : Nat) (t : Str), wt t ≤ m → D t → (lex t).fail ≠ some e ∧ ∀ ig, (renderIgnore ig t).fail ≠ some e := by
  intro m
  induction m using Nat.strongRecOn with
  | ind m ih =>
    intro t ht hD
    have hlex : ∀ ig, (lexWith self ig t).fail ≠ some e := by
      intro ig hf
      obtain ⟨last, s', hs', hf⟩ := lexWith_fail hf
      cases nextToken_fail hf with
      | lex u _ hc _ hf =>
        have hc' := Child.of_infix hs'.isInfix hc
        have := wt_child hc'
        rw [self_lex] at hf
        exact (ih (m - 1) (by omega) u (by omega) (hinf t u hD hc'.1)).1 hf
      | render u _ hc _ hf =>
        have hc' := Child.of_infix hs'.isInfix hc
        have := wt_child hc'
        rw [self_render] at hf
        exact (ih (m - 1) (by omega) u (by omega) (hinf t u hD hc'.1)).2 _ hf
      | label sep line h1 h2 h3 h4 => exact hlabel rfl sep line h1 h3 (hinf t _ hD (h2.trans hs'.isInfix)) h4
      | details u s1 h1 h2 h3 h4 =>
        subst h1
        exact hdetails rfl u s1 h2 (hinf t _ hD hs'.isInfix) h3 h4
    refine ⟨by rw [lex_unfold]; exact hlex [], fun ig hf => ?_⟩
    rw [renderIgnore_unfold] at hf
    rcases Outcome.fail_bind' hf with hf | ⟨ts, hl, hf⟩
    · exact hlex ig hf
    · have hl' := lexWith_self_recF hl
      refine parseDoc_fail _ _ ts (fun tok htok => ?_) hf
      refine ((deep_kids hl' tok htok).and (deep_tables hl' tok htok)).mono ?_
      rintro tok' ⟨hk, htab⟩
      refine ⟨fun k hkid => ?_, htab⟩
      rw [self_render]
      cases hk k hkid with
      | child _ hc _ =>
        have := wt_child hc
        exact (ih (m - 1) (by omega) k (by omega) (hinf t k hD hc.1)).2 []
      | quote x hc hg =>
        have h2 := wt_kid (.quote x hc hg)
        rcases h2 with h2 | h2
        · exact (ih (m - 1) (by omega) _ (by omega) (hsan x)).2 []
        · exact renderIgnore_err_ok [] h2 e
      | err _ he => exact renderIgnore_err_ok [] he e

/-- The same for a document that need not be in the class itself, if its one-line parts and its parts without nested
details are. -/
theorem no_fail_top (e : Fail) (D : Str → Prop) (hinf : ∀ s t, D s → t <:+: s → D t) (hsan : ∀ x, D (sanitize x))
    (hlabel : e = .panic → ∀ sep line, sep = ' ' ∨ sep = '\t' → '\n' ∉ line → D ('#' :: sep :: line) →
      headingLabel line ≠ .panic)
    (hdetails : e = .hang → ∀ p s1, DetailsStart p → D (p ++ s1) →
      contains (untilTail c!"</details>" s1).1 c!"<details>" = true →
      detailsLoop s1 (untilTail c!"</details>" s1).2.length (untilTail c!"</details>" s1).2 ≠ .hang)
    (d : Str) (hchild : ∀ u, u <:+: d → OneLine u ∨ Flat u → D u)
    (hdetails' : e = .hang → ∀ p s1, DetailsStart p → p ++ s1 <:+ d →
      contains (untilTail c!"</details>" s1).1 c!"<details>" = true →
      detailsLoop s1 (untilTail c!"</details>" s1).2.length (untilTail c!"</details>" s1).2 ≠ .hang) (ig : List Char) :
    (renderIgnore ig d).fail ≠ some e := by
  have hD := no_fail e D hinf hsan hlabel hdetails
  have hlex : ∀ ig, (lexWith self ig d).fail ≠ some e := by
    intro ig hf
    obtain ⟨last, s', hs', hf⟩ := lexWith_fail hf
    cases nextToken_fail hf with
    | lex u _ hc hk hf =>
      rw [self_lex] at hf
      exact (hD _ u (Nat.le_refl _) (hchild u (Child.of_infix hs'.isInfix hc).1 hk)).1 hf
    | render u _ hc hk hf =>
      rw [self_render] at hf
      exact (hD _ u (Nat.le_refl _) (hchild u (Child.of_infix hs'.isInfix hc).1 (.inl hk))).2 _ hf
    | label sep line h1 h2 h3 h4 =>
      refine hlabel rfl sep line h1 h3 (hchild _ (h2.trans hs'.isInfix) (.inl (.of_no_nl ?_))) h4
      rcases h1 with rfl | rfl <;> simpa using h3
    | details u s1 h1 h2 h3 h4 =>
      subst h1
      exact hdetails' rfl u s1 h2 hs' h3 h4
  intro hf
  rw [renderIgnore_unfold] at hf
  rcases Outcome.fail_bind' hf with hf | ⟨ts, hl, hf⟩
  · exact hlex ig hf
  · have hl' := lexWith_self_recF hl
    refine parseDoc_fail _ _ ts (fun tok htok => ?_) hf
    refine ((deep_kids hl' tok htok).and (deep_tables hl' tok htok)).mono ?_
    rintro tok' ⟨hk, htab⟩
    refine ⟨fun k hkid => ?_, htab⟩
    rw [self_render]
    cases hk k hkid with
    | child _ hc h1 => exact (hD _ k (Nat.le_refl _) (hchild k hc.1 (.inl h1))).2 []
    | quote x hc hg => exact (hD _ _ (Nat.le_refl _) (hsan x)).2 []
    | err _ he => exact renderIgnore_err_ok [] he e

end Smd.Gfm
