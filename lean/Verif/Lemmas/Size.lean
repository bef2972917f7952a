import Verif.Lemmas.Shape

/-!
How many characters one call of `Lexer::next_token` consumes, compared with the texts in the token it produces.
-/

namespace Smd.Gfm
open Smd.Rs

/-- Tokens whose rendering neither calls back into the renderer nor contains other tokens. -/
def leafy : Token → Bool
  | .header _ _ _ => false
  | .unorderedListEntry _ => false
  | .blockQuote _ _ => false
  | .detail _ _ => false
  | .table _ _ => false
  | _ => true

/-- The number of characters in the texts a leafy token shows. -/
def tsize : Token → Nat
  | .plaintext t => t.length
  | .orderedListEntry t => t.length
  | .italic t => t.length
  | .bold t => t.length
  | .boldItalic t => t.length
  | .strikethrough t => t.length
  | .code t => t.length
  | .image l t => l.length + (t.getD []).length
  | .link u t h => u.content.length + ((u.scheme.map Scheme.display).getD []).length + (t.getD []).length + (h.getD []).length
  | .taskListItem _ t => t.length
  | .footnote i t => i.length + t.length
  | _ => 0

/-- The token `t`, lexed from a text `s` with `p` characters consumed. -/
inductive Size (r : Rec) (s : Str) (p : Nat) : Token → Prop
  | leaf (t : Token) (hl : leafy t = true) (h : tsize t + 1 ≤ 40 * p) : Size r s p t
  | headerEmpty (n : Nat) (h6 : n ≤ 6) : Size r s p (.header n [] none)
  | header (n : Nat) (arg html : Str) (h6 : n ≤ 6) (hp : arg.length + 1 ≤ p) (ha : arg <:+: s) (h1 : '\n' ∉ arg)
      (hr : r.render ['#'] arg = .ok html) : Size r s p (.header n (headingPost html) none)
  | ul (xs : List Str) (hp : (xs.map (fun x => x.length + 1)).sum ≤ p) (h : ∀ x ∈ xs, x <:+: s ∧ OneLine x)
      (h1 : OneLine s → xs.length = 1) : Size r s p (.unorderedListEntry (xs.map .plaintext))
  | ulLex (xs : List Str) (l : Str) (ts : List Token) (hp : (xs.map (fun x => x.length + 1)).sum + l.length ≤ p)
      (h : ∀ x ∈ xs, x <:+: s ∧ OneLine x) (hl : l <:+: s) (hl1 : OneLine l) (hr : r.lex l = .ok ts) (hn : ¬ OneLine s) :
      Size r s p (.unorderedListEntry (xs.map .plaintext ++ ts))
  | quote (n : Nat) (x : Str) (hp : n + x.length ≤ p) (hx : x <:+: s) (h1 : '\n' ∉ x) (hg : '>' ∈ s) :
      Size r s p (.blockQuote n x)
  | detail (sum x : Str) (ts : List Token) (hp : sum.length + x.length + 1 ≤ p) (hx : x <:+: s) (hr : r.lex x = .ok ts)
      (hn : ¬ OneLine s) : Size r s p (.detail sum ts)
  | table (l0 l1 : Str) (body : List Str) (rows : List (List (Alignment × List Token)))
      (hp : l0.length + l1.length + (body.map (fun l => l.length + 1)).sum + 1 ≤ p)
      (hb : ∀ l ∈ body, l <:+: s ∧ OneLine l) (hr : tableRows r ((cells l1).map cellAlign) body = .ok rows) (hn : ¬ OneLine s)
      (hg : '|' ∈ s) :
      Size r s p (.table (((cells l1).map cellAlign).zip ((cells l0).map trim)) rows)

theorem len_while (p : Char → Bool) (s : Str) : (s.takeWhile p).length + (s.dropWhile p).length = s.length := by
  rw [← List.length_append, List.takeWhile_append_dropWhile]

theorem len_slice (a b : Str) : (slice a b).length ≤ a.length - b.length := by
  simp [slice]

theorem len_untilTail (tail s : Str) : (untilTail tail s).1.length + (untilTail tail s).2.length = s.length := by
  have := congrArg List.length (untilTail_append tail s)
  simpa using this

theorem len_skipIf (c : Char) (s : Str) : (skipIf c s).length ≤ s.length := (skipIf_suffix c s).length_le

theorem len_drop_le (n : Nat) (s : Str) : (s.drop n).length ≤ s.length := by simp

theorem Size.plain {r : Rec} {s : Str} {p : Nat} {x : Str} (h : x.length + 1 ≤ 40 * p) : Size r s p (resToken (.error x)) :=
  .leaf _ rfl h

theorem lexHeading_size (r : Rec) (cs : Str) (res : LexRes × Str) (h : lexHeading r ('#' :: cs) = .ok res) :
    Size r ('#' :: cs) (cs.length + 1 - res.2.length) (resToken res.1) := by
  have hpos : 1 ≤ (('#' :: cs).takeWhile (· == '#')).length := takeWhile_len_pos (by decide)
  have hl := len_while (· == '#') ('#' :: cs)
  have hs1 : ('#' :: cs).dropWhile (· == '#') <:+ '#' :: cs := dropWhile_suffix _ _
  unfold lexHeading at h
  simp only at h
  generalize ('#' :: cs).takeWhile (· == '#') = hashes at *
  generalize ('#' :: cs).dropWhile (· == '#') = s1 at *
  simp only [List.length_cons] at hl
  split at h
  · injection h with h
    subst h
    exact .plain (by simp only; omega)
  · split at h
    · injection h with h
      subst h
      exact .plain (by simp only; omega)
    · next s2 hsep =>
      have hs2 := headingSep_suffix hsep
      have hl2 := hs2.length_le
      have hw := len_while (· != '\n') s2
      cases hlab : headingLabel (s2.takeWhile (· != '\n')) with
      | panic => rw [hlab] at h; cases h
      | hang => rw [hlab] at h; cases h
      | fuelOut => rw [hlab] at h; cases h
      | ok line =>
        rw [hlab] at h
        simp only [Outcome.ok_bind] at h
        split at h
        · injection h with h
          subst h
          exact .headerEmpty _ (by omega)
        · generalize harg : trimEndP (fun c => c == ' ' || c == '\t') (headingTrim line) = arg at h
          have hai : arg <:+: s2.takeWhile (· != '\n') := by
            subst harg
            exact (trimEndP_prefix _ _).isInfix.trans ((headingTrim_prefix _).isInfix.trans (headingLabel_ok hlab))
          have hal := hai.length_le
          cases hr : r.render ['#'] arg with
          | panic => rw [hr] at h; cases h
          | hang => rw [hr] at h; cases h
          | fuelOut => rw [hr] at h; cases h
          | ok html =>
            rw [hr] at h
            simp only [Outcome.ok_bind] at h
            injection h with h
            subst h
            refine .header _ arg html (by omega) (by simp only; omega)
              (hai.trans ((takeWhile_infix _ _).trans (hs2.trans hs1).isInfix)) ?_ hr
            intro hm
            have := mem_takeWhile_true _ _ _ (hai.subset hm)
            simp at this

theorem lexNewlines_size (r : Rec) (cs : Str) :
    Size r ('\n' :: cs) (cs.length + 1 - (lexNewlines ('\n' :: cs)).2.length) (resToken (lexNewlines ('\n' :: cs)).1) := by
  have hpos : 1 ≤ (('\n' :: cs).takeWhile (· == '\n')).length := takeWhile_len_pos (by decide)
  have hl := len_while (· == '\n') ('\n' :: cs)
  unfold lexNewlines
  generalize ('\n' :: cs).takeWhile (· == '\n') = hashes at *
  generalize ('\n' :: cs).dropWhile (· == '\n') = s1 at *
  simp only [List.length_cons] at hl
  simp only
  split
  · exact .leaf _ rfl (by simp only [resToken, tsize]; omega)
  · exact .plain (by simp only; omega)

theorem lexTabsSpacesGo_size (r : Rec) (last : Option Token) : ∀ (n : Nat) (c : Char) (cs : Str),
    (c = '\t' ∨ c = ' ') → (c :: cs).length ≤ n →
    leafy (resToken (lexTabsSpacesGo last n (c :: cs)).1) = true ∧
    tsize (resToken (lexTabsSpacesGo last n (c :: cs)).1) + (lexTabsSpacesGo last n (c :: cs)).2.length ≤ cs.length + 1 ∧
    (lexTabsSpacesGo last n (c :: cs)).2.length ≤ cs.length
  | 0, c, cs, hc, hn => by simp at hn
  | n + 1, c, cs, hc, hn => by
    have hpc : (fun c : Char => c == '\t' || c == ' ') c = true := by
      rcases hc with rfl | rfl <;> decide
    have hpos := takeWhile_len_pos (p := (fun c : Char => c == '\t' || c == ' ')) (cs := cs) hpc
    have hl := len_while (fun c : Char => c == '\t' || c == ' ') (c :: cs)
    unfold lexTabsSpacesGo
    have hlen : (c :: cs).length = cs.length + 1 := rfl
    generalize hs : c :: cs = s at *
    generalize hws : s.takeWhile (fun c => c == '\t' || c == ' ') = ws at *
    generalize hsd : s.dropWhile (fun c => c == '\t' || c == ' ') = s1 at *
    simp only
    have hu := len_untilTail c!"\n" s1
    split
    · exact ⟨rfl, by simp only [resToken, tsize]; omega, by simp only; omega⟩
    · split
      · exact ⟨rfl, by simp only [resToken, tsize]; omega, by simp only; omega⟩
      · split
        · exact ⟨rfl, by simp only [resToken, tsize]; omega, by simp only; omega⟩
        · split
          · exact ⟨rfl, by simp only [resToken, tsize]; omega, by simp only; omega⟩
          · split
            · exact ⟨rfl, by simp only [resToken, tsize]; omega, by simp only; omega⟩
            · split
              · next hw =>
                have hw2 : ws.length = 2 := by rw [hw]; rfl
                exact ⟨rfl, by simp only [resToken, tsize, List.length_append, List.length_cons, List.length_nil]; omega,
                  by simp only; omega⟩
              · split
                · next hh =>
                  cases hd : (untilTail c!"\n" s1).2 with
                  | nil => rw [hd] at hh; simp at hh
                  | cons d ds =>
                    rw [hd] at hh hu
                    have hdc : d = '\t' ∨ d = ' ' := by simpa using hh
                    simp only [List.length_cons] at hu
                    have hlen : (d :: ds).length ≤ n := by simp only [List.length_cons]; omega
                    have ⟨i1, i2, i3⟩ := lexTabsSpacesGo_size r last n d ds hdc hlen
                    split
                    · next x y s3 he =>
                      rw [he] at i2 i3
                      exact ⟨rfl, by simp only [resToken, tsize]; simp only at i3; omega, by simp only at i3 ⊢; omega⟩
                    · next x s3 he =>
                      rw [he] at i2 i3
                      simp only [resToken, tsize] at i2 i3 ⊢
                      exact ⟨rfl, by omega, by omega⟩
                    · next s3 he =>
                      rw [he] at i2 i3
                      simp only [resToken, tsize, List.length_nil] at i2 i3 ⊢
                      exact ⟨rfl, by omega, by omega⟩
                · have := len_slice s (untilTail c!"\n" s1).2
                  exact ⟨rfl, by simp only [resToken, tsize]; omega, by simp only; omega⟩

theorem lexTabsSpaces_size (r : Rec) (last : Option Token) (c : Char) (cs : Str) (hc : c = '\t' ∨ c = ' ') :
    Size r (c :: cs) (cs.length + 1 - (lexTabsSpaces last (c :: cs)).2.length) (resToken (lexTabsSpaces last (c :: cs)).1) := by
  have ⟨h1, h2, h3⟩ := lexTabsSpacesGo_size r last (c :: cs).length c cs hc (Nat.le_refl _)
  exact .leaf _ h1 (by unfold lexTabsSpaces; omega)

theorem lexNumbers_size (r : Rec) (c : Char) (cs : Str) :
    Size r (c :: cs) (cs.length + 1 - (lexNumbers (c :: cs)).2.length) (resToken (lexNumbers (c :: cs)).1) := by
  unfold lexNumbers
  split
  · next t h =>
    injection h with h1 h2
    have := len_while (· != '\n') t
    subst h2
    exact .leaf _ rfl (by simp only [resToken, tsize, List.length_cons]; omega)
  · next d t h h' =>
    injection h' with h1 h2
    subst h1 h2
    exact .plain (by simp only [List.length_cons, List.length_nil]; omega)
  · next d t h h' h'' =>
    injection h'' with h1 h2
    subst h1 h2
    exact .plain (by simp only [List.length_cons, List.length_nil]; omega)
  · next h => cases h

theorem lexEscaped_size (r : Rec) (c : Char) (cs : Str) :
    Size r (c :: cs) (cs.length + 1 - (lexEscaped (c :: cs)).2.length) (resToken (lexEscaped (c :: cs)).1) := by
  unfold lexEscaped
  simp only [List.drop_succ_cons, List.drop_zero]
  split
  · exact .plain (by simp)
  · next d t =>
    have hw := len_while (· == '#') (d :: t)
    simp only [List.length_cons] at hw
    split
    · exact .leaf _ rfl (by simp only [resToken, tsize, List.length_cons]; omega)
    · exact .leaf _ rfl (by simp only [resToken, tsize, List.length_cons, List.length_nil]; omega)

theorem lexAsteriskUnderscore_size (r : Rec) (c : Char) (cs : Str) (hc : c = '*' ∨ c = '_') :
    Size r (c :: cs) (cs.length + 1 - (lexAsteriskUnderscore (c :: cs)).2.length)
      (resToken (lexAsteriskUnderscore (c :: cs)).1) := by
  have hpc : (fun c : Char => c == '*' || c == '_' || c == '\t') c = true := by
    rcases hc with rfl | rfl <;> decide
  have hpos := takeWhile_len_pos (p := (fun c : Char => c == '*' || c == '_' || c == '\t')) (cs := cs) hpc
  have hl := len_while (fun c : Char => c == '*' || c == '_' || c == '\t') (c :: cs)
  have hs1 : (c :: cs).dropWhile (fun c => c == '*' || c == '_' || c == '\t') <:+ c :: cs := dropWhile_suffix _ _
  unfold lexAsteriskUnderscore
  generalize (c :: cs).dropWhile (fun c => c == '*' || c == '_' || c == '\t') = s1 at *
  generalize (c :: cs).takeWhile (fun c => c == '*' || c == '_' || c == '\t') = au at *
  simp only [List.length_cons] at hl
  have hw1 := len_while (fun c => !isAU c) s1
  have hw2 := len_while isAU (s1.dropWhile (fun c => !isAU c))
  have hsl : ∀ x : Str, (slice (c :: cs) x).length ≤ cs.length + 1 - x.length := fun x => len_slice _ _
  simp only
  split
  · next hh =>
    cases s1 with
    | nil => simp at hh
    | cons d ds =>
      simp only [List.drop_succ_cons, List.drop_zero]
      have hw := len_while (· != '\n') ds
      have hd := len_drop_le 1 (ds.dropWhile (· != '\n'))
      simp only [List.length_cons] at hl
      refine .ul [ds.takeWhile (· != '\n')] ?_ ?_ (fun _ => rfl)
      · simp only [List.map_cons, List.map_nil, List.sum_cons, List.sum_nil]; omega
      · intro x hx
        have hx : x = ds.takeWhile (· != '\n') := by simpa using hx
        subst hx
        exact ⟨(takeWhile_infix _ _).trans ((List.suffix_cons d ds).trans hs1).isInfix, .takeWhile _⟩
  · split
    · exact .leaf _ rfl (by simp only [resToken, tsize]; omega)
    · split
      · have hd := len_drop_le 1 (s1.dropWhile (fun c => !isAU c))
        split
        · exact .leaf _ rfl (by simp only [resToken, tsize]; omega)
        · have := hsl (s1.dropWhile (fun c => !isAU c))
          exact .plain (by simp only; omega)
      · split
        · split
          · exact .leaf _ rfl (by simp only [resToken, tsize]; omega)
          · have := hsl ((s1.dropWhile (fun c => !isAU c)).dropWhile isAU)
            exact .plain (by simp only; omega)
        · split
          · split
            · exact .leaf _ rfl (by simp only [resToken, tsize]; omega)
            · have := hsl ((s1.dropWhile (fun c => !isAU c)).dropWhile isAU)
              exact .plain (by simp only; omega)
          · split
            · exact .leaf _ rfl (by simp only [resToken, tsize]; omega)
            · exact .plain (by simp only; omega)

theorem lexBlockquotes_size (r : Rec) (cs : Str) :
    Size r ('>' :: cs) (cs.length + 1 - (lexBlockquotes ('>' :: cs)).2.length) (resToken (lexBlockquotes ('>' :: cs)).1) := by
  have hpos : 1 ≤ (('>' :: cs).takeWhile (· == '>')).length := takeWhile_len_pos (by decide)
  have hl := len_while (· == '>') ('>' :: cs)
  have hs1 : ('>' :: cs).dropWhile (· == '>') <:+ '>' :: cs := dropWhile_suffix _ _
  unfold lexBlockquotes
  generalize ('>' :: cs).takeWhile (· == '>') = a at *
  generalize ('>' :: cs).dropWhile (· == '>') = s1 at *
  simp only [List.length_cons] at hl
  have hw := len_while (· != '\n') s1
  have hk := len_skipIf '\n' (s1.dropWhile (· != '\n'))
  have hm := Nat.mod_le a.length 256
  simp only
  split
  · exact .quote _ _ (by simp only; omega) ((takeWhile_infix _ _).trans hs1.isInfix)
      (fun hm => by have := mem_takeWhile_true _ _ _ hm; simp at this) (by simp)
  · exact .plain (by simp only; omega)

theorem contLines_len : ∀ (n : Nat) (s : Str),
    ((contLines n s).1.map (fun x => x.length + 1)).sum + (contLines n s).2.length ≤ s.length
  | 0, s => by simp [contLines]
  | n + 1, s => by
    unfold contLines
    split
    · next hs =>
      have ⟨t, ht⟩ := List.isPrefixOf_iff_prefix.mp hs
      have hlen : s.length = t.length + 3 := by rw [← ht]; simp
      have hd : s.drop 3 = t := by rw [← ht]; simp
      simp only [hd]
      have ih := contLines_len n (t.dropWhile (· != '\n'))
      have hw := len_while (· != '\n') t
      simp only [List.map_cons, List.sum_cons]
      omega
    · simp

theorem contLines_one {n : Nat} {s : Str} (h : OneLine s) : contLines n s = ([], s) := by
  cases n with
  | zero => rfl
  | succ n =>
    unfold contLines
    rw [if_neg]
    intro hs
    have hp := (List.isPrefixOf_iff_prefix.mp hs).isInfix
    exact absurd (h.infix hp) (by unfold OneLine; decide)

theorem lexPlusMinus_size (r : Rec) (c : Char) (cs : Str) (hc : c = '-' ∨ c = '+') (res : LexRes × Str)
    (h : lexPlusMinus r (c :: cs) = .ok res) :
    Size r (c :: cs) (cs.length + 1 - res.2.length) (resToken res.1) := by
  have hpc : (fun c : Char => c == '-' || c == '+') c = true := by
    rcases hc with rfl | rfl <;> decide
  have hpos := takeWhile_len_pos (p := (fun c : Char => c == '-' || c == '+')) (cs := cs) hpc
  have hl := len_while (fun c : Char => c == '-' || c == '+') (c :: cs)
  have hs1 : (c :: cs).dropWhile (fun c => c == '-' || c == '+') <:+ c :: cs := dropWhile_suffix _ _
  unfold lexPlusMinus at h
  generalize (c :: cs).dropWhile (fun c => c == '-' || c == '+') = s1 at *
  generalize (c :: cs).takeWhile (fun c => c == '-' || c == '+') = run at *
  simp only [List.length_cons] at hl
  simp only at h
  split at h
  · injection h with h; subst h; exact .leaf _ rfl (by simp only [resToken, tsize]; omega)
  · split at h
    · injection h with h; subst h
      have : (slice (c :: cs) s1).length ≤ cs.length + 1 - s1.length := len_slice _ _
      exact .plain (by simp only; omega)
    · split at h
      · have hs2 : s1.dropWhile (· != '\n') <:+ c :: cs := (dropWhile_suffix _ _).trans hs1
        have hw := len_while (· != '\n') s1
        have ⟨hc1, hc2⟩ := contLines_spec (s1.dropWhile (· != '\n')).length (s1.dropWhile (· != '\n'))
        have hcl := contLines_len (s1.dropWhile (· != '\n')).length (s1.dropWhile (· != '\n'))
        have hone : OneLine (c :: cs) → contLines (s1.dropWhile (· != '\n')).length (s1.dropWhile (· != '\n')) =
            ([], s1.dropWhile (· != '\n')) := fun ho => contLines_one (ho.infix hs2.isInfix)
        generalize hmore : contLines (s1.dropWhile (· != '\n')).length (s1.dropWhile (· != '\n')) = cl at *
        have hk := len_skipIf '\n' cl.2
        have hskip : OneLine (c :: cs) → skipIf '\n' cl.2 = [] := by
          intro ho
          rw [hone ho]
          cases hd : s1.dropWhile (· != '\n') with
          | nil => rfl
          | cons d ds =>
            have hdn : d = '\n' := by
              have h0 := List.head?_dropWhile_not (fun x : Char => x != '\n') s1
              rw [hd] at h0
              simpa using h0
            subst hdn
            rw [hd] at hs2
            have h2 := ho.infix hs2.isInfix
            cases ds with
            | nil => rfl
            | cons e es => simp [OneLine] at h2
        have hsl := len_slice s1 cl.2
        have htask : ∀ b, Size r (c :: cs) (cs.length + 1 - (skipIf '\n' cl.2).length)
            (.taskListItem b ((slice s1 cl.2).drop 5)) := by
          intro b
          have := len_drop_le 5 (slice s1 cl.2)
          exact .leaf _ rfl (by simp only [tsize]; omega)
        have helems : ∀ x ∈ s1.takeWhile (· != '\n') :: cl.1, x <:+: c :: cs ∧ OneLine x := by
          intro x hx
          rcases List.mem_cons.mp hx with rfl | hx
          · exact ⟨(takeWhile_infix _ _).trans hs1.isInfix, .takeWhile _⟩
          · exact ⟨(hc2 x hx).1.trans hs2.isInfix, (hc2 x hx).2⟩
        have hplain : Size r (c :: cs) (cs.length + 1 - (skipIf '\n' cl.2).length)
            (.unorderedListEntry ((s1.takeWhile (· != '\n') :: cl.1).map .plaintext)) := by
          refine .ul _ ?_ helems ?_
          · simp only [List.map_cons, List.sum_cons]; omega
          · intro ho; rw [hone ho]; rfl
        split at h
        · injection h with h; subst h; exact htask _
        · split at h
          · injection h with h; subst h; exact htask _
          · split at h
            · next l s5 hla =>
              have e := lineAhead_parts hla
              have hl1 := lineAhead_oneLine hla
              have hle := congrArg List.length e
              simp only [List.length_append] at hle
              have hli : l <:+: c :: cs := by
                have : l <+: skipIf '\n' cl.2 := ⟨s5, e.symm⟩
                exact this.isInfix.trans ((skipIf_suffix _ _).trans (hc1.trans hs2)).isInfix
              have hn : ¬ OneLine (c :: cs) := by
                intro ho
                rw [hskip ho] at hla
                simp [lineAhead] at hla
              split at h
              · cases hr : r.lex l with
                | panic => rw [hr] at h; cases h
                | hang => rw [hr] at h; cases h
                | fuelOut => rw [hr] at h; cases h
                | ok ts =>
                  rw [hr] at h
                  simp only [Outcome.ok_bind] at h
                  injection h with h; subst h
                  refine .ulLex _ l ts ?_ helems hli hl1 hr hn
                  simp only [List.map_cons, List.sum_cons]; omega
              · split at h
                · cases hr : r.lex (l.drop 1) with
                  | panic => rw [hr] at h; cases h
                  | hang => rw [hr] at h; cases h
                  | fuelOut => rw [hr] at h; cases h
                  | ok ts =>
                    rw [hr] at h
                    simp only [Outcome.ok_bind] at h
                    injection h with h; subst h
                    have := len_drop_le 1 l
                    refine .ulLex _ _ ts ?_ helems ((List.drop_suffix 1 l).isInfix.trans hli)
                      (hl1.infix (List.drop_suffix 1 l).isInfix) hr hn
                    simp only [List.map_cons, List.sum_cons]; omega
                · injection h with h; subst h; exact hplain
            · injection h with h; subst h; exact hplain
      · omega

theorem lexTilde_size (r : Rec) (cs : Str) :
    Size r ('~' :: cs) (cs.length + 1 - (lexTilde ('~' :: cs)).2.length) (resToken (lexTilde ('~' :: cs)).1) := by
  have hpos : 1 ≤ (('~' :: cs).takeWhile (· == '~')).length := takeWhile_len_pos (by decide)
  have hl := len_while (· == '~') ('~' :: cs)
  unfold lexTilde
  generalize ('~' :: cs).takeWhile (· == '~') = lead at *
  generalize ('~' :: cs).dropWhile (· == '~') = s1 at *
  simp only [List.length_cons] at hl
  have hw1 := len_while (· != '~') s1
  have hw2 := len_while (· == '~') (s1.dropWhile (· != '~'))
  have hsl : ∀ x : Str, (slice ('~' :: cs) x).length ≤ cs.length + 1 - x.length := fun x => len_slice _ _
  simp only
  split
  · exact .plain (by simp only; omega)
  · split
    · split
      · have := hsl ((s1.dropWhile (· != '~')).dropWhile (· == '~'))
        exact .plain (by simp only; omega)
      · exact .leaf _ rfl (by simp only [resToken, tsize]; omega)
    · exact .plain (by simp only; omega)

theorem lexBackticks_size (r : Rec) (cs : Str) :
    Size r ('`' :: cs) (cs.length + 1 - (lexBackticks ('`' :: cs)).2.length) (resToken (lexBackticks ('`' :: cs)).1) := by
  have hpos : 1 ≤ (('`' :: cs).takeWhile (· == '`')).length := takeWhile_len_pos (by decide)
  have hl := len_while (· == '`') ('`' :: cs)
  unfold lexBackticks
  generalize ('`' :: cs).takeWhile (· == '`') = ticks at *
  generalize ('`' :: cs).dropWhile (· == '`') = s1 at *
  simp only [List.length_cons] at hl
  have hsl : ∀ x : Str, (slice ('`' :: cs) x).length ≤ cs.length + 1 - x.length := fun x => len_slice _ _
  simp only
  split
  · have hs2 : (if s1.head? = some '\n' then s1.drop 1 else (s1.dropWhile (· != '\n')).drop 1).length ≤ s1.length := by
      split
      · exact len_drop_le _ _
      · exact Nat.le_trans (len_drop_le _ _) (dropWhile_suffix _ _).length_le
    generalize (if s1.head? = some '\n' then s1.drop 1 else (s1.dropWhile (· != '\n')).drop 1) = s2 at *
    have hw1 := len_while (· != '`') s2
    have hw2 := len_while (· == '`') (s2.dropWhile (· != '`'))
    split
    · have := hsl ((s2.dropWhile (· != '`')).dropWhile (· == '`'))
      exact .plain (by simp only; omega)
    · exact .leaf _ rfl (by simp only [resToken, tsize]; omega)
  · generalize List.replicate ticks.length '`' = tail
    have hu := len_untilTail tail s1
    have hb := (trimEndStr_prefix tail (untilTail tail s1).1).length_le
    split
    · have := hsl (untilTail tail s1).2
      exact .plain (by simp only; omega)
    · split
      · have h1 := (trimEndP_prefix (· == ' ') (trimStartP (· == ' ') (trimEndStr tail (untilTail tail s1).1))).length_le
        have h2 := (trimStartP_suffix (· == ' ') (trimEndStr tail (untilTail tail s1).1)).length_le
        exact .leaf _ rfl (by simp only [resToken, tsize]; omega)
      · exact .leaf _ rfl (by simp only [resToken, tsize]; omega)

theorem len_takeWhile (p : Char → Bool) (s : Str) : (s.takeWhile p).length ≤ s.length := by
  have := len_while p s; omega

theorem len_afterLastColon (s : Str) : (afterLastColon s).length ≤ s.length := by
  unfold afterLastColon
  have := len_takeWhile (· != ':') s.reverse
  simpa using this

theorem len_stripScheme (a s : Str) : (stripScheme a s).length ≤ s.length :=
  Nat.le_trans (stripPrefix_getD_infix _ _).length_le (stripPrefix_getD_infix _ _).length_le

theorem len_sourceScheme {s : Str} {sc : Scheme} (h : sourceScheme s = some sc) : sc.display.length ≤ s.length := by
  have hl := len_takeWhile (· != ':') s
  unfold sourceScheme at h
  simp only at h
  split at h
  · split at h
    · injection h with h; subst h; exact hl
    · split at h
      · injection h with h; subst h; exact hl
      · split at h <;> (injection h with h; subst h; exact hl)
  · cases h

theorem validateLink_len {l : Str} {u : ValidURL} (h : validateLink l = .ok u) :
    u.content.length + ((u.scheme.map Scheme.display).getD []).length ≤ 2 * l.length + 6 := by
  unfold validateLink at h
  have ha := len_afterLastColon l
  split at h
  · cases h
  · simp only at h
    split at h
    · cases h
    · split at h
      · cases h
      · split at h
        · cases h
        · split at h
          · split at h
            · next sc hsc =>
              have := len_sourceScheme hsc
              injection h with h; subst h
              simp only [Option.map_some, Option.getD_some]; omega
            · injection h with h; subst h
              simp [Scheme.display]; omega
          · split at h
            · cases h
            · split at h
              all_goals first
                | (next s hsc =>
                    have h1 := len_sourceScheme hsc
                    have h2 := len_stripScheme s l
                    injection h with h; subst h
                    simp only [Option.map_some, Option.getD_some, Scheme.display] at h1 ⊢; omega)
                | (injection h with h; subst h; simp; omega)

theorem validateLink_err {l e : Str} (h : validateLink l = .error e) : e = l := by
  unfold validateLink at h
  split at h
  · injection h with h; exact h.symm
  · simp only at h
    split at h
    · injection h with h; exact h.symm
    · split at h
      · injection h with h; exact h.symm
      · split at h
        · injection h with h; exact h.symm
        · split at h
          · split at h <;> cases h
          · split at h
            · injection h with h; exact h.symm
            · split at h <;> cases h

/-- `lex_links` on a text starting with `[`: one character less than 8 times the consumed part. -/
theorem lexLinks_size (cs : Str) :
    leafy (resToken (lexLinks ('[' :: cs)).1) = true ∧ (lexLinks ('[' :: cs)).2.length ≤ cs.length ∧
      tsize (resToken (lexLinks ('[' :: cs)).1) ≤ 2 * (cs.length + 1 - (lexLinks ('[' :: cs)).2.length) + 6 := by
  unfold lexLinks
  rw [if_neg (by simp)]
  simp only [List.drop_succ_cons, List.drop_zero]
  have hw := len_while (· != ']') cs
  have hsl : ∀ x : Str, (slice ('[' :: cs) x).length ≤ cs.length + 1 - x.length := fun x => len_slice _ _
  generalize cs.takeWhile (· != ']') = title at *
  generalize cs.dropWhile (· != ']') = s2 at *
  split
  · have := hsl s2
    exact ⟨rfl, by simp only; omega, by simp only [resToken, tsize]; omega⟩
  · have hd2 := len_drop_le 1 s2
    generalize s2.drop 1 = s3 at *
    split
    · have hd3 := len_drop_le 1 s3
      generalize s3.drop 1 = s4 at *
      have hfl := (footnoteLoop_suffix (s4.length + 1) s4).length_le
      generalize footnoteLoop (s4.length + 1) s4 = res at *
      have := hsl res.2
      have h4 := len_slice s4 res.2
      have h5 := (trim_infix (slice s4 res.2)).length_le
      have h6 := (stripPrefix_getD_infix c!"^" title).length_le
      split
      · exact ⟨rfl, by simp only; omega, by simp only [resToken, tsize]; omega⟩
      · split
        · exact ⟨rfl, by simp only; omega, by simp only [resToken, tsize]; omega⟩
        · exact ⟨rfl, by simp only; omega, by simp only [resToken, tsize]; omega⟩
    · split
      · have := hsl s3
        exact ⟨rfl, by simp only; omega, by simp only [resToken, tsize]; omega⟩
      · have hd3 := len_drop_le 1 s3
        generalize s3.drop 1 = s4 at *
        have hw4 := len_while (fun c => c != ')' && c != ' ') s4
        generalize s4.takeWhile (fun c => c != ')' && c != ' ') = link at *
        generalize s4.dropWhile (fun c => c != ')' && c != ' ') = s5 at *
        split
        · have := hsl s5
          exact ⟨rfl, by simp only; omega, by simp only [resToken, tsize]; omega⟩
        · split
          · have hd5 := len_drop_le 1 s5
            split
            · next vl hv =>
              have := validateLink_len hv
              exact ⟨rfl, by simp only; omega, by
                simp only [resToken, tsize, Option.getD_some, Option.getD_none, List.length_nil]; omega⟩
            · next e he =>
              have := validateLink_err he
              subst this
              exact ⟨rfl, by simp only; omega, by simp only [resToken, tsize]; omega⟩
          · have hw5 := len_while (· != ')') s5
            have hd5 := len_drop_le 1 ((s5.dropWhile (· != ')')).dropWhile (· != '\n'))
            have hd6 := (dropWhile_suffix (· != '\n') (s5.dropWhile (· != ')'))).length_le
            split
            · next vl hv =>
              have := validateLink_len hv
              exact ⟨rfl, by simp only; omega, by
                simp only [resToken, tsize, Option.getD_some]; omega⟩
            · next e he =>
              have := validateLink_err he
              subst this
              exact ⟨rfl, by simp only; omega, by simp only [resToken, tsize]; omega⟩

theorem lexLinks_size' (r : Rec) (cs : Str) :
    Size r ('[' :: cs) (cs.length + 1 - (lexLinks ('[' :: cs)).2.length) (resToken (lexLinks ('[' :: cs)).1) := by
  have ⟨h1, h2, h3⟩ := lexLinks_size cs
  exact .leaf _ h1 (by omega)

theorem lexImages_size (r : Rec) (cs : Str) :
    Size r ('!' :: cs) (cs.length + 1 - (lexImages ('!' :: cs)).2.length) (resToken (lexImages ('!' :: cs)).1) := by
  unfold lexImages
  rw [if_neg (by simp)]
  simp only [List.drop_succ_cons, List.drop_zero]
  have hsuf := (lexLinks_shape cs).1.length_le
  have hsl : ∀ x : Str, (slice ('!' :: cs) x).length ≤ cs.length + 1 - x.length := fun x => len_slice _ _
  split
  · next e s1 he =>
    rw [he] at hsuf
    have := hsl s1
    exact .plain (by simp only at hsuf ⊢; omega)
  · next u t hv s1 he =>
    have hb : ∃ ds, cs = '[' :: ds := by
      cases cs with
      | nil => simp [lexLinks] at he
      | cons d ds =>
        by_cases hd : d = '['
        · exact ⟨ds, by rw [hd]⟩
        · simp [lexLinks, hd] at he
    obtain ⟨ds, rfl⟩ := hb
    have ⟨h1, h2, h3⟩ := lexLinks_size ds
    rw [he] at h2 h3
    simp only [resToken, tsize] at h2 h3
    exact .leaf _ rfl (by simp only [resToken, tsize, List.length_cons]; omega)
  · next tok s1 hn he =>
    rw [he] at hsuf
    refine .plain ?_
    have : (c!"Non link token returned from lex_links").length = 38 := rfl
    simp only at hsuf ⊢
    rw [this]; omega

theorem detailsLoop_len (start : Str) : ∀ (n : Nat) (s : Str) (res : Str × Str), s <:+ start →
    detailsLoop start n s = .ok res → res.1.length + res.2.length ≤ start.length
  | n, s, res, hs, h => by
    unfold detailsLoop at h
    simp only at h
    split at h
    · injection h with h; subst h
      have h1 := len_slice start s
      have h2 := hs.length_le
      simp only; omega
    · split at h
      · cases h
      · next n =>
        split at h
        · cases h
        · exact detailsLoop_len start n _ res ((untilTail_suffix _ _).trans hs) h

theorem parseDetails_size (r : Rec) (s0 s : Str) (p : Nat) (hss : '\n' :: s <:+: s0) (res : LexRes × Str)
    (h : parseDetails r s = .ok res) (hp : s.length - res.2.length + 1 ≤ p) : Size r s0 p (resToken res.1) := by
  unfold parseDetails at h
  have hw := len_while (fun c => c != '\n' && c != '\r') s
  have hsum := takeWhile_infix (fun c => c != '\n' && c != '\r') s
  have hk := len_skipIf '\r' (s.dropWhile (fun c => c != '\n' && c != '\r'))
  have hs1 : skipIf '\r' (s.dropWhile (fun c => c != '\n' && c != '\r')) <:+ s :=
    (skipIf_suffix _ _).trans (dropWhile_suffix _ _)
  generalize s.takeWhile (fun c => c != '\n' && c != '\r') = summary at *
  generalize skipIf '\r' (s.dropWhile (fun c => c != '\n' && c != '\r')) = s1 at *
  simp only at h
  split at h
  · injection h with h; subst h
    exact .plain (by simp only at hp; omega)
  · next hguard =>
    split at h
    · cases h
    · next sum1 hsp =>
      have hne : s ≠ [] := by
        intro e
        subst e
        have := List.eq_nil_of_infix_nil hsum
        subst this
        exact absurd hguard (by decide)
      have hn : ¬ OneLine s0 := by
        intro ho
        have := ho.infix hss
        cases s with
        | nil => exact hne rfl
        | cons a b => simp [OneLine] at this
      have hs2 := untilTail_suffix c!"</details>" s1
      have hp2 := untilTail_prefix c!"</details>" s1
      have hu := len_untilTail c!"</details>" s1
      generalize untilTail c!"</details>" s1 = ut at *
      cases hres : (if contains ut.1 c!"<details>" then detailsLoop s1 ut.2.length ut.2 else .ok (ut.1, ut.2)) with
      | panic => rw [hres] at h; cases h
      | hang => rw [hres] at h; cases h
      | fuelOut => rw [hres] at h; cases h
      | ok rr =>
        rw [hres] at h
        simp only [Outcome.ok_bind] at h
        have hrr : rr.1.length + rr.2.length ≤ s1.length ∧ rr.1 <+: s1 := by
          split at hres
          · have ⟨a, b⟩ := detailsLoop_ok _ _ _ _ hres
            exact ⟨detailsLoop_len _ _ _ _ hs2 hres, b⟩
          · injection hres with hres
            subst hres
            exact ⟨by simp only; omega, hp2⟩
        cases hr : r.lex ((stripSuffix c!"</details>" rr.1).getD []) with
        | panic => rw [hr] at h; cases h
        | hang => rw [hr] at h; cases h
        | fuelOut => rw [hr] at h; cases h
        | ok inner =>
          rw [hr] at h
          simp only [Outcome.ok_bind] at h
          injection h with h; subst h
          have h1 : sum1.length ≤ summary.length := by rw [stripPrefix_some hsp]; simp; omega
          have h2 := (stripSuffix_getD_infix c!"</summary>" sum1).length_le
          have h3 := (stripSuffix_getD_infix c!"</details>" rr.1).length_le
          simp only at hp
          refine .detail _ _ inner (by omega) ?_ hr hn
          exact (stripSuffix_getD_infix _ _).trans (hrr.2.isInfix.trans (hs1.isInfix.trans
            ((List.suffix_cons _ _).isInfix.trans hss)))

theorem lexSideCarrot_size (r : Rec) (cs : Str) (res : LexRes × Str) (h : lexSideCarrot r ('<' :: cs) = .ok res) :
    Size r ('<' :: cs) (cs.length + 1 - res.2.length) (resToken res.1) := by
  have hprog := (lexSideCarrot_shape r cs res h).2.length_le
  unfold lexSideCarrot at h
  rw [if_neg (by simp)] at h
  simp only [List.drop_succ_cons, List.drop_zero] at h
  have hw := len_while (· != '>') cs
  have hs2 := dropWhile_suffix (· != '>') cs
  have hsl : ∀ x : Str, (slice ('<' :: cs) x).length ≤ cs.length + 1 - x.length := fun x => len_slice _ _
  generalize cs.takeWhile (· != '>') = t at *
  generalize cs.dropWhile (· != '>') = s2 at *
  split at h
  · next hgt =>
    have hd := len_drop_le 1 s2
    have hs3 : s2.drop 1 <:+ cs := (List.drop_suffix 1 _).trans hs2
    generalize s2.drop 1 = s3 at *
    split at h
    · have hk := len_skipIf '\r' s3
      have hs4 := (skipIf_suffix '\r' s3).trans hs3
      generalize skipIf '\r' s3 = s4 at *
      split at h
      · next hnl =>
        cases s4 with
        | nil => simp at hnl
        | cons a b =>
          simp only [List.drop_succ_cons, List.drop_zero] at h
          have ha : a = '\n' := by simpa using hnl
          subst ha
          simp only [List.length_cons] at hk
          refine parseDetails_size r _ b _ (hs4.trans (List.suffix_cons _ _)).isInfix res h ?_
          omega
      · injection h with h; subst h
        exact .plain (by simp only; omega)
    · split at h
      · have := hsl s3
        split at h
        · injection h with h; subst h
          exact .plain (by simp only; omega)
        · split at h
          · next vl hv =>
            have hvl := validateLink_len hv
            split at h
            · injection h with h; subst h
              exact .leaf _ rfl (by simp only [resToken, tsize, Option.getD_none, List.length_nil]; omega)
            · injection h with h; subst h
              exact .plain (by simp only; omega)
          · injection h with h; subst h
            exact .plain (by simp only; omega)
      · injection h with h; subst h
        exact .plain (by simp only [List.length_cons, List.length_nil]; omega)
  · injection h with h; subst h
    exact .plain (by simp only; omega)

theorem pipeLines_len : ∀ (n : Nat) (s : Str),
    ((pipeLines n s).1.map (fun x => x.length + 1)).sum + (pipeLines n s).2.length ≤ s.length
  | 0, s => by simp [pipeLines]
  | n + 1, s => by
    unfold pipeLines
    split
    · next hs =>
      cases s with
      | nil => simp at hs
      | cons a t =>
        simp only [List.drop_succ_cons, List.drop_zero]
        have ih := pipeLines_len n ((t.dropWhile (· != '\n')).drop 1)
        have hw := len_while (· != '\n') t
        have hd := len_drop_le 1 (t.dropWhile (· != '\n'))
        simp only [List.map_cons, List.sum_cons, List.length_cons]
        omega
    · simp

/-- A text that is one line has at most one line starting with `|`. -/
theorem pipeLines_one : ∀ (n : Nat) (s : Str), OneLine s → (pipeLines n s).1.length ≤ 1
  | 0, s, _ => by simp [pipeLines]
  | n + 1, s, h => by
    unfold pipeLines
    split
    · next hs =>
      have he : ((s.drop 1).dropWhile (· != '\n')).drop 1 = [] := by
        cases hd : (s.drop 1).dropWhile (· != '\n') with
        | nil => rfl
        | cons d ds =>
          have hdn : d = '\n' := by
            have h0 := List.head?_dropWhile_not (fun x : Char => x != '\n') (s.drop 1)
            rw [hd] at h0
            simpa using h0
          subst hdn
          have hi : '\n' :: ds <:+: s := by
            rw [← hd]
            exact ((dropWhile_suffix _ _).trans (List.drop_suffix 1 s)).isInfix
          have h2 := h.infix hi
          cases ds with
          | nil => rfl
          | cons e es => simp [OneLine] at h2
      simp only [he]
      cases n with
      | zero => simp [pipeLines]
      | succ n => simp [pipeLines]
    · simp

theorem lexPipes_size (r : Rec) (cs : Str) (res : LexRes × Str) (h : lexPipes r ('|' :: cs) = .ok res) :
    Size r ('|' :: cs) (cs.length + 1 - res.2.length) (resToken res.1) := by
  have hprog := (lexPipes_shape r cs res h).2.length_le
  have hlen := pipeLines_len ('|' :: cs).length ('|' :: cs)
  have hone := pipeLines_one ('|' :: cs).length ('|' :: cs)
  have ⟨_, hlines⟩ := pipeLines_spec ('|' :: cs).length ('|' :: cs)
  have hol := pipeLines_oneLine ('|' :: cs).length ('|' :: cs)
  unfold lexPipes at h
  generalize pipeLines ('|' :: cs).length ('|' :: cs) = pl at *
  obtain ⟨lines, s1⟩ := pl
  simp only [List.length_cons] at h hlen hone hlines hol
  have hsl : (slice ('|' :: cs) s1).length ≤ cs.length + 1 - s1.length := len_slice _ _
  split at h
  · injection h with h; subst h
    exact .plain (by simp only at hprog ⊢; omega)
  · next hl3 =>
    have hn : ¬ OneLine ('|' :: cs) := fun ho => by have := hone ho; omega
    split at h
    · next l0 l1 body _ =>
      split at h
      · injection h with h; subst h
        exact .plain (by simp only at hprog ⊢; omega)
      · cases hr : tableRows r ((cells l1).map cellAlign) body with
        | panic => rw [hr] at h; cases h
        | hang => rw [hr] at h; cases h
        | fuelOut => rw [hr] at h; cases h
        | ok rows =>
          rw [hr] at h
          simp only [Outcome.ok_bind] at h
          injection h with h; subst h
          simp only [List.map_cons, List.sum_cons] at hlen
          exact .table l0 l1 body rows (by simp only; omega) (fun l hl => ⟨(hlines l (by simp [hl])).1, hol l (by simp [hl])⟩) hr hn (by simp)
    · cases h

theorem lexDispatch_size (r : Rec) (ignore : List Char) (last : Option Token) (c : Char) (cs : Str) (res : LexRes × Str)
    (h : lexDispatch r ignore last c (c :: cs) = .ok res) :
    Size r (c :: cs) (cs.length + 1 - res.2.length) (resToken res.1) := by
  unfold lexDispatch at h
  by_cases hc : c = '#' ∧ ignore.contains '#' = false
  · rw [if_pos hc] at h
    obtain ⟨rfl, _⟩ := hc; exact lexHeading_size r cs res h
  rw [if_neg hc] at h
  clear hc
  by_cases hc : c = '\n'
  · rw [if_pos hc] at h
    subst hc; injection h with h; subst h; exact lexNewlines_size r cs
  rw [if_neg hc] at h
  clear hc
  by_cases hc : c = ' ' ∨ c = '\t'
  · rw [if_pos hc] at h
    injection h with h; subst h
    exact lexTabsSpaces_size r last c cs hc.symm
  rw [if_neg hc] at h
  clear hc
  by_cases hc : c ∈ c!"1234567890"
  · rw [if_pos hc] at h
    injection h with h; subst h; exact lexNumbers_size r c cs
  rw [if_neg hc] at h
  clear hc
  by_cases hc : c = '*' ∨ c = '_'
  · rw [if_pos hc] at h
    injection h with h; subst h; exact lexAsteriskUnderscore_size r c cs hc
  rw [if_neg hc] at h
  clear hc
  by_cases hc : c = '-' ∨ c = '+'
  · rw [if_pos hc] at h
    exact lexPlusMinus_size r c cs hc res h
  rw [if_neg hc] at h
  clear hc
  by_cases hc : c = '>'
  · rw [if_pos hc] at h
    subst hc; injection h with h; subst h; exact lexBlockquotes_size r cs
  rw [if_neg hc] at h
  clear hc
  by_cases hc : c = '~'
  · rw [if_pos hc] at h
    subst hc; injection h with h; subst h; exact lexTilde_size r cs
  rw [if_neg hc] at h
  clear hc
  by_cases hc : c = '`'
  · rw [if_pos hc] at h
    subst hc; injection h with h; subst h; exact lexBackticks_size r cs
  rw [if_neg hc] at h
  clear hc
  by_cases hc : c = '['
  · rw [if_pos hc] at h
    subst hc; injection h with h; subst h; exact lexLinks_size' r cs
  rw [if_neg hc] at h
  clear hc
  by_cases hc : c = '!'
  · rw [if_pos hc] at h
    subst hc; injection h with h; subst h; exact lexImages_size r cs
  rw [if_neg hc] at h
  clear hc
  by_cases hc : c = '<'
  · rw [if_pos hc] at h
    subst hc; exact lexSideCarrot_size r cs res h
  rw [if_neg hc] at h
  clear hc
  by_cases hc : c = '|'
  · rw [if_pos hc] at h
    subst hc; exact lexPipes_size r cs res h
  rw [if_neg hc] at h
  clear hc
  by_cases hc : c = '\\'
  · rw [if_pos hc] at h
    injection h with h; subst h; exact lexEscaped_size r c cs
  rw [if_neg hc] at h
  clear hc
  injection h with h; subst h
  exact .leaf _ rfl (by simp [resToken, tsize])

theorem nextToken_size {r : Rec} {ignore : List Char} {last : Option Token} {s s' : Str} {t : Token}
    (h : nextToken r ignore last s = .ok (some (t, s'))) : Size r s (s.length - s'.length) t := by
  cases s with
  | nil => simp [nextToken] at h
  | cons c cs =>
    unfold nextToken at h
    cases hd : lexDispatch r ignore last c (c :: cs) with
    | panic => simp only [hd] at h; cases h
    | hang => simp only [hd] at h; cases h
    | fuelOut => simp only [hd] at h; cases h
    | ok res =>
      simp only [hd, Outcome.ok_bind] at h
      injection h with h
      injection h with h
      injection h with h1 h2
      subst h1 h2
      exact lexDispatch_size r ignore last c cs res hd

end Smd.Gfm
