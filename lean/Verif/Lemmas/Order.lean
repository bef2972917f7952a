import Verif.Lemmas.Elements
import Verif.Lemmas.Chars
import Verif.Lemmas.Size

/-!
The characters outside ASCII of what one call of `Lexer::next_token` produces, in order, compared with those it consumes, and
then those of the output compared with the document's.
-/

namespace Smd.Gfm
open Smd.Rs

/-- Characters outside ASCII. They are in none of the renderer's own texts, but for the arrow of the endnotes. -/
def far (c : Char) : Bool := decide (128 ≤ c.toNat)

/-- The characters outside ASCII of one text are among those of another, in the same order (`true`) or in any. -/
def Less (m : Bool) (x y : Str) : Prop :=
  if m = true then (x.filter far).Sublist (y.filter far) else ∀ c, far c = true → x.count c ≤ y.count c

variable {m : Bool}

theorem Less.refl (x : Str) : Less m x x := by
  unfold Less
  split
  · exact List.Sublist.refl _
  · exact fun _ _ => Nat.le_refl _

theorem Less.trans {x y z : Str} (h : Less m x y) (h' : Less m y z) : Less m x z := by
  cases m with
  | true => exact List.Sublist.trans h h'
  | false => exact fun c hc => Nat.le_trans (h c hc) (h' c hc)

theorem Less.of {x y : Str} (h : x.Sublist y) : Less m x y := by
  unfold Less
  split
  · exact h.filter far
  · exact fun c _ => h.count_le c

theorem Less.append {x y x' y' : Str} (h : Less m x y) (h' : Less m x' y') : Less m (x ++ x') (y ++ y') := by
  cases m with
  | true =>
    show ((x ++ x').filter far).Sublist ((y ++ y').filter far)
    rw [List.filter_append, List.filter_append]
    exact List.Sublist.append h h'
  | false =>
    intro c hc
    rw [List.count_append, List.count_append]
    exact Nat.add_le_add (h c hc) (h' c hc)

theorem Less.comm (x y : Str) : Less false (x ++ y) (y ++ x) := by
  intro c _
  rw [List.count_append, List.count_append, Nat.add_comm]
  exact Nat.le_refl _

theorem Less.infix {x y : Str} (h : x <:+: y) : Less m x y := .of h.sublist

theorem Less.own {x y : Str} (h : x.all (fun c => !far c) = true) : Less m x y := by
  have hn : ∀ c ∈ x, far c ≠ true := fun c hc => by simpa using List.all_eq_true.mp h c hc
  unfold Less
  split
  · rw [List.filter_eq_nil_iff.mpr hn]
    exact List.nil_sublist _
  · intro c hc
    rw [List.count_eq_zero.mpr fun hm => hn c hm hc]
    exact Nat.zero_le _

theorem Less.ownL {o x y : Str} (h : o.all (fun c => !far c) = true) (hx : Less m x y) : Less m (o ++ x) y :=
  (Less.append (y := []) (.own h) hx)

theorem Less.ownR {o x y : Str} (h : o.all (fun c => !far c) = true) (hx : Less m x y) : Less m (x ++ o) y := by
  have := hx.append (Less.own (y := []) h)
  rwa [List.append_nil] at this

theorem Less.nil (y : Str) : Less m [] y := .own rfl

theorem Less.flat {x : Str} {f : Char → Str} (h : ∀ c, Less m (f c) [c]) : Less m (x.flatMap f) x := by
  induction x with
  | nil => exact .nil _
  | cons c x ih => exact (h c).append ih

theorem Less.san (x : Str) : Less m (sanitize x) x := by
  rw [sanitize_eq_flatMap]
  refine .flat fun c => ?_
  by_cases h : c ∈ escSpecial
  · exact .own ((by decide : ∀ c ∈ escSpecial, (esc c).all (fun c => !far c) = true) c h)
  · rw [esc_other c h]
    exact .refl _

theorem Less.rep {o : Str} (h : o.all (fun c => !far c) = true) (n : Nat) (y : Str) : Less m (rep n o) y := by
  refine .own (List.all_eq_true.mpr fun c hc => ?_)
  obtain ⟨x, hx, hc⟩ := List.mem_flatten.mp hc
  rw [List.eq_of_mem_replicate hx] at hc
  exact List.all_eq_true.mp h c hc

theorem Less.replaceStr {p r : Str} (hr : r.all (fun c => !far c) = true) (x : Str) : Less m (replaceStr p r x) x := by
  have : ∀ (x : Str) (k : Nat), Less m (replaceGo p r k x) x := by
    intro x
    induction x with
    | nil => intro k; cases k <;> exact .nil _
    | cons c x ih =>
      intro k
      have step : Less m x (c :: x) := .of (List.sublist_cons_self c x)
      cases k with
      | succ k => exact (ih k).trans step
      | zero =>
        unfold replaceGo
        split
        · exact .ownL hr ((ih _).trans step)
        · exact Less.append (x := [c]) (y := [c]) (.refl _) (ih 0)
  exact this x 0

theorem sub_while {p : Char → Bool} {x y s : Str} (hx : x.Sublist (s.takeWhile p)) (hy : y.Sublist (s.dropWhile p)) : (x ++ y).Sublist s := by
  have := hx.append hy
  rwa [List.takeWhile_append_dropWhile] at this

theorem slice_rest {a b : Str} (h : b <:+ a) : slice a b ++ b = a := by
  obtain ⟨q, rfl⟩ := h
  unfold slice
  simp

theorem Less.slice {a b s : Str} (h : b <:+ a) (ha : a <:+ s) : Less m (slice a b ++ b) s := by
  rw [slice_rest h]
  exact .infix ha.isInfix

/-! ### Tokens -/

/-- The text that a token without nested text shows. -/
def shown : Token → Str
  | .plaintext x | .orderedListEntry x | .italic x | .bold x | .boldItalic x | .strikethrough x | .code x | .taskListItem _ x => x
  | _ => []

/-- Tokens without nested text that show their text once. -/
def once : Token → Bool
  | .header _ _ _ | .unorderedListEntry _ | .blockQuote _ _ | .detail _ _ | .table _ _ | .image _ _ | .link _ _ _ | .footnote _ _ => false
  | _ => true

/-- The token `t`, lexed from a text `s` of which `s'` is left. -/
inductive Ord (m : Bool) (r : Rec) (s s' : Str) : Token → Prop
  | leaf (t : Token) (hl : once t = true) (h : Less m (shown t ++ s') s) : Ord m r s s' t
  | headerEmpty (n : Nat) (h : Less m s' s) : Ord m r s s' (.header n [] none)
  | header (n : Nat) (arg html : Str) (ha : arg <:+: s) (hr : r.render ['#'] arg = .ok html) (h : Less m (arg ++ s') s) :
      Ord m r s s' (.header n (headingPost html) none)
  | ul (xs : List Str) (hx : ∀ x ∈ xs, x <:+: s) (h : Less m (xs.flatten ++ s') s) : Ord m r s s' (.unorderedListEntry (xs.map .plaintext))
  | ulLex (xs : List Str) (l : Str) (ts : List Token) (hx : ∀ x ∈ xs, x <:+: s) (hl : l <:+: s) (hr : r.lex l = .ok ts)
      (h : Less m (xs.flatten ++ (l ++ s')) s) : Ord m r s s' (.unorderedListEntry (xs.map .plaintext ++ ts))
  | quote (n : Nat) (x : Str) (hx : x <:+: s) (h : Less m (x ++ s') s) : Ord m r s s' (.blockQuote n x)
  | link (u : ValidURL) (l title : Str) (hover : Option Str) (hv : validateLink l = .ok u) (hm : m = true → hover = none)
      (h : Less m (title ++ hover.getD [] ++ s') s) : Ord m r s s' (.link u (some title) hover)
  | autolink (u : ValidURL) (l : Str) (hv : validateLink l = .ok u) (h : Less m s' s) : Ord m r s s' (.link u none none)
  | image (u : ValidURL) (l title : Str) (hv : validateLink l = .ok u) (h : Less m (title ++ s') s) : Ord m r s s' (.image u.content (some title))

theorem Ord.plain {r : Rec} {s s' x : Str} (h : Less m (x ++ s') s) : Ord m r s s' (resToken (.error x)) := .leaf _ rfl h

theorem Less.run (p : Char → Bool) (s : Str) : Less m (s.takeWhile p ++ s.dropWhile p) s := by
  rw [List.takeWhile_append_dropWhile]
  exact .refl _

theorem lexHeading_ord (r : Rec) (s : Str) (res : LexRes × Str) (h : lexHeading r s = .ok res) : Ord m r s res.2 (resToken res.1) := by
  have hl := Less.run (m := m) (· == '#') s
  have hs1 : s.dropWhile (· == '#') <:+ s := dropWhile_suffix _ _
  unfold lexHeading at h
  simp only at h
  generalize s.takeWhile (· == '#') = hashes at *
  generalize s.dropWhile (· == '#') = s1 at *
  split at h
  · injection h with h
    subst h
    exact .plain hl
  · split at h
    · injection h with h
      subst h
      exact .plain hl
    · next s2 hsep =>
      have hs2 := (headingSep_suffix hsep).trans hs1
      cases hlab : headingLabel (s2.takeWhile (· != '\n')) with
      | panic => rw [hlab] at h; cases h
      | hang => rw [hlab] at h; cases h
      | fuelOut => rw [hlab] at h; cases h
      | ok line =>
        rw [hlab] at h
        simp only [Outcome.ok_bind] at h
        split at h
        · injection h with h
          subst h
          exact .headerEmpty _ (.infix ((dropWhile_suffix _ _).trans hs2).isInfix)
        · generalize harg : trimEndP (fun c => c == ' ' || c == '\t') (headingTrim line) = arg at h
          have hai : arg <:+: s2.takeWhile (· != '\n') := by
            subst harg
            exact (trimEndP_prefix _ _).isInfix.trans ((headingTrim_prefix _).isInfix.trans (headingLabel_ok hlab))
          cases hr : r.render ['#'] arg with
          | panic => rw [hr] at h; cases h
          | hang => rw [hr] at h; cases h
          | fuelOut => rw [hr] at h; cases h
          | ok html =>
            rw [hr] at h
            simp only [Outcome.ok_bind] at h
            injection h with h
            subst h
            exact .header _ arg html (hai.trans ((takeWhile_infix _ _).trans hs2.isInfix)) hr
              (.of ((sub_while hai.sublist (List.Sublist.refl _)).trans hs2.sublist))

theorem lexNewlines_ord (r : Rec) (s : Str) : Ord m r s (lexNewlines s).2 (resToken (lexNewlines s).1) := by
  unfold lexNewlines
  simp only
  split
  · exact .leaf _ rfl (.infix (dropWhile_suffix _ _).isInfix)
  · exact .plain (.run _ _)

theorem lexTabsSpacesGo_ord (last : Option Token) : ∀ (n : Nat) (s : Str), once (resToken (lexTabsSpacesGo last n s).1) = true ∧
    Less m (shown (resToken (lexTabsSpacesGo last n s).1) ++ (lexTabsSpacesGo last n s).2) s
  | 0, s => ⟨rfl, .refl _⟩
  | n + 1, s => by
    unfold lexTabsSpacesGo
    have hrun := Less.run (m := m) (fun c => c == '\t' || c == ' ') s
    have hs1 : s.dropWhile (fun c => c == '\t' || c == ' ') <:+ s := dropWhile_suffix _ _
    generalize s.takeWhile (fun c => c == '\t' || c == ' ') = ws at *
    generalize s.dropWhile (fun c => c == '\t' || c == ' ') = s1 at *
    have hu : Less m ((untilTail c!"\n" s1).1 ++ (untilTail c!"\n" s1).2) s := by
      rw [untilTail_append]
      exact .infix hs1.isInfix
    have hu2 : (untilTail c!"\n" s1).2 <:+ s := List.IsSuffix.trans ⟨_, untilTail_append c!"\n" s1⟩ hs1
    simp only
    split
    · exact ⟨rfl, hrun⟩
    · split
      · exact ⟨rfl, .infix hs1.isInfix⟩
      · split
        · exact ⟨rfl, hu⟩
        · split
          · exact ⟨rfl, hu⟩
          · split
            · exact ⟨rfl, hu⟩
            · split
              · exact ⟨rfl, by
                  show Less m ((c!"\t" ++ _) ++ _) s
                  rw [List.append_assoc]
                  exact .ownL (by decide) hu⟩
              · split
                · have ⟨i1, i2⟩ := lexTabsSpacesGo_ord last n (untilTail c!"\n" s1).2
                  have i3 := i2.trans (.infix hu2.isInfix)
                  split
                  · next x y s3 he =>
                    rw [he] at i3
                    exact ⟨rfl, i3⟩
                  · next x s3 he =>
                    rw [he] at i3
                    exact ⟨rfl, i3⟩
                  · next t s3 _ he =>
                    rw [he] at i3
                    exact ⟨rfl, (Less.of (List.sublist_append_right _ _)).trans i3⟩
                · exact ⟨rfl, .slice hu2 List.suffix_rfl⟩

theorem lexTabsSpaces_ord (r : Rec) (last : Option Token) (s : Str) : Ord m r s (lexTabsSpaces last s).2 (resToken (lexTabsSpaces last s).1) :=
  .leaf _ (lexTabsSpacesGo_ord (m := m) last s.length s).1 (lexTabsSpacesGo_ord last s.length s).2

theorem lexNumbers_ord (r : Rec) (s : Str) : Ord m r s (lexNumbers s).2 (resToken (lexNumbers s).1) := by
  unfold lexNumbers
  split
  · next c t =>
    exact .leaf _ rfl (Less.trans (.run _ _) (.infix (show t <:+ c :: '.' :: ' ' :: t from ⟨[c, '.', ' '], rfl⟩).isInfix))
  · exact .plain (.refl _)
  · exact .plain (.refl _)
  · exact .plain (.refl _)

theorem lexEscaped_ord (r : Rec) (s : Str) : Ord m r s (lexEscaped s).2 (resToken (lexEscaped s).1) := by
  unfold lexEscaped
  have hd : s.drop 1 <:+ s := List.drop_suffix 1 s
  split
  · exact .plain (.own (by decide))
  · next c t h =>
    rw [h] at hd
    split
    · exact .leaf _ rfl ((Less.run _ _).trans (.infix hd.isInfix))
    · exact .leaf _ rfl (.infix hd.isInfix)

theorem lexAsteriskUnderscore_ord (r : Rec) (s : Str) : Ord m r s (lexAsteriskUnderscore s).2 (resToken (lexAsteriskUnderscore s).1) := by
  have hl := Less.run (m := m) (fun c : Char => c == '*' || c == '_' || c == '\t') s
  have hs1 : s.dropWhile (fun c => c == '*' || c == '_' || c == '\t') <:+ s := dropWhile_suffix _ _
  unfold lexAsteriskUnderscore
  generalize s.dropWhile (fun c => c == '*' || c == '_' || c == '\t') = s1 at *
  generalize s.takeWhile (fun c => c == '*' || c == '_' || c == '\t') = au at *
  have h2 : s1.dropWhile (fun c => !isAU c) <:+ s := (dropWhile_suffix _ _).trans hs1
  have h3 : (s1.dropWhile (fun c => !isAU c)).dropWhile isAU <:+ s := (dropWhile_suffix _ _).trans h2
  have ht : ∀ y, y <:+ s1.dropWhile (fun c => !isAU c) → Less m (s1.takeWhile (fun c => !isAU c) ++ y) s := fun y hy =>
    .of ((sub_while (List.Sublist.refl _) hy.sublist).trans hs1.sublist)
  simp only
  split
  · refine .ul [(s1.drop 1).takeWhile (· != '\n')] ?_ ?_
    · intro x hx
      rw [List.mem_singleton.mp hx]
      exact (takeWhile_infix _ _).trans ((List.drop_suffix 1 s1).trans hs1).isInfix
    · rw [List.flatten_singleton]
      exact .of ((sub_while (List.Sublist.refl _) (List.drop_sublist 1 _)).trans ((List.drop_suffix 1 s1).trans hs1).sublist)
  · split
    · exact .leaf _ rfl (.infix hs1.isInfix)
    · split
      · split
        · exact .leaf _ rfl (ht _ (List.drop_suffix 1 _))
        · exact .plain (.slice h2 List.suffix_rfl)
      · split
        · split
          · exact .leaf _ rfl (ht _ (dropWhile_suffix _ _))
          · exact .plain (.slice h3 List.suffix_rfl)
        · split
          · split
            · exact .leaf _ rfl (ht _ (dropWhile_suffix _ _))
            · exact .plain (.slice h3 List.suffix_rfl)
          · split
            · exact .leaf _ rfl (.infix hs1.isInfix)
            · exact .plain hl

theorem lexBlockquotes_ord (r : Rec) (s : Str) : Ord m r s (lexBlockquotes s).2 (resToken (lexBlockquotes s).1) := by
  have hl := Less.run (m := m) (· == '>') s
  have hs1 : s.dropWhile (· == '>') <:+ s := dropWhile_suffix _ _
  unfold lexBlockquotes
  generalize s.takeWhile (· == '>') = a at *
  generalize s.dropWhile (· == '>') = s1 at *
  simp only
  split
  · exact .quote _ _ ((takeWhile_infix _ _).trans hs1.isInfix)
      (.of ((sub_while (List.Sublist.refl _) (skipIf_suffix _ _).sublist).trans hs1.sublist))
  · exact .plain hl

theorem contLines_ord : ∀ (n : Nat) (s : Str), ((contLines n s).1.flatten ++ (contLines n s).2).Sublist s
  | 0, s => by simp [contLines]
  | n + 1, s => by
    unfold contLines
    split
    · simp only [List.flatten_cons, List.append_assoc]
      exact (sub_while (List.Sublist.refl _) (contLines_ord n _)).trans (List.drop_sublist 3 s)
    · simp

theorem lexPlusMinus_ord (r : Rec) (s : Str) (res : LexRes × Str) (h : lexPlusMinus r s = .ok res) : Ord m r s res.2 (resToken res.1) := by
  have hs1 : s.dropWhile (fun c => c == '-' || c == '+') <:+ s := dropWhile_suffix _ _
  unfold lexPlusMinus at h
  generalize s.dropWhile (fun c => c == '-' || c == '+') = s1 at *
  generalize s.takeWhile (fun c => c == '-' || c == '+') = run at *
  simp only at h
  split at h
  · injection h with h; subst h; exact .leaf _ rfl (.infix hs1.isInfix)
  · split at h
    · injection h with h; subst h; exact .plain (.slice hs1 List.suffix_rfl)
    · split at h
      · have hs2 : s1.dropWhile (· != '\n') <:+ s := (dropWhile_suffix _ _).trans hs1
        have ⟨hc1, hc2⟩ := contLines_spec (s1.dropWhile (· != '\n')).length (s1.dropWhile (· != '\n'))
        have hco := contLines_ord (s1.dropWhile (· != '\n')).length (s1.dropWhile (· != '\n'))
        generalize contLines (s1.dropWhile (· != '\n')).length (s1.dropWhile (· != '\n')) = cl at *
        have hsk := skipIf_suffix '\n' cl.2
        have hcs : cl.2 <:+ s1 := hc1.trans (dropWhile_suffix _ _)
        have htask : ∀ b, Ord m r s (skipIf '\n' cl.2) (.taskListItem b ((slice s1 cl.2).drop 5)) := fun b =>
          .leaf _ rfl ((Less.of ((List.drop_sublist 5 _).append hsk.sublist)).trans (.slice hcs hs1))
        have hall : ∀ y, y.Sublist cl.2 → Less m ((s1.takeWhile (· != '\n') :: cl.1).flatten ++ y) s := by
          intro y hy
          rw [List.flatten_cons, List.append_assoc]
          exact .of ((sub_while (List.Sublist.refl _) (((List.Sublist.refl _).append hy).trans hco)).trans hs1.sublist)
        have helems : ∀ x ∈ s1.takeWhile (· != '\n') :: cl.1, x <:+: s := by
          intro x hx
          rcases List.mem_cons.mp hx with rfl | hx
          · exact (takeWhile_infix _ _).trans hs1.isInfix
          · exact (hc2 x hx).1.trans hs2.isInfix
        have hplain : Ord m r s (skipIf '\n' cl.2) (.unorderedListEntry ((s1.takeWhile (· != '\n') :: cl.1).map .plaintext)) :=
          .ul _ helems (hall _ hsk.sublist)
        split at h
        · injection h with h; subst h; exact htask _
        · split at h
          · injection h with h; subst h; exact htask _
          · split at h
            · next l s5 hla =>
              have e := lineAhead_parts hla
              have hli : l <:+: s := by
                have : l <+: skipIf '\n' cl.2 := ⟨s5, e.symm⟩
                exact this.isInfix.trans (hsk.trans (hcs.trans hs1)).isInfix
              have hls : (l ++ s5).Sublist cl.2 := e ▸ hsk.sublist
              split at h
              · cases hr : r.lex l with
                | panic => rw [hr] at h; cases h
                | hang => rw [hr] at h; cases h
                | fuelOut => rw [hr] at h; cases h
                | ok ts =>
                  rw [hr] at h
                  simp only [Outcome.ok_bind] at h
                  injection h with h; subst h
                  exact .ulLex _ l ts helems hli hr (hall _ hls)
              · split at h
                · cases hr : r.lex (l.drop 1) with
                  | panic => rw [hr] at h; cases h
                  | hang => rw [hr] at h; cases h
                  | fuelOut => rw [hr] at h; cases h
                  | ok ts =>
                    rw [hr] at h
                    simp only [Outcome.ok_bind] at h
                    injection h with h; subst h
                    exact .ulLex _ _ ts helems ((List.drop_suffix 1 l).isInfix.trans hli) hr
                      (hall _ (((List.drop_sublist 1 l).append (List.Sublist.refl _)).trans hls))
                · injection h with h; subst h; exact hplain
            · injection h with h; subst h; exact hplain
      · injection h with h; subst h; exact .plain (.ownL (by decide) (.infix hs1.isInfix))

theorem lexTilde_ord (r : Rec) (s : Str) : Ord m r s (lexTilde s).2 (resToken (lexTilde s).1) := by
  have hl := Less.run (m := m) (· == '~') s
  have hs1 : s.dropWhile (· == '~') <:+ s := dropWhile_suffix _ _
  unfold lexTilde
  generalize s.takeWhile (· == '~') = lead at *
  generalize s.dropWhile (· == '~') = s1 at *
  have h3 : (s1.dropWhile (· != '~')).dropWhile (· == '~') <:+ s := (dropWhile_suffix _ _).trans ((dropWhile_suffix _ _).trans hs1)
  simp only
  split
  · exact .plain hl
  · split
    · split
      · exact .plain (.slice h3 List.suffix_rfl)
      · exact .leaf _ rfl (.of ((sub_while (List.Sublist.refl _) (dropWhile_suffix _ _).sublist).trans hs1.sublist))
    · exact .plain hl

theorem lexBackticks_ord (r : Rec) (s : Str) : Ord m r s (lexBackticks s).2 (resToken (lexBackticks s).1) := by
  have hs1 : s.dropWhile (· == '`') <:+ s := dropWhile_suffix _ _
  unfold lexBackticks
  generalize s.takeWhile (· == '`') = ticks at *
  generalize s.dropWhile (· == '`') = s1 at *
  simp only
  split
  · have hs2 : (if s1.head? = some '\n' then s1.drop 1 else (s1.dropWhile (· != '\n')).drop 1) <:+ s1 := by
      split
      · exact List.drop_suffix _ _
      · exact (List.drop_suffix _ _).trans (dropWhile_suffix _ _)
    generalize (if s1.head? = some '\n' then s1.drop 1 else (s1.dropWhile (· != '\n')).drop 1) = s2 at *
    have h4 : (s2.dropWhile (· != '`')).dropWhile (· == '`') <:+ s :=
      (dropWhile_suffix _ _).trans ((dropWhile_suffix _ _).trans (hs2.trans hs1))
    split
    · exact .plain (.slice h4 List.suffix_rfl)
    · exact .leaf _ rfl (.infix h4.isInfix)
  · generalize List.replicate ticks.length '`' = tail
    have hu := untilTail_append tail s1
    have hb := trimEndStr_prefix tail (untilTail tail s1).1
    have hu2 : (untilTail tail s1).2 <:+ s := List.IsSuffix.trans ⟨_, hu⟩ hs1
    have key : ∀ x : Str, x <:+: trimEndStr tail (untilTail tail s1).1 → Less m (x ++ (untilTail tail s1).2) s := by
      intro x hx
      have h1 : (x ++ (untilTail tail s1).2).Sublist s1 := by
        have := (hx.trans hb.isInfix).sublist.append (List.Sublist.refl (untilTail tail s1).2)
        rwa [hu] at this
      exact .of (h1.trans hs1.sublist)
    split
    · exact .plain (.slice hu2 List.suffix_rfl)
    · split
      · exact .leaf _ rfl (key _ ((trimEndP_prefix _ _).isInfix.trans (trimStartP_suffix _ _).isInfix))
      · exact .leaf _ rfl (key _ List.infix_rfl)

/-- Texts without footnotes, sections and tables, and for the order without links. -/
structure Clear (m : Bool) (s : Str) : Prop where
  note : ¬ c!"[^" <:+: s
  section_ : ¬ c!"<details>" <:+: s
  bar : '|' ∉ s
  title : m = true → ∀ l, ')' ∉ l → ' ' ∉ l → ¬ c!"](" ++ l ++ c!" " <:+: s

theorem Clear.infix {x y : Str} (h : Clear m y) (hx : x <:+: y) : Clear m x :=
  ⟨fun hm => h.note (hm.trans hx), fun hm => h.section_ (hm.trans hx), fun hm => h.bar (hx.subset hm), fun e l h1 h2 hm => h.title e l h1 h2 (hm.trans hx)⟩

theorem address_ascii {l : Str} {u : ValidURL} (h : validateLink l = .ok u) :
    u.content.all (fun c => !far c) = true ∧ u.display.all (fun c => !far c) = true ∧ u.fmtUnsafe.all (fun c => !far c) = true := by
  have hA : Rich fun c => far c = false := by
    intro c hc
    simp only [ownChar, Bool.or_eq_true, Bool.and_eq_true, decide_eq_true_eq, beq_iff_eq] at hc
    simp only [far, decide_eq_false_iff_not]
    rcases hc with (⟨-, hc⟩ | rfl) | rfl
    · have : c.toNat ≤ 126 := hc
      omega
    · decide
    · decide
  have ⟨h1, h2, h3⟩ := validate_of hA (fun c hc => by have := (validateLink_ok h).1 c hc; simp [far]; omega) h
  exact ⟨by simpa [List.all_eq_true, Of] using h1, by simpa [List.all_eq_true, Of] using h2, by simpa [List.all_eq_true, Of] using h3⟩

/-- What `lexLinks` makes of a text that is no footnote. -/
inductive LinkRes (m : Bool) (s : Str) : LexRes × Str → Prop
  | error (x s' : Str) (hs : s' <:+ s) (h : Less m (x ++ s') s) : LinkRes m s (.error x, s')
  | link (u : ValidURL) (l title : Str) (hover : Option Str) (s' : Str) (hv : validateLink l = .ok u) (hm : m = true → hover = none) (hs : s' <:+ s)
      (h : (title ++ hover.getD [] ++ s').Sublist s) : LinkRes m s (.ok (.link u (some title) hover), s')

theorem lexLinks_res {s : Str} (hb : Clear m s) : LinkRes m s (lexLinks s) := by
  unfold lexLinks
  split
  · exact .error _ _ List.suffix_rfl (.refl _)
  · next hh =>
    rw [ne_eq, not_not] at hh
    obtain ⟨cs, rfl⟩ : ∃ cs, s = '[' :: cs := by
      cases s with
      | nil => simp at hh
      | cons c cs => simp only [List.head?_cons, Option.some.injEq] at hh; exact ⟨cs, by rw [hh]⟩
    simp only [List.drop_one, List.tail_cons]
    have hsplit : cs.takeWhile (· != ']') ++ cs.dropWhile (· != ']') = cs := List.takeWhile_append_dropWhile
    have hs2 : cs.dropWhile (· != ']') <:+ '[' :: cs := (dropWhile_suffix _ _).trans (List.suffix_cons _ _)
    generalize cs.takeWhile (· != ']') = title at *
    generalize cs.dropWhile (· != ']') = s2 at *
    split
    · exact .error _ _ hs2 (.slice hs2 List.suffix_rfl)
    · next h2 =>
      rw [ne_eq, not_not] at h2
      obtain ⟨s3, rfl⟩ : ∃ s3, s2 = ']' :: s3 := by
        cases s2 with
        | nil => simp at h2
        | cons c cs => simp only [List.head?_cons, Option.some.injEq] at h2; exact ⟨cs, by rw [h2]⟩
      simp only [List.tail_cons]
      have hs3 : s3 <:+ '[' :: cs := (List.suffix_cons _ _).trans hs2
      have hno : ¬ (startsWith title c!"^" = true ∧ s3.head? = some ':') := by
        rintro ⟨hn, -⟩
        have hn : c!"^" <+: title := List.isPrefixOf_iff_prefix.mp hn
        obtain ⟨u, rfl⟩ := hn
        exact hb.note ⟨[], u ++ ']' :: s3, by rw [← hsplit]; simp⟩
      simp only [hno, ↓reduceIte]
      by_cases h3 : s3.head? ≠ some '('
      · simp only [h3, ne_eq, not_false_eq_true, ↓reduceIte]
        exact .error _ _ hs3 (.slice hs3 List.suffix_rfl)
      · simp only [h3, ↓reduceIte]
        · rw [ne_eq, not_not] at h3
          obtain ⟨s4, rfl⟩ : ∃ s4, s3 = '(' :: s4 := by
            cases s3 with
            | nil => simp at h3
            | cons c cs => simp only [List.head?_cons, Option.some.injEq] at h3; exact ⟨cs, by rw [h3]⟩
          simp only [List.tail_cons]
          have hs4 : s4 <:+ '[' :: cs := (List.suffix_cons _ _).trans hs3
          have hsub : (title ++ s4).Sublist ('[' :: cs) := by
            rw [← hsplit]
            exact ((List.Sublist.refl title).append (((List.Sublist.refl s4).cons _).cons _)).cons _
          have hls : s4.takeWhile (fun c => c != ')' && c != ' ') ++ s4.dropWhile (fun c => c != ')' && c != ' ') = s4 :=
            List.takeWhile_append_dropWhile
          have hs5 : s4.dropWhile (fun c => c != ')' && c != ' ') <:+ s4 := dropWhile_suffix _ _
          obtain ⟨l, e4⟩ : ∃ l, s4.takeWhile (fun c => c != ')' && c != ' ') = l := ⟨_, rfl⟩
          obtain ⟨s5, e5⟩ : ∃ s5, s4.dropWhile (fun c => c != ')' && c != ' ') = s5 := ⟨_, rfl⟩
          simp only [e4, e5] at hls hs5 ⊢
          have hm : s5.head? = some ' ' → m ≠ true := by
            intro h5 e
            obtain ⟨s6, rfl⟩ : ∃ s6, s5 = ' ' :: s6 := by
              cases s5 with
              | nil => simp at h5
              | cons c cs => simp only [List.head?_cons, Option.some.injEq] at h5; exact ⟨cs, by rw [h5]⟩
            have hmem : ∀ c ∈ l, (c != ')' && c != ' ') = true := fun c hc => mem_takeWhile_true (fun c => c != ')' && c != ' ') s4 c (e4 ▸ hc)
            refine hb.title e l (fun h => by simpa using hmem _ h) (fun h => by simpa using hmem _ h) ⟨'[' :: title, s6, ?_⟩
            rw [← hsplit, ← hls]
            simp
          have hl : ∀ y, y <:+ s5 → (l ++ y).Sublist ('[' :: cs) := fun y hy => by
            have := (List.Sublist.refl l).append hy.sublist
            rw [hls] at this
            exact this.trans hs4.sublist
          split
          · exact .error _ _ (hs5.trans hs4) (.slice (hs5.trans hs4) List.suffix_rfl)
          · split
            · have hd : s5.tail <:+ s5 := List.tail_suffix s5
              split
              · next u hv =>
                refine .link u l title none _ hv (fun _ => rfl) ((hd.trans hs5).trans hs4) ?_
                simpa using ((List.Sublist.refl title).append (hd.trans hs5).sublist).trans hsub
              · next e hv =>
                rw [validateLink_err hv]
                exact .error _ _ ((hd.trans hs5).trans hs4) (.of (hl _ hd))
            · next hn h4 =>
              have h5 : s5.head? = some ' ' := by
                by_contra h5
                exact hn ⟨h4, h5⟩
              have h6 : ((s5.dropWhile (· != ')')).dropWhile (· != '\n')).tail <:+ s5.dropWhile (· != ')') :=
                (List.tail_suffix _).trans (dropWhile_suffix _ _)
              have h6' := h6.trans (dropWhile_suffix _ _)
              split
              · next u hv =>
                refine .link u l title (some _) _ hv (fun e => absurd e (hm h5)) ((h6'.trans hs5).trans hs4) ?_
                rw [List.append_assoc]
                exact ((List.Sublist.refl title).append ((sub_while (List.Sublist.refl _) h6.sublist).trans hs5.sublist)).trans hsub
              · next e hv =>
                rw [validateLink_err hv]
                exact .error _ _ ((h6'.trans hs5).trans hs4) (.of (hl _ h6'))

theorem lexLinks_ord (r : Rec) (s : Str) (hb : Clear m s) : Ord m r s (lexLinks s).2 (resToken (lexLinks s).1) := by
  have h := lexLinks_res hb
  generalize lexLinks s = res at *
  cases h with
  | error x s' _ h => exact .plain h
  | link u l title hover s' hv hm _ h => exact .link u l title hover hv hm (.of h)

theorem lexImages_ord (r : Rec) (cs : Str) (hb : Clear m cs) : Ord m r ('!' :: cs) (lexImages ('!' :: cs)).2 (resToken (lexImages ('!' :: cs)).1) := by
  have h := lexLinks_res hb
  unfold lexImages
  simp only [List.head?_cons, ne_eq, not_true_eq_false, if_false, List.drop_one, List.tail_cons]
  generalize lexLinks cs = res at *
  have hc : cs <:+ '!' :: cs := List.suffix_cons _ _
  cases h with
  | error x s' hs _ => exact .plain (.slice (hs.trans hc) List.suffix_rfl)
  | link u l title hover s' hv hm hs h =>
    refine .image u l title hv (.of (List.Sublist.trans ?_ hc.sublist))
    exact (((List.sublist_append_left _ _).append (List.Sublist.refl s')).trans h)

theorem lexSideCarrot_ord (r : Rec) (s : Str) (hb : Clear m s) (res : LexRes × Str) (h : lexSideCarrot r s = .ok res) :
    Ord m r s res.2 (resToken res.1) := by
  unfold lexSideCarrot at h
  split at h
  · injection h with h; subst h; exact .plain (.refl _)
  · next hh =>
    rw [ne_eq, not_not] at hh
    obtain ⟨cs, rfl⟩ : ∃ cs, s = '<' :: cs := by
      cases s with
      | nil => simp at hh
      | cons c cs => simp only [List.head?_cons, Option.some.injEq] at hh; exact ⟨cs, by rw [hh]⟩
    simp only [List.drop_one, List.tail_cons] at h
    have hsplit : cs.takeWhile (· != '>') ++ cs.dropWhile (· != '>') = cs := List.takeWhile_append_dropWhile
    have hs2 : cs.dropWhile (· != '>') <:+ '<' :: cs := (dropWhile_suffix _ _).trans (List.suffix_cons _ _)
    generalize cs.takeWhile (· != '>') = t at *
    generalize cs.dropWhile (· != '>') = s2 at *
    split at h
    · next h2 =>
      obtain ⟨s3, rfl⟩ : ∃ s3, s2 = '>' :: s3 := by
        cases s2 with
        | nil => simp at h2
        | cons c cs => simp only [List.head?_cons, Option.some.injEq] at h2; exact ⟨cs, by rw [h2]⟩
      simp only [List.tail_cons] at h
      have hs3 : s3 <:+ '<' :: cs := (List.suffix_cons _ _).trans hs2
      have hsl := Less.slice (m := m) hs3 List.suffix_rfl
      split at h
      · next ht =>
        exact absurd ⟨[], s3, by rw [← hsplit, ht]; simp⟩ hb.section_
      · split at h
        · split at h
          · injection h with h; subst h; exact .plain hsl
          · split at h
            · next u hv =>
              split at h
              · injection h with h; subst h; exact .autolink u t hv (.infix hs3.isInfix)
              · injection h with h; subst h; exact .plain hsl
            · injection h with h; subst h; exact .plain hsl
        · injection h with h; subst h; exact .plain (.ownL (by decide) (.infix hs3.isInfix))
    · injection h with h; subst h
      refine .plain (.of ?_)
      rw [hsplit]
      exact List.sublist_cons_self _ _

theorem lexDispatch_ord (r : Rec) (ignore : List Char) (last : Option Token) (c : Char) (cs : Str) (hb : Clear m (c :: cs)) (res : LexRes × Str)
    (h : lexDispatch r ignore last c (c :: cs) = .ok res) : Ord m r (c :: cs) res.2 (resToken res.1) := by
  unfold lexDispatch at h
  by_cases hc : c = '#' ∧ ignore.contains '#' = false
  · rw [if_pos hc] at h
    exact lexHeading_ord r _ res h
  rw [if_neg hc] at h
  clear hc
  by_cases hc : c = '\n'
  · rw [if_pos hc] at h
    injection h with h; subst h; exact lexNewlines_ord r _
  rw [if_neg hc] at h
  clear hc
  by_cases hc : c = ' ' ∨ c = '\t'
  · rw [if_pos hc] at h
    injection h with h; subst h
    exact lexTabsSpaces_ord r last _
  rw [if_neg hc] at h
  clear hc
  by_cases hc : c ∈ c!"1234567890"
  · rw [if_pos hc] at h
    injection h with h; subst h; exact lexNumbers_ord r _
  rw [if_neg hc] at h
  clear hc
  by_cases hc : c = '*' ∨ c = '_'
  · rw [if_pos hc] at h
    injection h with h; subst h; exact lexAsteriskUnderscore_ord r _
  rw [if_neg hc] at h
  clear hc
  by_cases hc : c = '-' ∨ c = '+'
  · rw [if_pos hc] at h
    exact lexPlusMinus_ord r _ res h
  rw [if_neg hc] at h
  clear hc
  by_cases hc : c = '>'
  · rw [if_pos hc] at h
    injection h with h; subst h; exact lexBlockquotes_ord r _
  rw [if_neg hc] at h
  clear hc
  by_cases hc : c = '~'
  · rw [if_pos hc] at h
    injection h with h; subst h; exact lexTilde_ord r _
  rw [if_neg hc] at h
  clear hc
  by_cases hc : c = '`'
  · rw [if_pos hc] at h
    injection h with h; subst h; exact lexBackticks_ord r _
  rw [if_neg hc] at h
  clear hc
  by_cases hc : c = '['
  · rw [if_pos hc] at h
    injection h with h; subst h; exact lexLinks_ord r _ hb
  rw [if_neg hc] at h
  clear hc
  by_cases hc : c = '!'
  · rw [if_pos hc] at h
    subst hc; injection h with h; subst h
    exact lexImages_ord r cs (hb.infix (List.suffix_cons _ _).isInfix)
  rw [if_neg hc] at h
  clear hc
  by_cases hc : c = '<'
  · rw [if_pos hc] at h
    exact lexSideCarrot_ord r _ hb res h
  rw [if_neg hc] at h
  clear hc
  by_cases hc : c = '|'
  · exact absurd (by simp [hc]) hb.bar
  rw [if_neg hc] at h
  clear hc
  by_cases hc : c = '\\'
  · rw [if_pos hc] at h
    injection h with h; subst h; exact lexEscaped_ord r _
  rw [if_neg hc] at h
  clear hc
  injection h with h; subst h
  exact .leaf _ rfl (.refl _)

theorem nextToken_ord {r : Rec} {ignore : List Char} {last : Option Token} {s s' : Str} {t : Token} (hb : Clear m s)
    (h : nextToken r ignore last s = .ok (some (t, s'))) : Ord m r s s' t := by
  cases s with
  | nil => simp [nextToken] at h
  | cons c cs =>
    unfold nextToken at h
    cases hd : lexDispatch r ignore last c (c :: cs) with
    | panic => simp only [hd] at h; cases h
    | hang => simp only [hd] at h; cases h
    | fuelOut => simp only [hd] at h; cases h
    | ok res =>
      simp only [hd, Outcome.ok_bind] at h
      injection h with h
      injection h with h
      injection h with h1 h2
      subst h1 h2
      exact lexDispatch_ord r ignore last c cs hb res hd

/-! ### The renderer -/

/-- What one step writes, when there are no footnotes. -/
structure Grows (m : Bool) (b : Str) (st st' : PState) : Prop where
  html : Less m st'.html (st.html ++ b)
  refs : st.refs = [] → st'.refs = []

theorem Grows.refl (st : PState) (b : Str) : Grows m b st st := ⟨.of (List.sublist_append_left _ _), id⟩

theorem Grows.pushOwn {b o : Str} {st st1 st2 : PState} (h : Grows m b st st1) (ho : o.all (fun c => !far c) = true)
    (h1 : st2.html = st1.html := by rfl) (h2 : st2.refs = st1.refs := by rfl) : Grows m b st (st2.push o) :=
  ⟨.ownR ho (h1 ▸ h.html), fun e => (h2.trans (h.refs e) : st2.refs = [])⟩

theorem Grows.pushRep {b o : Str} {st st1 st2 : PState} (h : Grows m b st st1) (ho : o.all (fun c => !far c) = true) (n : Nat)
    (h1 : st2.html = st1.html := by rfl) (h2 : st2.refs = st1.refs := by rfl) : Grows m b st (st2.push (rep n o)) :=
  ⟨by
    have := (h1 ▸ h.html : Less m st2.html (st.html ++ b)).append (Less.rep ho n [])
    rwa [List.append_nil] at this, fun e => (h2.trans (h.refs e) : st2.refs = [])⟩

theorem Grows.ensurePara {b : Str} {st st1 : PState} (h : Grows m b st st1) : Grows m b st st1.ensurePara := by
  unfold PState.ensurePara
  split
  · exact h.pushOwn (by decide)
  · exact h

theorem ostep1 (t : Token) (st : PState) : Grows m [] st (step1 t st) := by
  have h : Grows m [] st st := .refl st []
  unfold step1
  refine ite_ind (fun _ => h) fun _ => ?_
  refine ite_ind (fun _ => h) fun _ => ?_
  refine ite_ind (fun _ => h) fun _ => ?_
  refine ite_ind (fun _ => h) fun _ => ?_
  refine ite_ind (fun _ => ?_) fun _ => ?_
  · exact Grows.pushOwn (st1 := { st with quoteLevel := 0, inPara := true }.push (rep st.quoteLevel c!"</blockquote>")) (h.pushRep (by decide) _) (by decide)
  refine ite_ind (fun _ => Grows.ensurePara (h.pushOwn (by decide))) fun _ => ?_
  refine ite_ind (fun _ => Grows.ensurePara (h.pushOwn (by decide))) fun _ => ?_
  refine ite_ind (fun _ => Grows.ensurePara (h.pushOwn (by decide))) fun _ => ?_
  refine ite_ind (fun _ => h.pushOwn (by decide)) fun _ => ?_
  refine ite_ind (fun _ => h) fun _ => ?_
  exact ite_ind (fun _ => h.pushOwn (by decide)) fun _ => h

theorem Grows.push {b x : Str} {st st1 : PState} (h : Grows m [] st st1) (hx : Less m x b) : Grows m b st (st1.push x) :=
  ⟨by
    have := h.html
    rw [List.append_nil] at this
    exact this.append hx, h.refs⟩

theorem Less.wrapped {o x c : Str} (ho : o.all (fun c => !far c) = true) (hc : c.all (fun c => !far c) = true) :
    Less m (o ++ sanitize x ++ c) x := .ownR hc (.ownL ho (.san x))

theorem Less.headerOut (n : Nat) {x y : Str} (h : Less m x y) : Less m (headerOut n x none) y := by
  have hd : (dec n).all (fun c => !far c) = true := by
    refine List.all_eq_true.mpr fun c hc => ?_
    have h := Nat.isDigit_of_mem_toDigits (b := 10) (by decide) (by decide) hc
    simp only [Char.isDigit, Bool.and_eq_true, decide_eq_true_eq] at h
    have h2 : c.toNat ≤ 57 := h.2
    simp [far]
    omega
  show Less m (c!"<h" ++ dec n ++ c!">" ++ x ++ c!"</h" ++ dec n ++ c!">\n") y
  exact .ownR (by decide) (.ownR hd (.ownR (by decide) (.ownL (by simp only [List.all_append, hd, Bool.and_true]; decide) h)))

theorem Less.plainOut {x : Str} (h : ¬ c!"[^" <:+: x) : Less m (plainOut x) x := by
  have hc : contains (plainTrim x) c!"[^" = false := by
    rw [Bool.eq_false_iff]
    intro e
    exact h ((contains_infix (by decide) e).trans (plainTrim_prefix x).isInfix)
  have e : Gfm.plainOut x = sanitize ((plainTrim x).dropWhile (· == '\n')) := by
    unfold Gfm.plainOut
    simp only [hc, Bool.false_and, Bool.false_eq_true, if_false]
  rw [e]
  exact (Less.san _).trans (.infix ((dropWhile_suffix _ _).isInfix.trans (plainTrim_prefix x).isInfix))

theorem ofinish {st : PState} (h : st.refs = []) : Less m (finish st) st.html := by
  have hnl : ∀ x, Less m x st.html → Less m (endNl x) st.html := by
    intro x hx
    unfold endNl
    split
    · exact .ownR (by decide) hx
    · exact hx
  have hi : ∀ (b : Bool) (x y : Str), Less m x st.html → y.all (fun c => !far c) = true → Less m (if b then x ++ y else x) st.html := by
    intro b x y hx hy
    split
    · exact .ownR hy hx
    · exact hx
  unfold finish
  simp only [h, List.length_nil, gt_iff_lt, Nat.lt_irrefl, if_false]
  have h1 := hi st.inPara st.html c!"</p>\n" (.refl _) (by decide)
  generalize (if st.inPara then st.html ++ c!"</p>\n" else st.html) = s1 at *
  have h2 : Less m (s1 ++ rep st.quoteLevel c!"</blockquote>\n") st.html := by
    have := h1.append (Less.rep (o := c!"</blockquote>\n") (by decide) st.quoteLevel [])
    rwa [List.append_nil] at this
  generalize s1 ++ rep st.quoteLevel c!"</blockquote>\n" = s2 at *
  have h3 := hi (st.inTask || st.inUl) s2 c!"</ul>" h2 (by decide)
  generalize (if st.inTask || st.inUl then s2 ++ c!"</ul>" else s2) = s3 at *
  have h4 := hi st.inOl s3 c!"</ol>" h3 (by decide)
  generalize (if st.inOl then s3 ++ c!"</ol>" else s3) = s4 at *
  split
  · exact .ownR (by decide) (hnl _ (hnl _ h4))
  · exact hnl _ h4

/-- The plain texts of tokens. -/
def plains (ts : List Token) : Str := ts.flatMap fun t => match t with | .plaintext x => x | _ => []

theorem oentryOut (r : Rec) : ∀ (ts : List Token) (h : Str),
    (∀ x, Token.plaintext x ∈ ts → ∀ h, r.render [] (entryArg x) = .ok h → Less m h (entryArg x)) → entryOut r ts = .ok h → Less m h (plains ts)
  | [], h, _, e => by injection e with e; subst e; exact .nil _
  | t :: ts, h, hk, e => by
    have ih := fun h => oentryOut r ts h (fun x hx => hk x (by simp [hx]))
    cases t with
    | plaintext x =>
      simp only [entryOut] at e
      obtain ⟨h1, e1, e⟩ := Outcome.bind_ok' e
      obtain ⟨h2, e2, e⟩ := Outcome.bind_ok' e
      injection e with e
      subst e
      exact ((Less.replaceStr (by decide) h1).trans ((hk x (by simp) h1 e1).trans (.infix (entryArg_suffix x).isInfix))).append (ih h2 e2)
    | _ => exact ih h e

theorem plains_map (xs : List Str) : plains (xs.map .plaintext) = xs.flatten := by
  simp [plains, List.flatMap_map, List.flatMap_id']

theorem lexes_plains {r : Rec} {ig : List Char} {last : Option Token} {s : Str} {ts : List Token} (h : Lexes r ig last s ts) (hb : Clear m s) :
    Less m (plains ts) s ∧ ∀ x, Token.plaintext x ∈ ts → Clear m x := by
  induction h with
  | nil => exact ⟨.nil _, by simp⟩
  | cons last s s' t ts h _ ih =>
    have ⟨hsh, hsuf, _⟩ := nextToken_shape r ig last s s' t h
    have ⟨i1, i2⟩ := ih (hb.infix hsuf.isInfix)
    have ho := nextToken_ord hb h
    refine ⟨?_, ?_⟩
    · show Less m (_ ++ plains ts) s
      have hrest := i1.trans (.infix hsuf.isInfix)
      cases t with
      | plaintext x =>
        cases ho with
        | leaf _ _ h => exact ((Less.refl x).append i1).trans h
      | _ => exact hrest
    · intro x hx
      rcases List.mem_cons.mp hx with rfl | hx
      · cases hsh with
        | plain _ h _ =>
          rcases h with h | h
          · exact hb.infix h
          · simp only [errTexts, List.mem_cons, List.not_mem_nil, or_false] at h
            rcases h with rfl | rfl <;> exact ⟨by decide, by decide, by decide, fun _ l _ _ h => absurd (h.subset (List.mem_append_left _ (List.mem_cons_self))) (by decide)⟩
      · exact i2 x hx

theorem Clear.san (x : Str) : Clear m (sanitize x) := by
  have key : ∀ c ∈ c!"[<|](", c ∉ sanitize x := by
    intro c hc hm
    rw [sanitize_eq_flatMap] at hm
    obtain ⟨a, ha, hm⟩ := List.mem_flatMap.mp hm
    by_cases hs : a ∈ escSpecial
    · exact (by decide : ∀ a ∈ escSpecial, ∀ c ∈ c!"[<|](", c ∉ esc a) a hs c hc hm
    · rw [esc_other a hs] at hm
      rw [List.mem_singleton.mp hm] at hc
      exact hs ((by decide : ∀ c ∈ c!"[<|](", c ∈ escSpecial) a hc)
  exact ⟨fun hm => key '[' (by decide) (hm.subset (by decide)), fun hm => key '<' (by decide) (hm.subset (by decide)), key '|' (by decide),
    fun _ _ _ _ hm => key ']' (by decide) (hm.subset (by simp))⟩

theorem oquote (r : Rec) (l : Nat) (x : Str) {st0 st st' : PState} (h : Grows m [] st0 st)
    (hk : ∀ h, r.render [] (quoteArg x) = .ok h → Less m h x) (e : quoteStep r l x st = .ok st') : Grows m x st0 st' := by
  unfold quoteStep at e
  simp only at e
  have h1 : Grows m [] st0 (if st.inPara then { st with inPara := false }.push c!"</p>" else st) := by
    split
    · exact h.pushOwn (by decide)
    · exact h
  generalize (if st.inPara then { st with inPara := false }.push c!"</p>" else st) = st1 at *
  have h2 : Grows m [] st0 ({ st1 with quoteLevel := l }.push (quoteTags l st1.quoteLevel)) := by
    unfold quoteTags
    split
    · exact h1.pushOwn (by decide)
    · split <;> exact h1.pushRep (by decide) _
  split at e
  · injection e with e
    subst e
    exact ⟨h2.html.trans (.of (by simp)), h2.refs⟩
  · obtain ⟨y, e1, e⟩ := Outcome.bind_ok' e
    injection e with e
    subst e
    exact h2.push ((Less.replaceStr (by decide) y).trans (hk y e1))

/-- What the renderer writes for one token. -/
theorem otok {r : Rec} {s s' : Str} {t : Token} (hb : Clear m s) (hsh : Shape r s t) (ho : Ord m r s s' t)
    (hlex : ∀ l ts, r.lex l = .ok ts → ∃ r', Lexes r' [] none l ts)
    (hr : ∀ ig x h, Clear m x → r.render ig x = .ok h → Less m h x) :
    ∃ b, Less m (b ++ s') s ∧ ∀ st st', parseTok r t st = .ok st' → Grows m b st st' := by
  have entry : ∀ (toks : List Token) (st st' : PState), (∀ x, Token.plaintext x ∈ toks → Clear m x) →
      parseTok r (.unorderedListEntry toks) st = .ok st' → Grows m (plains toks) st st' := by
    intro toks st st' hx e
    simp only [parseTok, step2] at e
    obtain ⟨y, e1, e⟩ := Outcome.bind_ok' e
    injection e with e; subst e
    have hy := oentryOut r toks y (fun x hm h e => hr _ _ _ ((hx x hm).infix (entryArg_suffix x).isInfix) e) e1
    have h0 := ostep1 (m := m) (.unorderedListEntry toks) st
    have h1 : Grows m [] st ((if !(step1 (.unorderedListEntry toks) st).inUl then { step1 (.unorderedListEntry toks) st with inUl := true }.push c!"<ul>\n"
        else step1 (.unorderedListEntry toks) st).push c!"<li>") := by
      refine Grows.pushOwn (st1 := if !(step1 (.unorderedListEntry toks) st).inUl then _ else _) ?_ (by decide)
      split
      · exact h0.pushOwn (by decide)
      · exact h0
    refine Grows.pushOwn (Grows.push ?_ hy) (by decide)
    split
    · exact h1.pushOwn (by decide)
    · exact h1
  cases ho with
  | leaf _ hl h =>
    refine ⟨_, h, fun st st' e => ?_⟩
    have h0 := ostep1 (m := m) t st
    have hbr : ∀ x, t = .plaintext x → ¬ c!"[^" <:+: x := by
      rintro x rfl
      cases hsh with
      | plain _ h _ =>
        rcases h with h | h
        · exact (hb.infix h).note
        · simp only [errTexts, List.mem_cons, List.not_mem_nil, or_false] at h
          rcases h with rfl | rfl <;> decide
    cases t with
    | plaintext x =>
      simp only [parseTok, step2] at e
      split at e
      · injection e with e; subst e; exact ⟨h0.html.trans (.of (by simp)), h0.refs⟩
      · injection e with e; subst e; exact h0.push (.plainOut (hbr x rfl))
    | orderedListEntry x =>
      simp only [parseTok, step2] at e
      injection e with e; subst e
      refine Grows.push ?_ (.wrapped (by decide) (by decide))
      split
      · exact h0.pushOwn (by decide)
      · exact h0
    | italic x => simp only [parseTok, step2] at e; injection e with e; subst e; exact h0.push (.wrapped (by decide) (by decide))
    | bold x => simp only [parseTok, step2] at e; injection e with e; subst e; exact h0.push (.wrapped (by decide) (by decide))
    | boldItalic x => simp only [parseTok, step2] at e; injection e with e; subst e; exact h0.push (.wrapped (by decide) (by decide))
    | strikethrough x => simp only [parseTok, step2] at e; injection e with e; subst e; exact h0.push (.wrapped (by decide) (by decide))
    | taskListItem b x =>
      simp only [parseTok, step2] at e
      injection e with e; subst e
      refine Grows.push ?_ ?_
      · split
        · exact h0.pushOwn (by decide)
        · exact h0
      · cases b <;> exact .wrapped (by decide) (by decide)
    | code x => simp only [parseTok, step2] at e; injection e with e; subst e; exact h0.push (.san x)
    | horizontalRule => simp only [parseTok, step2] at e; injection e with e; subst e; exact h0.pushOwn (by decide)
    | newline => simp only [parseTok, step2] at e; injection e with e; subst e; exact h0
    | tab => simp only [parseTok, step2] at e; injection e with e; subst e; exact h0.pushOwn (by decide)
    | doubleTab => simp only [parseTok, step2] at e; injection e with e; subst e; exact h0.pushOwn (by decide)
    | lineBreak => simp only [parseTok, step2] at e; injection e with e; subst e; exact h0
    | codeBlock x l => simp only [parseTok, step2] at e; injection e with e; subst e; exact h0
    | _ => cases hl
  | headerEmpty n h =>
    refine ⟨[], h, fun st st' e => ?_⟩
    simp only [parseTok, step2] at e
    injection e with e; subst e
    exact (ostep1 _ st).push (.headerOut n (.nil _))
  | header n arg html ha hre h =>
    refine ⟨arg, h, fun st st' e => ?_⟩
    simp only [parseTok, step2] at e
    injection e with e; subst e
    refine (ostep1 _ st).push (.headerOut n ((Less.infix ?_).trans (hr _ _ _ (hb.infix ha) hre)))
    unfold headingPost
    refine (trim_infix _).trans ?_
    cases h1 : stripPrefix c!"<p>" html with
    | none => exact List.nil_infix
    | some y =>
      simp only [Option.getD_some]
      cases h2 : stripSuffix c!"</p>\n" y with
      | none => exact List.nil_infix
      | some z =>
        rw [stripPrefix_some h1, stripSuffix_some h2]
        exact ⟨c!"<p>", c!"</p>\n", by simp⟩
  | ul xs hx h =>
    refine ⟨plains (xs.map .plaintext), plains_map xs ▸ h, fun st st' e => entry _ st st' (fun x hm => ?_) e⟩
    obtain ⟨y, hy, e⟩ := List.mem_map.mp hm
    injection e with e
    subst e
    exact hb.infix (hx y hy)
  | ulLex xs l ts hx hl hre h =>
    obtain ⟨r', hle⟩ := hlex l ts hre
    have ⟨h1, h2⟩ := lexes_plains hle (hb.infix hl)
    have hp : plains (xs.map .plaintext ++ ts) = xs.flatten ++ plains ts := by
      rw [← plains_map]
      simp [plains]
    refine ⟨plains (xs.map .plaintext ++ ts), ?_, fun st st' e => entry _ st st' (fun x hm => ?_) e⟩
    · rw [hp, List.append_assoc]
      exact ((Less.refl _).append (h1.append (.refl _))).trans h
    · rcases List.mem_append.mp hm with hm | hm
      · obtain ⟨y, hy, e⟩ := List.mem_map.mp hm
        injection e with e
        subst e
        exact hb.infix (hx y hy)
      · exact h2 x hm
  | quote n x hx h =>
    refine ⟨x, h, fun st st' e => oquote r n x (ostep1 _ st) (fun h e => ?_) e⟩
    exact (hr _ _ _ (.san _) e).trans ((Less.san _).trans (.infix (trimStartP_suffix _ x).isInfix))
  | link u l title hover hv hm h =>
    have ⟨_, hd, _⟩ := address_ascii hv
    refine ⟨_, h, fun st st' e => ?_⟩
    simp only [parseTok, step2] at e
    injection e with e; subst e
    refine (ostep1 _ st).push ?_
    cases hover with
    | none =>
      simp only [linkOut, Option.getD_none, List.append_nil]
      exact .wrapped (by simp only [List.all_append, hd, Bool.and_true]; decide) (by decide)
    | some ht =>
      obtain rfl : m = false := by
        rw [← Bool.not_eq_true]
        intro e
        cases hm e
      simp only [linkOut, Option.getD_some]
      refine .ownR (by decide) ((Less.append ?_ (Less.san title)).trans (.comm ht title))
      exact .ownR (by decide) (.ownL (by simp only [List.all_append, hd, Bool.and_true]; decide) (.refl _))
  | autolink u l hv h =>
    have ⟨_, hd, hf⟩ := address_ascii hv
    refine ⟨[], h, fun st st' e => ?_⟩
    simp only [parseTok, step2] at e
    injection e with e; subst e
    refine (ostep1 _ st).push (.own ?_)
    simp only [linkOut, List.all_append, hd, hf, Bool.and_true]
    decide
  | image u l title hv h =>
    have ⟨hc, _, _⟩ := address_ascii hv
    refine ⟨title, h, fun st st' e => ?_⟩
    simp only [parseTok, step2] at e
    injection e with e; subst e
    refine (ostep1 _ st).push ?_
    simp only [imageOut]
    split
    · exact .wrapped (by decide) (by decide)
    · exact .wrapped (by simp only [List.all_append, hc, Bool.and_true]; decide) (by decide)

/-- Reading what the tokens of a text write. -/
theorem olex {r : Rec} {ig : List Char} {last : Option Token} {s : Str} {ts : List Token} (h : Lexes r ig last s ts) (hb : Clear m s)
    (hlex : ∀ l ts, r.lex l = .ok ts → ∃ r', Lexes r' [] none l ts) (hr : ∀ ig x h, Clear m x → r.render ig x = .ok h → Less m h x) :
    ∀ st st', parseToks r ts st = .ok st' → Grows m s st st' := by
  induction h with
  | nil =>
    intro st st' e
    simp only [parseToks] at e
    injection e with e
    exact e ▸ .refl st []
  | cons last s s' t ts h _ ih =>
    intro st st' e
    have ⟨hsh, hsuf, _⟩ := nextToken_shape r _ last s s' t h
    obtain ⟨b, h1, h2⟩ := otok hb hsh (nextToken_ord hb h) hlex hr
    simp only [parseToks] at e
    obtain ⟨st1, e1, e⟩ := Outcome.bind_ok e
    have g1 := h2 st st1 e1
    have g2 := ih (hb.infix hsuf.isInfix) st1 st' e
    refine ⟨g2.html.trans ((g1.html.append (.refl s')).trans ?_), fun e => g2.refs (g1.refs e)⟩
    rw [List.append_assoc]
    exact (Less.refl _).append h1

theorem orender : ∀ (n : Nat) (ig : List Char) (d html : Str), Clear m d → (recF n).render ig d = .ok html → Less m html d
  | 0, _, _, _, _, e => by cases e
  | n + 1, ig, d, html, hd, e => by
    rw [recF_render] at e
    obtain ⟨ts, h1, h2⟩ := Outcome.bind_ok' e
    obtain ⟨st, h3, h4⟩ := Outcome.bind_ok h2
    injection h4 with h4
    subst h4
    have hlex : ∀ l ts, (recF n).lex l = .ok ts → ∃ r', Lexes r' [] none l ts := by
      intro l ts e
      cases n with
      | zero => cases e
      | succ n => exact ⟨_, (lexWith_ok_iff _ _ _ _).mp e⟩
    have g := olex ((lexWith_ok_iff _ _ _ _).mp h1) hd hlex (fun ig x h => orender n ig x h) {} st h3
    exact (ofinish (g.refs rfl)).trans g.html

theorem render_ord {d html : Str} (hd : Clear m d) (e : render d = .ok html) : Less m html d := by
  unfold render renderIgnore at e
  exact orender _ _ _ _ hd e

end Smd.Gfm
