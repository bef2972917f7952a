import Verif.Lemmas.Effort
import Verif.Spec.Log

/-! The log of the renderer is a tree. -/

namespace Smd.Gfm
open Smd.Rs Smd.Spec

variable {α β : Type} {d : Dbg}

theorem byteLen_eq : ∀ s : Str, byteLen s = bytes s
  | [] => rfl
  | c :: cs => by
    have ih := byteLen_eq cs
    unfold byteLen Iter.enc bytes at *
    rw [List.flatMap_cons, List.length_append, ih, List.map_cons, List.sum_cons]
    congr 1
    exact String.length_utf8EncodeChar c

theorem Said.bind_ok {x : Said α} {f : α → Said β} {b : β} (h : (x.bind f).out = .ok b) :
    ∃ a, x.out = .ok a ∧ (f a).out = .ok b ∧ (x.bind f).notes = x.notes ++ (f a).notes := by
  rw [Said.out_bind'] at h
  obtain ⟨a, h1, h2⟩ := Outcome.bind_ok' h
  refine ⟨a, h1, h2, ?_⟩
  unfold Said.bind
  rw [h1]

theorem Said.bind_of {x : Said α} {f : α → Outcome β} {b : β} (h : (x >>= fun a => Said.of (f a)).out = .ok b) :
    ∃ a, x.out = .ok a ∧ f a = .ok b ∧ (x >>= fun a => Said.of (f a)).notes = x.notes := by
  obtain ⟨a, h1, h2, h3⟩ := Said.bind_ok h
  exact ⟨a, h1, h2, by rw [Said.notes_bind_of]⟩

/-- The entry points log trees. -/
structure TellsRec (d : Dbg) (r : RecL) : Prop where
  lex : ∀ s ts, (r.lex s).out = .ok ts → Told d (.lexed [] s ts) (r.lex s).notes
  render : ∀ s html, (r.render [] s).out = .ok html → Told d (.rendered s) (r.render [] s).notes
  heading : ∀ s html, (r.render ['#'] s).out = .ok html → Told d (.ignoring ['#'] s) (r.render ['#'] s).notes

/-! ### Lexing -/

/-- Entry points that never return. -/
def noRec : Rec := ⟨fun _ => .hang, fun _ _ => .hang⟩

theorem noRec_row : ∀ {es : List Str} {ts : List (List Token)}, rowTokens noRec es = .ok ts → ts = []
  | [], _, h => (Outcome.ok.inj h).symm
  | _ :: _, _, h => by cases h

theorem noRec_rows {al : List Alignment} : ∀ {ls : List Str} {rows : List (List (Alignment × List Token))},
    tableRows noRec al ls = .ok rows → (rows.map List.length).sum = 0
  | [], _, h => by
    cases h
    rfl
  | l :: ls, _, h => by
    unfold tableRows at h
    obtain ⟨row, h1, h⟩ := Outcome.bind_ok' h
    obtain ⟨rest, h2, h⟩ := Outcome.bind_ok' h
    cases h
    rw [noRec_row h1]
    simpa using noRec_rows h2

theorem shallow_of_size {s : Str} {p : Nat} {t : Token} (h : Size noRec s p t) : ¬ Deep t := by
  cases h with
  | leaf _ hl => cases t <;> first | (cases hl; done) | exact nofun
  | headerEmpty => exact nofun
  | header _ _ _ _ _ _ _ hr => cases hr
  | ul xs =>
    rintro ⟨t, ht, hx⟩
    obtain ⟨x, _, rfl⟩ := List.mem_map.mp ht
    exact hx x rfl
  | ulLex _ _ _ _ _ _ _ hr => cases hr
  | quote => exact nofun
  | detail _ _ _ _ _ hr => cases hr
  | table _ _ _ _ _ _ hr => exact fun h => h (noRec_rows hr)

/-- What a routine logs. -/
def Good (d : Dbg) (c : Char) (x : Said (LexRes × Str)) : Prop := ∀ res, x.out = .ok res → Told d (.found c (resToken res.1)) x.notes

theorem Good.ok {c : Char} {res : LexRes × Str} (h : ¬ Deep (resToken res.1)) : Good d c (.of (.ok res)) := by
  intro res' h'
  cases h'
  exact .found _ _ h

theorem Good.error {c : Char} {e s : Str} : Good d c (.of (.ok (.error e, s))) := .ok nofun

theorem Good.bindOf {c : Char} {o : Outcome α} {f : α → Said (LexRes × Str)} (h : ∀ a, o = .ok a → Good d c (f a)) : Good d c (Said.of o >>= f) := by
  intro res h'
  obtain ⟨a, h1, h2, h3⟩ := Said.bind_ok h'
  exact (show _ = _ from h3) ▸ h a h1 res h2

theorem heading_told {r : RecL} (hr : TellsRec d r) (cs : Str) : Good d '#' (lexHeadingL r cs) := by
  unfold lexHeadingL
  simp only
  split
  · exact .error
  · split
    · exact .error
    · refine .bindOf fun line _ => ?_
      split
      · exact .ok nofun
      · intro res h
        obtain ⟨html, h3, h4, h5⟩ := Said.bind_of h
        rw [h5]
        cases h4
        exact .heading _ _ _ _ (hr.heading _ _ h3)

theorem item_told {r : RecL} (hr : TellsRec d r) {c : Char} (hc : c = '-' ∨ c = '+') (s : Str) : Good d c (lexPlusMinusL r s) := by
  have hc : c ∈ c!"-+" := by rcases hc with rfl | rfl <;> decide
  have plain : ∀ (x : Str) (xs : List Str), ¬ Deep (.unorderedListEntry ((x :: xs).map .plaintext)) := by
    rintro x xs ⟨t, ht, hx⟩
    obtain ⟨x, _, rfl⟩ := List.mem_map.mp ht
    exact hx x rfl
  unfold lexPlusMinusL
  simp only
  split
  · exact .ok nofun
  · split
    · exact .error
    · split
      · split
        · exact .ok nofun
        · split
          · exact .ok nofun
          · split
            · split
              · intro res h
                obtain ⟨ts, h3, h4, h5⟩ := Said.bind_of h
                rw [h5]
                cases h4
                exact .item _ hc _ _ _ _ (hr.lex _ _ h3)
              · split
                · intro res h
                  obtain ⟨ts, h3, h4, h5⟩ := Said.bind_of h
                  rw [h5]
                  cases h4
                  exact .item _ hc _ _ _ _ (hr.lex _ _ h3)
                · exact .ok (plain _ _)
            · exact .ok (plain _ _)
      · exact .error

theorem details_told {r : RecL} (hr : TellsRec d r) (s : Str) : Good d '<' (parseDetailsL r s) := by
  unfold parseDetailsL
  simp only
  split
  · exact .error
  · split
    · exact nofun
    · refine .bindOf fun a _ => ?_
      intro res h
      obtain ⟨ts, h3, h4, h5⟩ := Said.bind_of h
      rw [h5]
      cases h4
      exact .details _ _ _ _ (hr.lex _ _ h3)

theorem side_told {r : RecL} (hr : TellsRec d r) (s : Str) : Good d '<' (lexSideCarrotL r s) := by
  unfold lexSideCarrotL
  simp only
  split
  · exact .error
  · split
    · split
      · split
        · exact details_told hr _
        · exact .error
      · split
        · split
          · exact .error
          · split
            · split
              · exact .ok nofun
              · exact .error
            · exact .error
        · exact .error
    · exact .error

theorem lexings_append : ∀ {n m : Nat} {a b : List Note}, Told d (.lexings n) a → Told d (.lexings m) b → Told d (.lexings (n + m)) (a ++ b)
  | 0, m, _, _, ha, hb => by
    cases ha
    rw [Nat.zero_add]
    exact hb
  | n + 1, m, _, _, ha, hb => by
    cases ha with
    | lexings _ s ts a1 a2 h1 h2 =>
      rw [List.append_assoc, Nat.add_right_comm]
      exact .lexings _ _ _ _ _ h1 (lexings_append h2 hb)

theorem row_told {r : RecL} (hr : TellsRec d r) : ∀ (es : List Str) (ts : List (List Token)), (rowTokensL r es).out = .ok ts →
    ts.length = es.length ∧ Told d (.lexings es.length) (rowTokensL r es).notes
  | [], _, h => by
    cases h
    exact ⟨rfl, .noLexings⟩
  | e :: es, _, h => by
    unfold rowTokensL at h ⊢
    obtain ⟨ts, h1, h2, h3⟩ := Said.bind_ok h
    obtain ⟨rest, h4, h5, h6⟩ := Said.bind_of h2
    cases h5
    have ⟨i1, i2⟩ := row_told hr es rest h4
    refine ⟨by simp [i1], ?_⟩
    refine (show _ = _ from h3) ▸ ?_
    rw [h6]
    exact .lexings _ _ _ _ _ (hr.lex _ _ h1) i2

theorem rows_told {r : RecL} (hr : TellsRec d r) (al : List Alignment) : ∀ (ls : List Str) (rows : List (List (Alignment × List Token))),
    (tableRowsL r al ls).out = .ok rows → ∃ n, (rows.map List.length).sum ≤ n ∧ Told d (.lexings n) (tableRowsL r al ls).notes
  | [], _, h => by
    cases h
    exact ⟨0, Nat.le_refl _, .noLexings⟩
  | l :: ls, _, h => by
    unfold tableRowsL at h ⊢
    obtain ⟨ts, h1, h2, h3⟩ := Said.bind_ok h
    obtain ⟨rest, h4, h5, h6⟩ := Said.bind_of h2
    cases h5
    have ⟨j1, j2⟩ := row_told hr _ ts h1
    have ⟨n, i1, i2⟩ := rows_told hr al ls rest h4
    refine ⟨((cells l).map trim).length + n, ?_, ?_⟩
    · rw [← j1]
      simp only [List.map_cons, List.sum_cons, List.length_zip]
      omega
    · refine (show _ = _ from h3) ▸ ?_
      rw [h6]
      exact lexings_append j2 i2

theorem pipes_told {r : RecL} (hr : TellsRec d r) (s : Str) : Good d '|' (lexPipesL r s) := by
  unfold lexPipesL
  simp only
  split
  · exact .error
  · split
    · split
      · exact .error
      · intro res h
        obtain ⟨rows, h3, h4, h5⟩ := Said.bind_of h
        rw [h5]
        cases h4
        have ⟨n, hn, ht⟩ := rows_told hr _ _ _ h3
        exact .table _ _ n hn _ ht
    · exact nofun

theorem ite_pair {p : Prop} [Decidable p] {γ δ : Type} {a b : γ × δ} {Q : γ × δ → Prop} (h1 : p → Q a) (h2 : ¬ p → Q b) : Q (if p then a else b) := by
  split
  · next h => exact h1 h
  · next h => exact h2 h

theorem dispatch_told {r : RecL} (hr : TellsRec d r) (ig : List Char) (last : Option Token) (c : Char) (cs : Str) :
    Good d c (lexDispatchL r ig last c (c :: cs)).2 := by
  by_cases hc : c ∈ recChars
  · simp only [recChars, List.mem_cons, List.not_mem_nil, or_false] at hc
    rcases hc with rfl | rfl | rfl | rfl | rfl
    · unfold lexDispatchL
      by_cases hi : ig.contains '#' = false
      · rw [if_pos ⟨rfl, hi⟩]
        exact heading_told hr _
      · rw [if_neg (fun h => hi h.2)]
        exact .ok nofun
    · exact item_told hr (.inl rfl) _
    · exact item_told hr (.inr rfl) _
    · exact side_told hr _
    · exact pipes_told hr _
  · intro res h
    have hn : (lexDispatchL r ig last c (c :: cs)).2.notes = [] := by
      simp only [recChars, List.mem_cons, List.not_mem_nil, not_or, or_false] at hc
      obtain ⟨h1, h2, h3, h4, h5⟩ := hc
      unfold lexDispatchL
      simp only [h1, h2, h3, h4, h5, false_and, or_false, if_false]
      iterate 10 (refine ite_pair (Q := fun x : Str × Said (LexRes × Str) => x.2.notes = []) (fun _ => rfl) fun _ => ?_)
      rfl
    rw [hn]
    rw [erase_lexDispatchL] at h
    have h1 : nextToken r.erase ig last (c :: cs) = .ok (some (resToken res.1, res.2)) := by
      show (lexDispatch r.erase ig last c (c :: cs) >>= _) = _
      rw [h]
      rfl
    rw [nextToken_noRec _ noRec _ [] _ hc] at h1
    exact .found _ _ (shallow_of_size (nextToken_size h1))

/-- The text of the warning is that of the character. -/
def TextOk (c : Char) (e s' : Str) (x : Str × Said (LexRes × Str)) : Prop := x.2.out = .ok (.error e, s') →
    ∃ chars what, (chars, what) ∈ warningsAt ∧ c ∈ chars ∧ x.1 = c!"Error while " ++ what ++ c!": "

/-- The text of the warning of a routine. -/
theorem dispatch_text (r : RecL) (ig : List Char) (last : Option Token) (c : Char) (cs : Str) (e : Str) (s' : Str)
    (h : (lexDispatchL r ig last c (c :: cs)).2.out = .ok (.error e, s')) :
    ∃ chars what, (chars, what) ∈ warningsAt ∧ c ∈ chars ∧ (lexDispatchL r ig last c (c :: cs)).1 = c!"Error while " ++ what ++ c!": " := by
  revert h
  show TextOk c e s' _
  unfold lexDispatchL
  refine ite_pair (Q := TextOk c e s') (fun h _ => ⟨c!"#", _, by simp [warningsAt]; rfl, by simp [h], rfl⟩) fun _ => ?_
  refine ite_pair (Q := TextOk c e s') (fun h _ => ⟨c!"\n", _, by simp [warningsAt]; rfl, by simp [h], rfl⟩) fun _ => ?_
  refine ite_pair (Q := TextOk c e s') (fun h _ => ⟨c!" \t", _, by simp [warningsAt]; rfl, by simpa using h, rfl⟩) fun _ => ?_
  refine ite_pair (Q := TextOk c e s') (fun h _ => ⟨c!"0123456789", _, by simp [warningsAt]; rfl, by simp at h ⊢; tauto, rfl⟩) fun _ => ?_
  refine ite_pair (Q := TextOk c e s') (fun h _ => ⟨c!"*_", _, by simp [warningsAt]; rfl, by simpa using h, rfl⟩) fun _ => ?_
  refine ite_pair (Q := TextOk c e s') (fun h _ => ⟨c!"-+", _, by simp [warningsAt]; rfl, by simpa using h, rfl⟩) fun _ => ?_
  refine ite_pair (Q := TextOk c e s') (fun h _ => ⟨c!">", _, by simp [warningsAt]; rfl, by simp [h], rfl⟩) fun _ => ?_
  refine ite_pair (Q := TextOk c e s') (fun h _ => ⟨c!"~", _, by simp [warningsAt]; rfl, by simp [h], rfl⟩) fun _ => ?_
  refine ite_pair (Q := TextOk c e s') (fun h _ => ⟨c!"`", _, by simp [warningsAt]; rfl, by simp [h], rfl⟩) fun _ => ?_
  refine ite_pair (Q := TextOk c e s') (fun h _ => ⟨c!"[", _, by simp [warningsAt]; rfl, by simp [h], rfl⟩) fun _ => ?_
  refine ite_pair (Q := TextOk c e s') (fun h _ => ⟨c!"!", _, by simp [warningsAt]; rfl, by simp [h], rfl⟩) fun _ => ?_
  refine ite_pair (Q := TextOk c e s') (fun h _ => ⟨c!"<", _, by simp [warningsAt]; rfl, by simp [h], rfl⟩) fun _ => ?_
  refine ite_pair (Q := TextOk c e s') (fun h _ => ⟨c!"|", _, by simp [warningsAt]; rfl, by simp [h], rfl⟩) fun _ => ?_
  refine ite_pair (Q := TextOk c e s') (fun h _ => ⟨c!"\\", _, by simp [warningsAt]; rfl, by simp [h], rfl⟩) fun _ => ?_
  exact nofun

theorem loop_told {r : RecL} (hr : TellsRec d r) (ig : List Char) : ∀ (fuel : Nat) (acc : List Token) (s : Str) (all : List Token),
    (lexLoopL d r ig fuel acc s).out = .ok all → ∃ ts a, all = acc ++ ts ∧ Told d (.lexing s ts) a ∧
      (lexLoopL d r ig fuel acc s).notes = a ++ [⟨false, c!"gfm::lexer", c!"End of input reached, no more tokens"⟩]
  | 0, _, _, _, h => nomatch h
  | fuel + 1, acc, [], all, h => by
    have h : acc = all := Outcome.ok.inj h
    exact ⟨[], [], by simp [h], .end, rfl⟩
  | fuel + 1, acc, c :: cs, all, h => by
    unfold lexLoopL at h ⊢
    obtain ⟨x, h1, h2, h3⟩ := Said.bind_ok h
    rw [show (nextTokenL d r ig acc.getLast? (c :: cs) >>= _).notes = _ from h3]
    clear h3
    have hshape : nextToken r.erase ig acc.getLast? (c :: cs) = .ok x := by rw [← erase_nextTokenL d, h1]
    unfold nextTokenL at h1 ⊢
    rw [Said.say_out] at h1
    rw [Said.say_notes]
    obtain ⟨res, h4, h5, h6⟩ := Said.bind_ok h1
    rw [show (_ >>= _ : Said _).notes = _ from h6]
    cases h5
    obtain ⟨ts, b, rfl, hb, hbn⟩ := loop_told hr ig fuel _ _ _ h2
    have hfound := dispatch_told hr ig acc.getLast? c cs res h4
    have ⟨_, hsuf, hlt⟩ := nextToken_shape _ _ _ _ _ _ hshape
    obtain ⟨p, hp⟩ := hsuf
    have hpne : p ≠ [] := by
      rintro rfl
      rw [List.nil_append] at hp
      rw [hp] at hlt
      exact absurd hlt (Nat.lt_irrefl _)
    obtain ⟨c', p, rfl⟩ := List.exists_cons_of_ne_nil hpne
    obtain ⟨rfl, hcs⟩ : c' = c ∧ p ++ res.2 = cs := by simpa using hp
    subst hcs
    have hw : Warned d c' (resToken res.1) (warning d (lexDispatchL r ig acc.getLast? c' (c' :: (p ++ res.2))).1 res.1) := by
      obtain ⟨res1, s'⟩ := res
      cases res1 with
      | ok t => exact .none _
      | error e =>
        obtain ⟨chars, what, hm, hc, ht⟩ := dispatch_text r ig _ _ _ e s' h4
        unfold warning
        simp only
        rw [ht]
        exact .text chars what e hm hc
    refine ⟨resToken res.1 :: ts, _, by simp, .next c' p res.2 _ ts _ _ b hfound hw hb, ?_⟩
    rw [hbn]
    simp [dbgLex]

theorem lexWith_told {r : RecL} (hr : TellsRec d r) (ig : List Char) (s : Str) (ts : List Token) (h : (lexWithL d r ig s).out = .ok ts) :
    Told d (.lexed ig s ts) (lexWithL d r ig s).notes := by
  unfold lexWithL at h ⊢
  simp only [Said.say_out, Said.say_notes] at h ⊢
  obtain ⟨all, h1, h2, h3⟩ := Said.bind_ok h
  cases h2
  obtain ⟨ts', a, e, ha, hn⟩ := loop_told hr ig _ _ _ _ h1
  rw [List.nil_append] at e
  subst e
  rw [show (_ >>= _ : Said _).notes = _ from h3, hn]
  have := Told.lexed (d := d) ig s _ a ha
  rw [← byteLen_eq] at this
  simpa [dbgLib, dbgLex] using this

/-! ### Parsing -/

theorem entry_told {r : RecL} (hr : TellsRec d r) : ∀ (ts : List Token) (out : Str), (entryOutL r ts).out = .ok out →
    Told d (.renderings (ts.countP fun | .plaintext _ => true | _ => false)) (entryOutL r ts).notes
  | [], _, _ => .noRenderings
  | t :: ts, out, h => by
    cases t with
    | plaintext x =>
      unfold entryOutL at h ⊢
      obtain ⟨html, h1, h2, h3⟩ := Said.bind_ok h
      obtain ⟨rest, h4, h5, h6⟩ := Said.bind_of h2
      refine (show _ = _ from h3) ▸ ?_
      rw [h6, List.countP_cons_of_pos rfl]
      exact .renderings _ _ _ _ (hr.render _ _ h1) (entry_told hr ts _ h4)
    | _ => exact entry_told hr ts out h

theorem quote_told {r : RecL} (hr : TellsRec d r) (l : Nat) (t : Str) (st st' : PState) (h : (quoteStepL r l t st).out = .ok st') :
    Told d (.inside (.blockQuote l t)) (quoteStepL r l t st).notes := by
  rw [quoteStepL_notes]
  unfold quoteStepL at h
  simp only at h
  split
  · next ht => exact .alone _ fun hn => hn (List.isEmpty_iff.mp ht)
  · next ht =>
    rw [if_neg ht] at h
    obtain ⟨html, h1, _, _⟩ := Said.bind_of h
    exact .quote _ _ _ (fun hn => ht (by rw [hn]; rfl)) _ (hr.render _ _ h1)

theorem step2_told {r : RecL} (hr : TellsRec d r) (t : Token) (st st' : PState) (hs : Small t) (h : (step2L r t st).out = .ok st') :
    Told d (.inside t) (step2L r t st).notes := by
  cases t with
  | unorderedListEntry ts =>
    unfold step2L at h ⊢
    simp only at h ⊢
    obtain ⟨out, h1, _, h3⟩ := Said.bind_of h
    rw [h3]
    exact .entry _ _ (entry_told hr _ _ h1)
  | blockQuote l t => exact quote_told hr l t st st' h
  | detail => exact hs.elim
  | table => exact hs.elim
  | _ => exact .alone _ nofun

theorem cellText_told {ts : List Token} {whole : Said Str} (hw : ∀ out, whole.out = .ok out → Told d (.parsed ts) whole.notes) :
    ∀ (us : List Token) (out : Str), (cellTextL whole us).out = .ok out → Told d (.parsings ts (us.countP fun t => !ownToken t)) (cellTextL whole us).notes
  | [], _, _ => .noParsings _
  | u :: us, out, h => by
    unfold cellTextL at h ⊢
    obtain ⟨html, h1, h2, h3⟩ := Said.bind_ok h
    obtain ⟨rest, h4, h5, h6⟩ := Said.bind_of h2
    refine (show _ = _ from h3) ▸ ?_
    rw [h6]
    have ih := cellText_told hw us _ h4
    cases u <;> first
      | (rw [List.countP_cons_of_neg (by simp [ownToken])]; exact ih)
      | (rw [List.countP_cons_of_pos (by simp [ownToken])]; exact .parsings _ _ _ _ (hw _ h1) ih)

theorem cells_append : ∀ {xs ys : List (Alignment × List Token)} {a b : List Note}, Told d (.cells xs) a → Told d (.cells ys) b → Told d (.cells (xs ++ ys)) (a ++ b)
  | [], ys, _, _, ha, hb => by
    cases ha
    exact hb
  | _ :: xs, ys, _, _, ha, hb => by
    cases ha with
    | cells al ts cs a1 a2 h1 h2 =>
      rw [List.append_assoc]
      exact .cells _ _ _ _ _ h1 (cells_append h2 hb)

mutual

theorem tok_told {r : RecL} (hr : TellsRec d r) : ∀ (t : Token) (st st' : PState), (parseTokL d r t st).out = .ok st' →
    ∃ a, Told d (.inside t) a ∧ (parseTokL d r t st).notes = ⟨false, c!"gfm", c!"Processing token: " ++ d.tok t⟩ :: a
  | .detail sum inner, st, st', h => by
    unfold parseTokL at h ⊢
    simp only [Said.say_out, Said.say_notes] at h ⊢
    obtain ⟨s, h1, h2, h3⟩ := Said.bind_ok h
    have ⟨a, ha, hn⟩ := toks_told hr inner _ _ h1
    refine ⟨_, .section sum inner _ (.parsed _ a ha), ?_⟩
    rw [h3, hn]
    rfl
  | .table hd rows, st, st', h => by
    cases rows with
    | nil =>
      unfold parseTokL at h
      cases h
    | cons r0 rs =>
      unfold parseTokL at h ⊢
      simp only [Said.say_out, Said.say_notes] at h ⊢
      by_cases he : hd.length ≠ r0.length
      · rw [if_pos he]
        exact ⟨[], .skipped _ _ _ he, rfl⟩
      · rw [if_neg he] at h ⊢
        obtain ⟨b0, h1, h2, h3⟩ := Said.bind_ok h
        obtain ⟨bs, h4, h5, h6⟩ := Said.bind_ok h2
        refine ⟨_, .rows hd r0 rs (not_not.mp he) _ (cells_append (row_parsed hr r0 _ h1) (rows_parsed hr rs _ h4)), ?_⟩
        rw [h3, h6]
        simp [dbgLib]
  | .plaintext _, st, st', h | .header _ _ _, st, st', h | .unorderedListEntry _, st, st', h | .orderedListEntry _, st, st', h
  | .italic _, st, st', h | .bold _, st, st', h | .boldItalic _, st, st', h | .lineBreak, st, st', h | .newline, st, st', h
  | .horizontalRule, st, st', h | .tab, st, st', h | .doubleTab, st, st', h | .strikethrough _, st, st', h | .code _, st, st', h
  | .codeBlock _ _, st, st', h | .blockQuote _ _, st, st', h | .image _ _, st, st', h | .link _ _ _, st, st', h
  | .taskListItem _ _, st, st', h | .footnote _ _, st, st', h => by
    rw [parseTokL_small d r _ _ (by trivial)] at h ⊢
    exact ⟨_, step2_told hr _ _ _ (by trivial) h, rfl⟩

theorem toks_told {r : RecL} (hr : TellsRec d r) : ∀ (ts : List Token) (st st' : PState), (parseToksL d r ts st).out = .ok st' →
    ∃ a, Told d (.parsing ts) a ∧ (parseToksL d r ts st).notes = a
  | [], st, _, _ => ⟨[], .done, by unfold parseToksL; rfl⟩
  | t :: ts, st, st', h => by
    unfold parseToksL at h ⊢
    obtain ⟨s, h1, h2, h3⟩ := Said.bind_ok h
    obtain ⟨a, ha, hn⟩ := tok_told hr t _ _ h1
    obtain ⟨b, hb, hm⟩ := toks_told hr ts _ _ h2
    refine ⟨_, .token _ _ _ _ ha hb, ?_⟩
    rw [h3, hn, hm]
    rfl

theorem rows_parsed {r : RecL} (hr : TellsRec d r) : ∀ (rows : List (List (Alignment × List Token))) (out : Str), (parseRowsL d r rows).out = .ok out →
    Told d (.cells rows.flatten) (parseRowsL d r rows).notes
  | [], _, _ => by unfold parseRowsL; exact .noCells
  | row :: rows, _, h => by
    unfold parseRowsL at h ⊢
    obtain ⟨b, h1, h2, h3⟩ := Said.bind_ok h
    obtain ⟨bs, h4, h5, h6⟩ := Said.bind_ok h2
    rw [h3, h6, Said.of_notes, List.append_nil, List.flatten_cons]
    exact cells_append (row_parsed hr row _ h1) (rows_parsed hr rows _ h4)

theorem row_parsed {r : RecL} (hr : TellsRec d r) : ∀ (row : List (Alignment × List Token)) (out : Str), (parseRowL d r row).out = .ok out →
    Told d (.cells row) (parseRowL d r row).notes
  | [], _, _ => by unfold parseRowL; exact .noCells
  | (al, ts) :: row, _, h => by
    unfold parseRowL at h ⊢
    obtain ⟨b, h1, h2, h3⟩ := Said.bind_ok h
    obtain ⟨bs, h4, h5, h6⟩ := Said.bind_ok h2
    rw [h3, h6, Said.of_notes, List.append_nil]
    refine .cells _ _ _ _ _ ?_ (row_parsed hr row _ h4)
    unfold parseCellL at h1 ⊢
    obtain ⟨txt, h7, h8, h9⟩ := Said.bind_ok h1
    rw [h9, Said.of_notes, List.append_nil]
    refine cellText_told (fun out ho => ?_) ts _ h7
    rw [Said.say_out] at ho
    rw [Said.say_notes]
    obtain ⟨s, h10, h11, h12⟩ := Said.bind_ok ho
    obtain ⟨a, ha, hn⟩ := toks_told hr ts _ _ h10
    rw [h12, hn]
    exact .parsed _ a ha

end

theorem doc_told {r : RecL} (hr : TellsRec d r) (ts : List Token) (html : Str) (h : (parseDocL d r ts).out = .ok html) :
    Told d (.parsed ts) (parseDocL d r ts).notes := by
  unfold parseDocL at h ⊢
  rw [Said.say_out] at h
  rw [Said.say_notes]
  obtain ⟨s, h1, h2, h3⟩ := Said.bind_ok h
  obtain ⟨a, ha, hn⟩ := toks_told hr ts _ _ h1
  rw [h3, hn]
  exact .parsed _ a ha

theorem recL_told (d : Dbg) : ∀ n, TellsRec d (recL d n)
  | 0 => ⟨nofun, nofun, nofun⟩
  | n + 1 => by
    have hr := recL_told d n
    refine ⟨fun s ts h => lexWith_told hr [] s ts h, fun s html h => ?_, fun s html h => ?_⟩
    · obtain ⟨u, h1, h2, h3⟩ := Said.bind_ok h
      obtain ⟨ts, h4, h5, h6⟩ := Said.bind_ok h2
      rw [show ((recL d (n + 1)).render [] s).notes = _ from h3, show (_ >>= _ : Said _).notes = _ from h6]
      have := Told.rendered (d := d) s ts _ _ (lexWith_told hr [] s ts h4) (doc_told hr ts _ h5)
      rw [← byteLen_eq] at this
      exact this
    · obtain ⟨ts, h1, h2, h3⟩ := Said.bind_ok (x := lexWithL d (recL d n) ['#'] s) h
      rw [show ((recL d (n + 1)).render ['#'] s).notes = _ from h3]
      exact Told.ignoring (d := d) ['#'] s ts _ _ (lexWith_told hr ['#'] s ts h1) (doc_told hr ts _ h2)

/-! ### Numbers of lines -/

theorem linesLike_append (p : Str) (a b : List Note) : linesLike p (a ++ b) = linesLike p a + linesLike p b := List.countP_append

theorem linesLike_cons (p : Str) (n : Note) (a : List Note) : linesLike p (n :: a) = linesLike p a + if p.isPrefixOf n.text then 1 else 0 := List.countP_cons

theorem linesLike_nil (p : Str) : linesLike p [] = 0 := rfl

theorem warned_like {d : Dbg} {c : Char} {t : Token} {w : List Note} (h : Warned d c t w) {x y : Char} (p : Str) (hp : (x, y) ≠ ('E', 'r')) :
    linesLike (x :: y :: p) w = 0 := by
  cases h with
  | none => rfl
  | text cs what e hw hc =>
    rw [linesLike_cons, linesLike_nil]
    have : ¬ (x = 'E' ∧ y = 'r') := fun ⟨h1, h2⟩ => hp (by rw [h1, h2])
    simp only [List.isPrefixOf, List.cons_append]
    by_cases h1 : x = 'E'
    · have h2 : y ≠ 'r' := fun h2 => this ⟨h1, h2⟩
      simp [h2]
    · simp [h1]

theorem parsing_like (n : Nat) : List.isPrefixOf c!"Parsing completed" (c!"Parsing " ++ dec n ++ c!" tokens") = false := by
  obtain ⟨c, ds, h⟩ := List.exists_cons_of_ne_nil (Nat.toDigits_ne_nil (n := n) (b := 10))
  have hc : c ≠ 'c' := by
    rintro rfl
    have := Nat.isDigit_of_mem_toDigits (b := 10) (n := n) (c := 'c') (by decide) (by decide) (by rw [h]; exact List.mem_cons_self)
    revert this
    decide
  have e : dec n = c :: ds := h
  rw [e]
  simp [List.isPrefixOf, hc.symm]

end Smd.Gfm
