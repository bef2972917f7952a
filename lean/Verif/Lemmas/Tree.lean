import Verif.Lemmas.Loop
import Verif.Gfm.Render

/-!
Token trees: properties of all tokens at any depth, and what `Parser::parse` depends on.
-/

namespace Smd.Gfm
open Smd.Rs

/-- The tokens directly inside a token. -/
def subToks : Token → List Token
  | .unorderedListEntry toks => toks
  | .detail _ inner => inner
  | .table _ rows => (rows.flatten.map Prod.snd).flatten
  | _ => []

/-- `Q` holds of a token and of all tokens inside it, at any depth. -/
inductive TokAll (Q : Token → Prop) : Token → Prop
  | mk (t : Token) (h : Q t) (hs : ∀ t' ∈ subToks t, TokAll Q t') : TokAll Q t

theorem TokAll.head {Q : Token → Prop} {t : Token} (h : TokAll Q t) : Q t := by cases h; assumption

theorem TokAll.sub {Q : Token → Prop} {t : Token} (h : TokAll Q t) : ∀ t' ∈ subToks t, TokAll Q t' := by
  cases h; assumption

theorem TokAll.mono {Q Q' : Token → Prop} (hq : ∀ t, Q t → Q' t) {t : Token} (h : TokAll Q t) : TokAll Q' t := by
  induction h with
  | mk t h _ ih => exact .mk t (hq t h) ih

/-- Like `mono`, with the knowledge that `Q` also holds for the direct sub-tokens. -/
theorem TokAll.mono' {Q Q' : Token → Prop} (hq : ∀ t, Q t → (∀ t' ∈ subToks t, Q t') → Q' t) {t : Token}
    (h : TokAll Q t) : TokAll Q' t := by
  induction h with
  | mk t h hs ih => exact .mk t (hq t h (fun t' ht' => (hs t' ht').head)) ih

theorem TokAll.and {Q Q' : Token → Prop} {t : Token} (h : TokAll Q t) (h' : TokAll Q' t) :
    TokAll (fun t => Q t ∧ Q' t) t := by
  induction h with
  | mk t h hs ih => exact .mk t ⟨h, h'.head⟩ (fun t' ht' => ih t' ht' (h'.sub t' ht'))

theorem mem_subToks_table {heads : List (Alignment × Str)} {rows : List (List (Alignment × List Token))} {t : Token} :
    t ∈ subToks (.table heads rows) ↔ ∃ row ∈ rows, ∃ c ∈ row, t ∈ c.2 := by
  simp only [subToks, List.mem_flatten, List.mem_map]
  constructor
  · rintro ⟨l, ⟨c, ⟨row, hr, hc⟩, rfl⟩, ht⟩
    exact ⟨row, hr, c, hc, ht⟩
  · rintro ⟨row, hr, c, hc, ht⟩
    exact ⟨c.2, ⟨c, ⟨row, hr, hc⟩, rfl⟩, ht⟩

theorem sizeOf_lt_of_mem {α : Type} [SizeOf α] {a : α} {l : List α} (h : a ∈ l) : sizeOf a < sizeOf l :=
  List.sizeOf_lt_of_mem h

theorem subToks_sizeOf {t t' : Token} (h : t' ∈ subToks t) : sizeOf t' < sizeOf t := by
  cases t with
  | unorderedListEntry toks =>
    have := sizeOf_lt_of_mem (α := Token) h
    simp [subToks] at this ⊢
    omega
  | detail s inner =>
    have := sizeOf_lt_of_mem (α := Token) h
    simp [subToks] at this ⊢
    omega
  | table heads rows =>
    obtain ⟨row, hr, c, hc, ht⟩ := mem_subToks_table.mp h
    have h1 := sizeOf_lt_of_mem ht
    have h2 := sizeOf_lt_of_mem hc
    have h3 := sizeOf_lt_of_mem hr
    have h4 : sizeOf c = 1 + sizeOf c.1 + sizeOf c.2 := by cases c; simp
    simp
    omega
  | _ => simp [subToks] at h

/-- Every token satisfies a property that holds of all tokens. -/
theorem TokAll.of_all {Q : Token → Prop} (hq : ∀ t, Q t) (t : Token) : TokAll Q t :=
  .mk t (hq t) (fun t' ht' =>
    have := subToks_sizeOf ht'
    TokAll.of_all hq t')
termination_by sizeOf t

/-- The argument `Parser::parse` renders for a `Plaintext` of a list entry (lib.rs 237-250). -/
def entryArg (text : Str) : Str :=
  if startsWith text c!"\t\t" then trimStartP (· == ' ') (text.drop 1) else trimStartP (· == ' ') text

theorem entryArg_suffix (text : Str) : entryArg text <:+ text := by
  unfold entryArg
  split
  · exact (trimStartP_suffix _ _).trans (List.drop_suffix 1 _)
  · exact trimStartP_suffix _ _

/-- The argument `Parser::parse` renders for a `BlockQuote` (lib.rs 383-386). -/
def quoteArg (t : Str) : Str := sanitize (trimStartP (· == ' ') t)

/-- The texts `Parser::parse` renders recursively for a token. -/
def IsKid (t : Token) (k : Str) : Prop :=
  match t with
  | .unorderedListEntry toks => ∃ x, Token.plaintext x ∈ toks ∧ k = entryArg x
  | .blockQuote _ x => k = quoteArg x
  | _ => False

/-- Two renderers agree on the texts a token needs. -/
def AgreeOn (r r' : Rec) (t : Token) : Prop := ∀ k, IsKid t k → r.render [] k = r'.render [] k

theorem entryOut_congr (r r' : Rec) : ∀ (ts : List Token),
    (∀ x, Token.plaintext x ∈ ts → r.render [] (entryArg x) = r'.render [] (entryArg x)) →
    entryOut r ts = entryOut r' ts
  | [], _ => rfl
  | t :: ts, h => by
    have ih := entryOut_congr r r' ts (fun x hx => h x (by simp [hx]))
    cases t with
    | plaintext x =>
      have := h x (by simp)
      unfold entryArg at this
      simp only [entryOut, this, ih]
    | _ => simpa only [entryOut] using ih

theorem quoteStep_congr (r r' : Rec) (l : Nat) (t : Str) (st : PState)
    (h : r.render [] (quoteArg t) = r'.render [] (quoteArg t)) : quoteStep r l t st = quoteStep r' l t st := by
  unfold quoteArg at h
  simp only [quoteStep, h]

theorem step2_congr (r r' : Rec) (t : Token) (st : PState) (h : AgreeOn r r' t) : step2 r t st = step2 r' t st := by
  cases t with
  | unorderedListEntry toks =>
    have := entryOut_congr r r' toks (fun x hx => h _ ⟨x, hx, rfl⟩)
    simp only [step2, this]
  | blockQuote l x => exact quoteStep_congr r r' l x st (h _ rfl)
  | _ => rfl

theorem parseToks_congr_of (r r' : Rec) : ∀ (ts : List Token),
    (∀ t ∈ ts, ∀ st, parseTok r t st = parseTok r' t st) → ∀ st, parseToks r ts st = parseToks r' ts st
  | [], _, st => by simp only [parseToks]
  | t :: ts, h, st => by
    have ih := parseToks_congr_of r r' ts (fun u hu => h u (by simp [hu]))
    simp only [parseToks, h t (by simp)]
    congr 1
    funext st'
    exact ih st'

theorem parseCell_congr_of (r r' : Rec) (c : Alignment × List Token)
    (h : ∀ t ∈ c.2, ∀ st, parseTok r t st = parseTok r' t st) : parseCell r c = parseCell r' c := by
  obtain ⟨a, toks⟩ := c
  simp only [parseCell, parseToks_congr_of r r' toks h]

theorem parseRow_congr_of (r r' : Rec) : ∀ (row : List (Alignment × List Token)),
    (∀ c ∈ row, ∀ t ∈ c.2, ∀ st, parseTok r t st = parseTok r' t st) → parseRow r row = parseRow r' row
  | [], _ => by simp only [parseRow]
  | c :: row, h => by
    have ih := parseRow_congr_of r r' row (fun u hu => h u (by simp [hu]))
    simp only [parseRow, ih, parseCell_congr_of r r' c (h c (by simp))]

theorem parseRows_congr_of (r r' : Rec) : ∀ (rows : List (List (Alignment × List Token))),
    (∀ row ∈ rows, ∀ c ∈ row, ∀ t ∈ c.2, ∀ st, parseTok r t st = parseTok r' t st) → parseRows r rows = parseRows r' rows
  | [], _ => by simp only [parseRows]
  | row :: rows, h => by
    have ih := parseRows_congr_of r r' rows (fun u hu => h u (by simp [hu]))
    simp only [parseRows, ih, parseRow_congr_of r r' row (h row (by simp))]

/-- `Parser::parse` depends on the renderer only through the texts its tokens need. -/
theorem parseTok_congr (r r' : Rec) {t : Token} (h : TokAll (AgreeOn r r') t) :
    ∀ st, parseTok r t st = parseTok r' t st := by
  induction h with
  | mk t h hs ih =>
    intro st
    cases t with
    | detail s inner =>
      simp only [parseTok, parseToks_congr_of r r' inner ih]
    | table heads rows =>
      cases rows with
      | nil => simp only [parseTok]
      | cons r0 rs =>
        have hall : ∀ row ∈ r0 :: rs, ∀ c ∈ row, ∀ t ∈ c.2, ∀ st, parseTok r t st = parseTok r' t st := by
          intro row hr c hc t ht
          exact ih t (mem_subToks_table.mpr ⟨row, hr, c, hc, ht⟩)
        simp only [parseTok, parseRow_congr_of r r' r0 (hall r0 (by simp)),
          parseRows_congr_of r r' rs (fun row hr => hall row (by simp [hr]))]
    | _ => simp only [parseTok]; exact step2_congr r r' _ _ h

theorem parseDoc_congr (r r' : Rec) (ts : List Token) (h : ∀ t ∈ ts, TokAll (AgreeOn r r') t) :
    parseDoc r ts = parseDoc r' ts := by
  unfold parseDoc
  rw [parseToks_congr_of r r' ts (fun t ht => parseTok_congr r r' (h t ht))]

/-- What makes a token safe from failure `e`: the texts it renders do not fail, and a table has a body row. -/
def NoFail (r : Rec) (e : Fail) (t : Token) : Prop :=
  (∀ k, IsKid t k → (r.render [] k).fail ≠ some e) ∧ (∀ heads, t ≠ .table heads [])

theorem entryOut_fail (r : Rec) (e : Fail) : ∀ (ts : List Token), (entryOut r ts).fail = some e →
    ∃ x, Token.plaintext x ∈ ts ∧ (r.render [] (entryArg x)).fail = some e
  | [], h => by cases h
  | t :: ts, h => by
    cases t with
    | plaintext x =>
      simp only [entryOut] at h
      rcases Outcome.fail_bind' h with h | ⟨_, _, h⟩
      · exact ⟨x, by simp, h⟩
      · rcases Outcome.fail_bind' h with h | ⟨_, _, h⟩
        · obtain ⟨y, hy, h⟩ := entryOut_fail r e ts h
          exact ⟨y, by simp [hy], h⟩
        · cases h
    | _ =>
      simp only [entryOut] at h
      obtain ⟨y, hy, h⟩ := entryOut_fail r e ts h
      exact ⟨y, by simp [hy], h⟩

theorem step2_fail (r : Rec) (e : Fail) (t : Token) (st : PState) (h : (step2 r t st).fail = some e) :
    ∃ k, IsKid t k ∧ (r.render [] k).fail = some e := by
  cases t with
  | unorderedListEntry toks =>
    simp only [step2] at h
    rcases Outcome.fail_bind' h with h | ⟨_, _, h⟩
    · obtain ⟨x, hx, h⟩ := entryOut_fail r e _ h
      exact ⟨_, ⟨x, hx, rfl⟩, h⟩
    · cases h
  | blockQuote l x =>
    simp only [step2, quoteStep] at h
    split at h
    · cases h
    · rcases Outcome.fail_bind' h with h | ⟨_, _, h⟩
      · exact ⟨_, rfl, h⟩
      · cases h
  | plaintext x =>
    simp only [step2] at h
    split at h <;> cases h
  | _ => cases h

theorem parseToks_fail_of (r : Rec) (e : Fail) : ∀ (ts : List Token),
    (∀ t ∈ ts, ∀ st, (parseTok r t st).fail ≠ some e) → ∀ st, (parseToks r ts st).fail ≠ some e
  | [], _, st => by simp [parseToks]
  | t :: ts, h, st => by
    intro hf
    simp only [parseToks] at hf
    rcases Outcome.fail_bind hf with hf | ⟨st', _, hf⟩
    · exact h t (by simp) st hf
    · exact parseToks_fail_of r e ts (fun u hu => h u (by simp [hu])) st' hf

theorem cellText_fail (w : Outcome Str) (e : Fail) (hw : w.fail ≠ some e) : ∀ (ts : List Token),
    (cellText w ts).fail ≠ some e
  | [] => by simp [cellText]
  | t :: ts => by
    intro hf
    unfold cellText at hf
    rcases Outcome.fail_bind' hf with hf | ⟨_, _, hf⟩
    · split at hf <;> first | exact hw hf | cases hf
    · rcases Outcome.fail_bind' hf with hf | ⟨_, _, hf⟩
      · exact cellText_fail w e hw ts hf
      · cases hf

theorem parseCell_fail_of (r : Rec) (e : Fail) (c : Alignment × List Token)
    (h : ∀ t ∈ c.2, ∀ st, (parseTok r t st).fail ≠ some e) : (parseCell r c).fail ≠ some e := by
  obtain ⟨a, toks⟩ := c
  intro hf
  simp only [parseCell] at hf
  rcases Outcome.fail_bind hf with hf | ⟨_, _, hf⟩
  · refine cellText_fail _ e ?_ toks hf
    intro hf
    rcases Outcome.fail_bind hf with hf | ⟨_, _, hf⟩
    · exact parseToks_fail_of r e toks h _ hf
    · cases hf
  · cases hf

theorem parseRow_fail_of (r : Rec) (e : Fail) : ∀ (row : List (Alignment × List Token)),
    (∀ c ∈ row, ∀ t ∈ c.2, ∀ st, (parseTok r t st).fail ≠ some e) → (parseRow r row).fail ≠ some e
  | [], _ => by simp [parseRow]
  | c :: row, h => by
    intro hf
    simp only [parseRow] at hf
    rcases Outcome.fail_bind hf with hf | ⟨_, _, hf⟩
    · exact parseCell_fail_of r e c (h c (by simp)) hf
    · rcases Outcome.fail_bind hf with hf | ⟨_, _, hf⟩
      · exact parseRow_fail_of r e row (fun u hu => h u (by simp [hu])) hf
      · cases hf

theorem parseRows_fail_of (r : Rec) (e : Fail) : ∀ (rows : List (List (Alignment × List Token))),
    (∀ row ∈ rows, ∀ c ∈ row, ∀ t ∈ c.2, ∀ st, (parseTok r t st).fail ≠ some e) → (parseRows r rows).fail ≠ some e
  | [], _ => by simp [parseRows]
  | row :: rows, h => by
    intro hf
    simp only [parseRows] at hf
    rcases Outcome.fail_bind hf with hf | ⟨_, _, hf⟩
    · exact parseRow_fail_of r e row (h row (by simp)) hf
    · rcases Outcome.fail_bind hf with hf | ⟨_, _, hf⟩
      · exact parseRows_fail_of r e rows (fun u hu => h u (by simp [hu])) hf
      · cases hf

theorem parseTok_fail (r : Rec) (e : Fail) {t : Token} (h : TokAll (NoFail r e) t) :
    ∀ st, (parseTok r t st).fail ≠ some e := by
  induction h with
  | mk t h hs ih =>
    intro st hf
    cases t with
    | detail s inner =>
      simp only [parseTok] at hf
      rcases Outcome.fail_bind hf with hf | ⟨_, _, hf⟩
      · exact parseToks_fail_of r e inner ih _ hf
      · cases hf
    | table heads rows =>
      cases rows with
      | nil => exact h.2 heads rfl
      | cons r0 rs =>
        have hall : ∀ row ∈ r0 :: rs, ∀ c ∈ row, ∀ t ∈ c.2, ∀ st, (parseTok r t st).fail ≠ some e := by
          intro row hr c hc t ht
          exact ih t (mem_subToks_table.mpr ⟨row, hr, c, hc, ht⟩)
        simp only [parseTok] at hf
        split at hf
        · cases hf
        · rcases Outcome.fail_bind hf with hf | ⟨_, _, hf⟩
          · exact parseRow_fail_of r e r0 (hall r0 (by simp)) hf
          · rcases Outcome.fail_bind hf with hf | ⟨_, _, hf⟩
            · exact parseRows_fail_of r e rs (fun row hr => hall row (by simp [hr])) hf
            · cases hf
    | _ =>
      simp only [parseTok] at hf
      obtain ⟨k, hk, hf⟩ := step2_fail r e _ _ hf
      exact h.1 k hk hf

theorem parseDoc_fail (r : Rec) (e : Fail) (ts : List Token) (h : ∀ t ∈ ts, TokAll (NoFail r e) t) :
    (parseDoc r ts).fail ≠ some e := by
  intro hf
  unfold parseDoc at hf
  rcases Outcome.fail_bind hf with hf | ⟨_, _, hf⟩
  · exact parseToks_fail_of r e ts (fun t ht => parseTok_fail r e (h t ht)) _ hf
  · cases hf

/-- All tokens of a document, at any depth, have a shape on a contiguous part of the document. -/
theorem deep_shape : ∀ (n : Nat) (ig : List Char) (s : Str) (ts : List Token), lexWith (recF n) ig s = .ok ts →
    ∀ t ∈ ts, TokAll (fun t => ∃ m s', m ≤ n ∧ s' <:+: s ∧ Shape (recF m) s' t) t := by
  intro n
  induction n with
  | zero =>
    intro ig s ts h t ht
    obtain ⟨s', hs', hsh⟩ := lexWith_shape h t ht
    refine .mk t ⟨0, s', Nat.le_refl _, hs'.isInfix, hsh⟩ ?_
    intro t' ht'
    cases hsh with
    | ul elems h =>
      obtain ⟨x, hx, rfl⟩ := List.mem_map.mp ht'
      exact .mk _ ⟨0, s', Nat.le_refl _, hs'.isInfix, .plain x (.inl (h x hx).1.1) (.inl (h x hx).1.1)⟩ (by simp [subToks])
    | ulLex elems l ts h hl hl1 hr => cases hr
    | detail sum x ts hsum hx hr hg => cases hr
    | table heads aligns body rows hh hb hne hp hrows =>
      exfalso
      obtain ⟨row, hrow, c, hc, htc⟩ := mem_subToks_table.mp ht'
      obtain ⟨l, hl, toks, h1, h2⟩ : ∃ l ∈ body, ∃ toks, rowTokens (recF 0) l = .ok toks ∧ row = aligns.zip toks := by
        clear hb hne ht' ht
        induction hrows with
        | nil => simp at hrow
        | cons h _ ih =>
          rcases List.mem_cons.mp hrow with rfl | hrow
          · exact ⟨_, by simp, h⟩
          · obtain ⟨l, hl, h⟩ := ih hrow
            exact ⟨l, by simp [hl], h⟩
      cases l with
      | nil =>
        injection h1 with h1
        subst h1
        subst h2
        simp at hc
      | cons a b => cases h1
    | _ => simp [subToks] at ht'
  | succ n ihn =>
    intro ig s ts h t ht
    obtain ⟨s', hs', hsh⟩ := lexWith_shape h t ht
    have sub : ∀ x ts, Child s' x → (recF (n + 1)).lex x = .ok ts →
        ∀ t ∈ ts, TokAll (fun t => ∃ m s', m ≤ n + 1 ∧ s' <:+: s ∧ Shape (recF m) s' t) t := by
      intro x ts hx hl t ht
      refine (ihn [] x ts hl t ht).mono ?_
      rintro t ⟨m, s'', hm, h1, h2⟩
      exact ⟨m, s'', Nat.le_succ_of_le hm, h1.trans (hx.1.trans hs'.isInfix), h2⟩
    refine .mk t ⟨n + 1, s', Nat.le_refl _, hs'.isInfix, hsh⟩ ?_
    intro t' ht'
    cases hsh with
    | ul elems h =>
      obtain ⟨x, hx, rfl⟩ := List.mem_map.mp ht'
      exact .mk _ ⟨n + 1, s', Nat.le_refl _, hs'.isInfix, .plain x (.inl (h x hx).1.1) (.inl (h x hx).1.1)⟩ (by simp [subToks])
    | ulLex elems l ts h hl hl1 hr =>
      rcases List.mem_append.mp ht' with ht' | ht'
      · obtain ⟨x, hx, rfl⟩ := List.mem_map.mp ht'
        exact .mk _ ⟨n + 1, s', Nat.le_refl _, hs'.isInfix, .plain x (.inl (h x hx).1.1) (.inl (h x hx).1.1)⟩ (by simp [subToks])
      · exact sub l ts hl hr t' ht'
    | detail sum x ts hsum hx hr hg => exact sub x ts hx hr t' ht'
    | table heads aligns body rows hh hb hne hp hrows =>
      obtain ⟨row, hrow, c, hc, htc⟩ := mem_subToks_table.mp ht'
      obtain ⟨l, hl, toks, h1, h2⟩ : ∃ l ∈ body, ∃ toks, rowTokens (recF (n + 1)) l = .ok toks ∧ row = aligns.zip toks := by
        clear hb hne ht' ht
        induction hrows with
        | nil => simp at hrow
        | cons h _ ih =>
          rcases List.mem_cons.mp hrow with rfl | hrow
          · exact ⟨_, by simp, h⟩
          · obtain ⟨l, hl, h⟩ := ih hrow
            exact ⟨l, by simp [hl], h⟩
      subst h2
      have hcm : c.2 ∈ toks := (List.of_mem_zip (a := c.1) (b := c.2) hc).2
      have key : ∀ (l : List Str) (toks : List (List Token)), rowTokens (recF (n + 1)) l = .ok toks →
          ∀ y ∈ toks, ∃ x ∈ l, ∃ ts, (recF (n + 1)).lex x = .ok ts ∧ y = ts.filter Token.isUsableInTable := by
        intro l
        induction l with
        | nil => intro toks h; injection h with h; subst h; simp
        | cons x xs ih =>
          intro toks h
          unfold rowTokens at h
          obtain ⟨ts, h1, h⟩ := Outcome.bind_ok' h
          obtain ⟨rest, h2, h⟩ := Outcome.bind_ok' h
          injection h with h
          subst h
          intro y hy
          rcases List.mem_cons.mp hy with rfl | hy
          · exact ⟨x, by simp, ts, h1, rfl⟩
          · obtain ⟨x', hx', r⟩ := ih rest h2 y hy
            exact ⟨x', by simp [hx'], r⟩
      obtain ⟨x, hx, ts, h3, h4⟩ := key l toks h1 _ hcm
      rw [h4] at htc
      exact sub x ts (hb l hl x hx) h3 t' (List.mem_filter.mp htc).1
    | _ => simp [subToks] at ht'

end Smd.Gfm
