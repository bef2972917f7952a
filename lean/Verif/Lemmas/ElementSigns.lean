import Verif.Lemmas.Elements

/-! Signs of a document, in its parts and in what is rendered while rendering it. -/

namespace Smd.Gfm
open Smd.Rs Smd.Spec

/-! ### Texts rendered for a document -/

/-- The message of the lexer (lexer.rs 553). -/
def linkMsg : Str := c!"Non link token returned from lex_links"

/-- `k` comes from the document: a part of it, a part of an escaped part of it, or a part of a message. -/
def Src (D k : Str) : Prop :=
  k <:+: D ∨ (∃ x, x <:+: D ∧ k <:+: sanitize x) ∨ k <:+: c!"EOF" ∨ ('!' ∈ D ∧ k <:+: linkMsg)

theorem Src.infix {D k u : Str} (h : Src D k) (hu : u <:+: k) : Src D u := by
  rcases h with h | ⟨x, h1, h2⟩ | h | ⟨h1, h2⟩
  · exact .inl (hu.trans h)
  · exact .inr (.inl ⟨x, h1, hu.trans h2⟩)
  · exact .inr (.inr (.inl (hu.trans h)))
  · exact .inr (.inr (.inr ⟨h1, hu.trans h2⟩))

/-- Characters that no escape has. -/
def keptChars : List Char := c!"-+*`\t~[|!<^>._ ]\n"

theorem esc_kept : ∀ a ∈ escSpecial, ∀ c ∈ keptChars, c ∉ esc a := by decide

theorem mem_san {c : Char} {x : Str} (hc : c ∈ keptChars) (h : c ∈ sanitize x) : c ∈ x := by
  rw [sanitize_eq_flatMap] at h
  obtain ⟨a, ha, h⟩ := List.mem_flatMap.mp h
  by_cases hs : a ∈ escSpecial
  · exact absurd h (esc_kept a hs c hc)
  · rw [esc_other a hs] at h
    rcases List.mem_singleton.mp h with rfl
    exact ha

/-- Characters that no message has. -/
def signChars : List Char := c!"-+*`\t~[|!<^>.]"

theorem signChars_kept : ∀ c ∈ signChars, c ∈ keptChars ∧ c ∉ c!"EOF" ∧ c ∉ linkMsg := by decide

theorem Src.mem {D k : Str} {c : Char} (h : Src D k) (hc : c ∈ signChars) (hk : c ∈ k) : c ∈ D := by
  obtain ⟨h1, h2, h3⟩ := signChars_kept c hc
  rcases h with h | ⟨x, hx, h⟩ | h | ⟨_, h⟩
  · exact h.subset hk
  · exact hx.subset (mem_san h1 (h.subset hk))
  · exact absurd (h.subset hk) h2
  · exact absurd (h.subset hk) h3

theorem Src.underscore {D k : Str} (h : Src D k) (hk : '_' ∈ k) : '_' ∈ D ∨ '!' ∈ D := by
  rcases h with h | ⟨x, hx, h⟩ | h | ⟨hm, h⟩
  · exact .inl (h.subset hk)
  · exact .inl (hx.subset (mem_san (by decide) (h.subset hk)))
  · exact absurd (h.subset hk) (by decide)
  · exact .inr hm

theorem msg_pairs : ∀ w ∈ [c!"_ ", c!"__", c!"    ", c!"]("], ¬ w <:+: c!"EOF" ∧ ¬ w <:+: linkMsg := by decide +kernel

theorem Src.underscore2 {D k : Str} (h : Src D k) (hk : c!"_ " <:+: k ∨ c!"__" <:+: k) : '_' ∈ D := by
  have hm : '_' ∈ k := hk.elim (fun h => h.subset (by simp)) fun h => h.subset (by simp)
  rcases h with h | ⟨x, hx, h⟩ | h | ⟨_, h⟩
  · exact h.subset hm
  · exact hx.subset (mem_san (by decide) (h.subset hm))
  · exact absurd (h.subset hm) (by decide)
  · rcases hk with hk | hk
    · exact absurd (hk.trans h) (msg_pairs _ (by simp)).2
    · exact absurd (hk.trans h) (msg_pairs _ (by simp)).2

theorem esc_head : ∀ a ∈ escSpecial, a = '\\' ∨ (esc a).head? = some '&' := by decide

theorem flat_kept_prefix : ∀ (w y : Str), (∀ c ∈ w, c ∈ keptChars) → '\\' ∉ y → w <+: y.flatMap esc → w <+: y
  | [], y, _, _, _ => List.nil_prefix
  | c :: w, [], _, _, h => by simp at h
  | c :: w, a :: y, hw, hy, h => by
    simp at hy
    have hc := hw c (by simp)
    by_cases hs : a ∈ escSpecial
    · exfalso
      rcases esc_head a hs with h1 | h1
      · exact hy.1 h1.symm
      · cases he : esc a with
        | nil => simp [he] at h1
        | cons b v =>
          rw [he] at h1
          simp at h1
          rw [List.flatMap_cons, he, List.cons_append, List.cons_prefix_cons] at h
          rw [h.1, h1] at hc
          exact absurd hc (by decide)
    · rw [List.flatMap_cons, esc_other a hs, List.singleton_append, List.cons_prefix_cons] at h
      rw [List.cons_prefix_cons]
      exact ⟨h.1, flat_kept_prefix w y (fun d hd => hw d (by simp [hd])) hy.2 h.2⟩

theorem flat_kept_infix (c : Char) (w : Str) (hw : ∀ d ∈ c :: w, d ∈ keptChars) (y : Str) (hy : '\\' ∉ y) : ∀ p r,
    y.flatMap esc = p ++ (c :: w ++ r) → c :: w <:+: y := by
  induction y with
  | nil => intro p r e; simp at e
  | cons a y ih =>
    intro p r e
    simp at hy
    rw [List.flatMap_cons] at e
    rcases split_at_char (show esc a ++ y.flatMap esc = p ++ c :: (w ++ r) by simpa using e) with ⟨b', e1, e2⟩ | ⟨a', e1, _⟩
    · by_cases hs : a ∈ escSpecial
      · exact absurd (by rw [e1]; simp) (esc_kept a hs c (hw c (by simp)))
      · have e1' := e1
        rw [esc_other a hs] at e1
        have hp : p = [] := by
          have := congrArg List.length e1
          simp at this
          exact List.length_eq_zero_iff.mp (by omega)
        subst hp
        refine (flat_kept_prefix (c :: w) (a :: y) hw (by simp [hy]) ?_).isInfix
        rw [List.flatMap_cons, e]
        simp
    · exact (ih hy.2 a' r (by simpa using e1)).trans (List.suffix_cons _ _).isInfix

theorem san_filter (x : Str) : sanitize x = (x.filter (· != '\\')).flatMap esc := by
  rw [sanitize_eq_flatMap]
  induction x with
  | nil => rfl
  | cons a x ih =>
    rw [List.flatMap_cons, ih, List.filter_cons]
    split
    · rfl
    · next h =>
      have : a = '\\' := by simpa using h
      rw [this]
      rfl

theorem Src.spaces {D k : Str} (h : Src D k) (hk : c!"    " <:+: k) : c!"    " <:+: D.filter (· != '\\') := by
  rcases h with h | ⟨x, hx, h⟩ | h | ⟨_, h⟩
  · exact (hk.trans h).filter (· != '\\')
  · obtain ⟨p, r, e⟩ := hk.trans h
    rw [san_filter] at e
    refine List.IsInfix.trans ?_ (hx.filter (· != '\\'))
    exact flat_kept_infix ' ' c!"   " (by decide) _ (by simp) p r (by rw [← e]; simp)
  · exact absurd (hk.trans h) (msg_pairs _ (by simp)).1
  · exact absurd (hk.trans h) (msg_pairs _ (by simp)).2

theorem Src.target {D k : Str} (h : Src D k) (hk : c!"](" <:+: k) : c!"](" <:+: D := by
  rcases h with h | ⟨x, hx, h⟩ | h | ⟨_, h⟩
  · exact hk.trans h
  · exact absurd ((hk.trans h).subset (by simp)) (san_bracket x)
  · exact absurd (hk.trans h) (msg_pairs _ (by simp)).1
  · exact absurd (hk.trans h) (msg_pairs _ (by simp)).2

theorem esc_last : ∀ a ∈ escSpecial, ∀ c ∈ (esc a).getLast?, c = ';' := by decide

/-- What stands before a character that no escape has is a character of the text or the end of an escape. -/
theorem before_kept {c b : Char} {r : Str} (hb : b ∈ keptChars) (x : Str) : ∀ a : Str, sanitize x = a ++ c :: b :: r → c ∈ x ∨ c = ';' := by
  induction x with
  | nil =>
    intro a e
    rw [sanitize_nil] at e
    simp at e
  | cons h x ih =>
    intro a e
    rw [sanitize_cons] at e
    rcases split_at_char e with ⟨w, e1, e2⟩ | ⟨a', e1, _⟩
    · by_cases hs : h ∈ escSpecial
      · cases w with
        | nil =>
          refine .inr (esc_last h hs c ?_)
          rw [e1]
          simp
        | cons d w =>
          exfalso
          injection e2 with e2 _
          refine esc_kept h hs b hb ?_
          rw [e1, e2]
          simp
      · rw [esc_other h hs] at e1
        have : c ∈ [h] := by rw [e1]; simp
        rcases List.mem_singleton.mp this with rfl
        exact .inl (by simp)
    · exact (ih a' e1).imp (fun h => by simp [h]) id

theorem Src.before {D k : Str} {c b : Char} (h : Src D k) (hc : c ≠ ';') (h1 : c ∉ c!"EOF") (h2 : c ∉ linkMsg) (hb : b ∈ keptChars)
    (hk : [c, b] <:+: k) : c ∈ D := by
  have hm : c ∈ k := hk.subset (by simp)
  rcases h with h | ⟨x, hx, h⟩ | h | ⟨_, h⟩
  · exact h.subset hm
  · obtain ⟨p, r, e⟩ := hk.trans h
    refine hx.subset ((before_kept (r := r) hb x p ?_).resolve_right hc)
    rw [← e]
    simp
  · exact absurd (h.subset hm) h1
  · exact absurd (h.subset hm) h2

/-- The texts rendered while rendering a text of the document are texts of the document. -/
theorem Src.kid {D d k : Str} (h : Src D d) (hk : KidOf d k) : Src D k := by
  cases hk with
  | child k hc => exact h.infix hc.1
  | quote x hc hg =>
    rcases h with h | ⟨y, hy, h⟩ | h | ⟨_, h⟩
    · exact .inr (.inl ⟨x, hc.1.trans h, List.infix_rfl⟩)
    · exact absurd (h.subset hg) (gt_not_mem_sanitize y)
    · exact absurd (h.subset hg) (by decide)
    · exact absurd (h.subset hg) (by decide)
  | err k hk hg =>
    rcases mem_errTexts hk with rfl | rfl
    · exact .inr (.inr (.inl List.infix_rfl))
    · refine .inr (.inr (.inr ⟨h.mem (by decide) (hg.resolve_left (by decide)), List.infix_rfl⟩))

/-! ### Signs -/

theorem Sign.known {d n : Str} (h : Sign d n) : n ∈ tagNames := by
  cases h with
  | heading n hn => exact (by decide : ∀ n ∈ [c!"h1", c!"h2", c!"h3", c!"h4", c!"h5", c!"h6"], n ∈ tagNames) _ hn
  | bullet n hn => exact (by decide : ∀ n ∈ [c!"ul", c!"li"], n ∈ tagNames) _ hn
  | number n hn => exact (by decide : ∀ n ∈ [c!"ol", c!"li"], n ∈ tagNames) _ hn
  | note n hn => exact (by decide : ∀ n ∈ [c!"sup", c!"a", c!"div", c!"ol", c!"li"], n ∈ tagNames) _ hn
  | code n hn => exact (by decide : ∀ n ∈ [c!"pre", c!"code"], n ∈ tagNames) _ hn
  | emphasis n hn => exact (by decide : ∀ n ∈ [c!"em", c!"strong"], n ∈ tagNames) _ hn
  | details n hn => exact (by decide : ∀ n ∈ [c!"details", c!"summary"], n ∈ tagNames) _ hn
  | table n hn => exact (by decide : ∀ n ∈ [c!"table", c!"thead", c!"tbody", c!"tr", c!"th", c!"td"], n ∈ tagNames) _ hn
  | _ => decide

theorem Sign.chars {d n : Str} (h : Sign d n) : '>' ∉ n ∧ '\t' ∉ n :=
  (by decide : ∀ n ∈ tagNames, '>' ∉ n ∧ '\t' ∉ n) n (Sign.known h)

theorem Src.list {D s : Str} (h : Src D s) (hg : ListSign s) : ∃ c ∈ c!"-+*_", c ∈ D := by
  rcases hg with hg | hg | hg | hg
  · exact ⟨_, by simp, h.mem (by decide) hg⟩
  · exact ⟨_, by simp, h.mem (by decide) hg⟩
  · exact ⟨_, by simp, h.mem (by decide) hg⟩
  · exact ⟨_, by simp, h.underscore2 (.inl hg)⟩

theorem Src.rule {D s : Str} (h : Src D s) (hg : RuleSign s) : ∃ c ∈ c!"-+*_", c ∈ D := by
  rcases hg with hg | hg | hg | hg
  · exact ⟨_, by simp, h.mem (by decide) hg⟩
  · exact ⟨_, by simp, h.mem (by decide) hg⟩
  · exact ⟨_, by simp, h.mem (by decide) hg⟩
  · exact ⟨_, by simp, h.underscore2 (.inr hg)⟩

theorem Src.code {D s : Str} (h : Src D s) (hg : CodeSign s) : '`' ∈ D ∨ '\t' ∈ D ∨ c!"    " <:+: D.filter (· != '\\') := by
  rcases hg with hg | hg | hg
  · exact .inl (h.mem (by decide) hg)
  · exact .inr (.inl (h.mem (by decide) hg))
  · exact .inr (.inr (h.spaces hg))

theorem Src.italic {D s : Str} (h : Src D s) (hg : '*' ∈ s ∨ '_' ∈ s) : Sign D c!"em" := by
  rcases hg with hg | hg
  · exact .emphasis _ (by simp) (.inl (h.mem (by decide) hg))
  · rcases h.underscore hg with hg | hg
    · exact .emphasis _ (by simp) (.inr hg)
    · exact .message hg

theorem Src.bold {D s n : Str} (h : Src D s) (hn : n ∈ [c!"em", c!"strong"]) (hg : '*' ∈ s ∨ c!"__" <:+: s) : Sign D n :=
  .emphasis n hn (hg.imp (fun hg => h.mem (by decide) hg) fun hg => h.underscore2 (.inr hg))

/-- A run of `#` and what follows it. -/
theorem headSep_pair {s : Str} (h1 : 1 ≤ (s.takeWhile (· == '#')).length) (h : HeadSep s) : ∃ c ∈ c!" \t\n", ['#', c] <:+: s := by
  obtain ⟨c, hc, h⟩ := h
  refine ⟨c, hc, ?_⟩
  have hs := split_while (· == '#') s
  have hall : ∀ d ∈ s.takeWhile (· == '#'), d = '#' := fun d hd => by simpa using mem_takeWhile_true _ _ _ hd
  generalize s.takeWhile (· == '#') = w at *
  generalize s.dropWhile (· == '#') = v at *
  cases v with
  | nil => simp at h
  | cons d v =>
    simp at h
    subst h
    rcases List.eq_nil_or_concat w with rfl | ⟨u, l, rfl⟩
    · simp at h1
    · have := hall l (by simp)
      subst this
      exact ⟨u, v, by rw [← hs]; simp⟩

theorem Src.heading {D s : Str} (h : Src D s) (h1 : 1 ≤ (s.takeWhile (· == '#')).length) (hs : HeadSep s) : '#' ∈ D := by
  obtain ⟨c, hc, hp⟩ := headSep_pair h1 hs
  exact h.before (by decide) (by decide) (by decide) ((by decide : ∀ c ∈ c!" \t\n", c ∈ keptChars) c hc) hp

theorem digit_plain : ∀ c ∈ c!"1234567890", c ∈ c!"0123456789" ∧ c ≠ ';' ∧ c ∉ c!"EOF" ∧ c ∉ linkMsg := by decide

theorem Src.number {D s : Str} (h : Src D s) (hg : ∃ c ∈ c!"1234567890", [c, '.', ' '] <:+: s) :
    ∃ c ∈ c!"0123456789", c ∈ D ∧ '.' ∈ D := by
  obtain ⟨c, hc, hg⟩ := hg
  obtain ⟨k1, k2, k3, k4⟩ := digit_plain c hc
  refine ⟨c, k1, h.before (b := '.') k2 k3 k4 (by decide) ?_, h.mem (by decide) (hg.subset (by simp))⟩
  exact (show [c, '.'] <:+: [c, '.', ' '] from ⟨[], c!" ", rfl⟩).trans hg

theorem heading_sign {D : Str} (h : '#' ∈ D) {l : Nat} (h1 : 1 ≤ l) (h6 : l ≤ 6) : Sign D ('h' :: dec l) := by
  have : ∀ l < 7, 1 ≤ l → 'h' :: dec l ∈ [c!"h1", c!"h2", c!"h3", c!"h4", c!"h5", c!"h6"] := by decide +kernel
  exact .heading _ (this l (by omega) h1) h

/-! ### Rendering -/

/-- Rendering a text of the document writes only tags with a sign in the document. -/
theorem render_only (D : Str) : ∀ (n : Nat) (ig : List Char) (d html : Str), SafeSource False d → Src D d →
    (recF n).render ig d = .ok html → Only (Sign D) html := by
  intro n
  induction n using Nat.strongRecOn with
  | ind n ihn =>
    intro ig d html hd hsrc e
    cases n with
    | zero => cases e
    | succ n =>
      obtain ⟨ts, e1, e⟩ := Outcome.bind_ok' (show (lexWith (recF n) ig d >>= fun ts => parseDoc (recF n) ts) = .ok html from e)
      have hu : False → Apart d := fun h => h.elim
      refine parseDoc_only_of .paragraph (recF n) ts (fun t ht => parseTok_holds (q := False) (U := False) (M := '[' ∈ d) .paragraph
        (fun n h => Sign.chars h) (recF n) ?_) html e
      refine (okTok_deep hd hu (fun m _ => render_bal m) e1 t ht).and ?_
      refine ((deep_shape n ig d ts e1 t ht).and (deep_kids e1 t ht)).mono ?_
      rintro t ⟨⟨m, s', hm, hs', hsh⟩, hk⟩
      have hs := hsrc.infix hs'
      refine ⟨fun k h hk' hr => ?_, ?_⟩
      · have := hk k hk'
        exact ihn n (by omega) [] k h (kid_safe this hd hu).1 (hsrc.kid this) hr
      · cases hsh with
        | plain x h hg =>
          intro hx
          have : '[' ∈ s' ∧ '^' ∈ s' := by
            rcases hg with hg | hg | hg
            · exact ⟨(hx.trans hg).subset (by simp), (hx.trans hg).subset (by simp)⟩
            · subst hg
              exact absurd (hx.subset (show '[' ∈ c!"[^" by simp)) (by decide)
            · rcases h with h | h
              · exact ⟨(hx.trans h).subset (by simp), (hx.trans h).subset (by simp)⟩
              · exact absurd (hx.subset (show '[' ∈ c!"[^" by simp)) (err_safe h).2.1
          exact ⟨.note _ (by simp) (hs.mem (by decide) this.1) (hs.mem (by decide) this.2),
            .note _ (by simp) (hs.mem (by decide) this.1) (hs.mem (by decide) this.2)⟩
        | headerEmpty l h h1 h6 hsep => exact ⟨heading_sign (hs.heading (h ▸ h1) hsep) h1 h6, .nil⟩
        | header l arg html h h1 h6 ha hr hsep =>
          exact ⟨heading_sign (hs.heading (h ▸ h1) hsep) h1 h6,
            .headingPost (ihn m (by omega) _ arg html (hd.infix (ha.1.trans hs')) (hs.infix ha.1) hr)⟩
        | ul elems h hg =>
          obtain ⟨c, hc, hcd⟩ := hs.list hg
          exact ⟨.bullet _ (by simp) c hc hcd, .bullet _ (by simp) c hc hcd⟩
        | ulLex elems l ts h hl hl1 hr hg =>
          obtain ⟨c, hc, hcd⟩ := hs.list hg
          exact ⟨.bullet _ (by simp) c hc hcd, .bullet _ (by simp) c hc hcd⟩
        | ol x h hg =>
          obtain ⟨c, hc, hcd, hdot⟩ := hs.number hg
          exact ⟨.number _ (by simp) c hc hcd hdot, .number _ (by simp) c hc hcd hdot⟩
        | italic x h hg => exact hs.italic hg
        | bold x h hg => exact hs.bold (by simp) hg
        | boldItalic x h hg => exact ⟨hs.bold (by simp) hg, hs.bold (by simp) hg⟩
        | rule hg =>
          obtain ⟨c, hc, hcd⟩ := hs.rule hg
          exact .rule c hc hcd
        | strike x h hg => exact .strike (hs.mem (by decide) hg)
        | code x h hg => exact ⟨.code _ (by simp) (hs.code hg), .code _ (by simp) (hs.code hg)⟩
        | quote n x h hg => exact .quote (hs.mem (by decide) hg)
        | image l title u hv hl hc ht hg =>
          exact .image (hs.mem (by decide) hg) (hs.target ((List.prefix_append _ _).isInfix.trans hl))
        | link l title hover u hv hl hc ht => exact .link (hs.target ((List.prefix_append _ _).isInfix.trans hl))
        | autolink l u hv hl hg hs1 => exact .autolink (hs.mem (by decide) (hl.subset (by simp)))
        | detail sum x ts hsum hx hr hg =>
          exact ⟨.details _ (by simp) (hs.mem (by decide) hg), .details _ (by simp) (hs.mem (by decide) hg)⟩
        | table heads aligns body rows hh hb hne hp hrows => exact fun n hn => .table n hn (hs.mem (by decide) hp)
        | task b x h hg hl =>
          obtain ⟨c, hc, hcd⟩ := hs.list hl
          exact ⟨.bullet _ (by simp) c hc hcd, .bullet _ (by simp) c hc hcd, .box c hc hcd (hs.mem (by decide) hg)⟩
        | footnote i x hi hx hg =>
          have h1 := hs.mem (by decide) hg.1
          have h2 := hs.mem (by decide) hg.2
          exact ⟨.note _ (by simp) h1 h2, .note _ (by simp) h1 h2, .note _ (by simp) h1 h2, .note _ (by simp) h1 h2⟩
        | _ => trivial

theorem render_only' {d html : Str} (hd : SafeSource False d) (e : render d = .ok html) : Only (Sign d) html := by
  have : (recF (fuelFor d)).render [] d = .ok html := by
    have := wt_le d
    rw [render_eq d _ (by unfold fuelFor; omega)]
    exact e
  exact render_only d _ _ _ _ hd (.inl List.infix_rfl) this

/-! ### The names a browser finds -/

theorem Only.hscan {N : Str → Prop} (hN : ∀ n, N n → n ∈ tagNames) : ∀ (l : Nat) (s : Str) (st : HState) (a : HAcc), s.length ≤ l → Only N s →
    Calm st → NameIn N st a → ∀ t ∈ hscan st a s, N t.name := by
  intro l
  induction l with
  | zero =>
    intro s st a hl h h1 h2 t ht
    have : s = [] := List.length_eq_zero_iff.mp (by omega)
    subst this
    simp [Spec.hscan] at ht
  | succ l ih =>
    intro s st a hl h h1 h2 t ht
    cases s with
    | nil => simp [Spec.hscan] at ht
    | cons c s =>
      simp at hl
      by_cases hc : st = .data → c ≠ '<'
      · obtain ⟨k1, k2, k3⟩ := hstep_in (c := c) h1 h2 hc
        rw [Spec.hscan] at ht
        rcases List.mem_append.mp ht with ht | ht
        · exact k3 t (by simpa using ht)
        · exact ih s _ _ hl (h.of_suffix (List.suffix_cons _ _)) k1 k2 t ht
      · simp only [Classical.not_imp, not_not] at hc
        obtain ⟨rfl, rfl⟩ := hc
        obtain ⟨y, r, rfl, hy, n, hn, hty⟩ := h [] s rfl
        have hr : Only N r := h.of_suffix ⟨'<' :: (y ++ c!">"), by simp⟩
        simp at hl
        have hgt : ∀ (a : HAcc), N a.tag.name → t ∈ Spec.hscan .tagName a ('>' :: r) → N t.name := by
          intro a ha ht
          rw [tagName_gt] at ht
          rcases List.mem_cons.mp ht with rfl | ht
          · exact ha
          · exact ih r .data {} (by omega) hr (by simp [Calm]) (.inl rfl) t ht
        rcases hty with rfl | ⟨m, rfl⟩ | rfl
        · rw [hscan_open (hN _ hn)] at ht
          exact hgt _ hn ht
        · rw [show '<' :: (n ++ ' ' :: m ++ '>' :: r) = '<' :: (n ++ (' ' :: (m ++ '>' :: r))) by simp, hscan_open (hN _ hn), Spec.hscan] at ht
          simp only [hstep, tagWs] at ht
          simp at ht
          refine ih (m ++ '>' :: r) .beforeAttr { tag := { name := n } } (by simp at hl ⊢; omega) (h.of_suffix ⟨'<' :: (n ++ c!" "), by simp⟩)
            (by simp [Calm]) (.inr (.inr hn)) t ht
        · rw [List.cons_append, hscan_close (hN _ hn)] at ht
          exact hgt _ hn ht

theorem Only.names {N : Str → Prop} (hN : ∀ n, N n → n ∈ tagNames) {s : Str} (h : Only N s) : ∀ t ∈ htmlTags s, N t.name :=
  Only.hscan hN s.length s .data {} (Nat.le_refl _) h (by simp [Calm]) (.inl rfl)

end Smd.Gfm
