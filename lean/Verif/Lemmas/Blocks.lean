import Verif.Lemmas.Lists
import Verif.Lemmas.Occ
import Verif.Props.Escape

/-! Paragraphs, headings and thematic breaks. -/

namespace Smd.Gfm
open Smd.Rs Smd.Spec

variable {stop : Str}

variable {r : Rec} {ig : List Char} {rest : Str} {ts : List Token}

theorem elem_p (x : Str) : elem c!"p" x ++ c!"\n" = c!"<p>" ++ x ++ c!"</p>\n" := by simp [elem]

theorem parseToks_newline_inP (r : Rec) (h : Str) : parseTok r .newline (inP h) = .ok (clean (h ++ c!"</p>\n")) := by
  simp [parseTok, step1, step2, isBlankPlain, isTab, staysInList, staysInTask, opensPara, closesPara, PState.push]

theorem parseToks_newline_clean (r : Rec) (h : Str) : parseTok r .newline (clean h) = .ok (clean h) := by
  simp [parseTok, step1, step2, isBlankPlain, isTab, staysInList, staysInTask, opensPara, closesPara, staysInQuote, isCode]

theorem parseToks_gaps_clean (r : Rec) (n : Nat) (h : Str) : parseToks r (gapToks n) (clean h) = .ok (clean h) := by
  unfold gapToks gapTok
  split
  · rfl
  · refine parseToks_one ?_
    split
    · exact parseTok_blank r _ (by decide)
    · exact parseToks_newline_clean r h

theorem parseToks_gaps_inP (r : Rec) {n : Nat} (h : Str) (hn : 2 ≤ n) :
    parseToks r (gapToks n) (inP h) = .ok (clean (h ++ c!"</p>\n")) := by
  unfold gapToks gapTok
  rw [if_neg (by omega), if_neg (by omega)]
  exact parseToks_one (parseToks_newline_inP r h)

theorem parseToks_gap1_inP (r : Rec) {n : Nat} (h : Str) (hn : n ≤ 1) : parseToks r (gapToks n) (inP h) = .ok (inP h) := by
  unfold gapToks gapTok
  split
  · rfl
  · rw [if_pos (by omega)]
    exact parseToks_one (parseTok_blank r _ (by decide))

/-! ### Running text as a document of its own -/

theorem renderIgnore_inlines {is : List Inline} (ig : List Char) (h : InlineGood none is)
    (hv : ∃ i, is.head? = some i ∧ i.Visible) :
    renderIgnore ig (inlineSrc is) = .ok (c!"<p>" ++ inlineHtml is ++ c!"</p>\n") := by
  obtain ⟨toks, hl, _, ho⟩ := inlines_sem h
  have := hl self ig [] [] h LexTo.nil
  rw [List.append_nil, List.append_nil] at this
  rw [renderIgnore_of this ((ho hv).clean self []), finish_inP]
  simp

/-! ### First and last characters -/

theorem escape_ends {c : Char} {s : Str} (h : isWs c = false) (hc : c ≠ '\\') :
    (∃ a u, escape (c :: s) = a :: u ∧ isWs a = false) ∧ ∃ a u, escape (s ++ [c]) = u ++ [a] ∧ isWs a = false := by
  have : (∃ a u, escape [c] = a :: u ∧ isWs a = false) ∧ ∃ a u, escape [c] = u ++ [a] ∧ isWs a = false := by
    by_cases hs : c ∈ escSpecial
    · have : ∀ c ∈ escSpecial, c ≠ '\\' → (escape [c]).head? = some '&' ∧ (escape [c]).getLast? = some ';' := by decide
      obtain ⟨h1, h2⟩ := this c hs hc
      refine ⟨?_, ?_⟩
      · cases he : escape [c] with
        | nil => rw [he] at h1; cases h1
        | cons a u => rw [he] at h1; injection h1 with h1; subst h1; exact ⟨_, _, rfl, by decide⟩
      · obtain ⟨u, hu⟩ := List.getLast?_eq_some_iff.mp h2
        exact ⟨_, _, hu, by decide⟩
    · rw [escape_single hs]
      exact ⟨⟨c, [], rfl, h⟩, c, [], rfl, h⟩
  obtain ⟨⟨a, u, h1, h2⟩, b, v, h3, h4⟩ := this
  refine ⟨⟨a, u ++ escape s, by rw [escape_cons, h1]; rfl, h2⟩, b, escape s ++ v, ?_, h4⟩
  rw [escape_append, h3, List.append_assoc]

theorem word_ends {w : Str} (h : Word w) :
    (∃ a u, escape w = a :: u ∧ isWs a = false) ∧ (∃ a u, escape w = u ++ [a] ∧ isWs a = false) ∧
    (∃ a u, w = a :: u ∧ isWs a = false) ∧ ∃ a u, w = u ++ [a] ∧ isWs a = false := by
  obtain ⟨hne, hw⟩ := h
  have hb : ∀ c ∈ w, isWs c = false ∧ c ≠ '\\' := fun c hc => ⟨(hw c hc).2, fun e => (hw c hc).1 (e ▸ by decide)⟩
  obtain ⟨c, s, e1⟩ : ∃ c s, w = c :: s := by
    cases w with
    | nil => exact absurd rfl hne
    | cons c s => exact ⟨c, s, rfl⟩
  obtain ⟨d, t, e2⟩ : ∃ d t, w = t ++ [d] := ⟨_, _, (List.dropLast_append_getLast hne).symm⟩
  have h1 := hb c (by simp [e1])
  have h2 := hb d (by simp [e2])
  refine ⟨?_, ?_, ⟨c, s, e1, h1.1⟩, d, t, e2, h2.1⟩
  · rw [e1]; exact (escape_ends h1.1 h1.2).1
  · rw [e2]; exact (escape_ends h2.1 h2.2).2

theorem times_last {n : Nat} (h : 1 ≤ n) (m : Char) (a : Str) : ∃ u, a ++ times n m = u ++ [m] := by
  obtain ⟨k, rfl⟩ : ∃ k, n = k + 1 := ⟨n - 1, by omega⟩
  exact ⟨a ++ times k m, by simp [List.replicate_succ']⟩

/-- Something visible starts and ends with a visible character, in the source and in the output. -/
structure Ends (s : Str) : Prop where
  head : ∃ a u, s = a :: u ∧ isWs a = false
  last : ∃ a u, s = u ++ [a] ∧ isWs a = false

theorem au_ws {m : Char} (h : m = '*' ∨ m = '_') : isWs m = false := by rcases h with rfl | rfl <;> decide

theorem marked_ends {n : Nat} {m : Char} (hn : 1 ≤ n) (hm : isWs m = false) (t : Str) : Ends (times n m ++ t ++ times n m) := by
  refine ⟨?_, ?_⟩
  · obtain ⟨u, hu⟩ := times_head (c := m) hn (t ++ times n m)
    exact ⟨m, u, by rw [List.append_assoc, hu], hm⟩
  · obtain ⟨u, hu⟩ := times_last hn m (times n m ++ t)
    exact ⟨m, u, hu, hm⟩

theorem elem_ends (n x : Str) : Ends (elem n x) :=
  ⟨⟨'<', n ++ c!">" ++ x ++ c!"</" ++ n ++ c!">", by simp [elem], by decide⟩,
    ⟨'>', '<' :: n ++ c!">" ++ x ++ c!"</" ++ n, by simp [elem], by decide⟩⟩

theorem single_ends {c : Char} (h : isWs c = false) : Ends [c] := ⟨⟨c, [], rfl, h⟩, ⟨c, [], rfl, h⟩⟩

theorem visible_ends {i : Inline} {next : Option Char} (h : i.Good next) (hv : i.Visible) : Ends i.src ∧ Ends i.html := by
  cases i with
  | word w => obtain ⟨h1, h2, h3, h4⟩ := word_ends (show Word w from h); exact ⟨⟨h3, h4⟩, ⟨h1, h2⟩⟩
  | space n => exact hv.elim
  | eol => exact hv.elim
  | digit c => exact ⟨single_ends (digit_facts c h.1).1, single_ends (digit_facts c h.1).1⟩
  | bang => exact ⟨single_ends (by decide), single_ends (by decide)⟩
  | em m t => exact ⟨marked_ends (by omega) (au_ws h.1) t, elem_ends _ _⟩
  | strong m t => exact ⟨marked_ends (by omega) (au_ws h.1) t, elem_ends _ _⟩
  | strongEm m t => exact ⟨marked_ends (by omega) (au_ws h.1) t, elem_ends _ _⟩
  | strike t => exact ⟨marked_ends (by omega) (by decide) t, elem_ends _ _⟩
  | tildes n =>
    obtain ⟨u, hu⟩ := times_head (c := '~') h.1 []
    obtain ⟨v, hv⟩ := times_last h.1 '~' []
    rw [List.append_nil] at hu
    rw [List.nil_append] at hv
    refine ⟨⟨⟨_, u, hu, by decide⟩, ⟨_, v, hv, by decide⟩⟩, ⟨?_, ?_⟩⟩
    · rw [Inline.html, hu]; exact (escape_ends (by decide) (by decide)).1
    · rw [Inline.html, hv]; exact (escape_ends (by decide) (by decide)).2
  | noteRef id =>
    exact ⟨⟨⟨'[', '^' :: id ++ c!"]", by simp [Inline.src], by decide⟩, ⟨']', c!"[^" ++ id, by simp [Inline.src], by decide⟩⟩,
      ⟨⟨_, _, rfl, by decide⟩, ⟨'>', c!"<sup id=\"fnref:" ++ escape id ++ c!"\" role=\"doc-noteref\"><a href=\"#fn:" ++ escape id ++
        c!"\" class=\"footnote\" rel=\"footnote\">1</a></sup", by simp [Inline.html], by decide⟩⟩⟩
  | arrows n =>
    obtain ⟨u, hu⟩ := times_head (c := '>') h.1 []
    obtain ⟨v, hv⟩ := times_last h.1 '>' []
    rw [List.append_nil] at hu
    rw [List.nil_append] at hv
    refine ⟨⟨⟨_, u, hu, by decide⟩, ⟨_, v, hv, by decide⟩⟩, ⟨?_, ?_⟩⟩
    · rw [Inline.html, hu]; exact (escape_ends (by decide) (by decide)).1
    · rw [Inline.html, hv]; exact (escape_ends (by decide) (by decide)).2
  | digitDot c =>
    exact ⟨⟨⟨c, _, rfl, (digit_facts c h.1).1⟩, ⟨'.', [c], rfl, by decide⟩⟩, ⟨⟨c, _, rfl, (digit_facts c h.1).1⟩, ⟨'.', [c], rfl, by decide⟩⟩⟩
  | brackets t =>
    have h1 : Ends (escape (c!"[" ++ t ++ c!"]")) :=
      ⟨(escape_ends (s := t ++ c!"]") (by decide) (by decide)).1, (escape_ends (s := c!"[" ++ t) (by decide) (by decide)).2⟩
    exact ⟨⟨⟨'[', t ++ c!"]", by simp [Inline.src], by decide⟩, ⟨']', c!"[" ++ t, by simp [Inline.src], by decide⟩⟩, h1⟩
  | angle t =>
    have h1 : Ends (escape (c!"<" ++ t ++ c!">")) :=
      ⟨(escape_ends (s := t ++ c!">") (by decide) (by decide)).1, (escape_ends (s := c!"<" ++ t) (by decide) (by decide)).2⟩
    exact ⟨⟨⟨'<', t ++ c!">", by simp [Inline.src], by decide⟩, ⟨'>', c!"<" ++ t, by simp [Inline.src], by decide⟩⟩, h1⟩
  | escapedHashes n =>
    obtain ⟨u, hu⟩ := times_head (c := '#') h.1 []
    obtain ⟨v, hv⟩ := times_last h.1 '#' []
    obtain ⟨w, hw⟩ := times_last h.1 '#' c!"\\"
    rw [List.append_nil] at hu
    rw [List.nil_append] at hv
    exact ⟨⟨⟨'\\', _, rfl, by decide⟩, ⟨_, w, hw, by decide⟩⟩, ⟨⟨_, u, hu, by decide⟩, ⟨_, v, hv, by decide⟩⟩⟩
  | dashes a b =>
    have ha : isWs a = false := by rcases h.1 with rfl | rfl <;> decide
    have hb : isWs b = false := by rcases h.2.1 with rfl | rfl <;> decide
    exact ⟨⟨⟨a, _, rfl, ha⟩, ⟨b, [a], rfl, hb⟩⟩, ⟨⟨a, _, rfl, ha⟩, ⟨b, [a], rfl, hb⟩⟩⟩
  | escaped c =>
    have := escape_ends (s := []) h.1 h.2.2
    exact ⟨⟨⟨_, _, rfl, by decide⟩, ⟨c, ['\\'], rfl, h.1⟩⟩, ⟨this.1, this.2⟩⟩
  | link text target =>
    exact ⟨⟨⟨'[', text ++ c!"](" ++ target ++ c!")", by simp [Inline.src], by decide⟩,
        ⟨')', c!"[" ++ text ++ c!"](" ++ target, by simp [Inline.src], by decide⟩⟩,
      ⟨⟨'<', c!"a href=\"" ++ target ++ c!"\">" ++ escape text ++ c!"</a>", by simp [Inline.html], by decide⟩,
        ⟨'>', c!"<a href=\"" ++ target ++ c!"\">" ++ escape text ++ c!"</a", by simp [Inline.html], by decide⟩⟩⟩
  | autolink target =>
    exact ⟨⟨⟨'<', target ++ c!">", by simp [Inline.src], by decide⟩, ⟨'>', c!"<" ++ target, by simp [Inline.src], by decide⟩⟩,
      ⟨⟨'<', c!"a href=\"" ++ target ++ c!"\">" ++ target ++ c!"</a>", by simp [Inline.html], by decide⟩,
        ⟨'>', c!"<a href=\"" ++ target ++ c!"\">" ++ target ++ c!"</a", by simp [Inline.html], by decide⟩⟩⟩

theorem inlineGood_last : ∀ {is : List Inline} {next : Option Char} {i : Inline}, InlineGood next is → is.getLast? = some i → i.Good next
  | [j], next, i, h, hi => by
    have : j = i := by simpa using hi
    subst this
    simpa [InlineGood, inlineSrc] using h
  | j :: k :: is, next, i, h, hi => inlineGood_last h.2 (by simpa using hi)

theorem head_ends {is : List Inline} {next : Option Char} (h : InlineGood next is) (hv : ∃ i, is.head? = some i ∧ i.Visible) :
    (∃ a u, inlineSrc is = a :: u ∧ isWs a = false) ∧ ∃ a u, inlineHtml is = a :: u ∧ isWs a = false := by
  obtain ⟨i, hi, hv⟩ := hv
  cases is with
  | nil => cases hi
  | cons j is =>
    have : j = i := by simpa using hi
    subst this
    obtain ⟨⟨⟨a, u, e1, h1⟩, _⟩, ⟨b, v, e2, h2⟩, _⟩ := visible_ends h.1 hv
    exact ⟨⟨a, u ++ inlineSrc is, by simp [inlineSrc, e1], h1⟩, ⟨b, v ++ inlineHtml is, by simp [inlineHtml, e2], h2⟩⟩

theorem last_ends {is : List Inline} {next : Option Char} (h : InlineGood next is) (hv : ∃ i, is.getLast? = some i ∧ i.Visible) :
    (∃ a u, inlineSrc is = u ++ [a] ∧ isWs a = false) ∧ ∃ a u, inlineHtml is = u ++ [a] ∧ isWs a = false := by
  obtain ⟨i, hi, hv⟩ := hv
  obtain ⟨⟨_, a, u, e1, h1⟩, _, b, v, e2, h2⟩ := visible_ends (inlineGood_last h hi) hv
  obtain ⟨js, rfl⟩ := List.getLast?_eq_some_iff.mp hi
  exact ⟨⟨a, inlineSrc js ++ u, by simp [inlineSrc, e1], h1⟩, ⟨b, inlineHtml js ++ v, by simp [inlineHtml, e2], h2⟩⟩

/-! ### Headings -/

theorem trimEnd_id {p : Char → Bool} {s : Str} {a : Char} {u : Str} (h : s = u ++ [a]) (ha : p a = false) : trimEndP p s = s := by
  subst h
  simp [trimEndP, ha]

theorem trim_id {s : Str} (h : Ends s) : trim s = s := by
  obtain ⟨⟨a, u, e1, h1⟩, b, v, e2, h2⟩ := h
  have : trimStartP isWs s = s := by rw [e1]; simp [trimStartP, h1]
  unfold trim
  rw [this]
  exact trimEnd_id e2 h2

theorem rsplit_right {c : Char} {s l t : Str} (h : rsplitOnce c s = some (l, t)) : s = l ++ c :: t := by
  unfold rsplitOnce at h
  split at h
  · next hc =>
    injection h with h
    injection h with h1 h2
    subst h1 h2
    have hm : c ∈ s.reverse := by simpa using hc
    have e := split_while (· != c) s.reverse
    rcases dropWhile_cases (· != c) s.reverse with ⟨_, e2⟩ | ⟨x, xs, e2, hx⟩
    · have := mem_takeWhile_true (· != c) s.reverse c (by rw [e2]; exact hm)
      simp at this
    · have hx : x = c := by simpa using hx
      subst hx
      have e3 := congrArg List.reverse e
      rw [List.reverse_append, List.reverse_reverse, e2] at e3
      rw [e2]
      simpa using e3.symm
  · cases h

theorem headingTrim_id {s : Str} {a : Char} {u : Str} (h : s = u ++ [a]) (ha : isWs a = false) (hh : '#' ∉ s) : headingTrim s = s := by
  unfold headingTrim
  have e : trimEnd s = s := trimEnd_id h ha
  rw [e]
  split
  · next l t ht =>
    have e2 := rsplit_right ht
    rw [if_neg]
    intro hall
    rw [List.all_eq_true] at hall
    cases t with
    | nil =>
      rw [h] at e2
      have := congrArg List.getLast? e2
      simp at this
      subst this
      revert ha; decide
    | cons d t =>
      have := hall d (by simp)
      have hd : d = '#' := by simpa using this
      exact hh (by rw [e2, hd]; simp)
  · rfl

theorem headingPost_p {x : Str} (h : Ends x) : headingPost (c!"<p>" ++ x ++ c!"</p>\n") = x := by
  unfold headingPost
  rw [List.append_assoc, stripPrefix_append, Option.getD_some, stripSuffix_append, Option.getD_some, trim_id h]

theorem lexHeading_label {n : Nat} {line0 line x rest : Str} (h6 : n ≤ 6) (hn : '\n' ∉ line0) (hl : headingLabel line0 = .ok line)
    (hh : '#' ∉ line) (he : Ends line) (hx : Ends x) (hr : AtEol rest)
    (hrender : r.render ['#'] line = .ok (c!"<p>" ++ x ++ c!"</p>\n")) :
    lexHeading r (times n '#' ++ ' ' :: (line0 ++ rest)) = .ok (.ok (.header n x none), rest) := by
  rw [lexHeading_line r n ' ' line0 rest h6 (.inl rfl) hn hr, hl]
  simp only [Outcome.ok_bind]
  obtain ⟨⟨a, u, e1, h1⟩, b, v, e2, h2⟩ := he
  rw [if_neg, headingTrim_id e2 h2 hh, trimEnd_id e2, hrender]
  · simp only [Outcome.ok_bind]
    rw [headingPost_p hx]
  · have e1 : b ≠ ' ' := by rintro rfl; revert h2; decide
    have e2 : b ≠ '\t' := by rintro rfl; revert h2; decide
    simp [e1, e2]
  · rw [e1]
    simp
    rintro rfl
    exact absurd (by rw [e1]; simp) hh

theorem lexHeading_inline {n : Nat} {line x rest : Str} (h6 : n ≤ 6) (hn : '\n' ∉ line) (hh : '#' ∉ line) (he : Ends line)
    (hx : Ends x) (hr : AtEol rest) (hrender : r.render ['#'] line = .ok (c!"<p>" ++ x ++ c!"</p>\n")) :
    lexHeading r (times n '#' ++ ' ' :: (line ++ rest)) = .ok (.ok (.header n x none), rest) :=
  lexHeading_label h6 hn (headingLabel_none (.inl fun hi => hh (hi.subset (by simp)))) hh he hx hr hrender

theorem LexTo.heading {n : Nat} {line x : Str} (h1 : 1 ≤ n) (h6 : n ≤ 6) (hn : '\n' ∉ line) (hh : '#' ∉ line) (he : Ends line)
    (hx : Ends x) (hr : AtEol rest) (hrender : r.render ['#'] line = .ok (c!"<p>" ++ x ++ c!"</p>\n")) (h : LexTo (stop := stop) r [] rest ts) :
    LexTo (stop := stop) r [] (times n '#' ++ ' ' :: line ++ rest) (.header n x none :: ts) := by
  refine .cons (fun last => ?_) h
  obtain ⟨k, rfl⟩ : ∃ k, n = k + 1 := ⟨n - 1, by omega⟩
  have e := lexHeading_inline h6 hn hh he hx hr hrender
  rw [List.append_assoc, List.cons_append]
  rw [times_succ_append] at e ⊢
  rw [nextToken_hash rfl, e]
  rfl

theorem headerHtml (n : Nat) (x : Str) : headerOut n x none = elem ('h' :: dec n) x ++ c!"\n" := by
  simp [headerOut, elem]

theorem parseTok_header_clean (r : Rec) (n : Nat) (x h : Str) :
    parseTok r (.header n x none) (clean h) = .ok (clean (h ++ (elem ('h' :: dec n) x ++ c!"\n"))) := by
  rw [← headerHtml]
  simp [parseTok, step1, step2, isBlankPlain, isTab, staysInList, staysInTask, opensPara, closesPara, staysInQuote, isCode, PState.push]

theorem parseTok_header_inP (r : Rec) (n : Nat) (x h : Str) :
    parseTok r (.header n x none) (inP h) = .ok (clean (h ++ c!"</p>\n" ++ (elem ('h' :: dec n) x ++ c!"\n"))) := by
  rw [← headerHtml]
  simp [parseTok, step1, step2, isBlankPlain, isTab, staysInList, staysInTask, opensPara, closesPara, PState.push]

/-! ### Thematic breaks -/

theorem LexTo.rule {n : Nat} {c : Char} (h : (c = '-' ∨ c = '+') ∧ 3 ≤ n ∨ (c = '*' ∨ c = '_') ∧ 4 ≤ n) (hr : AtEol rest)
    (ht : LexTo (stop := stop) r ig rest ts) : LexTo (stop := stop) r ig (times n c ++ rest) (.horizontalRule :: ts) := by
  refine .cons (fun last => ?_) ht
  obtain ⟨k, hk⟩ : ∃ k, n = k + 1 := ⟨n - 1, by omega⟩
  have hhead : ∀ d, rest.head? = some d → d = '\n' := by
    rcases hr with rfl | ⟨t, rfl⟩
    · simp
    · intro d hd; simpa using hd.symm
  rcases h with ⟨hc, hn⟩ | ⟨hc, hn⟩
  · have hs := run_split (fun c => c == '-' || c == '+') (s := times n c) (rest := rest) (by
      intro x hx
      rw [List.mem_replicate] at hx
      rcases hc with rfl | rfl <;> simp [hx.2]) (by
      intro d hd
      rw [hhead d hd]
      decide)
    have e : lexPlusMinus r (times n c ++ rest) = .ok (.ok .horizontalRule, rest) := by
      unfold lexPlusMinus
      simp only [hs, List.length_replicate]
      rw [if_pos hn]
    rw [hk] at e ⊢
    rw [times_succ_append] at e ⊢
    rw [nextToken_bullet hc, e]
    rfl
  · have hs := run_split (fun c => c == '*' || c == '_' || c == '\t') (s := times n c) (rest := rest) (by
      intro x hx
      rw [List.mem_replicate] at hx
      rcases hc with rfl | rfl <;> simp [hx.2]) (by
      intro d hd
      rw [hhead d hd]
      decide)
    have e : lexAsteriskUnderscore (times n c ++ rest) = (.ok .horizontalRule, rest) := by
      unfold lexAsteriskUnderscore
      simp only [hs, List.length_replicate]
      rw [if_neg (by omega)]
      split
      · rfl
      · rw [if_neg (by omega), if_neg (by omega), if_neg (by omega), if_pos]
        rcases hc with rfl | rfl <;> simp +contextual
    rw [hk] at e ⊢
    rw [times_succ_append] at e ⊢
    rw [nextToken_au hc, e]
    rfl

theorem parseTok_rule_clean (r : Rec) (h : Str) : parseTok r .horizontalRule (clean h) = .ok (clean (h ++ c!"<hr />\n")) := by
  simp [parseTok, step1, step2, isBlankPlain, isTab, staysInList, staysInTask, opensPara, closesPara, staysInQuote, isCode, PState.push]

/-! ### Running text writes no `<pre>` -/

/-- Nothing in `s` ends up in a `<pre>` tag. -/
def NoPre (s : Str) : Prop := Closed s ∧ occ c!"<pre>" s = 0

theorem NoPre.append {a b : Str} (ha : NoPre a) (hb : NoPre b) : NoPre (a ++ b) :=
  ⟨ha.1.append hb.1, by rw [occ_append (by decide) b ha.1, ha.2, hb.2]⟩

theorem NoPre.text {s : Str} (h : '<' ∉ s) : NoPre s := ⟨.of_no_lt h, occ_no_lt (by decide) h⟩

theorem NoPre.tag {s : Str} (h : IsTag s) (hne : c!"<pre>" ≠ s) : NoPre s := by
  refine ⟨?_, occ_other (by decide) h hne⟩
  have := Closed.append_tag [] h
  simpa using this

theorem NoPre.escaped (s : Str) : NoPre (escape s) := .text (by rw [← sanitize_eq_escape]; exact C03_no_delimiters s '<' (by decide))

theorem NoPre.element {n x : Str} (h1 : IsTag ('<' :: n ++ c!">")) (h2 : c!"<pre>" ≠ '<' :: n ++ c!">")
    (h3 : IsTag (c!"</" ++ n ++ c!">")) (hx : NoPre x) : NoPre (elem n x) := by
  have e : elem n x = ('<' :: n ++ c!">") ++ x ++ (c!"</" ++ n ++ c!">") := by simp [elem]
  rw [e]
  exact ((NoPre.tag h1 h2).append hx).append (.tag h3 (by simp))

theorem NoPre.anchor {t x : Str} (h1 : '<' ∉ t) (h2 : '>' ∉ t) (hx : NoPre x) :
    NoPre (c!"<a href=\"" ++ t ++ c!"\">" ++ x ++ c!"</a>") := by
  refine NoPre.append (NoPre.append (.tag ⟨c!"a href=\"" ++ t ++ c!"\"", by simp, by simp [h1], by simp [h2]⟩ (by simp)) hx)
    (.tag (by decide) (by decide))

theorem target_lt {t : Str} (h : PlainTarget t) : '<' ∉ t := fun hx => (h.chars _ hx).2.2 (by decide)

theorem escape_no_delim (s : Str) : '<' ∉ escape s ∧ '>' ∉ escape s := by
  rw [← sanitize_eq_escape]
  exact ⟨C03_no_delimiters s '<' (by decide), C03_no_delimiters s '>' (by decide)⟩

theorem noteRef_noPre (id : Str) : NoPre (Inline.noteRef id).html := by
  obtain ⟨h1, h2⟩ := escape_no_delim id
  have e : (Inline.noteRef id).html = (c!"<sup id=\"fnref:" ++ escape id ++ c!"\" role=\"doc-noteref\">") ++
      (c!"<a href=\"#fn:" ++ escape id ++ c!"\" class=\"footnote\" rel=\"footnote\">") ++ c!"1" ++ c!"</a>" ++ c!"</sup>" := by
    simp [Inline.html]
  rw [e]
  refine ((((NoPre.tag ⟨c!"sup id=\"fnref:" ++ escape id ++ c!"\" role=\"doc-noteref\"", by simp, by simp [h1], by simp [h2]⟩ (by simp)).append
    (.tag ⟨c!"a href=\"#fn:" ++ escape id ++ c!"\" class=\"footnote\" rel=\"footnote\"", by simp, by simp [h1], by simp [h2]⟩
      (by simp))).append (.text (by decide))).append
    (.tag (by decide) (by decide))).append (.tag (by decide) (by decide))

theorem inline_noPre {i : Inline} {next : Option Char} (h : i.Good next) : NoPre i.html := by
  cases i with
  | word w => exact .escaped w
  | space n => exact .text (by simp [Inline.html])
  | eol => exact .text (by simp [Inline.html])
  | digit c => exact .text (by
      have : ∀ c ∈ c!"0123456789", '<' ∉ [c] := by decide
      exact this c h.1)
  | bang => exact .text (by simp [Inline.html])
  | em m t => exact .element (by decide) (by decide) (by decide) (.escaped t)
  | strong m t => exact .element (by decide) (by decide) (by decide) (.escaped t)
  | strongEm m t => exact .element (by decide) (by decide) (by decide) (.element (by decide) (by decide) (by decide) (.escaped t))
  | strike t => exact .element (by decide) (by decide) (by decide) (.escaped t)
  | tildes n => exact .escaped _
  | escaped c => exact .escaped _
  | noteRef id => exact noteRef_noPre id
  | arrows n => exact .escaped _
  | digitDot c => exact .text (by
      have : ∀ c ∈ c!"0123456789", '<' ∉ [c, '.'] := by decide
      exact this c h.1)
  | brackets t => exact .escaped _
  | angle t => exact .escaped _
  | escapedHashes n => exact .text (by simp [Inline.html, List.mem_replicate])
  | dashes a b => exact .text (by rcases h.1 with rfl | rfl <;> rcases h.2.1 with rfl | rfl <;> decide)
  | link text target => exact .anchor (target_lt h.2) (target_chars h.2).2.2 (.escaped text)
  | autolink target => exact .anchor (target_lt h) (target_chars h).2.2 (.text (target_lt h))

theorem inlines_noPre : ∀ {is : List Inline} {next : Option Char}, InlineGood next is → NoPre (inlineHtml is)
  | [], _, _ => .text (by simp [inlineHtml])
  | i :: is, next, h => by
    have e : inlineHtml (i :: is) = i.html ++ inlineHtml is := by simp [inlineHtml]
    rw [e]
    exact (inline_noPre h.1).append (inlines_noPre h.2)

theorem para_noPre {is : List Inline} {next : Option Char} (h : InlineGood next is) :
    ¬ c!"<pre><code>" <:+: c!"<p>" ++ inlineHtml is ++ c!"</p>\n" := by
  have h1 : NoPre (c!"<p>" ++ inlineHtml is ++ c!"</p>\n") := by
    have e : c!"<p>" ++ inlineHtml is ++ c!"</p>\n" = c!"<p>" ++ inlineHtml is ++ c!"</p>" ++ c!"\n" := by simp
    rw [e]
    exact (((NoPre.tag (by decide) (by decide)).append (inlines_noPre h)).append (.tag (by decide) (by decide))).append
      (.text (by decide))
  intro hi
  have : c!"<pre>" <:+: c!"<p>" ++ inlineHtml is ++ c!"</p>\n" := List.IsInfix.trans ⟨[], c!"<code>", rfl⟩ hi
  have := (occ_pos (by simp)).mpr this
  rw [h1.2] at this
  omega

end Smd.Gfm
