import Verif.Lemmas.Blocks

/-! Tables. -/

namespace Smd.Gfm
open Smd.Rs Smd.Spec

variable {stop : Str}

variable {r : Rec} {ig : List Char} {rest : Str} {ts : List Token}

theorem bind_eq {α β : Type} {x : Outcome α} {f : α → Outcome β} {b : β} : (x >>= f) = .ok b ↔ ∃ a, x = .ok a ∧ f a = .ok b := by
  cases x with
  | ok a => exact ⟨fun h => ⟨a, rfl, h⟩, fun ⟨a', h1, h2⟩ => by cases h1; exact h2⟩
  | panic => exact ⟨nofun, nofun⟩
  | hang => exact ⟨nofun, nofun⟩
  | fuelOut => exact ⟨nofun, nofun⟩

/-! ### Lines and cells -/

theorem pipeLines_stop {s : Str} (h : s.head? ≠ some '|') : ∀ fuel, pipeLines fuel s = ([], s)
  | 0 => rfl
  | fuel + 1 => by rw [pipeLines, if_neg h]

theorem gap_drop_one {n : Nat} (hn : 1 ≤ n ∨ rest = []) : (times n '\n' ++ rest).drop 1 = times (n - 1) '\n' ++ rest := by
  cases n with
  | zero =>
    rcases hn with hn | rfl
    · omega
    · rfl
  | succ n => rfl

theorem pipeLines_eq {n : Nat} (hn : 1 ≤ n ∨ rest = []) (hr : 2 ≤ n ∨ rest.head? ≠ some '|') :
    ∀ (ls : List Str) (l : Str) (fuel : Nat), ls.length < fuel → '\n' ∉ l → (∀ x ∈ ls, '\n' ∉ x) →
    pipeLines fuel ('|' :: (l ++ ((ls.flatMap fun x => '\n' :: '|' :: x) ++ (times n '\n' ++ rest)))) =
      (l :: ls, times (n - 1) '\n' ++ rest)
  | _, _, 0, hf, _, _ => by omega
  | [], l, fuel + 1, _, hl, _ => by
    have hstop : (times (n - 1) '\n' ++ rest).head? ≠ some '|' := by
      cases hk : n - 1 with
      | zero =>
        rcases hr with hr | hr
        · omega
        · exact hr
      | succ k => simp [List.replicate_succ]
    have heol : AtEol (times n '\n' ++ rest) := by
      cases n with
      | zero =>
        rcases hn with hn | rfl
        · omega
        · exact .inl rfl
      | succ n => exact .inr ⟨_, rfl⟩
    rw [pipeLines, if_pos (by rfl)]
    simp only [List.flatMap_nil, List.nil_append, List.drop_one, List.tail_cons]
    rw [takeWhile_eol hl heol, dropWhile_eol hl heol, ← List.drop_one, gap_drop_one hn, pipeLines_stop hstop]
  | x :: ls, l, fuel + 1, hf, hl, hls => by
    have ih := pipeLines_eq hn hr ls x fuel (by simpa using hf) (hls x (by simp)) (fun y hy => hls y (by simp [hy]))
    rw [pipeLines, if_pos (by rfl)]
    simp only [List.flatMap_cons, List.drop_one, List.tail_cons, List.cons_append, List.append_assoc]
    rw [(ne_split hl).1, (ne_split hl).2]
    simp only [List.tail_cons]
    rw [ih]

theorem splitGo_piece {c : Char} : ∀ (x s : Str), c ∉ x → splitGo [c] 0 (x ++ c :: s) = x :: splitGo [c] 0 s
  | [], s, _ => by simp [splitGo, List.isPrefixOf]
  | a :: x, s, h => by
    have h1 : c ≠ a := fun e => h (by simp [e])
    have ih := splitGo_piece x s (fun hm => h (List.mem_cons_of_mem a hm))
    rw [List.cons_append, splitGo, if_neg (by simp [List.isPrefixOf, h1]), ih]
    rfl

theorem splitStr_pieces {c : Char} : ∀ (xs : List Str), (∀ x ∈ xs, c ∉ x) → splitStr [c] (xs.flatMap (· ++ [c])) = xs ++ [[]]
  | [], _ => rfl
  | x :: xs, h => by
    have ih := splitStr_pieces xs (fun y hy => h y (by simp [hy]))
    unfold splitStr at ih ⊢
    rw [List.flatMap_cons, List.append_assoc, List.singleton_append, splitGo_piece _ _ (h x (by simp)), ih]
    rfl

theorem cells_row {xs : List Str} (h : ∀ x ∈ xs, x ≠ [] ∧ '|' ∉ x) : cells (xs.flatMap (· ++ c!"|")) = xs := by
  unfold cells
  rw [splitStr_pieces xs fun x hx => (h x hx).2, List.filter_append]
  have : xs.filter (fun x => decide (x ≠ [])) = xs := List.filter_eq_self.mpr fun x hx => by simp [(h x hx).1]
  rw [this]
  simp

theorem countGo_piece {c : Char} : ∀ (x s : Str), c ∉ x → countGo [c] 0 (x ++ c :: s) = countGo [c] 0 s + 1
  | [], s, _ => by simp [countGo, List.isPrefixOf]
  | a :: x, s, h => by
    have h1 : c ≠ a := fun e => h (by simp [e])
    rw [List.cons_append, countGo, if_neg (by simp [List.isPrefixOf, h1]), countGo_piece x s (fun hm => h (List.mem_cons_of_mem a hm))]

theorem countStr_pieces {c : Char} : ∀ (xs : List Str), (∀ x ∈ xs, c ∉ x) → countStr [c] (xs.flatMap (· ++ [c])) = xs.length
  | [], _ => rfl
  | x :: xs, h => by
    have ih := countStr_pieces xs (fun y hy => h y (by simp [hy]))
    unfold countStr at ih ⊢
    rw [List.flatMap_cons, List.append_assoc, List.singleton_append, countGo_piece _ _ (h x (by simp)), ih]
    rfl

theorem row_no_nl {xs : List Str} (h : ∀ x ∈ xs, '\n' ∉ x) : '\n' ∉ xs.flatMap (· ++ c!"|") := by
  simp only [List.mem_flatMap, List.mem_append, not_exists, not_and, not_or]
  exact fun x hx => ⟨h x hx, by decide⟩

theorem isWs_eq : isWs = isWhite := by
  funext c
  unfold isWs isWhite whiteSpace
  rw [Bool.eq_iff_iff]
  simp only [Bool.or_eq_true, Bool.and_eq_true, decide_eq_true_eq, beq_iff_eq, List.contains_eq_mem, List.mem_cons,
    List.not_mem_nil, or_false]
  omega

theorem trim_eq (x : Str) : trim x = trimmed x := by
  unfold trim trimStartP trimEndP trimmed
  rw [isWs_eq]

theorem cellAlign_eq (x : Str) : (cellAlign x).display = alignOf x := by
  unfold cellAlign alignOf
  rw [trim_eq, startsWith, endsWith]
  have h1 : c!":".isPrefixOf (trimmed x) = decide ((trimmed x).head? = some ':') := by
    cases trimmed x with
    | nil => rfl
    | cons a u => simp [List.isPrefixOf, eq_comm (a := a), beq_eq_decide]
  have h2 : c!":".isSuffixOf (trimmed x) = decide ((trimmed x).getLast? = some ':') := by
    rcases List.eq_nil_or_concat (trimmed x) with e | ⟨u, a, e⟩
    · rw [e]; rfl
    · rw [e]; simp [List.isSuffixOf, List.isPrefixOf, eq_comm (a := a), beq_eq_decide]
  rw [h1, h2]
  by_cases ha : (trimmed x).head? = some ':' <;> by_cases hb : (trimmed x).getLast? = some ':' <;> simp [ha, hb, Alignment.display]

/-! ### The content of a cell -/

/-- The tokens that may stand in a table show `x` in a cell, which depends on what the whole cell is rendered to if `l`. -/
def CellShows (l : Bool) (toks : List Token) (x : Str → Str) : Prop :=
  ∀ whole w, (l = true → whole = .ok w) → cellText whole (toks.filter Token.isUsableInTable) = .ok (x w)

theorem cellText_append (whole : Outcome Str) : ∀ (a b : List Token) (x y : Str), cellText whole a = .ok x → cellText whole b = .ok y →
    cellText whole (a ++ b) = .ok (x ++ y)
  | [], b, x, y, ha, hb => by
    have : x = [] := by simpa [cellText] using ha.symm
    subst this
    exact hb
  | t :: a, b, x, y, ha, hb => by
    unfold cellText at ha
    obtain ⟨h, h1, ha⟩ := bind_eq.mp ha
    obtain ⟨z, h2, ha⟩ := bind_eq.mp ha
    have e : h ++ z = x := by injection ha
    subst e
    rw [List.cons_append]
    unfold cellText
    exact bind_eq.mpr ⟨h, h1, bind_eq.mpr ⟨z ++ y, cellText_append whole a b z y h2 hb, by simp⟩⟩

theorem CellShows.append {k l : Bool} {a b : List Token} {x y : Str → Str} (ha : CellShows k a x) (hb : CellShows l b y) :
    CellShows (k || l) (a ++ b) (fun w => x w ++ y w) := by
  intro whole w hw
  rw [List.filter_append]
  exact cellText_append whole _ _ _ _ (ha whole w fun h => hw (by simp [h])) (hb whole w fun h => hw (by simp [h]))

theorem CellShows.plain (s : Str) : CellShows false [.plaintext s] (fun _ => escape s) := by
  intro whole w _
  show cellText whole [.plaintext s] = _
  simp [cellText, sanitize_eq_escape]

theorem CellShows.word : ∀ w : Str, CellShows false (w.map fun c => .plaintext [c]) (fun _ => escape w)
  | [] => fun _ _ _ => rfl
  | c :: w => by
    have := (CellShows.plain [c]).append (CellShows.word w)
    simp only [← escape_append] at this
    exact this

/-- A link stands for the whole cell. -/
theorem CellShows.link (u : ValidURL) (t h : Option Str) : CellShows true [.link u t h] (fun w => w) := by
  intro whole w hw
  rw [hw rfl]
  show cellText (.ok w) [.link u t h] = _
  simp [cellText]

theorem escape_spaces (n : Nat) : escape (times n ' ') = times n ' ' := by
  induction n with
  | zero => rfl
  | succ n ih =>
    have : times (n + 1) ' ' = [' '] ++ times n ' ' := rfl
    rw [this, escape_append, ih, escape_single (by decide)]

theorem usable_one {t : Token} (h : t.isUsableInTable = true) : ∀ x ∈ [t], x.isUsableInTable = true := by
  simpa using h

theorem inline_cell {i : Inline} {next : Option Char} (h : i.Good next) (hc : i ≠ .eol) :
    ∃ toks, LexesAs i.src (fun n => i.Good n) toks ∧ CellShows i.isLink toks (fun w => i.cellHtml w) ∧
      (i.isStrike = false → ∀ t ∈ toks, t.isUsableInTable = true) := by
  cases i with
  | word w =>
    have h : Word w := h
    exact ⟨_, fun r ig rest ts _ ht => LexTo.word h.2 ht, .word w, fun _ t ht => by
      obtain ⟨c, _, rfl⟩ := List.mem_map.mp ht
      rfl⟩
  | space n =>
    obtain ⟨h1, h2, h3, h4⟩ := h
    refine ⟨[.plaintext (times n ' ')], fun r ig rest ts hn ht => LexTo.spaces h1 h2 hn.2.2.1 hn.2.2.2 ht, ?_, fun _ => usable_one rfl⟩
    have := CellShows.plain (times n ' ')
    rwa [escape_spaces] at this
  | eol => exact absurd rfl hc
  | digit c =>
    obtain ⟨h1, h2⟩ := h
    have hs := CellShows.plain [c]
    rw [escape_single (digit_facts c h1).2] at hs
    exact ⟨_, fun r ig rest ts hn ht => LexTo.digit h1 hn.2 ht, hs, fun _ => usable_one rfl⟩
  | bang =>
    have h : next ≠ some '[' := h
    exact ⟨_, fun r ig rest ts hn ht => LexTo.bang hn ht, by
      have hs := CellShows.plain c!"!"
      rw [escape_single (by decide)] at hs
      exact hs, fun _ => usable_one rfl⟩
  | em m t =>
    refine ⟨_, fun r ig rest ts hn ht => LexTo.em h.1 h.2 ht, fun whole w _ => ?_, fun _ => usable_one rfl⟩
    simp [List.filter, Token.isUsableInTable, cellText, Inline.cellHtml, Inline.html, sanitize_eq_escape, Smd.Spec.elem]
  | strong m t =>
    obtain ⟨h1, h2, h3, h4⟩ := h
    refine ⟨_, fun r ig rest ts hn ht => LexTo.strong h1 h2 hn.2.2.1 hn.2.2.2 ht, fun whole w _ => ?_, fun _ => usable_one rfl⟩
    simp [List.filter, Token.isUsableInTable, cellText, Inline.cellHtml, Inline.html, sanitize_eq_escape, Smd.Spec.elem]
  | strongEm m t =>
    obtain ⟨h1, h2, h3, h4⟩ := h
    refine ⟨_, fun r ig rest ts hn ht => LexTo.strongEm h1 h2 hn.2.2.1 hn.2.2.2 ht, fun whole w _ => ?_, fun _ => usable_one rfl⟩
    simp [List.filter, Token.isUsableInTable, cellText, Inline.cellHtml, Inline.html, sanitize_eq_escape, Smd.Spec.elem]
  | strike t =>
    obtain ⟨h1, h2, h3⟩ := h
    exact ⟨_, fun r ig rest ts hn ht => LexTo.strike h1 h2 hn.2.2 ht, fun whole w _ => rfl, nofun⟩
  | tildes n =>
    obtain ⟨h1, h2, h3⟩ := h
    exact ⟨_, fun r ig rest ts hn ht => LexTo.tildes h1 h2 hn.2.2 ht, .plain _, fun _ => usable_one rfl⟩
  | escaped c =>
    obtain ⟨h1, h2, h3⟩ := h
    exact ⟨_, fun r ig rest ts hn ht => LexTo.escaped h2 ht, .plain _, fun _ => usable_one rfl⟩
  | link text target =>
    obtain ⟨h1, h2⟩ := h
    obtain ⟨u, hu, _⟩ := plainTarget_ok h2
    exact ⟨_, fun r ig rest ts hn ht => LexTo.linkTo h1 (target_chars h2).1 (target_chars h2).2.1 hu ht, .link _ _ _, fun _ => usable_one rfl⟩
  | autolink target =>
    have h : PlainTarget target := h
    obtain ⟨u, hu, hd, hf, hsome, _⟩ := plainTarget_ok h
    exact ⟨_, fun r ig rest ts hn ht => LexTo.autolink h hu hsome ht, .link _ _ _, fun _ => usable_one rfl⟩
  | noteRef id =>
    obtain ⟨h1, h2, h3⟩ := h
    exact ⟨_, fun r ig rest ts hn ht => LexTo.noteRef (fun hm => (h1.2 _ hm).2.2 rfl) hn.2.1 hn.2.2 ht, .plain _, fun _ => usable_one rfl⟩
  | digitDot c =>
    have hs := CellShows.plain [c, '.']
    rw [escape_digitDot h.1] at hs
    exact ⟨_, fun r ig rest ts hn ht => LexTo.digitDot hn.1 hn.2 ht, hs, fun _ => usable_one rfl⟩
  | brackets t => exact ⟨_, fun r ig rest ts hn ht => LexTo.brackets hn.1 hn.2.2.1 hn.2.2.2.2 ht, .plain _, fun _ => usable_one rfl⟩
  | angle t =>
    exact ⟨_, fun r ig rest ts hn ht => LexTo.angle hn.1 hn.2.1 hn.2.2.2.2.1 hn.2.2.2.2.2 ht, .plain _, fun _ => usable_one rfl⟩
  | escapedHashes n =>
    have hs := CellShows.plain (times n '#')
    rw [escape_times (by decide)] at hs
    exact ⟨_, fun r ig rest ts hn ht => LexTo.escapedHashes hn.1 hn.2 ht, hs, fun _ => usable_one rfl⟩
  | dashes a b =>
    have hs := CellShows.plain [a, b]
    rw [escape_dashes h.1 h.2.1] at hs
    exact ⟨_, fun r ig rest ts hn ht => LexTo.dashes hn.1 hn.2.1 hn.2.2.1 hn.2.2.2 ht, hs, fun _ => usable_one rfl⟩
  | arrows n => exact ⟨_, fun r ig rest ts hn ht => LexTo.arrows hn.1 hn.2.1 hn.2.2.1 hn.2.2.2 ht, .plain _, fun _ => usable_one rfl⟩

theorem inlines_cell : ∀ {is : List Inline} {next : Option Char}, InlineGood next is → (∀ i ∈ is, i ≠ .eol) →
    ∃ toks, LexesAs (inlineSrc is) (fun n => InlineGood n is) toks ∧
      CellShows (is.any Inline.isLink) toks (fun w => is.flatMap (Inline.cellHtml w)) ∧
      ((∀ i ∈ is, i.isStrike = false) → ∀ t ∈ toks, t.isUsableInTable = true)
  | [], _, _, _ => ⟨[], fun r ig rest ts _ h => h, fun _ _ _ => rfl, fun _ t ht => by simp at ht⟩
  | i :: is, next, h, hc => by
    obtain ⟨t1, hl, h1, u1⟩ := inline_cell h.1 (hc i (by simp))
    obtain ⟨t2, hl2, h2, u2⟩ := inlines_cell h.2 fun j hj => hc j (by simp [hj])
    refine ⟨t1 ++ t2, ?_, ?_, ?_⟩
    · intro _ r ig rest ts hn ht
      have e : inlineSrc (i :: is) ++ rest = i.src ++ (inlineSrc is ++ rest) := by simp [inlineSrc]
      rw [e, List.append_assoc]
      exact hl r ig _ _ (by rw [head_append_or]; exact hn.1) (hl2 r ig rest ts hn.2 ht)
    · simp only [List.flatMap_cons, List.any_cons]
      exact h1.append h2
    · intro hs t ht
      rcases List.mem_append.mp ht with ht | ht
      · exact u1 (hs i (by simp)) t ht
      · exact u2 (fun j hj => hs j (by simp [hj])) t ht

theorem trim_spaces_only (a b : Nat) : trim (times a ' ' ++ times b ' ') = [] := by
  have : times a ' ' ++ times b ' ' = times (a + b) ' ' := by simp [times, List.replicate_append_replicate]
  rw [this, trim_times_space]

theorem cell_trim {c : Cell} (h : c.Good) : trim c.src = inlineSrc c.text := by
  rcases h.ends with e | ⟨h1, h2⟩
  · rw [Cell.src, e]
    show trim (times c.before ' ' ++ [] ++ times c.after ' ') = []
    rw [List.append_nil, trim_spaces_only]
  · have hs : ∀ k, ∀ x ∈ times k ' ', isWs x = true := fun k x hx => by rw [List.eq_of_mem_replicate hx]; decide
    obtain ⟨⟨x, u, e1, hx⟩, _⟩ := head_ends h.good h1
    obtain ⟨⟨y, v, e2, hy⟩, _⟩ := last_ends h.good h2
    unfold Cell.src trim trimStartP trimEndP
    rw [List.append_assoc, (run_split isWs (hs _) (rest := inlineSrc c.text ++ times c.after ' ') (by rw [e1]; simp [hx])).2,
      List.reverse_append,
      (run_split isWs (s := (times c.after ' ').reverse) (rest := (inlineSrc c.text).reverse) (by simpa using hs c.after)
        (by rw [e2]; simp [hy])).2]
    simp

theorem no_eol {is : List Inline} (h : '\n' ∉ inlineSrc is) : ∀ i ∈ is, i ≠ .eol := by
  rintro i hi rfl
  exact h (List.mem_flatMap.mpr ⟨_, hi, by simp [Inline.src]⟩)

theorem cell_sem {c : Cell} (h : c.Good) : ∃ toks, lex (trim c.src) = .ok toks ∧
    ∀ a, parseCell self (a, toks.filter Token.isUsableInTable) =
      .ok (c!"\n\t\t<td style=\"text-align: " ++ a.display ++ c!"\">" ++ c.html ++ c!"</td>") := by
  have hn : '\n' ∉ inlineSrc c.text := fun hm => h.chars.2 (by simp [Cell.src, hm])
  obtain ⟨toks, hl, hc, hu⟩ := inlines_cell h.good (no_eol hn)
  have h1 := hl self [] [] [] h.good LexTo.nil
  rw [List.append_nil, List.append_nil] at h1
  refine ⟨toks, by rw [cell_trim h]; exact lex_of h1, fun a => ?_⟩
  have := hc ((parseToks self (toks.filter Token.isUsableInTable) {}).bind fun s => .ok (finish s))
    (elem c!"p" (inlineHtml c.text) ++ c!"\n") (by
      intro hlink
      obtain ⟨i, hi, hil⟩ := List.any_eq_true.mp hlink
      have hf : toks.filter Token.isUsableInTable = toks := List.filter_eq_self.mpr (hu (h.links i hi hil))
      rcases h.ends with e | ⟨hv, _⟩
      · rw [e] at hi
        cases hi
      · obtain ⟨t2, hl2, _, ho⟩ := inlines_sem h.good
        have h2 := hl2 self [] [] [] h.good LexTo.nil
        rw [List.append_nil, List.append_nil] at h2
        have e : toks = t2 := Outcome.ok.inj ((lex_of h1).symm.trans (lex_of h2))
        rw [hf, e]
        have hp := (ho hv).clean self []
        rw [show ({} : PState) = clean [] from rfl, hp, elem_p]
        show Outcome.ok (finish _) = _
        rw [finish_inP]
        rfl)
  unfold parseCell
  rw [this]
  rfl

/-! ### Rows and tables -/

theorem row_sem : ∀ {cs : List Cell}, (∀ c ∈ cs, c.Good) → ∃ row, rowTokens self ((cs.map Cell.src).map trim) = .ok row ∧ row.length = cs.length ∧
    ∀ (ds : List Str), ds.length = cs.length → parseRow self ((ds.map cellAlign).zip row) =
      .ok ((ds.zip cs).flatMap fun c => c!"\n\t\t<td style=\"text-align: " ++ alignOf c.1 ++ c!"\">" ++ c.2.html ++ c!"</td>")
  | [], _ => ⟨[], rfl, rfl, fun ds hd => by cases ds with | nil => rfl | cons a b => cases hd⟩
  | c :: cs, h => by
    obtain ⟨toks, h1, h2⟩ := cell_sem (h c (by simp))
    obtain ⟨row, h3, h4, h5⟩ := row_sem fun x hx => h x (List.mem_cons_of_mem c hx)
    refine ⟨toks.filter Token.isUsableInTable :: row, ?_, by simp [h4], ?_⟩
    · simp only [List.map_cons, rowTokens]
      exact bind_eq.mpr ⟨toks, h1, bind_eq.mpr ⟨row, h3, rfl⟩⟩
    · intro ds hd
      cases ds with
      | nil => cases hd
      | cons d ds =>
        have h6 := h5 ds (by simpa using hd)
        simp only [List.map_cons, List.zip_cons_cons, parseRow, h2 _, h6, Outcome.bind, cellAlign_eq, List.flatMap_cons]

theorem rows_sem {ds : List Str} : ∀ {rs : List (List Cell)}, (∀ r ∈ rs, ∀ c ∈ r, c.Good) → (∀ r ∈ rs, r.length = ds.length) →
    ∃ rows, tableRows self (ds.map cellAlign) (rs.map fun r => (r.map Cell.src).flatMap (· ++ c!"|")) = .ok rows ∧
      (∀ r0 rs', rows = r0 :: rs' → r0.length = ds.length) ∧ (rows = [] → rs = []) ∧
      parseRows self rows = .ok (rs.flatMap fun r => c!"\n\t<tr>" ++
        ((ds.zip r).flatMap fun c => c!"\n\t\t<td style=\"text-align: " ++ alignOf c.1 ++ c!"\">" ++ c.2.html ++ c!"</td>") ++
        c!"\n\t</tr>")
  | [], _, _ => ⟨[], rfl, nofun, fun _ => rfl, rfl⟩
  | r :: rs, h, hl => by
    obtain ⟨rows, h1, _, _, h2⟩ := rows_sem (ds := ds) (fun x hx => h x (List.mem_cons_of_mem r hx)) (fun x hx => hl x (List.mem_cons_of_mem r hx))
    have hr := h r (by simp)
    obtain ⟨row, h3, h4, h5⟩ := row_sem hr
    have hlen := hl r (by simp)
    have hcells : cells ((r.map Cell.src).flatMap (· ++ c!"|")) = r.map Cell.src := by
      refine cells_row fun x hx => ?_
      obtain ⟨c, hc, rfl⟩ := List.mem_map.mp hx
      exact ⟨(hr c hc).nonempty, (hr c hc).chars.1⟩
    refine ⟨(ds.map cellAlign).zip row :: rows, ?_, ?_, nofun, ?_⟩
    · simp only [List.map_cons, tableRows, hcells]
      exact bind_eq.mpr ⟨row, h3, bind_eq.mpr ⟨rows, h1, rfl⟩⟩
    · intro r0 rs' e
      injection e with e _
      subst e
      simp [h4, hlen]
    · simp only [parseRows, h5 ds hlen.symm, h2, Outcome.bind, List.flatMap_cons]

theorem headCells_eq : ∀ (ds hs : List Str), headCells ((ds.map cellAlign).zip (hs.map trim)) =
    (ds.zip hs).flatMap fun c => c!"\t\t<th style=\"text-align: " ++ alignOf c.1 ++ c!"\">" ++ escape (trimmed c.2) ++ c!"</th>"
  | [], _ => rfl
  | _ :: _, [] => rfl
  | d :: ds, x :: hs => by
    have ih := headCells_eq ds hs
    unfold headCells at ih ⊢
    simp only [List.map_cons, List.zip_cons_cons, List.flatMap_cons]
    rw [ih]
    simp only [cellAlign_eq, sanitize_eq_escape, trim_eq]

theorem nextToken_pipe {last : Option Token} {s : Str} :
    nextToken r ig last ('|' :: s) = lexPipes r ('|' :: s) >>= fun res => .ok (some (resToken res.1, res.2)) := by
  unfold nextToken lexDispatch
  simp

/-- How a table is lexed, given how its cells are. -/
theorem table_lex {r : Rec} {t : Table} (h : t.Good) {rows : List (List (Alignment × List Token))}
    (h1 : tableRows r (t.delims.map cellAlign) (t.rows.map fun r => (r.map Cell.src).flatMap (· ++ c!"|")) = .ok rows)
    (n : Nat) (rest : Str) (hn : 1 ≤ n ∨ rest = []) (hr : 2 ≤ n ∨ rest.head? ≠ some '|') (last : Option Token) :
    nextToken r [] last (t.src ++ (times n '\n' ++ rest)) =
      .ok (some (.table ((t.delims.map cellAlign).zip (t.head.map trim)) rows, times (n - 1) '\n' ++ rest)) := by
  obtain ⟨head, delims, rs⟩ := t
  obtain ⟨hne, hh, hd, hc, hs1, hs2⟩ := h
  simp only at hne hh hd hc hs1 hs2 h1
  let line : List Str → Str := fun cs => cs.flatMap (· ++ c!"|")
  let body : List Str := rs.map fun r => line (r.map Cell.src)
  have hcs : ∀ r ∈ rs, ∀ x ∈ r.map Cell.src, x ≠ [] ∧ '|' ∉ x ∧ '\n' ∉ x := by
    intro r hr x hx
    obtain ⟨c, hc', rfl⟩ := List.mem_map.mp hx
    have := hc r hr c hc'
    exact ⟨this.nonempty, this.chars⟩
  have hsrc : Table.src ⟨head, delims, rs⟩ ++ (times n '\n' ++ rest) =
      '|' :: (line head ++ (((line delims :: body).flatMap fun x => '\n' :: '|' :: x) ++ (times n '\n' ++ rest))) := by
    simp [Table.src, rowSrc, line, body, List.flatMap_map]
  have hlines := fun fuel hf => pipeLines_eq hn hr (line delims :: body) (line head) fuel hf
    (row_no_nl fun x hx => (hh x hx).2.2) (by
      intro x hx
      rcases List.mem_cons.mp hx with rfl | hx
      · exact row_no_nl fun x hx => (hd x hx).2.2
      · obtain ⟨r, hr, rfl⟩ := List.mem_map.mp hx
        exact row_no_nl fun x hx => (hcs r hr x hx).2.2)
  have hlen : (line delims :: body).length < (Table.src ⟨head, delims, rs⟩ ++ (times n '\n' ++ rest)).length := by
    have : ∀ l : List Str, l.length ≤ (l.flatMap fun x => '\n' :: '|' :: x).length := by
      intro l
      induction l with
      | nil => simp
      | cons a l ih => simp only [List.flatMap_cons, List.length_append, List.length_cons] at ih ⊢; omega
    have := this (line delims :: body)
    rw [hsrc]
    simp only [List.length_cons, List.length_append] at this ⊢
    omega
  have hp := hlines _ hlen
  rw [hsrc] at hp ⊢
  have hbody : 1 ≤ body.length := by
    cases rs with
    | nil => exact absurd rfl hne
    | cons a b => simp [body]
  have hcount : ∀ l ∈ line head :: line delims :: body, countStr c!"|" l = head.length := by
    intro l hl
    simp only [List.mem_cons] at hl
    rcases hl with rfl | rfl | hl
    · exact countStr_pieces head fun x hx => (hh x hx).2.1
    · rw [← hs1]; exact countStr_pieces delims fun x hx => (hd x hx).2.1
    · obtain ⟨r, hr, rfl⟩ := List.mem_map.mp hl
      rw [show countStr c!"|" (line (r.map Cell.src)) = (r.map Cell.src).length from
        countStr_pieces _ fun x hx => (hcs r hr x hx).2.1, List.length_map, hs2 r hr]
  have e : lexPipes r ('|' :: (line head ++ (((line delims :: body).flatMap fun x => '\n' :: '|' :: x) ++ (times n '\n' ++ rest)))) =
      .ok (.ok (.table ((delims.map cellAlign).zip (head.map trim)) rows), times (n - 1) '\n' ++ rest) := by
    unfold lexPipes
    simp only [hp]
    rw [if_neg (by simp; omega)]
    rw [if_neg (by
      simp only [Bool.not_eq_true', Bool.not_eq_false, List.all_eq_true, beq_iff_eq]
      intro l hl
      rw [hcount l hl, hcount (line head) (by simp)])]
    rw [show cells (line head) = head from cells_row fun x hx => ⟨(hh x hx).1, (hh x hx).2.1⟩,
      show cells (line delims) = delims from cells_row fun x hx => ⟨(hd x hx).1, (hd x hx).2.1⟩]
    exact bind_eq.mpr ⟨rows, h1, rfl⟩
  rw [nextToken_pipe, e]
  rfl

theorem table_sem {t : Table} (h : t.Good) : ∃ tok,
    (∀ n rest ts, (1 ≤ n ∨ rest = []) → (2 ≤ n ∨ rest.head? ≠ some '|') → LexTo (stop := stop) self [] (times (n - 1) '\n' ++ rest) ts →
      LexTo (stop := stop) self [] (t.src ++ (times n '\n' ++ rest)) (tok :: ts)) ∧
    ∀ h, parseTok self tok (clean h) = .ok (clean (h ++ t.html)) := by
  have ht := h
  obtain ⟨head, delims, rs⟩ := t
  obtain ⟨hne, hh, hd, hc, hs1, hs2⟩ := h
  simp only at hne hh hd hc hs1 hs2
  obtain ⟨rows, h1, h2, h3, h4⟩ := rows_sem (ds := delims) hc (fun r hr => (hs2 r hr).trans hs1.symm)
  refine ⟨.table ((delims.map cellAlign).zip (head.map trim)) rows, ?_, ?_⟩
  · intro n rest ts hn hr hts
    exact .cons (table_lex ht h1 n rest hn hr) hts
  · intro h
    cases rows with
    | nil => exact absurd (h3 rfl) hne
    | cons r0 rows =>
      have hl0 := h2 r0 rows rfl
      simp only [parseRows] at h4
      cases h5 : parseRow self r0 with
      | ok b0 =>
        cases h6 : parseRows self rows with
        | ok bs =>
          rw [h5, h6] at h4
          simp only [Outcome.bind, Outcome.ok.injEq] at h4
          have hstep : step1 (.table ((delims.map cellAlign).zip (head.map trim)) (r0 :: rows)) (clean h) = clean h := by
            simp [step1, isBlankPlain, isTab, staysInList, staysInTask, opensPara, closesPara, staysInQuote, isCode]
          simp only [parseTok, hstep, h5, h6, Outcome.bind]
          rw [if_neg (by simp [hl0, hs1])]
          simp only [PState.push, headCells_eq, Table.html, ← h4]
          simp
        | panic => rw [h5, h6] at h4; cases h4
        | hang => rw [h5, h6] at h4; cases h4
        | fuelOut => rw [h5, h6] at h4; cases h4
      | panic => rw [h5] at h4; cases h4
      | hang => rw [h5] at h4; cases h4
      | fuelOut => rw [h5] at h4; cases h4

end Smd.Gfm
