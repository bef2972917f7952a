import Verif.Lemmas.Quotes

/-! Footnote definitions. -/

namespace Smd.Gfm
open Smd.Rs Smd.Spec

variable {stop : Str}

variable {r : Rec} {ig : List Char} {rest : Str} {ts : List Token}

theorem gap_drop {n : Nat} (hn : 1 ≤ n ∨ rest = []) : (times n '\n' ++ rest).drop 1 = times (n - 1) '\n' ++ rest := by
  cases n with
  | zero =>
    rcases hn with hn | rfl
    · omega
    · rfl
  | succ n => rfl

theorem gap_head_ws {n : Nat} (h : NextLine rest) :
    (times n '\n' ++ rest).head? ≠ some ' ' ∧ (times n '\n' ++ rest).head? ≠ some '\t' := by
  cases n with
  | zero => exact ⟨h.2.1, h.2.2⟩
  | succ n => simp [List.replicate_succ]

/-- The loop over the lines of a footnote reads exactly its lines. -/
theorem footnoteLoop_lines {g : Nat} (hg : 1 ≤ g ∨ rest = []) (hr : NextLine rest) : ∀ (more : List (Str × Str)) (fuel : Nat) (first : Str),
    more.length < fuel → '\n' ∉ first →
    (∀ m ∈ more, m.1 ∈ [c!"\t", c!"  ", c!"    "] ∧ '\n' ∉ m.2 ∧ m.2.head? ≠ some ' ') →
    footnoteLoop fuel (first ++ (more.flatMap fun m => '\n' :: (m.1 ++ m.2)) ++ (times g '\n' ++ rest)) =
      (true, times (g - 1) '\n' ++ rest)
  | _, 0, _, hf, _, _ => by omega
  | [], fuel + 1, first, _, hn, _ => by
    unfold footnoteLoop
    rw [List.flatMap_nil, List.append_nil, dropWhile_eol hn (atEol_gap hg)]
    simp only [gap_drop hg]
    rw [if_pos (gap_head_ws hr)]
  | m :: more, fuel + 1, first, hf, hn, hm => by
    obtain ⟨hp, hnl, hsp⟩ := hm m (by simp)
    have ih := footnoteLoop_lines hg hr more fuel
    have e : (first ++ ((m :: more).flatMap fun m => '\n' :: (m.1 ++ m.2)) ++ (times g '\n' ++ rest)) =
        first ++ '\n' :: (m.1 ++ (m.2 ++ (more.flatMap fun m => '\n' :: (m.1 ++ m.2)) ++ (times g '\n' ++ rest))) := by
      simp
    have hf' : more.length < fuel := by simpa using hf
    have hm' := fun x hx => hm x (List.mem_cons_of_mem m hx)
    have hs : ∀ k, (times k ' ' ++ (m.2 ++ (more.flatMap fun m => '\n' :: (m.1 ++ m.2)) ++ (times g '\n' ++ rest))).takeWhile (· == ' ') = times k ' ' ∧
        (times k ' ' ++ (m.2 ++ (more.flatMap fun m => '\n' :: (m.1 ++ m.2)) ++ (times g '\n' ++ rest))).dropWhile (· == ' ') =
          m.2 ++ (more.flatMap fun m => '\n' :: (m.1 ++ m.2)) ++ (times g '\n' ++ rest) := by
      intro k
      refine times_split ?_
      cases h2 : m.2 with
      | cons a u => rw [h2] at hsp; simpa using hsp
      | nil =>
        cases more with
        | nil =>
          simp only [List.flatMap_nil, List.nil_append]
          exact (gap_head_ws hr).1
        | cons a u => simp
    unfold footnoteLoop
    rw [e, (ne_split hn).2]
    simp only [List.drop_one, List.tail_cons]
    simp only [List.mem_cons, List.not_mem_nil, or_false] at hp
    rcases hp with hp | hp | hp
    · rw [hp]
      simp only [List.cons_append, List.nil_append, List.head?_cons, List.tail_cons]
      rw [if_neg (by decide), if_pos trivial]
      exact ih _ hf' hnl hm'
    · have h2 := hs 2
      simp only [times, List.replicate_succ, List.replicate_zero, List.cons_append, List.nil_append] at h2
      rw [hp]
      simp only [List.cons_append, List.nil_append, List.head?_cons]
      rw [if_neg (by decide), if_neg (by decide), h2.1, h2.2, if_pos (by decide)]
      exact ih _ hf' hnl hm'
    · have h2 := hs 4
      simp only [times, List.replicate_succ, List.replicate_zero, List.cons_append, List.nil_append] at h2
      rw [hp]
      simp only [List.cons_append, List.nil_append, List.head?_cons]
      rw [if_neg (by decide), if_neg (by decide), h2.1, h2.2, if_pos (by decide)]
      exact ih _ hf' hnl hm'

theorem trim_inside {a b t : Str} (ha : ∀ x ∈ a, isWs x = true) (hb : ∀ x ∈ b, isWs x = true) (ht : Ends t) : trim (a ++ t ++ b) = t := by
  obtain ⟨⟨x, u, rfl, hx⟩, y, v, hv, hy⟩ := ht
  unfold trim trimStartP trimEndP
  rw [List.append_assoc, (run_split isWs ha (rest := x :: u ++ b) (by simp [hx])).2, List.reverse_append,
    (run_split isWs (s := b.reverse) (rest := (x :: u).reverse) (by simpa using hb) (by rw [hv]; simp [hy])).2]
  simp

theorem lexLinks_note {d : NoteDef} (h : d.Good) (hg : 1 ≤ d.ends ∨ rest = []) (hr : NextLine rest) :
    lexLinks (d.src ++ rest) = (.ok (.footnote d.id d.text), times (d.ends - 1) '\n' ++ rest) := by
  obtain ⟨id, k, first, more, g⟩ := d
  have hid : ']' ∉ id := fun hm => (h.id.2 _ hm).2.2 rfl
  have hs := ne_split (c := ']') (t := '^' :: id)
    (u := ':' :: (times k ' ' ++ (NoteDef.text ⟨id, k, first, more, g⟩ ++ (times g '\n' ++ rest)))) (by simp [hid])
  simp only [List.cons_append] at hs
  have hloop := footnoteLoop_lines hg hr more
    ((times k ' ' ++ (NoteDef.text ⟨id, k, first, more, g⟩ ++ (times g '\n' ++ rest))).length + 1) (times k ' ' ++ first) (by
      have hlen : ∀ l : List (Str × Str), l.length ≤ (l.flatMap fun m => '\n' :: (m.1 ++ m.2)).length := by
        intro l
        induction l with
        | nil => simp
        | cons a l ih => simp only [List.flatMap_cons, List.length_append, List.length_cons] at ih ⊢; omega
      have := hlen more
      simp only [NoteDef.text, List.length_append] at this ⊢
      omega) (by simp [List.mem_replicate, h.first]) h.more
  have e : (times k ' ' ++ first) ++ (more.flatMap fun m => '\n' :: (m.1 ++ m.2)) ++ (times g '\n' ++ rest) =
      times k ' ' ++ (NoteDef.text ⟨id, k, first, more, g⟩ ++ (times g '\n' ++ rest)) := by simp [NoteDef.text]
  rw [e] at hloop
  have hsl : trim (slice (times k ' ' ++ (NoteDef.text ⟨id, k, first, more, g⟩ ++ (times g '\n' ++ rest))) (times (g - 1) '\n' ++ rest)) =
      NoteDef.text ⟨id, k, first, more, g⟩ := by
    have hb : ∃ b : Str, times g '\n' ++ rest = b ++ (times (g - 1) '\n' ++ rest) ∧ ∀ x ∈ b, isWs x = true := by
      cases g with
      | zero => exact ⟨[], rfl, by simp⟩
      | succ g => exact ⟨c!"\n", rfl, by decide⟩
    obtain ⟨b, eb, hb⟩ := hb
    rw [eb, ← List.append_assoc, ← List.append_assoc, slice_self_append]
    exact trim_inside (fun x hx => by rw [List.eq_of_mem_replicate hx]; decide) hb ⟨h.start, h.stop⟩
  have hws : id.any isWs = false := by
    rw [List.any_eq_false]
    intro x hx
    simp [(h.id.2 x hx).1]
  have hsrc : NoteDef.src ⟨id, k, first, more, g⟩ ++ rest =
      '[' :: '^' :: (id ++ ']' :: ':' :: (times k ' ' ++ (NoteDef.text ⟨id, k, first, more, g⟩ ++ (times g '\n' ++ rest)))) := by
    simp [NoteDef.src]
  rw [hsrc]
  unfold lexLinks
  simp only [List.head?_cons, ne_eq, not_true_eq_false, if_false, List.drop_one, List.tail_cons, hs.1, hs.2]
  rw [if_pos ⟨by simp [startsWith], trivial⟩]
  simp only [hloop]
  simp [stripPrefix, hws, hsl]

theorem LexTo.note {d : NoteDef} (h : d.Good) (hg : 1 ≤ d.ends ∨ rest = []) (hr : NextLine rest) (ht : LexTo (stop := stop) r ig rest ts) :
    LexTo (stop := stop) r ig (d.src ++ rest) (.footnote d.id d.text :: (gapToks (d.ends - 1) ++ ts)) := by
  refine .cons (s' := times (d.ends - 1) '\n' ++ rest) (fun last => ?_) (LexTo.gaps hr.1 ht)
  have e := lexLinks_note h hg hr
  have : ∃ u, d.src ++ rest = '[' :: u := ⟨_, by simp [NoteDef.src]; rfl⟩
  obtain ⟨u, hu⟩ := this
  rw [hu] at e ⊢
  rw [nextToken_bracket, e]
  rfl

/-- A state with footnotes, in a paragraph or not. -/
abbrev noteSt (h : Str) (p : Bool) (rs : List (Str × Str)) : PState := { html := h, inPara := p, refs := rs }

theorem parseTok_note (r : Rec) (i t h : Str) (p : Bool) (rs : List (Str × Str)) :
    parseTok r (.footnote i t) (noteSt h p rs) = .ok (noteSt h p (rs ++ [(i, t)])) := by
  simp [parseTok, step1, step2, isBlankPlain, isTab, staysInList, staysInTask, opensPara, closesPara, staysInQuote, isCode]

theorem parseToks_gaps_note (r : Rec) (n : Nat) (h : Str) (rs : List (Str × Str)) :
    parseToks r (gapToks n) (noteSt h false rs) = .ok (noteSt h false rs) := by
  unfold gapToks gapTok
  split
  · rfl
  · refine parseToks_one ?_
    split
    · exact parseTok_blank r _ (by decide)
    · simp [parseTok, step1, step2, isBlankPlain, isTab, staysInList, staysInTask, opensPara, closesPara, staysInQuote, isCode]

theorem noteDef_head (d : NoteDef) (rest : Str) : NextLine (d.src ++ rest) := by
  have : ∃ u, d.src ++ rest = '[' :: u := ⟨_, by simp [NoteDef.src]; rfl⟩
  obtain ⟨u, hu⟩ := this
  rw [hu]
  simp [NextLine]

theorem notes_sem (r : Rec) (ig : List Char) : ∀ (ds : List NoteDef), (∀ d ∈ ds, d.Good) → (∀ d ∈ ds.dropLast, 1 ≤ d.ends) →
    ∃ toks, LexTo r ig (ds.flatMap NoteDef.src) toks ∧
      ∀ h rs, parseToks r toks (noteSt h false rs) = .ok (noteSt h false (rs ++ ds.map fun d => (d.id, d.text)))
  | [], _, _ => ⟨[], LexTo.nil, fun h rs => by simp [parseToks]⟩
  | d :: ds, hg, he => by
    obtain ⟨toks, h1, h2⟩ := notes_sem r ig ds (fun x hx => hg x (by simp [hx])) (by
      intro x hx
      refine he x ?_
      cases ds with
      | nil => simp at hx
      | cons a b => simp [hx])
    have hend : 1 ≤ d.ends ∨ ds.flatMap NoteDef.src = [] := by
      cases ds with
      | nil => exact .inr rfl
      | cons a b => exact .inl (he d (by simp))
    have hnext : NextLine (ds.flatMap NoteDef.src) := by
      cases ds with
      | nil => exact NextLine.nil
      | cons a b => exact noteDef_head a _
    refine ⟨_, LexTo.note (hg d (by simp)) hend hnext h1, fun h rs => ?_⟩
    refine parseToks_cons (parseTok_note r _ _ h false rs) (parseToks_two (parseToks_gaps_note r _ h _) ?_)
    rw [h2]
    simp

theorem noteOut_eq (d : NoteDef) : noteOut (d.id, d.text) = d.html := by
  simp [noteOut, NoteDef.html, sanitize_eq_escape]

theorem finish_note {ds : List NoteDef} (h : Str) (hne : ds ≠ []) :
    finish (noteSt h false (ds.map fun d => (d.id, d.text))) = endLine h ++ notesHtml ds := by
  have hlen : 0 < ds.length := by cases ds <;> simp_all
  have e : (ds.map fun d => (d.id, d.text)).flatMap noteOut = ds.flatMap NoteDef.html := by
    simp only [List.flatMap_map, noteOut_eq]
  have e2 : endNl h = endLine h := by
    unfold endNl endLine
    rcases List.eq_nil_or_concat h with rfl | ⟨u, x, rfl⟩
    · simp
    · by_cases hx : x = '\n' <;> simp [hx]
  simp only [finish, e, e2, List.length_map]
  simp [hlen, rep, notesHtml, e2]

end Smd.Gfm
