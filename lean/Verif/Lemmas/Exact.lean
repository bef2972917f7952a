import Verif.Props.Corners
import Verif.Lemmas.Links
import Verif.Lemmas.Infix

/-! Lemmas for `Verif.Props.Exact`: texts of several lines, links with titles, addresses with an `@`. -/

namespace Smd.Gfm
open Smd.Rs Smd.Spec

/-! ### Texts of several lines -/

/-- A text that begins and ends with visible characters and has no footnote reference in it is shown as it is. -/
theorem plainOut_text {t : Str} {c : Char} (hl : t.getLast? = some c) (hc : isWs c = false) (hh : t.head? ≠ some '\n')
    (hb : ¬ c!"[^" <:+: t ∨ ']' ∉ t) : plainOut t = escape t := by
  have e1 : plainTrim t = t := by
    unfold plainTrim
    cases ha : afterLast '\n' t with
    | none => rfl
    | some a =>
      simp only
      rw [if_neg]
      intro hall
      unfold afterLast at ha
      split at ha
      · rename_i hm
        have ha := Option.some.inj ha
        obtain ⟨u, rfl⟩ : ∃ u, t = u ++ [c] := by
          rcases List.eq_nil_or_concat t with rfl | ⟨u, a, rfl⟩
          · cases hl
          · simp at hl; exact ⟨u, by simp [hl]⟩
        have hcn : c ≠ '\n' := by rintro rfl; revert hc; decide
        have : c ∈ a := by
          rw [← ha]
          simp [hcn]
        rw [List.all_eq_true] at hall
        rw [hall c this] at hc
        cases hc
      · cases ha
  have e2 : (contains t c!"[^" && contains t c!"]") = false := by
    rw [Bool.eq_false_iff]
    intro h
    rw [Bool.and_eq_true] at h
    rcases hb with hb | hb
    · exact hb (contains_infix (by simp) h.1)
    · exact hb ((contains_infix (by simp) h.2).subset (by simp))
  unfold plainOut
  simp only [e1, e2]
  rw [if_neg (by simp), sanitize_eq_escape]
  congr 1
  cases t with
  | nil => rfl
  | cons d t =>
    have : d ≠ '\n' := by rintro rfl; exact hh rfl
    simp [this]

theorem shows_text {t : Str} {c : Char} (hl : t.getLast? = some c) (hc : isWs c = false) (hh : t.head? ≠ some '\n')
    (hb : ¬ c!"[^" <:+: t ∨ ']' ∉ t) : ShowsTok (.plaintext t) (escape t) :=
  shows_of_plainOut ⟨c, List.mem_of_getLast? hl, hc⟩ (plainOut_text hl hc hh hb)

theorem last_times (x : Str) {k : Nat} {m : Char} (h : 1 ≤ k) : (x ++ times k m).getLast? = some m := by
  obtain ⟨j, rfl⟩ : ∃ j, k = j + 1 := ⟨k - 1, by omega⟩
  rw [times, List.replicate_succ', ← List.append_assoc]
  simp

theorem infix_front {x y m : Char} {t : Str} (hx : x ≠ m) : ∀ n, [x, y] <:+: times n m ++ t → [x, y] <:+: t
  | 0, h => h
  | n + 1, h => by
    rw [times, List.replicate_succ, List.cons_append, List.infix_cons_iff] at h
    rcases h with h | h
    · rw [List.cons_prefix_cons] at h
      exact absurd h.1 hx
    · exact infix_front hx n h

theorem infix_between {x y m : Char} {t : Str} (hx : x ≠ m) (hy : y ≠ m) (n k : Nat) (h : [x, y] <:+: times n m ++ t ++ times k m) :
    [x, y] <:+: t := by
  rw [List.append_assoc] at h
  have h := infix_front hx n h
  rw [← List.reverse_infix] at h ⊢
  rw [List.reverse_append, List.reverse_replicate] at h
  exact infix_front hy k h

/-- Markers around a text that are text themselves. -/
theorem shows_around {m : Char} {t : Str} {n k : Nat} (hm : m ∈ c!"*_~") (hn : 1 ≤ n)
    (hend : 1 ≤ k ∨ ∃ c, t.getLast? = some c ∧ isWs c = false) (hb : ¬ c!"[^" <:+: t ∨ ']' ∉ t) :
    ShowsTok (.plaintext (times n m ++ t ++ times k m)) (escape (times n m ++ t ++ times k m)) := by
  have hf : isWs m = false ∧ m ≠ '[' ∧ m ≠ '^' ∧ m ≠ ']' ∧ m ≠ '\n' := by
    simp only [List.mem_cons, List.not_mem_nil, or_false] at hm
    rcases hm with rfl | rfl | rfl <;> decide
  have hhead : (times n m ++ t ++ times k m).head? ≠ some '\n' := by
    obtain ⟨j, rfl⟩ : ∃ j, n = j + 1 := ⟨n - 1, by omega⟩
    simpa [List.replicate_succ] using hf.2.2.2.2
  have hb' : ¬ c!"[^" <:+: times n m ++ t ++ times k m ∨ ']' ∉ times n m ++ t ++ times k m := by
    rcases hb with hb | hb
    · exact .inl fun h => hb (infix_between (Ne.symm hf.2.1) (Ne.symm hf.2.2.1) n k h)
    · refine .inr ?_
      simp only [List.mem_append, List.mem_replicate, not_or, not_and]
      exact ⟨⟨fun _ h => hf.2.2.2.1 h.symm, hb⟩, fun _ h => hf.2.2.2.1 h.symm⟩
  rcases Nat.eq_zero_or_pos k with rfl | hk
  · obtain ⟨c, hl, hc⟩ := hend.resolve_left (by omega)
    refine shows_text (c := c) ?_ hc hhead hb'
    simp [List.getLast?_append, hl]
  · exact shows_text (last_times _ hk) hf.1 hhead hb'

/-- Running text, a token, and running text. -/
theorem render_token_between {is js : List Inline} {s x : Str} {t : Token} (hi : InlineGood s.head? is) (hj : InlineGood none js)
    (hv : is = [] ∨ ∃ i, is.head? = some i ∧ i.Visible) (h : ∀ last, nextToken self [] last s = .ok (some (t, inlineSrc js)))
    (ht : ShowsTok t x) : render (inlineSrc is ++ s) = .ok (elem c!"p" (inlineHtml is ++ x ++ inlineHtml js) ++ c!"\n") := by
  obtain ⟨t2, hl2, ha2, _⟩ := inlines_sem hj
  have l2 := hl2 self [] [] [] hj LexTo.nil
  rw [List.append_nil, List.append_nil] at l2
  rcases hv with rfl | hv
  · have hp := parseToks_two (ht.opens.clean self []) (ha2 self _ false)
    have hl : LexTo self [] s ([t] ++ t2) := LexTo.cons h l2
    rw [show inlineSrc [] ++ s = s from rfl, render_of hl hp, finish_inP, elem_p]
    simp [inlineHtml]
  · obtain ⟨t1, hl1, _, ho1⟩ := inlines_sem hi
    have hl := hl1 self [] s (t :: t2) hi (LexTo.cons h l2)
    have hp := parseToks_two ((ho1 hv).clean self []) (parseToks_cons (ht.1 self _ false) (ha2 self _ false))
    rw [render_of hl hp, finish_inP, elem_p]
    simp

/-! ### Links with a title -/

theorem lexLinks_title {text target title after : Str} {u : ValidURL} (h1 : ']' ∉ text) (h2 : ')' ∉ target) (h3 : ' ' ∉ target)
    (h4 : ')' ∉ title) (hu : validateLink target = .ok u) :
    lexLinks (c!"[" ++ text ++ c!"](" ++ target ++ c!" " ++ title ++ c!")" ++ after) =
      (.ok (.link u (some text) (some (' ' :: title))), (after.dropWhile (· != '\n')).drop 1) := by
  have e : c!"[" ++ text ++ c!"](" ++ target ++ c!" " ++ title ++ c!")" ++ after =
      '[' :: (text ++ ']' :: '(' :: (target ++ (' ' :: title ++ ')' :: after))) := by simp
  rw [e]
  unfold lexLinks
  have hs := ne_split (u := '(' :: (target ++ (' ' :: title ++ ')' :: after))) h1
  have ht := run_split (fun c => c != ')' && c != ' ') (s := target) (rest := ' ' :: title ++ ')' :: after) (by
    intro x hx
    have h4 : x ≠ ')' := fun e => h2 (e ▸ hx)
    have h5 : x ≠ ' ' := fun e => h3 (e ▸ hx)
    simp [h4, h5]) (by simp)
  have hh := ne_split (c := ')') (t := ' ' :: title) (u := after) (by simp [h4])
  simp only [List.head?_cons, ne_eq, not_true_eq_false, if_false, List.drop_one, List.tail_cons, hs, ht]
  rw [if_neg (by simp), if_neg (by simp), if_neg (by simp)]
  simp only [hu, hh]
  simp

theorem shows_titled (u : ValidURL) (t ht : Str) :
    ShowsTok (.link u (some t) (some ht)) (c!"<a href=>\"" ++ u.display ++ c!"\" title=\"" ++ ht ++ c!"\">" ++ escape t ++ c!"</a>") :=
  showsTok_of rfl rfl (fun r st => by simp [step2, linkOut, sanitize_eq_escape]) (fun r st => by simp [parseTok])

/-! ### Addresses with an `@` -/

theorem afterLastColon_eq {a b : Str} (h : ':' ∉ b) : afterLastColon (a ++ ':' :: b) = b := by
  unfold afterLastColon
  have hall : ∀ c ∈ b.reverse, (c != ':') = true := by
    intro c hc
    simp only [List.mem_reverse] at hc
    simp only [bne_iff_ne, ne_eq]
    rintro rfl
    exact h hc
  rw [List.reverse_append, List.reverse_cons, List.append_assoc, List.singleton_append,
    takeWhile_append_stop _ _ _ (by decide) _ hall, List.reverse_reverse]

/-- The scheme of the source is a scheme if the address has it. -/
theorem sourceScheme_of_display {source : Str} {u : ValidURL} (h : validateLink source = .ok u) (hc : ':' ∈ source)
    (hs : urlScheme u.display = urlScheme source) : ∃ sc, sourceScheme source = some sc := by
  obtain ⟨_, _, hcase⟩ := display_parts h
  rcases hcase with ⟨_, h⟩ | ⟨he, hn, _⟩ | ⟨he, hn, _⟩
  · exact h
  all_goals
    rw [hs] at he
    have he : source.takeWhile (· != ':') = _ := he
    unfold sourceScheme at hn
    simp only [he, List.contains_iff_mem.mpr hc] at hn
    rw [if_pos (by decide)] at hn
    repeat' split at hn
    all_goals cases hn

theorem content_of_at {source a b : Str} {u : ValidURL} {sc : Scheme} (h : validateLink source = .ok u)
    (hs : sourceScheme source = some sc) (hat : source.count '@' = 1) (he : source = a ++ ':' :: b) (hb : ':' ∉ b) : u.content = b := by
  obtain ⟨_, _, _, _, h4⟩ := validateLink_ok h
  rcases h4 with ⟨_, _, rfl, _⟩ | ⟨hn, _⟩ | ⟨_, _, _, hc⟩ | ⟨hn, _⟩
  · show afterLastColon source = b
    rw [he, afterLastColon_eq hb]
  · rw [hs] at hn; cases hn
  · exact absurd hat hc
  · rw [hs] at hn; cases hn

theorem last_colon : ∀ {s : Str}, ':' ∈ s → ∃ a b, s = a ++ ':' :: b ∧ ':' ∉ b
  | c :: s, h => by
    by_cases hs : ':' ∈ s
    · obtain ⟨a, b, rfl, hb⟩ := last_colon hs
      exact ⟨c :: a, b, rfl, hb⟩
    · refine ⟨[], s, ?_, hs⟩
      rcases List.mem_cons.mp h with rfl | h
      · rfl
      · exact absurd h hs

theorem image_prefix (s : Str) : c!"image/" <+: replaceC '&' c!"&amp;" (percentEncode s) ↔ c!"image/" <+: s := by
  constructor
  · rintro ⟨t, ht⟩
    have h1 := htmlDecode_amp (percentEncode s)
    rw [← ht] at h1
    have h2 := percentDecode_percentEncode s
    rw [← h1] at h2
    simp only [List.cons_append, List.nil_append] at h2
    rw [htmlDecode_cons _ _ (by decide), htmlDecode_cons _ _ (by decide), htmlDecode_cons _ _ (by decide),
      htmlDecode_cons _ _ (by decide), htmlDecode_cons _ _ (by decide), htmlDecode_cons _ _ (by decide),
      percentDecode_cons _ _ (by decide), percentDecode_cons _ _ (by decide), percentDecode_cons _ _ (by decide),
      percentDecode_cons _ _ (by decide), percentDecode_cons _ _ (by decide), percentDecode_cons _ _ (by decide)] at h2
    exact ⟨_, h2⟩
  · rintro ⟨t, rfl⟩
    rw [percentEncode_append, replaceC_append]
    exact ⟨_, rfl⟩

/-! ### Rejected targets -/

theorem rejected_token {text target : Str} (h1 : ']' ∉ text) (h2 : ')' ∉ target) (h3 : ' ' ∉ target)
    (he : ∀ u, validateLink target ≠ .ok u) (last : Option Token) :
    nextToken self [] last (c!"[" ++ text ++ c!"](" ++ target ++ c!")") = .ok (some (.plaintext target, [])) := by
  have hl := lexLinks_inline (rest := []) h1 h2 h3
  obtain ⟨e, hev⟩ : ∃ e, validateLink target = .error e := by
    cases hv : validateLink target with
    | ok u => exact absurd hv (he u)
    | error e => exact ⟨e, rfl⟩
  rw [hev, List.append_nil] at hl
  have e' : c!"[" ++ text ++ c!"](" ++ target ++ c!")" = '[' :: (text ++ c!"](" ++ target ++ c!")") := by simp
  rw [e'] at hl ⊢
  rw [nextToken_bracket, hl, validateLink_err hev]
  rfl

end Smd.Gfm
