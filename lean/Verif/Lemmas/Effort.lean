import Verif.Lemmas.Growth
import Verif.Lemmas.Said

/-! How much the renderer logs: the calls that a step of the lexer makes, and what they cost. -/

namespace Smd.Gfm
open Smd.Rs

variable {α β : Type}

/-- The number of log calls. -/
abbrev Said.cost (x : Said α) : Nat := x.notes.length

theorem Said.notes_bind_of (x : Said α) (f : α → Outcome β) : (x >>= fun a => Said.of (f a)).notes = x.notes := by
  show (Said.bind x _).notes = _
  unfold Said.bind
  cases x.out <;> simp

theorem Said.bind_of_ok {o : Outcome α} {a : α} (f : α → Said β) (h : o = .ok a) : (Said.of o >>= f) = f a := by
  subst h
  rfl

theorem Said.bind_of_fail {o : Outcome α} (f : α → Said β) (h : ∀ a, o ≠ .ok a) : (Said.of o >>= f).notes = [] := by
  cases o with
  | ok a => exact absurd rfl (h a)
  | _ => rfl

theorem Said.cost_bind {x : Said α} {f : α → Said β} {a b : Nat} (h1 : x.cost ≤ a) (h2 : ∀ y, x.out = .ok y → (f y).cost ≤ b) :
    (x.bind f).cost ≤ a + b := by
  unfold Said.cost Said.bind at *
  cases h : x.out with
  | ok y =>
    have := h2 y h
    simp only [List.length_append]
    omega
  | _ => simp only; omega

/-- How much of a text of length `n` a routine has consumed; all of it if it fails. -/
def eaten (n : Nat) : Outcome (LexRes × Str) → Nat
  | .ok res => n - res.2.length
  | _ => n

/-- What a routine of the lexer logs, by the calls it makes; `o` is its outcome and `p` is how much it has consumed. -/
inductive Calls (r : RecL) (s : Str) (o : Outcome (LexRes × Str)) (p : Nat) : List Note → Prop
  | none : Calls r s o p []
  | header (arg : Str) (hp : arg.length + 1 ≤ p) (ha : arg <:+: s) (h1 : '\n' ∉ arg)
      (ho : ∀ res, o = .ok res → ∃ n h, resToken res.1 = .header n h none) : Calls r s o p (r.render ['#'] arg).notes
  | lex (x : Str) (hp : x.length + 1 ≤ p) (hx : x <:+: s) (hn : ¬ OneLine s) : Calls r s o p (r.lex x).notes
  | table (al : List Alignment) (body : List Str) (hp : (body.map (fun l => l.length + 1)).sum + 1 ≤ p)
      (hb : ∀ l ∈ body, l <:+: s ∧ OneLine l) (hn : ¬ OneLine s) : Calls r s o p (tableRowsL r al body).notes

theorem Outcome.cases_ok (o : Outcome α) : (∃ a, o = .ok a) ∨ ∀ a, o ≠ .ok a := by
  cases o with
  | ok a => exact .inl ⟨a, rfl⟩
  | _ => exact .inr nofun

/-- A call followed by something that depends on its result only. -/
theorem eaten_bind {x : Outcome α} {f : α → LexRes × Str} {n p : Nat} (h : ∀ a, p ≤ n - (f a).2.length) (hn : p ≤ n) :
    p ≤ eaten n (x >>= fun a => .ok (f a)) := by
  cases x with
  | ok a => exact h a
  | _ => exact hn

theorem lexHeadingL_calls (r : RecL) (cs : Str) :
    Calls r ('#' :: cs) (lexHeadingL r ('#' :: cs)).out (eaten (cs.length + 1) (lexHeadingL r ('#' :: cs)).out) (lexHeadingL r ('#' :: cs)).notes := by
  have hpos : 1 ≤ (('#' :: cs).takeWhile (· == '#')).length := takeWhile_len_pos (by decide)
  have hl := len_while (· == '#') ('#' :: cs)
  have hs1 : ('#' :: cs).dropWhile (· == '#') <:+ '#' :: cs := dropWhile_suffix _ _
  unfold lexHeadingL
  simp only
  generalize ('#' :: cs).takeWhile (· == '#') = hashes at *
  generalize ('#' :: cs).dropWhile (· == '#') = s1 at *
  simp only [List.length_cons] at hl
  split
  · exact .none
  · split
    · exact .none
    · next s2 hsep =>
      have hs2 := headingSep_suffix hsep
      have hl2 := hs2.length_le
      have hw := len_while (· != '\n') s2
      rcases Outcome.cases_ok (headingLabel (s2.takeWhile (· != '\n'))) with ⟨line, hlab⟩ | hf
      · rw [Said.bind_of_ok _ hlab]
        split
        · exact .none
        · generalize harg : trimEndP (fun c => c == ' ' || c == '\t') (headingTrim line) = arg
          have hai : arg <:+: s2.takeWhile (· != '\n') := by
            subst harg
            exact (trimEndP_prefix _ _).isInfix.trans ((headingTrim_prefix _).isInfix.trans (headingLabel_ok hlab))
          have hal := hai.length_le
          rw [Said.notes_bind_of]
          refine .header arg ?_ (hai.trans ((takeWhile_infix _ _).trans (hs2.trans hs1).isInfix)) ?_ ?_
          · rw [Said.out_bind]
            exact eaten_bind (fun html => by simp only; omega) (by omega)
          · intro hm
            have := mem_takeWhile_true _ _ _ (hai.subset hm)
            simp at this
          · intro res ho
            rw [Said.out_bind] at ho
            obtain ⟨html, _, ho⟩ := Outcome.bind_ok' ho
            have ho := Outcome.ok.inj ho
            subst ho
            exact ⟨_, _, rfl⟩
      · rw [Said.bind_of_fail _ hf]
        exact .none

theorem lexPlusMinusL_calls (r : RecL) (c : Char) (cs : Str) (hc : c = '-' ∨ c = '+') :
    Calls r (c :: cs) (lexPlusMinusL r (c :: cs)).out (eaten (cs.length + 1) (lexPlusMinusL r (c :: cs)).out) (lexPlusMinusL r (c :: cs)).notes := by
  have hpc : (fun c : Char => c == '-' || c == '+') c = true := by
    rcases hc with rfl | rfl <;> decide
  have hpos := takeWhile_len_pos (p := (fun c : Char => c == '-' || c == '+')) (cs := cs) hpc
  have hl := len_while (fun c : Char => c == '-' || c == '+') (c :: cs)
  have hs1 : (c :: cs).dropWhile (fun c => c == '-' || c == '+') <:+ c :: cs := dropWhile_suffix _ _
  unfold lexPlusMinusL
  simp only
  generalize (c :: cs).dropWhile (fun c => c == '-' || c == '+') = s1 at *
  generalize (c :: cs).takeWhile (fun c => c == '-' || c == '+') = run at *
  simp only [List.length_cons] at hl
  split
  · exact .none
  · split
    · exact .none
    · split
      · have hs2 : s1.dropWhile (· != '\n') <:+ c :: cs := (dropWhile_suffix _ _).trans hs1
        have hw := len_while (· != '\n') s1
        have ⟨hc1, hc2⟩ := contLines_spec (s1.dropWhile (· != '\n')).length (s1.dropWhile (· != '\n'))
        have hone : OneLine (c :: cs) → contLines (s1.dropWhile (· != '\n')).length (s1.dropWhile (· != '\n')) =
            ([], s1.dropWhile (· != '\n')) := fun ho => contLines_one (ho.infix hs2.isInfix)
        generalize hmore : contLines (s1.dropWhile (· != '\n')).length (s1.dropWhile (· != '\n')) = cl at *
        have hk := len_skipIf '\n' cl.2
        have hskip : OneLine (c :: cs) → skipIf '\n' cl.2 = [] := by
          intro ho
          rw [hone ho]
          cases hd : s1.dropWhile (· != '\n') with
          | nil => rfl
          | cons d ds =>
            have hdn : d = '\n' := by
              have h0 := List.head?_dropWhile_not (fun x : Char => x != '\n') s1
              rw [hd] at h0
              simpa using h0
            subst hdn
            rw [hd] at hs2
            have h2 := ho.infix hs2.isInfix
            cases ds with
            | nil => rfl
            | cons e es => simp [OneLine] at h2
        split
        · exact .none
        · split
          · exact .none
          · split
            · next l s5 hla =>
              have e := lineAhead_parts hla
              have hle := congrArg List.length e
              simp only [List.length_append] at hle
              have hcl := (hc1.trans (dropWhile_suffix _ s1)).length_le
              have hli : l <:+: c :: cs := by
                have : l <+: skipIf '\n' cl.2 := ⟨s5, e.symm⟩
                exact this.isInfix.trans ((skipIf_suffix _ _).trans (hc1.trans hs2)).isInfix
              have hn : ¬ OneLine (c :: cs) := by
                intro ho
                rw [hskip ho] at hla
                simp [lineAhead] at hla
              split
              · rw [Said.notes_bind_of]
                refine .lex l ?_ hli hn
                rw [Said.out_bind]
                exact eaten_bind (fun ts => by simp only; omega) (by omega)
              · split
                · have := len_drop_le 1 l
                  rw [Said.notes_bind_of]
                  refine .lex (l.drop 1) ?_ ((List.drop_suffix 1 l).isInfix.trans hli) hn
                  rw [Said.out_bind]
                  exact eaten_bind (fun ts => by simp only; omega) (by omega)
                · exact .none
            · exact .none
      · exact .none

theorem parseDetailsL_calls (r : RecL) (s0 s : Str) (n : Nat) (hn : s.length + 1 ≤ n) (hss : '\n' :: s <:+: s0) :
    Calls r s0 (parseDetailsL r s).out (eaten n (parseDetailsL r s).out) (parseDetailsL r s).notes := by
  unfold parseDetailsL
  have hw := len_while (fun c => c != '\n' && c != '\r') s
  have hsum := takeWhile_infix (fun c => c != '\n' && c != '\r') s
  have hk := len_skipIf '\r' (s.dropWhile (fun c => c != '\n' && c != '\r'))
  have hs1 : skipIf '\r' (s.dropWhile (fun c => c != '\n' && c != '\r')) <:+ s :=
    (skipIf_suffix _ _).trans (dropWhile_suffix _ _)
  generalize s.takeWhile (fun c => c != '\n' && c != '\r') = summary at *
  generalize skipIf '\r' (s.dropWhile (fun c => c != '\n' && c != '\r')) = s1 at *
  simp only
  split
  · exact .none
  · next hguard =>
    split
    · exact .none
    · next sum1 hsp =>
      have hne : s ≠ [] := by
        intro e
        subst e
        have := List.eq_nil_of_infix_nil hsum
        subst this
        exact absurd hguard (by decide)
      have ho : ¬ OneLine s0 := by
        intro ho
        have := ho.infix hss
        cases s with
        | nil => exact hne rfl
        | cons a b => simp [OneLine] at this
      have hs2 := untilTail_suffix c!"</details>" s1
      have hp2 := untilTail_prefix c!"</details>" s1
      have hu := len_untilTail c!"</details>" s1
      generalize untilTail c!"</details>" s1 = ut at *
      rcases Outcome.cases_ok (if contains ut.1 c!"<details>" then detailsLoop s1 ut.2.length ut.2 else .ok (ut.1, ut.2)) with ⟨rr, hres⟩ | hf
      · rw [Said.bind_of_ok _ hres]
        have hrr : rr.1.length + rr.2.length ≤ s1.length ∧ rr.1 <+: s1 := by
          split at hres
          · have ⟨a, b⟩ := detailsLoop_ok _ _ _ _ hres
            exact ⟨detailsLoop_len _ _ _ _ hs2 hres, b⟩
          · injection hres with hres
            subst hres
            exact ⟨by simp only; omega, hp2⟩
        have h3 := (stripSuffix_getD_infix c!"</details>" rr.1).length_le
        rw [Said.notes_bind_of]
        refine .lex _ ?_ ((stripSuffix_getD_infix _ _).trans (hrr.2.isInfix.trans (hs1.isInfix.trans
            ((List.suffix_cons _ _).isInfix.trans hss)))) ho
        rw [Said.out_bind]
        exact eaten_bind (fun ts => by simp only; omega) (by omega)
      · rw [Said.bind_of_fail _ hf]
        exact .none

theorem lexSideCarrotL_calls (r : RecL) (cs : Str) :
    Calls r ('<' :: cs) (lexSideCarrotL r ('<' :: cs)).out (eaten (cs.length + 1) (lexSideCarrotL r ('<' :: cs)).out)
      (lexSideCarrotL r ('<' :: cs)).notes := by
  unfold lexSideCarrotL
  rw [if_neg (by simp)]
  simp only [List.drop_succ_cons, List.drop_zero]
  have hs2 := dropWhile_suffix (· != '>') cs
  generalize cs.takeWhile (· != '>') = t at *
  generalize cs.dropWhile (· != '>') = s2 at *
  split
  · have hs3 : s2.drop 1 <:+ cs := (List.drop_suffix 1 _).trans hs2
    generalize s2.drop 1 = s3 at *
    split
    · have hs4 := (skipIf_suffix '\r' s3).trans hs3
      generalize skipIf '\r' s3 = s4 at *
      split
      · next hnl =>
        cases s4 with
        | nil => simp at hnl
        | cons a b =>
          simp only [List.drop_succ_cons, List.drop_zero]
          have ha : a = '\n' := by simpa using hnl
          subst ha
          have := hs4.length_le
          simp only [List.length_cons] at this
          exact parseDetailsL_calls r _ b _ (by omega) (hs4.trans (List.suffix_cons _ _)).isInfix
      · exact .none
    · split
      · split
        · exact .none
        · split
          · split
            · exact .none
            · exact .none
          · exact .none
      · exact .none
  · exact .none

theorem lexPipesL_calls (r : RecL) (cs : Str) :
    Calls r ('|' :: cs) (lexPipesL r ('|' :: cs)).out (eaten (cs.length + 1) (lexPipesL r ('|' :: cs)).out) (lexPipesL r ('|' :: cs)).notes := by
  have hlen := pipeLines_len ('|' :: cs).length ('|' :: cs)
  have hone := pipeLines_one ('|' :: cs).length ('|' :: cs)
  have ⟨_, hlines⟩ := pipeLines_spec ('|' :: cs).length ('|' :: cs)
  have hol := pipeLines_oneLine ('|' :: cs).length ('|' :: cs)
  unfold lexPipesL
  generalize pipeLines ('|' :: cs).length ('|' :: cs) = pl at *
  obtain ⟨lines, s1⟩ := pl
  simp only [List.length_cons] at hlen hone hlines hol ⊢
  split
  · exact .none
  · next hl3 =>
    have hn : ¬ OneLine ('|' :: cs) := fun ho => by have := hone ho; omega
    split
    · next l0 l1 body _ =>
      split
      · exact .none
      · rw [Said.notes_bind_of]
        simp only [List.map_cons, List.sum_cons] at hlen
        refine .table _ body ?_ (fun l hl => ⟨(hlines l (by simp [hl])).1, hol l (by simp [hl])⟩) hn
        rw [Said.out_bind]
        exact eaten_bind (fun ts => by simp only; omega) (by omega)
    · exact .none

theorem lexDispatchL_calls (r : RecL) (ig : List Char) (last : Option Token) (c : Char) (cs : Str) :
    Calls r (c :: cs) (lexDispatchL r ig last c (c :: cs)).2.out (eaten (cs.length + 1) (lexDispatchL r ig last c (c :: cs)).2.out)
      (lexDispatchL r ig last c (c :: cs)).2.notes := by
  unfold lexDispatchL
  by_cases hc : c = '#' ∧ ig.contains '#' = false
  · rw [if_pos hc]
    obtain ⟨rfl, _⟩ := hc
    exact lexHeadingL_calls r cs
  rw [if_neg hc]
  clear hc
  by_cases hc : c = '\n'
  · rw [if_pos hc]; exact .none
  rw [if_neg hc]
  clear hc
  by_cases hc : c = ' ' ∨ c = '\t'
  · rw [if_pos hc]; exact .none
  rw [if_neg hc]
  clear hc
  by_cases hc : c ∈ c!"1234567890"
  · rw [if_pos hc]; exact .none
  rw [if_neg hc]
  clear hc
  by_cases hc : c = '*' ∨ c = '_'
  · rw [if_pos hc]; exact .none
  rw [if_neg hc]
  clear hc
  by_cases hc : c = '-' ∨ c = '+'
  · rw [if_pos hc]; exact lexPlusMinusL_calls r c cs hc
  rw [if_neg hc]
  clear hc
  by_cases hc : c = '>'
  · rw [if_pos hc]; exact .none
  rw [if_neg hc]
  clear hc
  by_cases hc : c = '~'
  · rw [if_pos hc]; exact .none
  rw [if_neg hc]
  clear hc
  by_cases hc : c = '`'
  · rw [if_pos hc]; exact .none
  rw [if_neg hc]
  clear hc
  by_cases hc : c = '['
  · rw [if_pos hc]; exact .none
  rw [if_neg hc]
  clear hc
  by_cases hc : c = '!'
  · rw [if_pos hc]; exact .none
  rw [if_neg hc]
  clear hc
  by_cases hc : c = '<'
  · rw [if_pos hc]
    subst hc
    exact lexSideCarrotL_calls r cs
  rw [if_neg hc]
  clear hc
  by_cases hc : c = '|'
  · rw [if_pos hc]
    subst hc
    exact lexPipesL_calls r cs
  rw [if_neg hc]
  clear hc
  split <;> exact .none

/-- How much a step of the lexer consumes; all of the text if there is no next step. -/
def eatenBy (s : Str) : Outcome (Option (Token × Str)) → Nat
  | .ok (some (_, s')) => s.length - s'.length
  | _ => s.length

theorem nextTokenL_calls (d : Dbg) (r : RecL) (ig : List Char) (last : Option Token) {s : Str} (hs : s ≠ []) :
    ∃ notes o, Calls r s o (eatenBy s (nextTokenL d r ig last s).out) notes ∧ (nextTokenL d r ig last s).cost ≤ 2 + notes.length ∧
      ∀ t s', (nextTokenL d r ig last s).out = .ok (some (t, s')) → ∃ res, o = .ok res ∧ t = resToken res.1 := by
  cases s with
  | nil => exact absurd rfl hs
  | cons c cs =>
    refine ⟨(lexDispatchL r ig last c (c :: cs)).2.notes, (lexDispatchL r ig last c (c :: cs)).2.out, ?_, ?_, ?_⟩
    rotate_left
    · show (Said.say _ (Said.bind (lexDispatchL r ig last c (c :: cs)).2 _)).cost ≤ _
      rw [Said.cost, Said.say_notes, List.length_cons]
      have := Said.cost_bind (x := (lexDispatchL r ig last c (c :: cs)).2) (f := fun res => (⟨warning d (lexDispatchL r ig last c (c :: cs)).1 res.1,
        .ok (some (resToken res.1, res.2))⟩ : Said (Option (Token × Str)))) (b := 1) (Nat.le_refl _) (fun y _ => by
          unfold Said.cost warning
          split <;> simp)
      unfold Said.cost at this
      rw [Nat.add_comm 2]
      exact Nat.succ_le_succ this
    · intro t s' h
      unfold nextTokenL at h
      simp only [Said.say_out, Said.out_bind] at h
      obtain ⟨res, h1, h2⟩ := Outcome.bind_ok' h
      have h2 := Outcome.ok.inj h2
      injection h2 with h2
      injection h2 with h2 h3
      exact ⟨res, h1, h2.symm⟩
    · have h := lexDispatchL_calls r ig last c cs
      have e : eatenBy (c :: cs) (nextTokenL d r ig last (c :: cs)).out = eaten (cs.length + 1) (lexDispatchL r ig last c (c :: cs)).2.out := by
        unfold nextTokenL
        simp only [Said.say_out, Said.out_bind]
        cases (lexDispatchL r ig last c (c :: cs)).2.out <;> rfl
      rw [e]
      exact h

theorem eatenBy_pos {d : Dbg} {r : RecL} {ig : List Char} {last : Option Token} {s : Str} (hs : s ≠ []) :
    1 ≤ eatenBy s (nextTokenL d r ig last s).out := by
  have hl := List.length_pos_iff.mpr hs
  cases h : (nextTokenL d r ig last s).out with
  | ok o =>
    cases o with
    | none => exact hl
    | some x =>
      obtain ⟨t, s'⟩ := x
      rw [erase_nextTokenL] at h
      have := (nextToken_shape _ _ _ _ _ _ h).2.2
      show 1 ≤ s.length - s'.length
      omega
  | _ => exact hl

/-- What a list of tokens costs. -/
abbrev costs (f : Token → Nat) (ts : List Token) : Nat := (ts.map f).sum

/-- The loop of the lexer, if a step costs at most `G` of what it consumes: together with what the tokens will cost. -/
theorem lexLoopL_cost {d : Dbg} {r : RecL} {ig : List Char} {f : Token → Nat} {G : Nat → Nat} {P : Str → Prop}
    (hG : ∀ p q, G p + G q ≤ G (p + q)) (hP : ∀ s s', P s → s' <:+ s → P s')
    (h1 : ∀ last s, P s → s ≠ [] → (nextTokenL d r ig last s).cost ≤ G (eatenBy s (nextTokenL d r ig last s).out))
    (h2 : ∀ last s t s', P s → (nextTokenL d r ig last s).out = .ok (some (t, s')) →
      (nextTokenL d r ig last s).cost + f t ≤ G (eatenBy s (nextTokenL d r ig last s).out)) :
    ∀ (fuel : Nat) (acc : List Token) (s : Str), P s → (lexLoopL d r ig fuel acc s).cost ≤ G s.length + 1 ∧
      ∀ ts, (lexLoopL d r ig fuel acc s).out = .ok ts → (lexLoopL d r ig fuel acc s).cost + costs f ts ≤ G s.length + 1 + costs f acc
  | 0, acc, s, _ => ⟨Nat.zero_le _, nofun⟩
  | fuel + 1, acc, [], hs => by
    refine ⟨by show 1 ≤ G 0 + 1; omega, fun ts h => ?_⟩
    have h : acc = ts := Outcome.ok.inj h
    subst h
    show 1 + _ ≤ G 0 + 1 + _
    omega
  | fuel + 1, acc, c :: cs, hs => by
    have e : lexLoopL d r ig (fuel + 1) acc (c :: cs) = Said.bind (nextTokenL d r ig acc.getLast? (c :: cs)) fun
      | none => .of (.ok acc)
      | some (t, s') => lexLoopL d r ig fuel (acc ++ [t]) s' := rfl
    have a1 := h1 acc.getLast? (c :: cs) hs (by simp)
    have a2 := h2 acc.getLast? (c :: cs)
    rw [e]
    generalize hx : nextTokenL d r ig acc.getLast? (c :: cs) = x at *
    cases ho : x.out with
    | ok o =>
      cases o with
      | none =>
        exfalso
        have : nextToken r.erase ig acc.getLast? (c :: cs) = .ok none := by rw [← erase_nextTokenL d, hx, ho]
        unfold nextToken at this
        obtain ⟨_, _, h⟩ := Outcome.bind_ok' this
        cases h
      | some y =>
        obtain ⟨t, s'⟩ := y
        have a3 := a2 t s' hs ho
        have hsh : nextToken r.erase ig acc.getLast? (c :: cs) = .ok (some (t, s')) := by rw [← erase_nextTokenL d, hx, ho]
        have ⟨_, hsuf, hlt⟩ := nextToken_shape _ _ _ _ _ _ hsh
        have ⟨i1, i2⟩ := lexLoopL_cost hG hP h1 h2 fuel (acc ++ [t]) s' (hP _ _ hs hsuf)
        rw [ho] at a1 a3
        have hsum := hG ((c :: cs).length - s'.length) s'.length
        rw [Nat.sub_add_cancel (Nat.le_of_lt hlt)] at hsum
        simp only [eatenBy] at a1 a3
        have hc : (Said.bind x fun
            | none => .of (.ok acc)
            | some (t, s') => lexLoopL d r ig fuel (acc ++ [t]) s').cost = x.cost + (lexLoopL d r ig fuel (acc ++ [t]) s').cost := by
          unfold Said.cost Said.bind
          rw [ho]
          simp
        rw [hc, Said.out_bind', ho]
        refine ⟨by omega, fun ts h => ?_⟩
        have := i2 ts h
        simp only [costs, List.map_append, List.sum_append, List.map_cons, List.map_nil, List.sum_cons, List.sum_nil] at this ⊢
        omega
    | panic =>
      unfold Said.bind Said.cost at *
      rw [ho] at a1 ⊢
      exact ⟨Nat.le_succ_of_le a1, nofun⟩
    | hang =>
      unfold Said.bind Said.cost at *
      rw [ho] at a1 ⊢
      exact ⟨Nat.le_succ_of_le a1, nofun⟩
    | fuelOut =>
      unfold Said.bind Said.cost at *
      rw [ho] at a1 ⊢
      exact ⟨Nat.le_succ_of_le a1, nofun⟩

/-- `Parser::lex` logs three lines more than its loop. -/
theorem lexWithL_cost {d : Dbg} {r : RecL} {ig : List Char} {f : Token → Nat} {s : Str} {n : Nat}
    (h : (lexLoopL d r ig (s.length + 1) [] s).cost ≤ n + 1 ∧
      ∀ ts, (lexLoopL d r ig (s.length + 1) [] s).out = .ok ts → (lexLoopL d r ig (s.length + 1) [] s).cost + costs f ts ≤ n + 1 + costs f []) :
    (lexWithL d r ig s).cost ≤ n + 4 ∧
    ∀ ts, (lexWithL d r ig s).out = .ok ts → (lexWithL d r ig s).cost + costs f ts ≤ n + 4 := by
  have e : (lexWithL d r ig s).cost = 2 + (Said.bind (lexLoopL d r ig (s.length + 1) [] s) fun ts =>
      .say (dbgLib (c!"Lexing completed, total tokens: " ++ dec ts.length)) (.of (.ok ts))).cost := by
    unfold lexWithL Said.cost
    simp only [Said.say_notes, List.length_cons]
    exact Nat.add_comm _ 2
  generalize hx : lexLoopL d r ig (s.length + 1) [] s = x at *
  have e1 : (Said.bind x fun ts => .say (dbgLib (c!"Lexing completed, total tokens: " ++ dec ts.length)) (.of (.ok ts))).cost ≤ x.cost + 1 :=
    Said.cost_bind (Nat.le_refl _) (fun _ _ => Nat.le_refl 1)
  refine ⟨by omega, fun ts ho => ?_⟩
  have ho : x.out = .ok ts := by
    unfold lexWithL at ho
    simp only [Said.say_out, Said.out_bind, Said.of_out, hx] at ho
    obtain ⟨ts', h1, h2⟩ := Outcome.bind_ok' ho
    rw [h1, Outcome.ok.inj h2]
  have := h.2 ts ho
  simp only [costs, List.map_nil, List.sum_nil] at this ⊢
  omega

/-! ### Parsing -/

/-- What parsing a token costs. -/
abbrev tokCost (d : Dbg) (r : RecL) (t : Token) : Nat := (parseTokL d r t {}).cost

theorem quoteStepL_notes (r : RecL) (l : Nat) (t : Str) (st : PState) :
    (quoteStepL r l t st).notes = if t.isEmpty then [] else (r.render [] (quoteArg t)).notes := by
  unfold quoteStepL
  simp only [apply_ite Said.notes, Said.notes_bind_of, Said.of_notes]
  rfl

theorem step2L_notes (r : RecL) (t : Token) (st st' : PState) : (step2L r t st).notes = (step2L r t st').notes := by
  unfold step2L
  split
  · simp only [Said.notes_bind_of]
  · rw [quoteStepL_notes, quoteStepL_notes]
  · rfl

/-- A token that is neither a section nor a table. -/
def Small : Token → Prop
  | .detail _ _ | .table _ _ => False
  | _ => True

theorem parseTokL_small (d : Dbg) (r : RecL) (t : Token) (st : PState) (h : Small t) :
    parseTokL d r t st = .say (dbgLib (c!"Processing token: " ++ d.tok t)) (step2L r t (step1 t st)) := by
  cases t <;> first | (exact h.elim; done) | rw [parseTokL] <;> nofun

theorem Said.notes_bind_any (x : Said α) (f : α → Said β) (g : α → Said γ) (h : ∀ a, (f a).notes = (g a).notes) : (x.bind f).notes = (x.bind g).notes := by
  unfold Said.bind
  cases x.out <;> simp [h]

/-- It does not depend on what has been parsed before. -/
theorem parseTokL_cost (d : Dbg) (r : RecL) (t : Token) (st : PState) : (parseTokL d r t st).cost = tokCost d r t := by
  unfold tokCost Said.cost
  congr 1
  cases t with
  | detail sum inner =>
    rw [parseTokL, parseTokL]
    simp only [Said.say_notes]
    congr 2
    exact Said.notes_bind_any _ _ _ fun _ => rfl
  | table hd rows =>
    cases rows with
    | nil => simp only [parseTokL, Said.say_notes]
    | cons r0 rs =>
      simp only [parseTokL, Said.say_notes]
      congr 1
      split
      · rfl
      · exact Said.notes_bind_any _ _ _ fun _ => Said.notes_bind_any _ _ _ fun _ => rfl
  | _ =>
    rw [parseTokL_small d r _ _ (by trivial), parseTokL_small d r _ _ (by trivial)]
    simp only [Said.say_notes]
    exact congrArg (List.cons _) (step2L_notes _ _ _ _)

theorem parseToksL_cost (d : Dbg) (r : RecL) : ∀ (ts : List Token) (st : PState), (parseToksL d r ts st).cost ≤ costs (tokCost d r) ts
  | [], st => by rw [parseToksL]; exact Nat.zero_le _
  | t :: ts, st => by
    rw [parseToksL]
    refine Nat.le_trans (Said.cost_bind (Nat.le_of_eq (parseTokL_cost d r t st)) (fun st' _ => parseToksL_cost d r ts st')) ?_
    simp [costs]

theorem parseDocL_cost (d : Dbg) (r : RecL) (ts : List Token) : (parseDocL d r ts).cost ≤ 2 + costs (tokCost d r) ts := by
  unfold parseDocL
  rw [Said.cost, Said.say_notes, List.length_cons]
  have := Said.cost_bind (x := parseToksL d r ts {}) (f := fun s => .say (dbgLib c!"Parsing completed") (.of (.ok (finish s)))) (b := 1)
    (parseToksL_cost d r ts {}) (fun _ _ => Nat.le_refl 1)
  unfold Said.cost at this
  omega

/-- A token that is not parsed by calls of the renderer costs one line. -/
theorem tokCost_leaf (d : Dbg) (r : RecL) {t : Token} (h : leafy t = true ∨ ∃ n x l, t = .header n x l) : tokCost d r t = 1 := by
  unfold tokCost
  rcases h with h | ⟨n, x, l, rfl⟩
  · cases t <;> first | (cases h; done) | (rw [parseTokL_small d r _ _ (by trivial)]; rfl)
  · rw [parseTokL_small d r _ _ (by trivial)]; rfl

/-- What the argument of a token costs, if it is text of a list entry. -/
def entryCost (r : RecL) : Token → Nat
  | .plaintext x => (r.render [] (entryArg x)).cost
  | _ => 0

theorem entryOutL_cost (r : RecL) : ∀ ts : List Token, (entryOutL r ts).cost ≤ costs (entryCost r) ts
  | [] => Nat.zero_le _
  | t :: ts => by
    have ih := entryOutL_cost r ts
    cases t with
    | plaintext x =>
      rw [entryOutL]
      refine Nat.le_trans (Said.cost_bind (Nat.le_refl _) (b := costs (entryCost r) ts) fun _ _ => ?_) ?_
      · rw [Said.cost, Said.notes_bind_of]
        exact ih
      · simp only [costs, List.map_cons, List.sum_cons]
        exact Nat.le_refl _
    | _ =>
      refine Nat.le_trans ih ?_
      simp [costs]

theorem tokCost_entry (d : Dbg) (r : RecL) (ts : List Token) : tokCost d r (.unorderedListEntry ts) ≤ 1 + costs (entryCost r) ts := by
  unfold tokCost
  rw [parseTokL_small d r _ _ (by trivial), Said.cost, Said.say_notes, List.length_cons, step2L, Said.notes_bind_of]
  have := entryOutL_cost r ts
  unfold Said.cost at this
  omega

theorem tokCost_quote (d : Dbg) (r : RecL) (n : Nat) (x : Str) : tokCost d r (.blockQuote n x) ≤ 1 + (r.render [] (quoteArg x)).cost := by
  unfold tokCost
  rw [parseTokL_small d r _ _ (by trivial), Said.cost, Said.say_notes, List.length_cons, step2L, quoteStepL_notes]
  split
  · simp
  · exact Nat.le_of_eq (Nat.add_comm _ 1)

/-! ### One line -/

/-- The texts the bound for one line is about: `g` tells whether `>` is allowed. -/
structure Line (g : Bool) (x : Str) : Prop where
  one : OneLine x
  gt : g = false → '>' ∉ x

theorem Line.infix {g : Bool} {x y : Str} (h : Line g x) (hy : y <:+: x) : Line g y :=
  ⟨h.one.infix hy, fun hg hm => h.gt hg (hy.subset hm)⟩

/-- What a character of a line costs. -/
abbrev rate (g : Bool) : Nat := if g then 100 else 10

/-- Lines cost no more than that. -/
def LineCost (r : RecL) : Prop :=
  ∀ (g : Bool) (x : Str), Line g x → (∀ ig, (r.render ig x).cost ≤ 7 + rate g * x.length) ∧ (r.lex x).cost ≤ 7 + rate g * x.length

theorem quoteArg_line {x : Str} (h : '\n' ∉ x) : Line false (quoteArg x) ∧ (quoteArg x).length ≤ 8 * x.length := by
  have a1 := len_sanitize (trimStartP (· == ' ') x)
  have a2 := (trimStartP_suffix (· == ' ') x).length_le
  unfold quoteArg
  exact ⟨⟨.of_no_nl (nl_not_mem_sanitize (fun hm => h ((trimStartP_suffix _ _).subset hm))), fun _ => gt_not_mem_sanitize _⟩, by omega⟩

/-- The tokens of one line: lexing one and parsing it. -/
theorem line_step {d : Dbg} {r : RecL} (hr : LineCost r) {g : Bool} (ig : List Char) (last : Option Token) {s : Str} (hs : Line g s) (hne : s ≠ []) :
    (nextTokenL d r ig last s).cost ≤ rate g * eatenBy s (nextTokenL d r ig last s).out ∧
    ∀ t s', (nextTokenL d r ig last s).out = .ok (some (t, s')) →
      (nextTokenL d r ig last s).cost + tokCost d r t ≤ rate g * eatenBy s (nextTokenL d r ig last s).out := by
  obtain ⟨notes, o, hc, hcost, hres⟩ := nextTokenL_calls d r ig last hne
  have hpos := eatenBy_pos (d := d) (r := r) (ig := ig) (last := last) hne
  have hsize : ∀ t s', (nextTokenL d r ig last s).out = .ok (some (t, s')) → Size r.erase s (eatenBy s (nextTokenL d r ig last s).out) t := by
    intro t s' h
    have := h
    rw [erase_nextTokenL] at this
    rw [h]
    exact nextToken_size this
  generalize hx : nextTokenL d r ig last s = x at *
  generalize hp : eatenBy s x.out = p at *
  have h10 : rate g * 1 ≤ rate g * p := Nat.mul_le_mul_left _ hpos
  have hg10 : 10 ≤ rate g := by unfold rate; split <;> omega
  cases hc with
  | none =>
    refine ⟨by simp only [List.length_nil] at hcost; omega, fun t s' h => ?_⟩
    simp only [List.length_nil] at hcost
    cases hsize t s' h with
    | leaf _ hl _ => rw [tokCost_leaf d r (.inl hl)]; omega
    | headerEmpty => rw [tokCost_leaf d r (.inr ⟨_, _, _, rfl⟩)]; omega
    | header => rw [tokCost_leaf d r (.inr ⟨_, _, _, rfl⟩)]; omega
    | ul xs hpx hxs h1 =>
      obtain ⟨y, rfl⟩ : ∃ y, xs = [y] := List.length_eq_one_iff.mp (h1 hs.one)
      have a := tokCost_entry d r ([y].map .plaintext)
      have b := (hr g (entryArg y) (hs.infix ((entryArg_suffix y).isInfix.trans (hxs y (by simp)).1))).1 []
      have c := (entryArg_suffix y).length_le
      simp only [List.map_cons, List.map_nil, List.sum_cons, List.sum_nil, costs, entryCost] at a hpx ⊢
      have e : rate g * (entryArg y).length + rate g ≤ rate g * p := by
        rw [← Nat.mul_succ]
        exact Nat.mul_le_mul_left _ (by omega)
      omega
    | ulLex _ _ _ _ _ _ _ _ hn => exact absurd hs.one hn
    | quote n y hpx hy h1 hgt =>
      have a := tokCost_quote d r n y
      have ⟨b1, b2⟩ := quoteArg_line h1
      have b := (hr false _ b1).1 []
      cases g with
      | false => exact absurd hgt (hs.gt rfl)
      | true =>
        simp only [rate, Bool.false_eq_true, if_false, if_true] at *
        omega
    | detail _ _ _ _ _ _ hn => exact absurd hs.one hn
    | table _ _ _ _ _ _ _ hn _ => exact absurd hs.one hn
  | header arg hpa ha h1 ho =>
    have b := (hr g arg (hs.infix ha)).1 ['#']
    unfold Said.cost at b
    have e : rate g * arg.length + rate g ≤ rate g * p := by
      rw [← Nat.mul_succ]
      exact Nat.mul_le_mul_left _ (by omega)
    refine ⟨by omega, fun t s' h => ?_⟩
    obtain ⟨res, h2, rfl⟩ := hres t s' h
    obtain ⟨n, html, h3⟩ := ho res h2
    rw [h3, tokCost_leaf d r (.inr ⟨_, _, _, rfl⟩)]
    omega
  | lex _ _ _ hn => exact absurd hs.one hn
  | table _ _ _ _ hn => exact absurd hs.one hn

theorem line_lex {d : Dbg} {r : RecL} (hr : LineCost r) {g : Bool} (ig : List Char) {s : Str} (hs : Line g s) :
    (lexWithL d r ig s).cost ≤ rate g * s.length + 4 ∧
    ∀ ts, (lexWithL d r ig s).out = .ok ts → (lexWithL d r ig s).cost + costs (tokCost d r) ts ≤ rate g * s.length + 4 := by
  refine lexWithL_cost (lexLoopL_cost (G := fun p => rate g * p) (P := Line g) (fun p q => Nat.le_of_eq (Nat.mul_add _ _ _).symm)
    (fun s s' h h' => h.infix h'.isInfix) ?_ ?_ _ [] s hs)
  · intro last s hs hne
    exact (line_step hr ig last hs hne).1
  · intro last s t s' hs ho
    refine (line_step hr ig last hs ?_).2 t s' ho
    rintro rfl
    cases ho

theorem lineCost (d : Dbg) : ∀ n, LineCost (recL d n)
  | 0 => fun _ _ _ => ⟨fun _ => Nat.zero_le _, Nat.zero_le _⟩
  | n + 1 => by
    intro g x hx
    have ih := lineCost d n
    constructor
    · intro ig
      have ⟨h1, h2⟩ := line_lex (d := d) ih ig hx
      have hs : (renderStart ig x).length ≤ 1 := by unfold renderStart; split <;> simp
      have e : ((recL d (n + 1)).render ig x) = Said.bind (⟨renderStart ig x, .ok ()⟩ : Said PUnit) fun _ =>
        Said.bind (lexWithL d (recL d n) ig x) fun ts => parseDocL d (recL d n) ts := rfl
      rw [e]
      refine Nat.le_trans (Said.cost_bind hs (b := rate g * x.length + 6) fun _ _ => ?_) (by omega)
      cases ho : (lexWithL d (recL d n) ig x).out with
      | ok ts =>
        have a := h2 ts ho
        have b := parseDocL_cost d (recL d n) ts
        unfold Said.bind Said.cost at *
        rw [ho]
        simp only [List.length_append]
        omega
      | panic => unfold Said.bind Said.cost at *; rw [ho]; simp only; omega
      | hang => unfold Said.bind Said.cost at *; rw [ho]; simp only; omega
      | fuelOut => unfold Said.bind Said.cost at *; rw [ho]; simp only; omega
    · have ⟨h1, _⟩ := line_lex (d := d) ih [] hx
      refine Nat.le_trans (?_ : _ ≤ rate g * x.length + 4) (by omega)
      exact h1

/-! ### All texts: lexing -/

theorem rowTokensL_cost (r : RecL) : ∀ es : List Str, (rowTokensL r es).cost ≤ (es.map fun e => (r.lex e).cost).sum
  | [] => Nat.zero_le _
  | e :: es => by
    rw [rowTokensL]
    refine Nat.le_trans (Said.cost_bind (Nat.le_refl _) (b := (es.map fun e => (r.lex e).cost).sum) fun _ _ => ?_) ?_
    · rw [Said.cost, Said.notes_bind_of]
      exact rowTokensL_cost r es
    · rw [List.map_cons, List.sum_cons]

theorem cell_sum (l : Str) : (((cells l).map trim).map (fun e => e.length + 1)).sum ≤ 2 * l.length := by
  refine Nat.le_trans ?_ (len_cells l)
  rw [List.map_map]
  exact sum_map_le (fun x _ => by have := len_trim x; simp only [Function.comp]; omega)

theorem tableRowsL_cost {r : RecL} (hr : LineCost r) (al : List Alignment) : ∀ ls : List Str, (∀ l ∈ ls, OneLine l) →
    (tableRowsL r al ls).cost ≤ 200 * (ls.map (fun l => l.length + 1)).sum
  | [], _ => Nat.zero_le _
  | l :: ls, h => by
    rw [tableRowsL]
    have h1 : (rowTokensL r ((cells l).map trim)).cost ≤ 200 * (l.length + 1) := by
      refine Nat.le_trans (rowTokensL_cost r _) (Nat.le_trans (sum_map_le (g := fun e => 100 * (e.length + 1)) fun e he => ?_) ?_)
      · obtain ⟨c, hc, rfl⟩ := List.mem_map.mp he
        have hl : Line true (trim c) := ⟨(h l (by simp)).infix ((trim_infix c).trans (cells_infix l c hc)), nofun⟩
        have := (hr true _ hl).2
        simp only [rate, if_true] at this
        omega
      · rw [sum_map_mul]
        have := cell_sum l
        omega
    refine Nat.le_trans (Said.cost_bind h1 (b := 200 * (ls.map (fun l => l.length + 1)).sum) fun _ _ => ?_) ?_
    · rw [Said.cost, Said.notes_bind_of]
      exact tableRowsL_cost hr al ls fun x hx => h x (by simp [hx])
    · simp only [List.map_cons, List.sum_cons]
      omega

/-- Lexing costs at most a constant for each character. -/
theorem lex_cost (d : Dbg) : ∀ (n : Nat) (ig : List Char) (s : Str), (lexWithL d (recL d n) ig s).cost ≤ 300 * s.length + 4
  | n, ig, s => by
    have ih : ∀ x, ((recL d n).lex x).cost ≤ 300 * x.length + 4 := by
      cases n with
      | zero => exact fun _ => Nat.zero_le _
      | succ n => exact fun x => lex_cost d n [] x
    have hr := lineCost d n
    generalize recL d n = r at *
    have step : ∀ last s, s ≠ [] → (nextTokenL d r ig last s).cost ≤ 300 * eatenBy s (nextTokenL d r ig last s).out := by
      intro last s hne
      obtain ⟨notes, o, hc, hcost, _⟩ := nextTokenL_calls d r ig last hne
      have hpos := eatenBy_pos (d := d) (r := r) (ig := ig) (last := last) hne
      generalize nextTokenL d r ig last s = x at *
      cases hc with
      | none => simp only [List.length_nil] at hcost; omega
      | header arg hpa ha h1 ho =>
        have b := (hr true arg ⟨.of_no_nl h1, nofun⟩).1 ['#']
        simp only [Said.cost, rate, if_true] at b
        omega
      | lex y hpy =>
        have b := ih y
        simp only [Said.cost] at b
        omega
      | table al body hpb hb =>
        have b := tableRowsL_cost hr al body fun l hl => (hb l hl).2
        simp only [Said.cost] at b
        omega
    refine (lexWithL_cost (f := fun _ => 0) (lexLoopL_cost (G := fun p => 300 * p) (P := fun _ => True)
      (fun p q => Nat.le_of_eq (Nat.mul_add _ _ _).symm) (fun _ _ _ _ => trivial) (fun last s _ h => step last s h) ?_ _ [] s trivial)).1
    intro last s t s' _ ho
    refine step last s ?_
    rintro rfl
    cases ho

/-! ### All texts: parsing -/

theorem cellTextL_cost (w : Said Str) : ∀ ts : List Token, (cellTextL w ts).cost ≤ ts.length * w.cost
  | [] => Nat.zero_le _
  | t :: ts => by
    have h : ∀ x : Said Str, x.cost ≤ w.cost → (x >>= fun h => cellTextL w ts >>= fun rest => .of (.ok (h ++ rest))).cost ≤ (t :: ts).length * w.cost := by
      intro x hx
      refine Nat.le_trans (Said.cost_bind hx (b := ts.length * w.cost) fun _ _ => ?_) ?_
      · rw [Said.cost, Said.notes_bind_of]
        exact cellTextL_cost w ts
      · rw [List.length_cons, Nat.succ_mul, Nat.add_comm]
    cases t <;> simp only [cellTextL] <;> first | exact h _ (Nat.zero_le _) | exact h _ (Nat.le_refl _)

theorem parseCellL_cost (d : Dbg) (r : RecL) (al : Alignment) {ts : List Token} (h : ∀ t ∈ ts, leafy t = true) :
    (parseCellL d r (al, ts)).cost ≤ ts.length * (ts.length + 2) := by
  rw [parseCellL]
  have hw : (Said.say (parseStart ts.length) ((parseToksL d r ts {}).bind fun s =>
      .say (dbgLib c!"Parsing completed") (.of (.ok (finish s))))).cost ≤ ts.length + 2 := by
    have h1 := parseDocL_cost d r ts
    have h2 : costs (tokCost d r) ts ≤ ts.length := by
      clear h1
      induction ts with
      | nil => exact Nat.zero_le _
      | cons t ts ih =>
        have := ih fun x hx => h x (by simp [hx])
        simp only [costs, List.map_cons, List.sum_cons, List.length_cons] at this ⊢
        rw [tokCost_leaf d r (.inl (h t (by simp)))]
        omega
    unfold parseDocL at h1
    omega
  refine Nat.le_trans (Said.cost_bind (b := 0) (Nat.le_trans (cellTextL_cost _ ts) (Nat.mul_le_mul_left _ hw)) fun _ _ => Nat.zero_le _) (Nat.le_refl _)

theorem length_le_lsz : ∀ {ts : List Token}, (∀ t ∈ ts, leafy t = true) → ts.length ≤ (ts.map lsz).sum
  | [], _ => Nat.zero_le _
  | t :: ts, h => by
    have := length_le_lsz (ts := ts) fun x hx => h x (by simp [hx])
    have h1 : lsz t = tsize t + 1 := by simp [lsz, h t (by simp)]
    simp only [List.length_cons, List.map_cons, List.sum_cons]
    omega

theorem parseRowL_cost (d : Dbg) (r : RecL) (n : Nat) : ∀ (es : List Str) (al : List Alignment) (row : List (List Token)),
    rowTokens (recF n) es = .ok row → (parseRowL d r (al.zip row)).cost ≤ 1680 * (es.map (fun e => (e.length + 1) * (e.length + 1))).sum
  | [], al, row, h => by
    have h := Outcome.ok.inj h
    subst h
    rw [List.zip_nil_right, parseRowL]
    exact Nat.zero_le _
  | e :: es, [], row, h => by
    rw [List.zip_nil_left, parseRowL]
    exact Nat.zero_le _
  | e :: es, a :: al, row, h => by
    rw [rowTokens] at h
    obtain ⟨ts, h1, h⟩ := Outcome.bind_ok' h
    obtain ⟨rest, h2, h⟩ := Outcome.bind_ok' h
    have h := Outcome.ok.inj h
    subst h
    have ih := parseRowL_cost d r n es al rest h2
    obtain ⟨q, rfl, hq⟩ := lex_lexes h1
    have hz := lex_lsz hq
    have hlf : ∀ t ∈ ts.filter Token.isUsableInTable, leafy t = true := fun t ht => isUsable_leafy (List.mem_filter.mp ht).2
    have hc := parseCellL_cost d r a hlf
    have hk := length_le_lsz hlf
    have hf : ((ts.filter Token.isUsableInTable).map lsz).sum ≤ (ts.map lsz).sum := filter_sum_le _ _ _
    rw [List.zip_cons_cons, parseRowL]
    refine Nat.le_trans (Said.cost_bind hc (b := 1680 * (es.map (fun e => (e.length + 1) * (e.length + 1))).sum) fun _ _ => ?_) ?_
    · refine Nat.le_trans (Said.cost_bind (b := 0) ih fun _ _ => Nat.zero_le _) (Nat.le_refl _)
    · rw [List.map_cons, List.sum_cons, Nat.mul_add 1680]
      refine Nat.add_le_add_right ?_ _
      generalize (ts.filter Token.isUsableInTable).length = k at *
      have hk : k ≤ 40 * e.length := by omega
      have := Nat.mul_le_mul hk (Nat.add_le_add_right hk 2)
      nlinarith

theorem parseRowsL_cost (d : Dbg) (r : RecL) (n : Nat) (al : List Alignment) : ∀ (body : List Str)
    (rows : List (List (Alignment × List Token))), tableRows (recF n) al body = .ok rows →
    (parseRowsL d r rows).cost ≤ 6720 * (body.map (fun l => (l.length + 1) * (l.length + 1))).sum
  | [], rows, h => by
    have h := Outcome.ok.inj h
    subst h
    rw [parseRowsL]
    exact Nat.zero_le _
  | l :: ls, rows, h => by
    rw [tableRows] at h
    obtain ⟨row, h1, h⟩ := Outcome.bind_ok' h
    obtain ⟨rest, h2, h⟩ := Outcome.bind_ok' h
    have h := Outcome.ok.inj h
    subst h
    have ih := parseRowsL_cost d r n al ls rest h2
    have hr := parseRowL_cost d r n _ al row h1
    rw [parseRowsL]
    refine Nat.le_trans (Said.cost_bind hr (b := 6720 * (ls.map (fun l => (l.length + 1) * (l.length + 1))).sum) fun _ _ => ?_) ?_
    · refine Nat.le_trans (Said.cost_bind (b := 0) ih fun _ _ => Nat.zero_le _) (Nat.le_refl _)
    · rw [List.map_cons, List.sum_cons, Nat.mul_add]
      refine Nat.add_le_add_right ?_ _
      have a1 := sum_sq_le (fun e : Str => e.length + 1) ((cells l).map trim)
      have a2 := cell_sum l
      have a3 := Nat.mul_le_mul a2 a2
      nlinarith

theorem tokCost_table (d : Dbg) (r : RecL) (hd : List (Alignment × Str)) (rows : List (List (Alignment × List Token))) :
    tokCost d r (.table hd rows) ≤ 1 + (parseRowsL d r rows).cost := by
  unfold tokCost
  cases rows with
  | nil => simp [parseTokL, Said.cost]
  | cons r0 rs =>
    simp only [parseTokL, parseRowsL, Said.cost, Said.say_notes, List.length_cons]
    split
    · simp
    · rw [Nat.add_comm 1]
      refine Nat.succ_le_succ (Nat.le_of_eq (congrArg List.length ?_))
      refine Said.notes_bind_any (parseRowL d r r0) _ _ fun _ => Said.notes_bind_any (parseRowsL d r rs) _ _ fun _ => ?_
      rfl

theorem tokCost_detail (d : Dbg) (r : RecL) (sum : Str) (ts : List Token) :
    tokCost d r (.detail sum ts) ≤ 3 + costs (tokCost d r) ts := by
  show (parseTokL d r (.detail sum ts) {}).cost ≤ _
  rw [parseTokL, Said.cost, Said.say_notes, Said.say_notes, List.length_cons, List.length_cons]
  have key : ∀ f : PState → Said PState, (∀ a, (f a).cost ≤ 1) →
      ((parseToksL d r ts {}).bind f).notes.length ≤ costs (tokCost d r) ts + 1 := fun f hf =>
    Said.cost_bind (parseToksL_cost d r ts {}) fun a _ => hf a
  exact Nat.le_trans (Nat.succ_le_succ (Nat.succ_le_succ (key _ fun _ => Nat.le_refl 1))) (by omega)

/-- What a text costs to parse; `b` tells whether `|` is allowed. -/
def parseBound (b : Bool) (n : Nat) : Nat := 5000 * n + (if b then 7000 * (n * n) else 0)

theorem parseBound_add (b : Bool) (p q : Nat) : parseBound b p + parseBound b q ≤ parseBound b (p + q) := by
  unfold parseBound
  cases b with
  | false => simp only [Bool.false_eq_true, if_false]; omega
  | true => simp only [if_true]; nlinarith

theorem le_parseBound (b : Bool) (p : Nat) : 5000 * p ≤ parseBound b p := by
  unfold parseBound
  omega

/-- Text of a list entry. -/
theorem entry_cost_le (d : Dbg) (m : Nat) {x : Str} (h : OneLine x) : entryCost (recL d m) (.plaintext x) ≤ 100 * (x.length + 1) := by
  have hsuf := entryArg_suffix x
  have := (lineCost d m true (entryArg x) ⟨h.infix hsuf.isInfix, nofun⟩).1 []
  have hl := hsuf.length_le
  simp only [rate, if_true] at this
  simp only [entryCost]
  omega

theorem token_cost (d : Dbg) (n : Nat) {b : Bool}
    (ih : ∀ n', n' < n → ∀ (s : Str) (ts : List Token), Lexes (recF n') [] none s ts → (b = false → '|' ∉ s) →
      ∀ m, costs (tokCost d (recL d m)) ts ≤ parseBound b s.length)
    {s : Str} (hs : b = false → '|' ∉ s) {p : Nat} (hp : 1 ≤ p) {t : Token} (h : Size (recF n) s p t) (m : Nat) :
    tokCost d (recL d m) t ≤ parseBound b p := by
  have hle := le_parseBound b p
  have hxs : ∀ xs : List Str, (∀ x ∈ xs, x <:+: s ∧ OneLine x) →
      costs (entryCost (recL d m)) (xs.map .plaintext) ≤ 100 * (xs.map (fun x => x.length + 1)).sum := by
    intro xs hx
    unfold costs
    rw [List.map_map, ← sum_map_mul]
    exact sum_map_le fun x hxm => entry_cost_le d m (hx x hxm).2
  cases h with
  | leaf _ hl _ => rw [tokCost_leaf d _ (.inl hl)]; omega
  | headerEmpty => rw [tokCost_leaf d _ (.inr ⟨_, _, _, rfl⟩)]; omega
  | header => rw [tokCost_leaf d _ (.inr ⟨_, _, _, rfl⟩)]; omega
  | ul xs hpx hx _ =>
    have a := tokCost_entry d (recL d m) (xs.map .plaintext)
    have := hxs xs hx
    omega
  | ulLex xs l ts hpx hx hl hl1 hr' hn =>
    obtain ⟨q, rfl, hq⟩ := lex_lexes hr'
    have a := tokCost_entry d (recL d m) (xs.map .plaintext ++ ts)
    have b1 := hxs xs hx
    have b2 : costs (entryCost (recL d m)) ts ≤ 100 * (ts.map lsz).sum := by
      rw [← sum_map_mul]
      refine sum_map_le fun t ht => ?_
      cases t with
      | plaintext x =>
        refine entry_cost_le d m ?_
        rcases plain_of_lex hq ht with h5 | h5
        · exact hl1.infix h5
        · rcases mem_errTexts h5 with e | e <;> subst e <;> exact .of_no_nl (by decide)
      | _ => exact Nat.zero_le _
    have b3 := lex_lsz hq
    simp only [costs, List.map_append, List.sum_append] at a b1 b2
    omega
  | quote l x hpx hx h1 hg =>
    have a := tokCost_quote d (recL d m) l x
    have ⟨b1, b2⟩ := quoteArg_line h1
    have b := (lineCost d m false _ b1).1 []
    simp only [rate, Bool.false_eq_true, if_false] at b
    omega
  | detail sum x ts hpx hx hr' hn =>
    obtain ⟨q, rfl, hq⟩ := lex_lexes hr'
    have a := tokCost_detail d (recL d m) sum ts
    have b1 := ih q (by omega) x ts hq (fun e hm => hs e (hx.subset hm)) m
    have b2 := parseBound_add b x.length (p - x.length)
    have b3 := le_parseBound b (p - x.length)
    rw [Nat.add_sub_cancel' (by omega)] at b2
    omega
  | table l0 l1 body rows hpx hb hr' hn hg =>
    have a := tokCost_table d (recL d m) (((cells l1).map cellAlign).zip ((cells l0).map trim)) rows
    have b1 := parseRowsL_cost d (recL d m) n _ body rows hr'
    cases b with
    | false => exact absurd hg (hs rfl)
    | true =>
      have a1 := sum_sq_le (fun l : Str => l.length + 1) body
      have hB : (body.map (fun l : Str => l.length + 1)).sum ≤ p := by omega
      have a3 := Nat.mul_le_mul hB hB
      unfold parseBound
      simp only [if_true]
      omega

theorem parse_cost (d : Dbg) (n : Nat) {b : Bool} : ∀ (ig : List Char) (last : Option Token) (s : Str) (ts : List Token),
    Lexes (recF n) ig last s ts → (b = false → '|' ∉ s) → ∀ m, costs (tokCost d (recL d m)) ts ≤ parseBound b s.length := by
  induction n using Nat.strongRecOn with
  | ind n ihn =>
    intro ig last s ts h hs m
    induction h with
    | nil => exact Nat.zero_le _
    | cons last s s' t ts h _ ih =>
      have ⟨_, hsuf, hlt⟩ := nextToken_shape _ ig last s s' t h
      have h1 := token_cost d n (fun n' hn' s ts => ihn n' hn' [] none s ts) hs (p := s.length - s'.length) (by omega)
        (nextToken_size h) m
      have h2 := ih fun e hm => hs e (hsuf.subset hm)
      have h3 := parseBound_add b (s.length - s'.length) s'.length
      rw [Nat.sub_add_cancel (Nat.le_of_lt hlt)] at h3
      simp only [costs, List.map_cons, List.sum_cons] at h2 ⊢
      omega

/-- What a document costs. -/
theorem render_cost (d : Dbg) {b : Bool} {s : Str} (hs : b = false → '|' ∉ s) :
    (renderL d s).cost ≤ 300 * s.length + parseBound b s.length + 7 := by
  unfold renderL
  obtain ⟨n, hn⟩ : ∃ n, fuelFor s = n + 1 := ⟨fuelFor s - 1, by unfold fuelFor; omega⟩
  rw [hn]
  have e : ((recL d (n + 1)).render [] s) = Said.bind (⟨renderStart [] s, .ok ()⟩ : Said PUnit) fun _ =>
    Said.bind (lexWithL d (recL d n) [] s) fun ts => parseDocL d (recL d n) ts := rfl
  rw [e]
  have h1 := lex_cost d n [] s
  refine Nat.le_trans (Said.cost_bind (a := 1) (Nat.le_refl _) (b := 300 * s.length + 4 + (parseBound b s.length + 2)) fun _ _ => ?_) (by omega)
  refine Said.cost_bind h1 fun ts ho => ?_
  have h2 := parseDocL_cost d (recL d n) ts
  rw [erase_lexWithL, erase_recL] at ho
  have h3 := parse_cost d n [] none s ts ((lexWith_ok_iff _ _ _ _).mp ho) hs n
  omega

end Smd.Gfm
