import Mathlib.Data.List.SplitBy
import Verif.Lemmas.Said
import Verif.Lemmas.Run

/-! The warnings of ordinary text. -/

namespace Smd.Gfm
open Smd.Rs Smd.Spec

variable {α β : Type}

/-- The warnings among log calls. -/
def Said.warns (x : Said α) : List Note := x.notes.filter (·.warn)

@[simp] theorem Said.warns_of (o : Outcome α) : (Said.of o).warns = [] := rfl

theorem Said.notes_bind {x : Said α} {a : α} (f : α → Said β) (h : x.out = .ok a) : (x >>= f).notes = x.notes ++ (f a).notes := by
  show (Said.bind x f).notes = _
  unfold Said.bind
  rw [h]

theorem Said.warns_bind {x : Said α} {a : α} (f : α → Said β) (h : x.out = .ok a) : (x >>= f).warns = x.warns ++ (f a).warns := by
  unfold Said.warns
  rw [Said.notes_bind f h, List.filter_append]

theorem Said.warns_say {n : Note} (x : Said α) (h : n.warn = false) : (Said.say n x).warns = x.warns := by
  simp [Said.warns, h]

/-- The runs of equal characters of a text. -/
abbrev runs (s : Str) : List Str := s.splitBy (· == ·)

theorem runs_replicate (n : Nat) (c : Char) {s : Str} (hs : s.head? ≠ some c) : runs (times (n + 1) c ++ s) = times (n + 1) c :: runs s := by
  unfold runs
  rw [List.splitBy_append]
  · rw [List.splitBy_of_isChain (l := times (n + 1) c) (by simp)]
    · rfl
    · exact List.isChain_replicate_of_rel _ (by simp)
  · intro x hx y hy
    have hx' : x = c := List.eq_of_mem_replicate (List.mem_of_getLast? hx)
    subst hx'
    have : y ≠ x := fun e => hs (by rw [← e]; exact hy)
    simpa using this.symm

theorem head_times (n : Nat) (c : Char) : (times (n + 1) c).head? = some c := rfl

/-- The text starts with a run. -/
theorem exists_run (c : Char) (s : Str) : ∃ n m, c :: s = times (n + 1) c ++ m ∧ m.head? ≠ some c := by
  induction s with
  | nil => exact ⟨0, [], rfl, by simp⟩
  | cons b s ih =>
    obtain ⟨n, m, h1, h2⟩ := ih
    by_cases hb : b = c
    · subst hb
      exact ⟨n + 1, m, by rw [h1]; rfl, h2⟩
    · exact ⟨0, b :: s, rfl, by simpa using hb⟩

/-- The warning for a run of characters. -/
def runWarning (d : Dbg) (run : Str) : Option Note :=
  if run.head? = some ' ' then some (warnLex (c!"Error while lexing whitespaces: " ++ d.str run))
  else if run = c!"\n" then some (warnLex (c!"Error while lexing newline: " ++ d.str run)) else none

theorem warns_plain (d : Dbg) {c : Char} (h1 : c ≠ ' ') (h2 : c ≠ '\n') (s : Str) :
    (runs (c :: s)).filterMap (runWarning d) = (runs s).filterMap (runWarning d) := by
  have hn : ∀ n, runWarning d (times (n + 1) c) = none := by
    intro n
    unfold runWarning
    rw [if_neg, if_neg]
    · intro h
      have := congrArg List.head? h
      rw [head_times] at this
      exact h2 (Option.some.inj this)
    · rw [head_times]
      exact fun h => h1 (Option.some.inj h)
  obtain ⟨n, m, e, hm⟩ := exists_run c s
  rw [e, runs_replicate n c hm, List.filterMap_cons_none (hn n)]
  have es : s = times n c ++ m := by
    have := congrArg List.tail e
    simpa using this
  rw [es]
  cases n with
  | zero => rfl
  | succ n => rw [runs_replicate n c hm, List.filterMap_cons_none (hn n)]

/-- Text of characters that mean nothing, spaces and line ends, with at most three spaces in a row. -/
def Prose (s : Str) : Prop := (∀ c ∈ s, c ∉ controlChars ∨ c = ' ' ∨ c = '\n') ∧ ¬ c!"    " <:+: s

theorem Prose.suffix {s t : Str} (h : Prose s) (ht : t <:+ s) : Prose t :=
  ⟨fun c hc => h.1 c (ht.subset hc), fun hi => h.2 (hi.trans ht.isInfix)⟩

/-- A token that only adds text or ends a paragraph. -/
def Mild (t : Token) : Prop := t = .newline ∨ ∃ x, t = .plaintext x

theorem nextTokenL_char (d : Dbg) (r : RecL) (last : Option Token) {c : Char} (s : Str) (h : c ∉ controlChars) :
    (nextTokenL d r [] last (c :: s)).warns = [] ∧ (nextTokenL d r [] last (c :: s)).out = .ok (some (.plaintext [c], s)) := by
  have hd : lexDispatchL r [] last c (c :: s) = ([], .of (.ok (.ok (.plaintext [c]), s))) := by
    unfold lexDispatchL
    simp only [controlChars, List.mem_cons, List.not_mem_nil, or_false, not_or] at h
    simp [h]
  unfold nextTokenL
  simp only [hd]
  exact ⟨rfl, rfl⟩

theorem nextTokenL_nl (d : Dbg) (r : RecL) (last : Option Token) (n : Nat) {s : Str} (hs : s.head? ≠ some '\n') :
    (nextTokenL d r [] last (times (n + 1) '\n' ++ s)).warns = (runWarning d (times (n + 1) '\n')).toList ∧
    (nextTokenL d r [] last (times (n + 1) '\n' ++ s)).out = .ok (some (gapTok (n + 1), s)) := by
  have e1 : (times (n + 1) '\n' ++ s).takeWhile (· == '\n') = times (n + 1) '\n' := by
    cases s with
    | nil => rw [List.append_nil]; exact takeWhile_all _ _ (by simp +contextual [List.mem_replicate])
    | cons c cs => exact takeWhile_append_stop _ _ _ (by simpa using hs) _ (by simp +contextual [List.mem_replicate])
  have e2 : (times (n + 1) '\n' ++ s).dropWhile (· == '\n') = s := by
    cases s with
    | nil => rw [List.append_nil]; exact dropWhile_all _ _ (by simp +contextual [List.mem_replicate])
    | cons c cs => exact dropWhile_append_stop _ _ _ (by simpa using hs) _ (by simp +contextual [List.mem_replicate])
  have hd : lexDispatchL r [] last '\n' (times (n + 1) '\n' ++ s) =
      (c!"Error while lexing newline: ", .of (.ok (lexNewlines (times (n + 1) '\n' ++ s)))) := by
    unfold lexDispatchL
    rw [if_neg (by simp), if_pos rfl]
  have e : times (n + 1) '\n' ++ s = '\n' :: (times n '\n' ++ s) := rfl
  have hl : lexNewlines (times (n + 1) '\n' ++ s) = (if n = 0 then .error c!"\n" else .ok .newline, s) := by
    unfold lexNewlines
    simp only [e1, e2, List.length_replicate]
    by_cases hk : n = 0
    · subst hk; rfl
    · rw [if_pos (by omega), if_neg hk]
  rw [hl] at hd
  rw [e] at hd ⊢
  unfold nextTokenL
  simp only [hd]
  by_cases hk : n = 0
  · subst hk
    exact ⟨rfl, rfl⟩
  · obtain ⟨k, rfl⟩ : ∃ k, n = k + 1 := ⟨n - 1, by omega⟩
    refine ⟨?_, ?_⟩
    · have : runWarning d (times (k + 1 + 1) '\n') = none := by
        unfold runWarning
        rw [if_neg (by rw [head_times]; decide), if_neg]
        intro h
        have := congrArg List.length h
        simp at this
      rw [this]
      rfl
    · simp [gapTok, resToken]

theorem nextTokenL_spaces (d : Dbg) (r : RecL) (last : Option Token) {n : Nat} (hn : n ≤ 2) {s : Str} (h1 : s.head? ≠ some ' ')
    (h2 : s.head? ≠ some '\t') :
    (nextTokenL d r [] last (times (n + 1) ' ' ++ s)).warns = (runWarning d (times (n + 1) ' ')).toList ∧
    (nextTokenL d r [] last (times (n + 1) ' ' ++ s)).out = .ok (some (.plaintext (times (n + 1) ' '), s)) := by
  have e1 : (times (n + 1) ' ' ++ s).takeWhile (fun c => c == '\t' || c == ' ') = times (n + 1) ' ' := by
    cases s with
    | nil => rw [List.append_nil]; exact takeWhile_all _ _ (by simp +contextual [List.mem_replicate])
    | cons c cs => exact takeWhile_append_stop _ _ _ (by simpa using ⟨by simpa using h2, by simpa using h1⟩) _ (by simp +contextual [List.mem_replicate])
  have e2 : (times (n + 1) ' ' ++ s).dropWhile (fun c => c == '\t' || c == ' ') = s := by
    cases s with
    | nil => rw [List.append_nil]; exact dropWhile_all _ _ (by simp +contextual [List.mem_replicate])
    | cons c cs => exact dropWhile_append_stop _ _ _ (by simpa using ⟨by simpa using h2, by simpa using h1⟩) _ (by simp +contextual [List.mem_replicate])
  have e3 : lexTabsSpaces last (times (n + 1) ' ' ++ s) = (.error (times (n + 1) ' '), s) := by
    unfold lexTabsSpaces
    have : (times (n + 1) ' ' ++ s).length = (n + s.length) + 1 := by simp; omega
    rw [this]
    unfold lexTabsSpacesGo
    simp only [e1, e2]
    rw [if_pos]
    simp [List.mem_replicate]
    omega
  have hd : lexDispatchL r [] last ' ' (times (n + 1) ' ' ++ s) =
      (c!"Error while lexing whitespaces: ", .of (.ok (.error (times (n + 1) ' '), s))) := by
    unfold lexDispatchL
    rw [if_neg (by simp), if_neg (by decide), if_pos (.inl rfl), e3]
  have e : times (n + 1) ' ' ++ s = ' ' :: (times n ' ' ++ s) := rfl
  rw [e] at hd ⊢
  unfold nextTokenL
  simp only [hd]
  refine ⟨?_, rfl⟩
  have : runWarning d (times (n + 1) ' ') = some (warnLex (c!"Error while lexing whitespaces: " ++ d.str (times (n + 1) ' '))) := by
    unfold runWarning
    rw [if_pos (head_times _ _)]
  rw [this]
  rfl

theorem lexLoopL_prose (d : Dbg) (r : RecL) : ∀ (fuel : Nat) (acc : List Token) (s : Str), Prose s → s.length < fuel → (∀ t ∈ acc, Mild t) →
    (lexLoopL d r [] fuel acc s).warns = (runs s).filterMap (runWarning d) ∧
    ∃ ts, (lexLoopL d r [] fuel acc s).out = .ok ts ∧ ∀ t ∈ ts, Mild t
  | 0, _, _, _, h, _ => absurd h (Nat.not_lt_zero _)
  | fuel + 1, acc, [], _, _, ha => ⟨rfl, acc, rfl, ha⟩
  | fuel + 1, acc, c :: s, hp, hf, ha => by
    have next : ∀ (s' : Str) (t : Token) (w : List Note), s' <:+ c :: s → s'.length < (c :: s).length → Mild t →
        (nextTokenL d r [] acc.getLast? (c :: s)).warns = w ∧ (nextTokenL d r [] acc.getLast? (c :: s)).out = .ok (some (t, s')) →
        (lexLoopL d r [] (fuel + 1) acc (c :: s)).warns = w ++ (runs s').filterMap (runWarning d) ∧
        ∃ ts, (lexLoopL d r [] (fuel + 1) acc (c :: s)).out = .ok ts ∧ ∀ t ∈ ts, Mild t := by
      intro s' t w hs' hlt ht hx
      have ih := lexLoopL_prose d r fuel (acc ++ [t]) s' (hp.suffix hs') (by omega) (by
        intro y hy
        rcases List.mem_append.mp hy with hy | hy
        · exact ha y hy
        · rw [List.mem_singleton.mp hy]; exact ht)
      obtain ⟨h1, ts, h2, h3⟩ := ih
      rw [show lexLoopL d r [] (fuel + 1) acc (c :: s) = (nextTokenL d r [] acc.getLast? (c :: s) >>= fun
        | none => .of (.ok acc)
        | some (t, s') => lexLoopL d r [] fuel (acc ++ [t]) s') from rfl]
      refine ⟨?_, ts, ?_, h3⟩
      · rw [Said.warns_bind _ hx.2, hx.1, ← h1]
      · rw [Said.out_bind, hx.2]
        exact h2
    by_cases hc : c ∉ controlChars
    · have hsp : c ≠ ' ' := fun e => hc (by rw [e]; decide)
      have hnl : c ≠ '\n' := fun e => hc (by rw [e]; decide)
      have := next s _ _ (List.suffix_cons _ _) (by simp) (.inr ⟨_, rfl⟩) (nextTokenL_char d r acc.getLast? s hc)
      rw [warns_plain d hsp hnl]
      exact this
    · obtain ⟨n, m, e, hm⟩ := exists_run c s
      have hsuf : m <:+ c :: s := e ▸ List.suffix_append _ _
      have hlt : m.length < (c :: s).length := by rw [e]; simp
      have hfm : ∀ x : Option Note, runWarning d (times (n + 1) c) = x → (runs (c :: s)).filterMap (runWarning d) = x.toList ++ (runs m).filterMap (runWarning d) := by
        intro x hx
        rw [e, runs_replicate n c hm, List.filterMap_cons, hx]
        cases x <;> rfl
      rw [hfm _ rfl]
      rcases hp.1 c (by simp) with h | rfl | rfl
      · exact absurd h hc
      · have hn : n ≤ 2 := by
          refine Nat.le_of_not_lt fun hn => hp.2 ?_
          rw [e]
          obtain ⟨k, rfl⟩ : ∃ k, n = 3 + k := ⟨n - 3, by omega⟩
          refine List.IsInfix.trans (l₂ := times (3 + k + 1) ' ') ⟨[], times k ' ', ?_⟩ (List.prefix_append _ _).isInfix
          rw [show 3 + k + 1 = 4 + k by omega]
          show times 4 ' ' ++ times k ' ' = _
          exact List.replicate_append_replicate
        have ht : m.head? ≠ some '\t' := fun h => by
          rcases hp.1 '\t' (hsuf.subset (List.mem_of_head? h)) with h | h | h
          · exact h (by decide)
          · exact absurd h (by decide)
          · exact absurd h (by decide)
        have := nextTokenL_spaces d r acc.getLast? hn hm ht
        rw [← e] at this
        exact next m _ _ hsuf hlt (.inr ⟨_, rfl⟩) this
      · have := nextTokenL_nl d r acc.getLast? n hm
        rw [← e] at this
        refine next m _ _ hsuf hlt ?_ this
        unfold gapTok
        split
        · exact .inr ⟨_, rfl⟩
        · exact .inl rfl

theorem parseToksL_mild (d : Dbg) (r : RecL) : ∀ (ts : List Token) (st : PState), (∀ t ∈ ts, Mild t) →
    (parseToksL d r ts st).warns = []
  | [], st, _ => by rw [parseToksL]; rfl
  | t :: ts, st, h => by
    rw [parseToksL]
    have ht : (parseTokL d r t st).warns = [] := by
      rcases h t (by simp) with rfl | ⟨x, rfl⟩ <;> rw [parseTokL] <;> first | rfl | nofun
    cases ho : (parseTokL d r t st).out with
    | ok st' =>
      show (parseTokL d r t st >>= _).warns = _
      rw [Said.warns_bind _ ho, ht]
      exact parseToksL_mild d r ts st' fun x hx => h x (by simp [hx])
    | panic => unfold Said.bind; rw [ho]; exact ht
    | hang => unfold Said.bind; rw [ho]; exact ht
    | fuelOut => unfold Said.bind; rw [ho]; exact ht

theorem renderL_prose (d : Dbg) {s : Str} (h : Prose s) : (renderL d s).warns = (runs s).filterMap (runWarning d) := by
  unfold renderL
  obtain ⟨n, hn⟩ : ∃ n, fuelFor s = n + 1 := ⟨fuelFor s - 1, by unfold fuelFor; omega⟩
  rw [hn]
  obtain ⟨h1, ts, h2, h3⟩ := lexLoopL_prose d (recL d n) (s.length + 1) [] s h (Nat.lt_succ_self _) nofun
  have hl : (lexWithL d (recL d n) [] s).warns = (runs s).filterMap (runWarning d) := by
    unfold lexWithL
    rw [Said.warns_say _ rfl, Said.warns_say _ rfl, Said.warns_bind _ h2, h1, Said.warns_say _ rfl]
    simp
  have hlo : (lexWithL d (recL d n) [] s).out = .ok ts := by
    unfold lexWithL
    rw [Said.say_out, Said.say_out, Said.out_bind, h2]
    rfl
  have hp : (parseDocL d (recL d n) ts).warns = [] := by
    unfold parseDocL
    rw [Said.warns_say _ rfl]
    have ht := parseToksL_mild d (recL d n) ts {} h3
    cases ho : (parseToksL d (recL d n) ts {}).out with
    | ok st' =>
      show (parseToksL d (recL d n) ts {} >>= _).warns = _
      rw [Said.warns_bind _ ho, ht, Said.warns_say _ rfl]
      rfl
    | panic => unfold Said.bind; rw [ho]; exact ht
    | hang => unfold Said.bind; rw [ho]; exact ht
    | fuelOut => unfold Said.bind; rw [ho]; exact ht
  show ((⟨renderStart [] s, .ok ()⟩ : Said PUnit) >>= fun _ => lexWithL d (recL d n) [] s >>= fun ts => parseDocL d (recL d n) ts).warns = _
  rw [Said.warns_bind _ rfl, Said.warns_bind _ hlo, hl, hp]
  simp [Said.warns, renderStart, dbgLib]

end Smd.Gfm
