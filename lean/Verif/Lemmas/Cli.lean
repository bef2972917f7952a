import Verif.App.Args
import Verif.Spec.Cli

/-! How the command line is read. -/

namespace Smd.App
open Smd.Core Smd.Rs Smd.Spec

variable {check : Str → Str → Bool}

theorem tilde_eq (home : Option Str) (f : Str) : tilde home f = homePath home f := by
  cases home with
  | none => simp [tilde, homePath]
  | some h =>
    unfold tilde homePath
    match f with
    | [] => simp
    | ['~'] => simp
    | '~' :: '/' :: r => simp
    | '~' :: c :: r =>
      by_cases hc : c = '/'
      · subst hc; simp
      · have : ¬ c!"~/" <+: '~' :: c :: r := by simp [Ne.symm hc]
        simp [hc, this]
    | c :: r =>
      by_cases hc : c = '~'
      · subst hc
        cases r with
        | nil => simp
        | cons d r =>
          by_cases hd : d = '/'
          · subst hd; simp
          · simp [hd, Ne.symm hd]
      · have : ¬ c!"~/" <+: c :: r := by simp [Ne.symm hc]
        simp [hc, this]

/-- The letters of a cluster before the subcommand that is read to its end. -/
theorem shorts_cli : ∀ (s : Str) (st : Vals), (∀ c ∈ s, c = 'v') →
    st.count ≤ 255 → readShorts cliArgs check st s = .ok ({ st with count := min (st.count + s.length) 255 }, none)
  | [], st, _, h => by simp [readShorts, Nat.min_eq_left h]
  | c :: s, st, hs, h => by
    have hc := hs c (by simp)
    subst hc
    have ih := shorts_cli s { st with count := min (st.count + 1) 255 } (fun x hx => hs x (by simp [hx])) (Nat.min_le_right ..)
    simp only [readShorts, cliArgs, helpArg, versionArg, verboseArg, List.find?, Vals.flag] at ih ⊢
    simp only [show (('h' : Char) == 'v') = false from rfl, show (('V' : Char) == 'v') = false from rfl, show (('v' : Char) == 'v') = true from rfl,
      reduceCtorEq, if_false, ih, List.length_cons]
    rw [show min (min (st.count + 1) 255 + s.length) 255 = min (st.count + (s.length + 1)) 255 by omega]

theorem shorts_cli_inv : ∀ (s : Str) (st : Vals) (x : Vals × Option Str), readShorts cliArgs check st s = .ok x → ∀ c ∈ s, c = 'v'
  | [], _, _, _ => by simp
  | c :: s, st, x, h => by
    simp only [readShorts, cliArgs, helpArg, versionArg, verboseArg, List.find?] at h
    split at h
    · cases h
    · rename_i d hd
      split at hd
      · cases hd; simp [Vals.flag] at h
      · split at hd
        · cases hd; simp [Vals.flag] at h
        · split at hd
          · cases hd
            rename_i hv
            have hc : 'v' = c := by simpa using hv
            subst hc
            simp only [Vals.flag, reduceCtorEq, if_false] at h
            have := shorts_cli_inv s _ x h
            simpa using this
          · cases hd

/-- A name with `=` in it, or without. -/
theorem splitOnce_none {c : Char} {s : Str} (h : c ∉ s) : splitOnce c s = none := by
  simp [splitOnce, h]

theorem splitOnce_at {c : Char} {a b : Str} (h : c ∉ a) : splitOnce c (a ++ c :: b) = some (a, b) := by
  have h1 : (a ++ c :: b).takeWhile (· != c) = a := by
    rw [List.takeWhile_append_of_pos (by intro x hx; simp; rintro rfl; exact h hx)]
    simp
  have h2 : (a ++ c :: b).dropWhile (· != c) = c :: b := by
    rw [List.dropWhile_append_of_pos (by intro x hx; simp; rintro rfl; exact h hx)]
    simp
  simp [splitOnce, h1, h2]

theorem split_first {c : Char} : ∀ {s : Str}, c ∈ s → s = s.takeWhile (· != c) ++ c :: (s.dropWhile (· != c)).drop 1 ∧ c ∉ s.takeWhile (· != c)
  | [], h => by simp at h
  | x :: s, h => by
    by_cases e : x = c
    · subst e; simp
    · have hm : c ∈ s := by
        rcases List.mem_cons.mp h with rfl | h
        · exact absurd rfl e
        · exact h
      obtain ⟨h1, h2⟩ := split_first hm
      have hx : (x != c) = true := by simpa using e
      rw [List.takeWhile_cons_of_pos (p := (· != c)) hx, List.dropWhile_cons_of_pos (p := (· != c)) hx]
      refine ⟨by rw [List.cons_append, ← h1], ?_⟩
      simp only [List.mem_cons, not_or]
      exact ⟨fun e' => e e'.symm, h2⟩

theorem splitOnce_inv {c : Char} {s a b : Str} (h : splitOnce c s = some (a, b)) : s = a ++ c :: b ∧ c ∉ a := by
  unfold splitOnce at h
  split at h
  · rename_i hc
    cases h
    exact split_first (by simpa using hc)
  · cases h

theorem long_cli_inv {st st' : Vals} {body : Str} {p : Option Str} (h : readLong cliArgs check st body = .ok (st', p)) :
    (body = c!"verbose" ∨ body = c!"debug") ∧ p = none ∧ st' = { st with count := min (st.count + 1) 255 } := by
  unfold readLong at h
  cases hs : splitOnce '=' body with
  | none =>
    simp only [hs, cliArgs, helpArg, versionArg, verboseArg, List.find?] at h
    split at h
    · cases h
    · rename_i d hd
      split at hd
      · cases hd; simp [Vals.flag, Except.map] at h
      · split at hd
        · cases hd; simp [Vals.flag, Except.map] at h
        · split at hd
          · cases hd
            rename_i hv
            simp [Vals.flag, Except.map] at h
            refine ⟨by simpa using hv, h.2.symm, h.1.symm⟩
          · cases hd
  | some nv =>
    obtain ⟨n, v⟩ := nv
    simp only [hs, cliArgs, helpArg, versionArg, verboseArg, List.find?] at h
    split at h
    · cases h
    · rename_i d hd
      split at hd
      · cases hd; simp at h
      · split at hd
        · cases hd; simp at h
        · split at hd
          · cases hd; simp at h
          · cases hd

theorem long_cli {st : Vals} {body : Str} (h : body = c!"verbose" ∨ body = c!"debug") :
    readLong cliArgs check st body = .ok ({ st with count := min (st.count + 1) 255 }, none) := by
  rcases h with rfl | rfl <;> rfl

theorem kindOf_long {a body : Str} (h : kindOf a = .long body) : a = '-' :: '-' :: body ∧ body ≠ [] := by
  unfold kindOf at h
  split at h <;> cases h
  rename_i hb
  exact ⟨rfl, fun e => hb e⟩

theorem kindOf_short {a s : Str} (h : kindOf a = .short s) : a = '-' :: s ∧ s ≠ [] ∧ s.head? ≠ some '-' := by
  unfold kindOf at h
  split at h <;> cases h
  rename_i c cs h1 h2
  refine ⟨rfl, by simp, ?_⟩
  rintro e
  cases e
  exact h2 rfl

theorem verb_ne_sub {n : Nat} {a : Str} (h : VerbSrc n a) : subcommands.contains a = false := by
  cases h with
  | short n h => simp [subcommands]
  | long => decide
  | debug => decide

theorem level_verb {n : Nat} {a : Str} (h : VerbSrc n a) {st : Vals} (hc : st.count ≤ 255) (rest : List Str) :
    readLevel cliArgs subcommands check st none (a :: rest) =
      readLevel cliArgs subcommands check { st with count := min (st.count + n) 255 } none rest := by
  rw [readLevel, verb_ne_sub h]
  cases h with
  | short n h =>
    obtain ⟨m, rfl⟩ : ∃ m, n = m + 1 := ⟨n - 1, by omega⟩
    have := shorts_cli (check := check) (List.replicate (m + 1) 'v') st (fun c hc => (List.mem_replicate.mp hc).2) hc
    simp only [List.replicate_succ, List.length_cons, List.length_replicate] at this
    simp [List.replicate_succ, kindOf, this, orStop]
  | long => rfl
  | debug => rfl

theorem level_verbs {n : Nat} {vs : List Str} (h : Verbs n vs) : ∀ {st : Vals}, st.count ≤ 255 → ∀ rest,
    readLevel cliArgs subcommands check st none (vs ++ rest) =
      readLevel cliArgs subcommands check { st with count := min (st.count + n) 255 } none rest := by
  induction h with
  | nil => intro st hc rest; simp [Nat.min_eq_left hc]
  | @cons n m a as h hs ih =>
    intro st hc rest
    rw [List.cons_append, level_verb h hc, ih (Nat.min_le_right ..)]
    rw [show min (min (st.count + n) 255 + m) 255 = min (st.count + (n + m)) 255 by omega]

/-- What stands before a subcommand. -/
theorem level_cli_inv : ∀ (args : List Str) (st st' : Vals) (name : Str) (rest : List Str), st.count ≤ 255 →
    readLevel cliArgs subcommands check st none args = .sub st' name rest →
    ∃ n vs, Verbs n vs ∧ args = vs ++ name :: rest ∧ name ∈ subcommands ∧ st' = { st with count := min (st.count + n) 255 }
  | [], _, _, _, _, _, h => by simp [readLevel] at h
  | a :: args, st, st', name, rest, hc, h => by
    rw [readLevel] at h
    split at h
    · rename_i ha
      cases h
      exact ⟨0, [], .nil, rfl, by simpa using ha, by simp [Nat.min_eq_left hc]⟩
    · split at h
      · split at h <;> cases h
      · rename_i body hb
        obtain ⟨rfl, _⟩ := kindOf_long hb
        unfold orStop at h
        split at h
        · cases h
        · rename_i x hl
          obtain ⟨st1, p⟩ := x
          obtain ⟨hb, rfl, rfl⟩ := long_cli_inv hl
          obtain ⟨n, vs, hv, e, hn, es⟩ := level_cli_inv args _ st' name rest (Nat.min_le_right ..) h
          refine ⟨1 + n, _, .cons (a := '-' :: '-' :: body) ?_ hv, by rw [e]; rfl, hn, ?_⟩
          · rcases hb with rfl | rfl
            · exact .long
            · exact .debug
          · rw [es]
            simp only
            rw [show min (min (st.count + 1) 255 + n) 255 = min (st.count + (1 + n)) 255 by omega]
      · rename_i s hb
        obtain ⟨rfl, hne, _⟩ := kindOf_short hb
        unfold orStop at h
        split at h
        · cases h
        · rename_i x hl
          obtain ⟨st1, p⟩ := x
          have hall := shorts_cli_inv _ _ _ hl
          rw [shorts_cli _ _ hall hc] at hl
          cases hl
          obtain ⟨n, vs, hv, e, hn, es⟩ := level_cli_inv args _ st' name rest (Nat.min_le_right ..) h
          refine ⟨s.length + n, _, .cons (a := '-' :: s) ?_ hv, by rw [e]; rfl, hn, ?_⟩
          · have := VerbSrc.short s.length (List.length_pos_iff.mpr hne)
            rwa [← List.eq_replicate_of_mem hall] at this
          · rw [es]
            simp only
            rw [show min (min (st.count + s.length) 255 + n) 255 = min (st.count + (s.length + n)) 255 by omega]
      · cases h

/-- An option of `parse` and the arguments that give its value. -/
inductive ParseOpt : Str × Str → List Str → Prop
  | input {v : Str} {as : List Str} (h : OptSrc 'i' c!"input" v as) : ParseOpt (c!"input", v) as
  | output {v : Str} {as : List Str} (h : OptSrc 'o' c!"output" v as) : ParseOpt (c!"output", v) as

/-- Options one after another. -/
inductive ParseOpts : List (Str × Str) → List Str → Prop
  | nil : ParseOpts [] []
  | cons {o : Str × Str} {os : List (Str × Str)} {as bs : List Str} (h : ParseOpt o as) (hs : ParseOpts os bs) : ParseOpts (o :: os) (as ++ bs)

theorem ParseOpt.id {o : Str × Str} {as : List Str} (h : ParseOpt o as) : o.1 = c!"input" ∨ o.1 = c!"output" := by
  cases h <;> simp

/-- Reading one option. -/
theorem level_opt {o : Str × Str} {as : List Str} (h : ParseOpt o as) (st : Vals) (rest : List Str) :
    readLevel parseArgs [] check st none (as ++ rest) =
      orStop (st.set check o.1 o.2) fun st => readLevel parseArgs [] check st none rest := by
  have key : ∀ (id : Str) (c : Char) (v : Str) (as : List Str), (c = 'i' ∧ id = c!"input" ∨ c = 'o' ∧ id = c!"output") → OptSrc c id v as →
      readLevel parseArgs [] check st none (as ++ rest) =
        orStop (st.set check id v) fun st => readLevel parseArgs [] check st none rest := by
    intro id c v as hc h
    have hf : parseArgs.find? (·.short == c) = some { id := id, short := c, longs := [id], action := .set } := by
      rcases hc with ⟨rfl, rfl⟩ | ⟨rfl, rfl⟩ <;> rfl
    have hl : parseArgs.find? (·.longs.contains id) = some { id := id, short := c, longs := [id], action := .set } := by
      rcases hc with ⟨rfl, rfl⟩ | ⟨rfl, rfl⟩ <;> rfl
    have heq : '=' ∉ id := by rcases hc with ⟨rfl, rfl⟩ | ⟨rfl, rfl⟩ <;> decide
    have hhead : c ≠ '-' := by rcases hc with ⟨rfl, rfl⟩ | ⟨rfl, rfl⟩ <;> decide
    have hid : id ≠ [] := by rcases hc with ⟨rfl, rfl⟩ | ⟨rfl, rfl⟩ <;> decide
    have hk : ∀ s, kindOf ('-' :: c :: s) = .short (c :: s) := by
      intro s
      unfold kindOf
      split <;> rename_i e <;> simp_all
    have hk' : ∀ s : Str, s ≠ [] → kindOf ('-' :: '-' :: s) = .long s := by
      intro s hs
      cases s with
      | nil => exact absurd rfl hs
      | cons a s => rfl
    have hm : ∀ x : Except Stop Vals, orStop (x.map fun st => (st, (none : Option Str))) (fun x => readLevel parseArgs [] check x.1 x.2 rest) =
        orStop x fun st => readLevel parseArgs [] check st none rest := by
      intro x; cases x <;> rfl
    have hpend : (v.head? = some '-' → v = c!"-") → readLevel parseArgs [] check st (some id) (v :: rest) =
        orStop (st.set check id v) fun st => readLevel parseArgs [] check st none rest := by
      intro hv
      rw [readLevel, if_neg (by simpa using hv)]
    cases h with
    | shortNext hv =>
      rw [List.cons_append, List.cons_append, List.nil_append, readLevel]
      simp only [hk, readShorts, hf, List.contains_nil, Bool.false_eq_true, if_false, if_true]
      exact hpend hv
    | longNext hv =>
      show readLevel parseArgs [] check st none (('-' :: '-' :: id) :: v :: rest) = _
      rw [readLevel]
      simp only [hk' id hid, readLong, hl, splitOnce_none heq, List.contains_nil, Bool.false_eq_true, if_false, if_true]
      exact hpend hv
    | joined hne he =>
      rw [List.cons_append, List.nil_append, readLevel]
      cases v with
      | nil => exact absurd rfl hne
      | cons x v =>
        have hx : x ≠ '=' := fun e => he (by simp [e])
        have hr : readShorts parseArgs check st (c :: x :: v) = (st.set check id (x :: v)).map fun st => (st, none) := by
          simp only [readShorts, hf, if_true]
          split
          · simp_all
          · simp_all
          · rfl
        simp only [hk, hr, List.contains_nil, Bool.false_eq_true, if_false]
        exact hm _
    | shortEq =>
      rw [List.cons_append, List.nil_append, readLevel]
      simp only [hk, readShorts, hf, List.contains_nil, Bool.false_eq_true, if_false, if_true]
      exact hm _
    | longEq =>
      show readLevel parseArgs [] check st none (('-' :: '-' :: (id ++ ['='] ++ v)) :: rest) = _
      rw [readLevel]
      have e : id ++ ['='] ++ v = id ++ '=' :: v := by simp
      rw [e]
      simp only [hk' (id ++ '=' :: v) (by simp), readLong, splitOnce_at heq, hl, List.contains_nil, Bool.false_eq_true, if_false, if_true]
      exact hm _
  cases h with
  | input h => exact key _ _ _ _ (.inl ⟨rfl, rfl⟩) h
  | output h => exact key _ _ _ _ (.inr ⟨rfl, rfl⟩) h

theorem set_ok {st : Vals} {id v : Str} (h1 : id ∉ st.vals.map (·.1)) (h2 : check id v = true) :
    st.set check id v = .ok { st with vals := st.vals ++ [(id, v)] } := by
  rw [Vals.set, if_neg]
  simp only [Bool.or_eq_true, List.any_eq_true, beq_iff_eq, Bool.not_eq_true', not_or, not_exists, not_and, Bool.not_eq_false]
  exact ⟨fun x hx e => h1 (List.mem_map.mpr ⟨x, hx, e⟩), h2⟩

theorem set_inv {st st' : Vals} {id v : Str} (h : st.set check id v = .ok st') :
    id ∉ st.vals.map (·.1) ∧ check id v = true ∧ st' = { st with vals := st.vals ++ [(id, v)] } := by
  unfold Vals.set at h
  split at h
  · cases h
  · rename_i hn
    cases h
    simp only [Bool.or_eq_true, List.any_eq_true, beq_iff_eq, Bool.not_eq_true', not_or, not_exists, not_and, Bool.not_eq_false] at hn
    refine ⟨fun hm => ?_, hn.2, rfl⟩
    obtain ⟨x, hx, e⟩ := List.mem_map.mp hm
    exact hn.1 x hx e

theorem level_opts {os : List (Str × Str)} {as : List Str} (h : ParseOpts os as) : ∀ {st : Vals}, ((st.vals ++ os).map (·.1)).Nodup →
    (∀ o ∈ os, check o.1 o.2 = true) → ∀ rest, readLevel parseArgs [] check st none (as ++ rest) =
      readLevel parseArgs [] check { st with vals := st.vals ++ os } none rest := by
  induction h with
  | nil => intro st _ _ rest; simp
  | @cons o os as bs h hs ih =>
    intro st hn hc rest
    have h1 : o.1 ∉ st.vals.map (·.1) := by
      intro hm
      rw [List.map_append, List.nodup_append] at hn
      exact hn.2.2 _ hm _ (by simp) rfl
    rw [List.append_assoc, level_opt h, set_ok h1 (hc o (by simp))]
    show readLevel parseArgs [] check { st with vals := st.vals ++ [(o.1, o.2)] } none (bs ++ rest) = _
    rw [ih (by simpa using hn) (fun x hx => hc x (by simp [hx]))]
    simp

/-- Names of options with their letters. -/
theorem find_short {c : Char} {d : ArgDef} (h : parseArgs.find? (·.short == c) = some d) :
    d = inputArg ∧ c = 'i' ∨ d = outputArg ∧ c = 'o' ∨ d.action = .help := by
  simp only [parseArgs, List.find?] at h
  split at h
  · rename_i e; cases h; exact .inl ⟨rfl, by simpa [inputArg] using (beq_iff_eq.mp e).symm⟩
  · split at h
    · rename_i e; cases h; exact .inr (.inl ⟨rfl, by simpa [outputArg] using (beq_iff_eq.mp e).symm⟩)
    · split at h
      · cases h; exact .inr (.inr rfl)
      · split at h
        · cases h; exact .inr (.inr rfl)
        · cases h

theorem find_long {n : Str} {d : ArgDef} (h : parseArgs.find? (·.longs.contains n) = some d) :
    d = inputArg ∧ n = c!"input" ∨ d = outputArg ∧ n = c!"output" ∨ d.action = .help := by
  simp only [parseArgs, List.find?] at h
  split at h
  · rename_i e; cases h; exact .inl ⟨rfl, by simpa [inputArg] using e⟩
  · split at h
    · rename_i e; cases h; exact .inr (.inl ⟨rfl, by simpa [outputArg] using e⟩)
    · split at h
      · cases h; exact .inr (.inr rfl)
      · split at h
        · cases h; exact .inr (.inr rfl)
        · cases h

/-- A name and letter of an option of `parse`. -/
def IsOpt (id : Str) (c : Char) : Prop := id = c!"input" ∧ c = 'i' ∨ id = c!"output" ∧ c = 'o'

theorem IsOpt.opt {id v : Str} {c : Char} {as : List Str} (h : IsOpt id c) (hs : OptSrc c id v as) : ParseOpt (id, v) as := by
  rcases h with ⟨rfl, rfl⟩ | ⟨rfl, rfl⟩
  · exact .input hs
  · exact .output hs

theorem map_none {x : Except Stop Vals} {st' : Vals} {p : Option Str} (h : (x.map fun st => (st, (none : Option Str))) = .ok (st', p)) :
    x = .ok st' ∧ p = none := by
  cases x with
  | error e => cases h
  | ok st => cases h; exact ⟨rfl, rfl⟩

theorem long_parse_inv {st st' : Vals} {body : Str} {p : Option Str} (h : readLong parseArgs check st body = .ok (st', p)) :
    ∃ id c, IsOpt id c ∧ (body = id ∧ p = some id ∧ st' = st ∨ ∃ v, body = id ++ '=' :: v ∧ p = none ∧ st.set check id v = .ok st') := by
  unfold readLong at h
  cases hs : splitOnce '=' body with
  | none =>
    simp only [hs] at h
    split at h
    · cases h
    · rename_i d hd
      rcases find_long hd with ⟨rfl, rfl⟩ | ⟨rfl, rfl⟩ | hh
      · simp [inputArg] at h
        exact ⟨_, _, .inl ⟨rfl, rfl⟩, .inl ⟨rfl, h.2.symm, h.1.symm⟩⟩
      · simp [outputArg] at h
        exact ⟨_, _, .inr ⟨rfl, rfl⟩, .inl ⟨rfl, h.2.symm, h.1.symm⟩⟩
      · simp [hh, Vals.flag, Except.map] at h
  | some nv =>
    obtain ⟨n, v⟩ := nv
    obtain ⟨rfl, _⟩ := splitOnce_inv hs
    simp only [hs] at h
    split at h
    · cases h
    · rename_i d hd
      rcases find_long hd with ⟨rfl, rfl⟩ | ⟨rfl, rfl⟩ | hh
      · obtain ⟨h1, h2⟩ := map_none h
        exact ⟨_, _, .inl ⟨rfl, rfl⟩, .inr ⟨v, rfl, h2, h1⟩⟩
      · obtain ⟨h1, h2⟩ := map_none h
        exact ⟨_, _, .inr ⟨rfl, rfl⟩, .inr ⟨v, rfl, h2, h1⟩⟩
      · simp [hh] at h

theorem shorts_parse_inv {st st' : Vals} {s : Str} {p : Option Str} (hne : s ≠ []) (h : readShorts parseArgs check st s = .ok (st', p)) :
    ∃ id c, IsOpt id c ∧ (s = [c] ∧ p = some id ∧ st' = st ∨
      ∃ v, (s = c :: '=' :: v ∨ s = c :: v ∧ v ≠ [] ∧ v.head? ≠ some '=') ∧ p = none ∧ st.set check id v = .ok st') := by
  cases s with
  | nil => exact absurd rfl hne
  | cons c cs =>
    rw [readShorts] at h
    split at h
    · cases h
    · rename_i d hd
      have hopt : ∀ id, IsOpt id c → d.id = id → d.action = .set → ∃ id c', IsOpt id c' ∧ (c :: cs = [c'] ∧ p = some id ∧ st' = st ∨
          ∃ v, (c :: cs = c' :: '=' :: v ∨ c :: cs = c' :: v ∧ v ≠ [] ∧ v.head? ≠ some '=') ∧ p = none ∧ st.set check id v = .ok st') := by
        intro id ho hi ha
        rw [if_pos ha, hi] at h
        refine ⟨id, c, ho, ?_⟩
        split at h
        · cases h; exact .inl ⟨rfl, rfl, rfl⟩
        · obtain ⟨h1, h2⟩ := map_none h
          exact .inr ⟨_, .inl rfl, h2, h1⟩
        · rename_i hn1 hn2
          obtain ⟨h1, h2⟩ := map_none h
          refine .inr ⟨cs, .inr ⟨rfl, fun e => hn1 e, ?_⟩, h2, h1⟩
          cases cs with
          | nil => simp
          | cons x v => simp; rintro rfl; exact hn2 _ rfl
      rcases find_short hd with ⟨rfl, rfl⟩ | ⟨rfl, rfl⟩ | hh
      · exact hopt _ (.inl ⟨rfl, rfl⟩) rfl rfl
      · exact hopt _ (.inr ⟨rfl, rfl⟩) rfl rfl
      · simp [hh, Vals.flag] at h

/-- What the arguments of `parse` are if they are read to their end. -/
theorem level_parse_inv : ∀ (args : List Str) (st st' : Vals), (st.vals.map (·.1)).Nodup →
    readLevel parseArgs [] check st none args = .done st' →
    ∃ os as tail, ParseOpts os as ∧ args = as ++ tail ∧ (tail = [] ∨ tail = [c!"--"]) ∧ st' = { st with vals := st.vals ++ os } ∧
      ((st.vals ++ os).map (·.1)).Nodup ∧ ∀ o ∈ os, check o.1 o.2 = true
  | [], st, st', hn, h => by
    simp only [readLevel, LevelEnd.done.injEq] at h
    exact ⟨[], [], [], .nil, rfl, .inl rfl, by simp [h], by simpa using hn, by simp⟩
  | a :: args, st, st', hn, h => by
    have step : ∀ (as rest : List Str) (id v : Str) (c : Char) (st1 : Vals), IsOpt id c → OptSrc c id v as → st.set check id v = .ok st1 →
        rest.length < (a :: args).length → readLevel parseArgs [] check st1 none rest = .done st' →
        ∃ os bs tail, ParseOpts os bs ∧ as ++ rest = bs ++ tail ∧ (tail = [] ∨ tail = [c!"--"]) ∧ st' = { st with vals := st.vals ++ os } ∧
          ((st.vals ++ os).map (·.1)).Nodup ∧ ∀ o ∈ os, check o.1 o.2 = true := by
      intro as rest id v c st1 ho hs hset hlen hr
      obtain ⟨h1, h2, rfl⟩ := set_inv hset
      obtain ⟨os, bs, tail, hos, e, ht, es, hn', hc⟩ := level_parse_inv rest _ st' (by
        simp only [List.map_append, List.map_cons, List.map_nil]
        rw [List.nodup_append]
        refine ⟨hn, by simp, ?_⟩
        intro x hx y hy
        rw [List.mem_singleton] at hy
        rintro rfl
        exact h1 (hy ▸ hx)) hr
      refine ⟨(id, v) :: os, as ++ bs, tail, .cons (ho.opt hs) hos, by rw [e, List.append_assoc], ht, by rw [es]; simp, by simpa using hn', ?_⟩
      intro o hm
      rcases List.mem_cons.mp hm with rfl | hm
      · exact h2
      · exact hc o hm
    have pend : ∀ (a : Str) (id : Str) (c : Char), IsOpt id c → readLevel parseArgs [] check st (some id) args = .done st' →
        (∀ v, (v.head? = some '-' → v = c!"-") → OptSrc c id v [a, v]) →
        ∃ os bs tail, ParseOpts os bs ∧ a :: args = bs ++ tail ∧ (tail = [] ∨ tail = [c!"--"]) ∧ st' = { st with vals := st.vals ++ os } ∧
          ((st.vals ++ os).map (·.1)).Nodup ∧ ∀ o ∈ os, check o.1 o.2 = true := by
      intro a id c ho hr hs
      cases hargs : args with
      | nil => rw [hargs] at hr; simp [readLevel] at hr
      | cons v rest =>
        rw [hargs, readLevel] at hr
        split at hr
        · cases hr
        · rename_i hv
          unfold orStop at hr
          split at hr
          · cases hr
          · rename_i st1 hset
            exact step [a, v] rest id v c st1 ho (hs v (by simpa using hv)) hset (by simp [hargs]; omega) hr
    rw [readLevel, if_neg (by simp)] at h
    split at h
    · rename_i hk
      split at h
      · rename_i he
        cases h
        subst he
        have : a = c!"--" := by
          unfold kindOf at hk
          split at hk <;> first | rfl | cases hk
        exact ⟨[], [], [a], .nil, rfl, .inr (by rw [this]), by simp, by simpa using hn, by simp⟩
      · cases h
    · rename_i body hb
      obtain ⟨rfl, _⟩ := kindOf_long hb
      unfold orStop at h
      split at h
      · cases h
      · rename_i x hl
        obtain ⟨st1, p⟩ := x
        obtain ⟨id, c, ho, ⟨rfl, rfl, rfl⟩ | ⟨v, rfl, rfl, hset⟩⟩ := long_parse_inv hl
        · exact pend _ _ c ho h fun v hv => .longNext hv
        · have hs : OptSrc c id v ['-' :: '-' :: (id ++ '=' :: v)] := by
            have := OptSrc.longEq (short := c) (long := id) (v := v)
            simpa using this
          exact step _ args id v c st1 ho hs hset (by simp) h
    · rename_i s hb
      obtain ⟨rfl, hne, _⟩ := kindOf_short hb
      unfold orStop at h
      split at h
      · cases h
      · rename_i x hl
        obtain ⟨st1, p⟩ := x
        obtain ⟨id, c, ho, ⟨rfl, rfl, rfl⟩ | ⟨v, hs, rfl, hset⟩⟩ := shorts_parse_inv hne hl
        · exact pend _ _ c ho h fun v hv => .shortNext hv
        · have hs : OptSrc c id v ['-' :: s] := by
            rcases hs with rfl | ⟨rfl, h1, h2⟩
            · exact .shortEq
            · exact .joined h1 h2
          exact step _ args id v c st1 ho hs hset (by simp) h
    · cases h
  termination_by args => args.length

theorem level_tail (defs : List ArgDef) (st : Vals) {tail : List Str} (h : tail = [] ∨ tail = [c!"--"]) :
    readLevel defs [] check st none tail = .done st := by
  rcases h with rfl | rfl
  · rw [readLevel]
  · simp [readLevel, kindOf]

/-- `initialize` takes nothing. -/
theorem level_init_inv {st st' : Vals} {args : List Str} (h : readLevel initArgs [] check st none args = .done st') :
    args = [] ∨ args = [c!"--"] := by
  cases args with
  | nil => exact .inl rfl
  | cons a args =>
    have hf : ∀ (p : ArgDef → Bool) (d : ArgDef), initArgs.find? p = some d → d.action = .help := by
      intro p d hd
      have := List.mem_of_find?_eq_some hd
      simp only [initArgs, List.mem_cons, List.not_mem_nil, or_false] at this
      rcases this with rfl | rfl <;> rfl
    rw [readLevel, if_neg (by simp)] at h
    split at h
    · rename_i hk
      split at h
      · rename_i he
        subst he
        right
        unfold kindOf at hk
        split at hk <;> first | rfl | cases hk
      · cases h
    · rename_i body hb
      unfold orStop at h
      split at h
      · cases h
      · rename_i x hl
        unfold readLong at hl
        cases hs : splitOnce '=' body with
        | none =>
          simp only [hs] at hl
          split at hl
          · cases hl
          · rename_i d hd
            simp [hf _ d hd, Vals.flag, Except.map] at hl
        | some nv =>
          simp only [hs] at hl
          split at hl
          · cases hl
          · rename_i d hd
            simp [hf _ d hd] at hl
    · rename_i s hb
      obtain ⟨rfl, hne, _⟩ := kindOf_short hb
      unfold orStop at h
      split at h
      · cases h
      · rename_i x hl
        cases s with
        | nil => exact absurd rfl hne
        | cons c cs =>
          rw [readShorts] at hl
          split at hl
          · cases hl
          · rename_i d hd
            simp [hf _ d hd, Vals.flag] at hl
    · cases h

theorem formatOf_iff {v : Str} {o : Format} : formatOf v = some o ↔ v = o.ending := by
  unfold formatOf
  cases o
  · constructor
    · intro h; split at h
      · assumption
      · split at h <;> cases h
    · rintro rfl; rfl
  · constructor
    · intro h; split at h
      · cases h
      · split at h
        · assumption
        · cases h
    · rintro rfl; rfl

/-- The command lines that are accepted. -/
theorem parseCli_iff {canon : Str → Option Path} {home : Option Str} {args : List Str} {v : Nat} {cmd : Command} :
    parseCli canon home args = .run v cmd ↔ CommandLine canon home args v cmd := by
  have hin : ∀ f, checkValue canon home c!"input" f = (parseInput canon home f).isSome := fun f => rfl
  have hout : ∀ g, checkValue canon home c!"output" g = (formatOf g).isSome := fun g => rfl
  constructor
  · intro h
    unfold parseCli at h
    split at h
    · cases h
    · cases h
    · rename_i st name rest hl
      obtain ⟨n, vs, hv, rfl, hname, rfl⟩ := level_cli_inv _ _ _ _ _ (Nat.zero_le _) hl
      simp only [Nat.zero_add] at h
      split at h
      · rename_i hp
        subst hp
        unfold readParse at h
        split at h
        · cases h
        · cases h
        · rename_i st hr
          obtain ⟨os, as, tail, hos, rfl, ht, rfl, hn, hc⟩ := level_parse_inv _ _ _ (by simp) hr
          simp only [List.nil_append] at h hn
          split at h
          · cases h
          · rename_i p hp
            cases h
            -- the options are `input` and perhaps `output`
            cases hos with
            | nil => simp [Vals.get] at hp
            | @cons o os as bs ho hos =>
              cases hos with
              | nil =>
                cases ho with
                | output ho => simp [Vals.get] at hp
                | @input f as hi =>
                  have hp : parseInput canon home f = some p := by simpa [Vals.get] using hp
                  have : (Vals.get { count := 0, vals := [(c!"input", f)] } c!"output") = none := rfl
                  simp only [this]
                  rw [List.append_nil]
                  exact .parse hv hi (by rw [← tilde_eq]; exact hp) ht
              | @cons o' os as' bs ho' hos =>
                have hlast : os = [] := by
                  cases hos with
                  | nil => rfl
                  | @cons o'' os as'' bs ho'' hos =>
                    exfalso
                    have i1 := ho.id
                    have i2 := ho'.id
                    have i3 := ho''.id
                    simp only [List.map_cons, List.nodup_cons, List.mem_cons, not_or] at hn
                    obtain ⟨⟨n12, n13, _⟩, ⟨n23, _⟩, _⟩ := hn
                    rcases i1 with e1 | e1 <;> rcases i2 with e2 | e2 <;> rcases i3 with e3 | e3 <;> simp_all
                subst hlast
                cases hos
                rw [List.append_nil]
                cases ho with
                | @input f as hi =>
                  cases ho' with
                  | input hi' => simp at hn
                  | @output g as' ho =>
                    have hp : parseInput canon home f = some p := by simpa [Vals.get] using hp
                    have hg : (formatOf g).isSome = true := hc (c!"output", g) (by simp)
                    obtain ⟨o, ho'⟩ := Option.isSome_iff_exists.mp hg
                    have e := formatOf_iff.mp ho'
                    subst e
                    have : (Vals.get { count := 0, vals := [(c!"input", f), (c!"output", o.ending)] } c!"output") = some o.ending := rfl
                    simp only [this, Option.bind_some, ho', Option.getD_some]
                    exact .parseTo hv hi (by rw [← tilde_eq]; exact hp) ho (.inl rfl) ht
                | @output g as ho =>
                  cases ho' with
                  | output hi' => simp at hn
                  | @input f as' hi =>
                    have hp : parseInput canon home f = some p := by simpa [Vals.get] using hp
                    have hg : (formatOf g).isSome = true := hc (c!"output", g) (by simp)
                    obtain ⟨o, ho'⟩ := Option.isSome_iff_exists.mp hg
                    have e := formatOf_iff.mp ho'
                    subst e
                    have : (Vals.get { count := 0, vals := [(c!"output", o.ending), (c!"input", f)] } c!"output") = some o.ending := rfl
                    simp only [this, Option.bind_some, ho', Option.getD_some]
                    exact .parseTo hv hi (by rw [← tilde_eq]; exact hp) ho (.inr rfl) ht
      · rename_i hp
        have hname : name = c!"initialize" := by simpa [subcommands, hp] using hname
        subst hname
        split at h
        · cases h
        · cases h
        · rename_i hr
          cases h
          exact .init hv (level_init_inv hr)
  · intro h
    have hsub : ∀ n vs name rest, Verbs n vs → name ∈ subcommands →
        readLevel cliArgs subcommands (checkValue canon home) {} none (vs ++ name :: rest) = .sub { count := min n 255 } name rest := by
      intro n vs name rest hv hn
      rw [level_verbs hv (Nat.zero_le _), readLevel, if_pos (by simpa using hn)]
      simp
    cases h with
    | init hv ht =>
      unfold parseCli
      rw [hsub _ _ _ _ hv (by decide)]
      simp [level_tail _ _ ht]
    | @parse n vs is tail f p hv hi hp ht =>
      have hp : parseInput canon home f = some p := by rw [parseInput, tilde_eq]; exact hp
      unfold parseCli
      rw [hsub _ _ _ _ hv (by decide)]
      have := level_opts (check := checkValue canon home) (.cons (.input hi) .nil) (st := {}) (by simp) (by simp [hin, hp]) tail
      rw [List.append_nil] at this
      simp only [if_true, readParse, this, level_tail _ _ ht]
      simp [Vals.get, hp]
    | @parseTo n vs is os opts tail f p o hv hi hp ho h ht =>
      have hp : parseInput canon home f = some p := by rw [parseInput, tilde_eq]; exact hp
      have hf : formatOf o.ending = some o := formatOf_iff.mpr rfl
      unfold parseCli
      rw [hsub _ _ _ _ hv (by decide)]
      rcases h with rfl | rfl
      · have := level_opts (check := checkValue canon home) (.cons (.input hi) (.cons (.output ho) .nil)) (st := {}) (by simp) (by simp [hin, hout, hp, hf]) tail
        rw [List.append_nil] at this
        simp only [if_true, readParse, this, level_tail _ _ ht]
        simp [Vals.get, hp, hf]
      · have := level_opts (check := checkValue canon home) (.cons (.output ho) (.cons (.input hi) .nil)) (st := {}) (by simp) (by simp [hin, hout, hp, hf]) tail
        rw [List.append_nil] at this
        simp only [if_true, readParse, this, level_tail _ _ ht]
        simp [Vals.get, hp, hf]


/-! Help -/

theorem helpSrc_sub {k : Nat} {a : Str} (h : HelpSrc k a) : subcommands.contains a = false := by
  cases h with
  | help => decide
  | version => decide
  | short k c h s => simp [subcommands]

/-- Letters up to the first that asks for help. -/
theorem shorts_help : ∀ (k : Nat) (c : Char) (s : Str) (st : Vals), c = 'h' ∨ c = 'V' →
    readShorts cliArgs check st (List.replicate k 'v' ++ c :: s) = .error .help
  | 0, c, s, st, h => by rcases h with rfl | rfl <;> rfl
  | k + 1, c, s, st, h => by
    have ih := shorts_help k c s { st with count := min (st.count + 1) 255 } h
    simp only [List.replicate_succ, List.cons_append, readShorts, cliArgs, helpArg, versionArg, verboseArg, List.find?, Vals.flag] at ih ⊢
    simp only [show (('h' : Char) == 'v') = false from rfl, show (('V' : Char) == 'v') = false from rfl, show (('v' : Char) == 'v') = true from rfl,
      reduceCtorEq, if_false, ih]

theorem shorts_help_inv : ∀ (s : Str) (st : Vals), readShorts cliArgs check st s = .error .help →
    ∃ k c t, s = List.replicate k 'v' ++ c :: t ∧ (c = 'h' ∨ c = 'V')
  | [], _, h => by cases h
  | c :: s, st, h => by
    simp only [readShorts, cliArgs, helpArg, versionArg, verboseArg, List.find?] at h
    split at h
    · cases h
    · rename_i d hd
      split at hd
      · rename_i e
        exact ⟨0, c, s, rfl, .inl (by simpa using (beq_iff_eq.mp e).symm)⟩
      · split at hd
        · rename_i e
          exact ⟨0, c, s, rfl, .inr (by simpa using (beq_iff_eq.mp e).symm)⟩
        · split at hd
          · cases hd
            rename_i hv
            have hc : 'v' = c := by simpa using hv
            subst hc
            simp only [Vals.flag, reduceCtorEq, if_false] at h
            obtain ⟨k, c, t, e, hc⟩ := shorts_help_inv s _ h
            exact ⟨k + 1, c, t, by rw [e]; rfl, hc⟩
          · cases hd

theorem set_error {st : Vals} {id v : Str} {e : Stop} (h : st.set check id v = .error e) : e = .usage := by
  unfold Vals.set at h
  split at h <;> cases h
  rfl

theorem set_map_help {st : Vals} {id v : Str} (h : ((st.set check id v).map fun st => (st, (none : Option Str))) = .error .help) : False := by
  cases hs : st.set check id v with
  | ok x => rw [hs] at h; cases h
  | error e => rw [hs, set_error hs] at h; cases h

/-- Long arguments that ask for help. -/
theorem long_help_inv {defs : List ArgDef} {st : Vals} {body : Str} (hd : ∀ d ∈ defs, d.action = .help → d = helpArg ∨ d = versionArg)
    (h : readLong defs check st body = .error .help) : body = c!"help" ∨ body = c!"version" := by
  unfold readLong at h
  cases hs : splitOnce '=' body with
  | none =>
    simp only [hs] at h
    split at h
    · cases h
    · rename_i d hf
      have hm := List.mem_of_find?_eq_some hf
      have hl := List.find?_some hf
      split at h
      · cases h
      · have ha : d.action = .help := by
          cases e : d.action <;> rw [e] at h <;> simp [Vals.flag, Except.map] at h
        rcases hd d hm ha with rfl | rfl
        · left; simpa [helpArg] using hl
        · right; simpa [versionArg] using hl
  | some nv =>
    simp only [hs] at h
    split at h
    · cases h
    · split at h
      · exact (set_map_help h).elim
      · cases h

theorem kind_help {k : Nat} {a : Str} (h : HelpSrc k a) :
    (kindOf a = .long c!"help" ∨ kindOf a = .long c!"version") ∧ k = 0 ∨
      ∃ c s, (c = 'h' ∨ c = 'V') ∧ kindOf a = .short (List.replicate k 'v' ++ c :: s) := by
  cases h with
  | help => exact .inl ⟨.inl rfl, rfl⟩
  | version => exact .inl ⟨.inr rfl, rfl⟩
  | short k c h s =>
    refine .inr ⟨c, s, h, ?_⟩
    cases k with
    | zero => rcases h with rfl | rfl <;> rfl
    | succ k => rfl

theorem level_cli_help {k : Nat} {a : Str} (h : HelpSrc k a) (st : Vals) (rest : List Str) :
    readLevel cliArgs subcommands check st none (a :: rest) = .stop .help := by
  rw [readLevel, helpSrc_sub h]
  rcases kind_help h with ⟨e | e, _⟩ | ⟨c, s, hc, e⟩
  · rw [e]; rfl
  · rw [e]; rfl
  · simp [e, shorts_help k c s st hc, orStop]

theorem level_cli_help_inv : ∀ (args : List Str) (st : Vals), st.count ≤ 255 →
    readLevel cliArgs subcommands check st none args = .stop .help →
    ∃ n k vs a rest, Verbs n vs ∧ HelpSrc k a ∧ args = vs ++ a :: rest
  | [], _, _, h => by simp [readLevel] at h
  | a :: args, st, hc, h => by
    rw [readLevel] at h
    split at h
    · cases h
    · split at h
      · split at h <;> cases h
      · rename_i body hb
        obtain ⟨rfl, _⟩ := kindOf_long hb
        unfold orStop at h
        split at h
        · rename_i hl
          cases h
          refine ⟨0, 0, [], _, args, .nil, ?_, rfl⟩
          rcases long_help_inv (by
            intro d hd ha
            simp only [cliArgs, List.mem_cons, List.not_mem_nil, or_false] at hd
            rcases hd with rfl | rfl | rfl
            · exact .inl rfl
            · exact .inr rfl
            · cases ha) hl with rfl | rfl
          · exact .help
          · exact .version
        · rename_i x hl
          obtain ⟨st1, p⟩ := x
          obtain ⟨hb, rfl, rfl⟩ := long_cli_inv hl
          obtain ⟨n, k, vs, b, rest, hv, hs, e⟩ := level_cli_help_inv args _ (Nat.min_le_right ..) h
          refine ⟨1 + n, k, _, b, rest, .cons (a := '-' :: '-' :: body) ?_ hv, hs, by rw [e]; rfl⟩
          rcases hb with rfl | rfl
          · exact .long
          · exact .debug
      · rename_i s hb
        obtain ⟨rfl, hne, _⟩ := kindOf_short hb
        unfold orStop at h
        split at h
        · rename_i hl
          cases h
          obtain ⟨k, c, t, rfl, hc⟩ := shorts_help_inv _ _ hl
          exact ⟨0, k, [], _, args, .nil, .short k c hc t, rfl⟩
        · rename_i x hl
          obtain ⟨st1, p⟩ := x
          have hall := shorts_cli_inv _ _ _ hl
          rw [shorts_cli _ _ hall hc] at hl
          cases hl
          obtain ⟨n, k, vs, b, rest, hv, hs, e⟩ := level_cli_help_inv args _ (Nat.min_le_right ..) h
          refine ⟨s.length + n, k, _, b, rest, .cons (a := '-' :: s) ?_ hv, hs, by rw [e]; rfl⟩
          have := VerbSrc.short s.length (List.length_pos_iff.mpr hne)
          rwa [← List.eq_replicate_of_mem hall] at this
      · cases h

/-- Levels without `-v`. -/
theorem level_sub_help {defs : List ArgDef} (hd : defs = parseArgs ∨ defs = initArgs) {a : Str} (h : HelpSrc 0 a) (st : Vals) (rest : List Str) :
    readLevel defs [] check st none (a :: rest) = .stop .help := by
  rw [readLevel, if_neg (by simp)]
  rcases kind_help h with ⟨e | e, _⟩ | ⟨c, s, hc, e⟩
  · rw [e]; rcases hd with rfl | rfl <;> rfl
  · rw [e]; rcases hd with rfl | rfl <;> rfl
  · rw [e]; rcases hd with rfl | rfl <;> rcases hc with rfl | rfl <;> rfl

theorem shorts_sub_help_inv {defs : List ArgDef} (hd : ∀ d ∈ defs, d.action = .set ∨ d = helpArg ∨ d = versionArg) {s : Str} {st : Vals}
    (h : readShorts defs check st s = .error .help) : ∃ c t, s = c :: t ∧ (c = 'h' ∨ c = 'V') := by
  cases s with
  | nil => cases h
  | cons c t =>
    refine ⟨c, t, rfl, ?_⟩
    rw [readShorts] at h
    split at h
    · cases h
    · rename_i d hf
      have hm := List.mem_of_find?_eq_some hf
      have hl := List.find?_some hf
      rcases hd d hm with ha | rfl | rfl
      · rw [if_pos ha] at h
        split at h
        · cases h
        · exact (set_map_help h).elim
        · exact (set_map_help h).elim
      · left; simpa [helpArg] using (beq_iff_eq.mp hl).symm
      · right; simpa [versionArg] using (beq_iff_eq.mp hl).symm

theorem sub_defs {defs : List ArgDef} (hd : defs = parseArgs ∨ defs = initArgs) : ∀ d ∈ defs, d.action = .set ∨ d = helpArg ∨ d = versionArg := by
  rcases hd with rfl | rfl <;> intro d hd <;> simp only [parseArgs, initArgs, List.mem_cons, List.not_mem_nil, or_false] at hd
  · rcases hd with rfl | rfl | rfl | rfl
    · exact .inl rfl
    · exact .inl rfl
    · exact .inr (.inl rfl)
    · exact .inr (.inr rfl)
  · rcases hd with rfl | rfl
    · exact .inr (.inl rfl)
    · exact .inr (.inr rfl)

/-- The first argument, if reading it ends with help. -/
theorem first_help {defs : List ArgDef} (hd : defs = parseArgs ∨ defs = initArgs) {a : Str} {st : Vals}
    (h : (∃ body, kindOf a = .long body ∧ readLong defs check st body = .error .help) ∨
      ∃ s, kindOf a = .short s ∧ readShorts defs check st s = .error .help) : HelpSrc 0 a := by
  rcases h with ⟨body, hk, h⟩ | ⟨s, hk, h⟩
  · obtain ⟨rfl, _⟩ := kindOf_long hk
    rcases long_help_inv (by
      intro d hm ha
      rcases sub_defs hd d hm with h | h | h
      · rw [ha] at h; cases h
      · exact .inl h
      · exact .inr h) h with rfl | rfl
    · exact .help
    · exact .version
  · obtain ⟨rfl, _⟩ := kindOf_short hk
    obtain ⟨c, t, rfl, hc⟩ := shorts_sub_help_inv (sub_defs hd) h
    exact .short 0 c hc t

theorem level_init_help_inv {st : Vals} {args : List Str} (h : readLevel initArgs [] check st none args = .stop .help) :
    ∃ a rest, HelpSrc 0 a ∧ args = a :: rest := by
  cases args with
  | nil => simp [readLevel] at h
  | cons a args =>
    refine ⟨a, args, ?_, rfl⟩
    have hf : ∀ (p : ArgDef → Bool) (d : ArgDef), initArgs.find? p = some d → d.action = .help := by
      intro p d hd
      have := List.mem_of_find?_eq_some hd
      simp only [initArgs, List.mem_cons, List.not_mem_nil, or_false] at this
      rcases this with rfl | rfl <;> rfl
    rw [readLevel, if_neg (by simp)] at h
    split at h
    · split at h <;> cases h
    · rename_i body hb
      unfold orStop at h
      split at h
      · rename_i hl; cases h; exact first_help (.inr rfl) (.inl ⟨body, hb, hl⟩)
      · rename_i x hl
        unfold readLong at hl
        cases hs : splitOnce '=' body with
        | none =>
          simp only [hs] at hl
          split at hl
          · cases hl
          · rename_i d hd
            simp [hf _ d hd, Vals.flag, Except.map] at hl
        | some nv =>
          simp only [hs] at hl
          split at hl
          · cases hl
          · rename_i d hd
            simp [hf _ d hd] at hl
    · rename_i s hb
      unfold orStop at h
      split at h
      · rename_i hl; cases h; exact first_help (.inr rfl) (.inr ⟨s, hb, hl⟩)
      · rename_i x hl
        obtain ⟨rfl, hne, _⟩ := kindOf_short hb
        cases s with
        | nil => exact absurd rfl hne
        | cons c cs =>
          rw [readShorts] at hl
          split at hl
          · cases hl
          · rename_i d hd
            simp [hf _ d hd, Vals.flag] at hl
    · cases h

theorem level_parse_help_inv : ∀ (args : List Str) (st : Vals), (st.vals.map (·.1)).Nodup →
    readLevel parseArgs [] check st none args = .stop .help →
    ∃ os as a rest, ParseOpts os as ∧ args = as ++ a :: rest ∧ HelpSrc 0 a ∧
      ((st.vals ++ os).map (·.1)).Nodup ∧ ∀ o ∈ os, check o.1 o.2 = true
  | [], st, hn, h => by simp [readLevel] at h
  | a :: args, st, hn, h => by
    have step : ∀ (as rest : List Str) (id v : Str) (c : Char) (st1 : Vals), IsOpt id c → OptSrc c id v as → st.set check id v = .ok st1 →
        rest.length < (a :: args).length → readLevel parseArgs [] check st1 none rest = .stop .help →
        ∃ os bs b tail, ParseOpts os bs ∧ as ++ rest = bs ++ b :: tail ∧ HelpSrc 0 b ∧
          ((st.vals ++ os).map (·.1)).Nodup ∧ ∀ o ∈ os, check o.1 o.2 = true := by
      intro as rest id v c st1 ho hs hset hlen hr
      obtain ⟨h1, h2, rfl⟩ := set_inv hset
      obtain ⟨os, bs, b, tail, hos, e, ht, hn', hc⟩ := level_parse_help_inv rest _ (by
        simp only [List.map_append, List.map_cons, List.map_nil]
        rw [List.nodup_append]
        refine ⟨hn, by simp, ?_⟩
        intro x hx y hy
        rw [List.mem_singleton] at hy
        rintro rfl
        exact h1 (hy ▸ hx)) hr
      refine ⟨(id, v) :: os, as ++ bs, b, tail, .cons (ho.opt hs) hos, by rw [e, List.append_assoc], ht, by simpa using hn', ?_⟩
      intro o hm
      rcases List.mem_cons.mp hm with rfl | hm
      · exact h2
      · exact hc o hm
    have pend : ∀ (a : Str) (id : Str) (c : Char), IsOpt id c → readLevel parseArgs [] check st (some id) args = .stop .help →
        (∀ v, (v.head? = some '-' → v = c!"-") → OptSrc c id v [a, v]) →
        ∃ os bs b tail, ParseOpts os bs ∧ a :: args = bs ++ b :: tail ∧ HelpSrc 0 b ∧
          ((st.vals ++ os).map (·.1)).Nodup ∧ ∀ o ∈ os, check o.1 o.2 = true := by
      intro a id c ho hr hs
      cases hargs : args with
      | nil => rw [hargs] at hr; simp [readLevel] at hr
      | cons v rest =>
        rw [hargs, readLevel] at hr
        split at hr
        · cases hr
        · rename_i hv
          unfold orStop at hr
          split at hr
          · rename_i hset
            cases hr
            exact absurd (set_error hset) (by simp)
          · rename_i st1 hset
            exact step [a, v] rest id v c st1 ho (hs v (by simpa using hv)) hset (by simp [hargs]; omega) hr
    have here : HelpSrc 0 a → ∃ os bs b tail, ParseOpts os bs ∧ a :: args = bs ++ b :: tail ∧ HelpSrc 0 b ∧
          ((st.vals ++ os).map (·.1)).Nodup ∧ ∀ o ∈ os, check o.1 o.2 = true :=
      fun h => ⟨[], [], a, args, .nil, rfl, h, by simpa using hn, by simp⟩
    rw [readLevel, if_neg (by simp)] at h
    split at h
    · split at h <;> cases h
    · rename_i body hb
      unfold orStop at h
      split at h
      · rename_i hl; cases h; exact here (first_help (.inl rfl) (.inl ⟨body, hb, hl⟩))
      · rename_i x hl
        obtain ⟨rfl, _⟩ := kindOf_long hb
        obtain ⟨st1, p⟩ := x
        obtain ⟨id, c, ho, ⟨rfl, rfl, rfl⟩ | ⟨v, rfl, rfl, hset⟩⟩ := long_parse_inv hl
        · exact pend _ body c ho h fun v hv => .longNext hv
        · have : OptSrc c id v ['-' :: '-' :: (id ++ '=' :: v)] := by
            have := OptSrc.longEq (short := c) (long := id) (v := v)
            simpa using this
          exact step _ args id v c st1 ho this hset (by simp) h
    · rename_i s hb
      unfold orStop at h
      split at h
      · rename_i hl; cases h; exact here (first_help (.inl rfl) (.inr ⟨s, hb, hl⟩))
      · rename_i x hl
        obtain ⟨rfl, hne, _⟩ := kindOf_short hb
        obtain ⟨st1, p⟩ := x
        obtain ⟨id, c, ho, ⟨rfl, rfl, rfl⟩ | ⟨v, e, rfl, hset⟩⟩ := shorts_parse_inv hne hl
        · exact pend _ id c ho h fun v hv => .shortNext hv
        · rcases e with rfl | ⟨rfl, h1, h2⟩
          · exact step _ args id v c st1 ho .shortEq hset (by simp) h
          · exact step _ args id v c st1 ho (.joined h1 h2) hset (by simp) h
    · cases h
  termination_by args => args.length

theorem parseInput_eq (canon : Str → Option Path) (home : Option Str) (f : Str) : parseInput canon home f = canon (homePath home f) := by
  rw [parseInput, tilde_eq]

theorem someOpts_of {canon : Str → Option Path} {home : Option Str} {os : List (Str × Str)} {as : List Str} (h : ParseOpts os as)
    (hn : (os.map (·.1)).Nodup) (hc : ∀ o ∈ os, checkValue canon home o.1 o.2 = true) : SomeOpts canon home as := by
  have hin : ∀ f, checkValue canon home c!"input" f = true → ∃ p, canon (homePath home f) = some p := by
    intro f h
    rw [show checkValue canon home c!"input" f = (parseInput canon home f).isSome from rfl, parseInput_eq] at h
    exact Option.isSome_iff_exists.mp h
  have hout : ∀ g, checkValue canon home c!"output" g = true → ∃ o : Format, g = o.ending := by
    intro g h
    obtain ⟨o, ho⟩ := Option.isSome_iff_exists.mp (show (formatOf g).isSome = true from h)
    exact ⟨o, formatOf_iff.mp ho⟩
  cases h with
  | nil => exact .none
  | @cons o os as bs ho hos =>
    cases hos with
    | nil =>
      rw [List.append_nil]
      cases ho with
      | @input f _ h =>
        obtain ⟨p, hp⟩ := hin f (hc (c!"input", f) (by simp))
        exact .input h hp
      | @output g _ h =>
        obtain ⟨g, rfl⟩ := hout g (hc (c!"output", g) (by simp))
        exact .output h
    | @cons o' os as' bs ho' hos =>
      have hlast : os = [] := by
        cases hos with
        | nil => rfl
        | @cons o'' os as'' bs ho'' hos =>
          exfalso
          have i1 := ho.id
          have i2 := ho'.id
          have i3 := ho''.id
          simp only [List.map_cons, List.nodup_cons, List.mem_cons, not_or] at hn
          obtain ⟨⟨n12, n13, _⟩, ⟨n23, _⟩, _⟩ := hn
          rcases i1 with e1 | e1 <;> rcases i2 with e2 | e2 <;> rcases i3 with e3 | e3 <;> simp_all
      subst hlast
      cases hos
      rw [List.append_nil]
      cases ho with
      | @input f _ h =>
        cases ho' with
        | input h' => simp at hn
        | @output g _ h' =>
          obtain ⟨p, hp⟩ := hin f (hc (c!"input", f) (by simp))
          obtain ⟨g, rfl⟩ := hout g (hc (c!"output", g) (by simp))
          exact .inOut h hp h'
      | @output g _ h =>
        cases ho' with
        | output h' => simp at hn
        | @input f _ h' =>
          obtain ⟨p, hp⟩ := hin f (hc (c!"input", f) (by simp))
          obtain ⟨g, rfl⟩ := hout g (hc (c!"output", g) (by simp))
          exact .outIn h' hp h

theorem someOpts_inv {canon : Str → Option Path} {home : Option Str} {as : List Str} (h : SomeOpts canon home as) :
    ∃ os, ParseOpts os as ∧ (os.map (·.1)).Nodup ∧ ∀ o ∈ os, checkValue canon home o.1 o.2 = true := by
  have hin : ∀ f p, canon (homePath home f) = some p → checkValue canon home c!"input" f = true := by
    intro f p h
    rw [show checkValue canon home c!"input" f = (parseInput canon home f).isSome from rfl, parseInput_eq, h]
    rfl
  have hout : ∀ o : Format, checkValue canon home c!"output" o.ending = true := by
    intro o; cases o <;> rfl
  cases h with
  | none => exact ⟨[], .nil, by simp, by simp⟩
  | @input f p is hi hp =>
    have := ParseOpts.cons (.input hi) .nil
    rw [List.append_nil] at this
    exact ⟨_, this, by simp, by simp [hin f p hp]⟩
  | @output o os ho =>
    have := ParseOpts.cons (.output ho) .nil
    rw [List.append_nil] at this
    exact ⟨_, this, by simp, by simp [hout o]⟩
  | @inOut f p o is os hi hp ho =>
    have := ParseOpts.cons (.input hi) (.cons (.output ho) .nil)
    rw [List.append_nil] at this
    exact ⟨_, this, by simp, by simp [hin f p hp, hout o]⟩
  | @outIn f p o is os hi hp ho =>
    have := ParseOpts.cons (.output ho) (.cons (.input hi) .nil)
    rw [List.append_nil] at this
    exact ⟨_, this, by simp, by simp [hin f p hp, hout o]⟩

/-- The command lines that show the help. -/
theorem parseCli_help_iff {canon : Str → Option Path} {home : Option Str} {args : List Str} :
    parseCli canon home args = .stop .help ↔ HelpLine canon home args := by
  constructor
  · intro h
    unfold parseCli at h
    split at h
    · rename_i hl
      cases h
      obtain ⟨n, k, vs, a, rest, hv, ha, rfl⟩ := level_cli_help_inv _ _ (Nat.zero_le _) hl
      exact .top hv ha
    · cases h
    · rename_i st name rest hl
      obtain ⟨n, vs, hv, rfl, hname, rfl⟩ := level_cli_inv _ _ _ _ _ (Nat.zero_le _) hl
      split at h
      · rename_i hp
        subst hp
        unfold readParse at h
        split at h
        · rename_i hr
          cases h
          obtain ⟨os, as, a, rest, hos, rfl, ha, hn, hc⟩ := level_parse_help_inv _ _ (by simp) hr
          exact .parse hv (someOpts_of hos hn hc) ha
        · cases h
        · split at h <;> cases h
      · rename_i hp
        have hname : name = c!"initialize" := by simpa [subcommands, hp] using hname
        subst hname
        split at h
        · rename_i hr
          cases h
          obtain ⟨a, rest, ha, rfl⟩ := level_init_help_inv hr
          exact .init hv ha
        · cases h
        · cases h
  · intro h
    have hsub : ∀ n vs name rest, Verbs n vs → name ∈ subcommands →
        readLevel cliArgs subcommands (checkValue canon home) {} none (vs ++ name :: rest) = .sub { count := min n 255 } name rest := by
      intro n vs name rest hv hn
      rw [level_verbs hv (Nat.zero_le _), readLevel, if_pos (by simpa using hn)]
      simp
    cases h with
    | top hv ha =>
      unfold parseCli
      rw [level_verbs hv (Nat.zero_le _), level_cli_help ha]
    | init hv ha =>
      unfold parseCli
      rw [hsub _ _ _ _ hv (by decide)]
      simp [level_sub_help (.inr rfl) ha]
    | parse hv ho ha =>
      obtain ⟨os, hos, hn, hc⟩ := someOpts_inv ho
      unfold parseCli
      rw [hsub _ _ _ _ hv (by decide)]
      simp only [if_true, readParse, level_opts hos (st := {}) (by simpa using hn) hc, level_sub_help (.inl rfl) ha]

/-- Arguments that give an option are not `-v`. -/
theorem opt_not_verb {c : Char} {long v : Str} {as : List Str} (hc : c ≠ 'v') (hd : c ≠ '-') (hl : long ≠ c!"verbose" ∧ long ≠ c!"debug")
    (h : OptSrc c long v as) : ∀ a ∈ as, ∀ n, ¬ VerbSrc n a := by
  have hletter : ∀ s n, ¬ VerbSrc n ('-' :: c :: s) := by
    intro s n hv
    generalize e : '-' :: c :: s = a at hv
    cases hv with
    | short n hn =>
      cases n with
      | zero => omega
      | succ n => simp only [List.replicate_succ, List.cons.injEq] at e; exact hc e.2.1
    | long => simp only [List.cons.injEq] at e; exact hd e.2.1
    | debug => simp only [List.cons.injEq] at e; exact hd e.2.1
  have hvalue : ∀ n, (v.head? = some '-' → v = c!"-") → ¬ VerbSrc n v := by
    intro n hh hv
    cases hv with
    | short n hn =>
      have := hh rfl
      cases n with
      | zero => omega
      | succ n => simp [List.replicate_succ] at this
    | long => exact absurd (hh rfl) (by decide)
    | debug => exact absurd (hh rfl) (by decide)
  have hlong : ∀ s n, s ≠ c!"verbose" → s ≠ c!"debug" → ¬ VerbSrc n ('-' :: '-' :: s) := by
    intro s n h1 h2 hv
    generalize e : '-' :: '-' :: s = a at hv
    cases hv with
    | short n hn =>
      cases n with
      | zero => omega
      | succ n => simp [List.replicate_succ] at e
    | long => simp only [List.cons.injEq, true_and] at e; exact h1 e
    | debug => simp only [List.cons.injEq, true_and] at e; exact h2 e
  intro a ha n
  cases h with
  | shortNext hh =>
    simp only [List.mem_cons, List.not_mem_nil, or_false] at ha
    rcases ha with rfl | rfl
    · exact hletter [] n
    · exact hvalue n hh
  | longNext hh =>
    simp only [List.mem_cons, List.not_mem_nil, or_false] at ha
    rcases ha with rfl | rfl
    · exact hlong long n hl.1 hl.2
    · exact hvalue n hh
  | joined _ _ => rw [List.mem_singleton.mp ha]; exact hletter v n
  | shortEq => rw [List.mem_singleton.mp ha]; exact hletter _ n
  | longEq =>
    rw [List.mem_singleton.mp ha]
    refine hlong (long ++ c!"=" ++ v) n ?_ ?_ <;>
    · intro e
      have : '=' ∈ long ++ c!"=" ++ v := by simp
      rw [e] at this
      exact absurd this (by decide)

/-- The version is never shown. -/
theorem flag_version {st : Vals} {a : Action} (ha : a ≠ .version) : st.flag a ≠ .error .version := by
  cases a <;> simp [Vals.flag] at *

theorem shorts_version {defs : List ArgDef} (hd : ∀ d ∈ defs, d.action ≠ .version) : ∀ (s : Str) (st : Vals),
    readShorts defs check st s ≠ .error .version
  | [], st => by simp [readShorts]
  | c :: s, st => by
    intro h
    rw [readShorts] at h
    have hset : ∀ id v, ((st.set check id v).map fun st => (st, (none : Option Str))) ≠ .error .version := by
      intro id v h
      cases hs : st.set check id v with
      | ok x => rw [hs] at h; cases h
      | error e => rw [hs, set_error hs] at h; cases h
    split at h
    · cases h
    · rename_i d hf
      have hm := hd d (List.mem_of_find?_eq_some hf)
      split at h
      · split at h
        · cases h
        · exact hset _ _ h
        · exact hset _ _ h
      · split at h
        · rename_i hfl
          cases h
          exact flag_version hm hfl
        · exact shorts_version hd s _ h

theorem long_version {defs : List ArgDef} (hd : ∀ d ∈ defs, d.action ≠ .version) {st : Vals} {body : Str} :
    readLong defs check st body ≠ .error .version := by
  intro h
  unfold readLong at h
  have key : ∀ (name : Str) (value : Option Str), (match defs.find? (·.longs.contains name) with
      | none => .error .usage
      | some d =>
        match value with
        | none => if d.action = .set then .ok (st, some d.id) else (st.flag d.action).map fun st => (st, none)
        | some v => if d.action = .set then (st.set check d.id v).map fun st => (st, none) else .error .usage : Except Stop (Vals × Option Str)) ≠
      .error .version := by
    intro name value h
    split at h
    · cases h
    · rename_i d hf
      have hm := hd d (List.mem_of_find?_eq_some hf)
      split at h
      · split at h
        · cases h
        · cases hfl : st.flag d.action with
          | ok x => rw [hfl] at h; cases h
          | error e => rw [hfl] at h; cases h; exact flag_version hm hfl
      · rename_i v
        split at h
        · cases hs : st.set check d.id v with
          | ok x => rw [hs] at h; cases h
          | error e => rw [hs, set_error hs] at h; cases h
        · cases h
  exact key _ _ h

theorem level_version {defs : List ArgDef} (hd : ∀ d ∈ defs, d.action ≠ .version) {subs : List Str} : ∀ (args : List Str) (st : Vals) (p : Option Str),
    readLevel defs subs check st p args ≠ .stop .version
  | [], st, none => by simp [readLevel]
  | [], st, some _ => by simp [readLevel]
  | a :: args, st, some id => by
    intro h
    rw [readLevel] at h
    split at h
    · cases h
    · unfold orStop at h
      split at h
      · rename_i hs; cases h; exact absurd (set_error hs) (by simp)
      · exact level_version hd args _ _ h
  | a :: args, st, none => by
    intro h
    rw [readLevel] at h
    split at h
    · cases h
    · split at h
      · split at h <;> cases h
      · unfold orStop at h
        split at h
        · rename_i hs; cases h; exact long_version hd hs
        · exact level_version hd args _ _ h
      · unfold orStop at h
        split at h
        · rename_i hs; cases h; exact shorts_version hd _ _ hs
        · exact level_version hd args _ _ h
      · cases h

theorem parseCli_version {canon : Str → Option Path} {home : Option Str} {args : List Str} : parseCli canon home args ≠ .stop .version := by
  have h1 : ∀ d ∈ cliArgs, d.action ≠ .version := by simp [cliArgs, helpArg, versionArg, verboseArg]
  have h2 : ∀ d ∈ parseArgs, d.action ≠ .version := by simp [parseArgs, helpArg, versionArg, inputArg, outputArg]
  have h3 : ∀ d ∈ initArgs, d.action ≠ .version := by simp [initArgs, helpArg, versionArg]
  intro h
  unfold parseCli at h
  split at h
  · rename_i hl; cases h; exact level_version h1 _ _ _ hl
  · cases h
  · split at h
    · unfold readParse at h
      split at h
      · rename_i hl; cases h; exact level_version h2 _ _ _ hl
      · cases h
      · split at h <;> cases h
    · split at h
      · rename_i hl; cases h; exact level_version h3 _ _ _ hl
      · cases h
      · cases h

end Smd.App
