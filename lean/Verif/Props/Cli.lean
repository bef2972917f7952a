import Verif.Lemmas.Cli
import Verif.Npm.Args

/-! C97–C102: the command line. -/

namespace Smd.App
open Smd.Core Smd.Rs Smd.Spec

variable {canon : Str → Option Path} {home : Option Str} {args : List Str}

/-- A file system with one file, for the examples. -/
def oneFile (f : Str) : Option Path := if f = c!"/home/u/a.md" then some [c!"home", c!"u", c!"a.md"] else none

/-! ### C97 -/

/-- C97 is false, always: no command line shows the version. -/
theorem C97_refuted (canon : Str → Option Path) (home : Option Str) : ∀ args, parseCli canon home args ≠ .stop .version :=
  fun _ => parseCli_version

/-- C97, the part that holds: `--version`, `-V` and `--help`, `-h` behave alike: after right arguments they show the help and
exit with 0, whatever follows. Missing: the version. -/
theorem C97_partial : parseCli canon home args = .stop .help ↔ HelpLine canon home args := parseCli_help_iff

example : parseCli oneFile none [c!"-vv", c!"parse", c!"--output=html", c!"-V", c!"--what"] = .stop .help :=
  C97_partial.mpr (.parse (vs := [c!"-vv"]) (opts := [c!"--output=html"]) (.cons (.short 2 (by decide)) .nil)
    (.output (o := .html) .longEq) (.short 0 'V' (.inr rfl) []))

/-! ### C98 -/

/-- C98: the accepted command lines, with the verbosity and the command each stands for. -/
theorem C98_accepted {v : Nat} {cmd : Command} : parseCli canon home args = .run v cmd ↔ CommandLine canon home args v cmd := parseCli_iff

example : parseCli oneFile (some c!"/home/u") [c!"--debug", c!"-vv", c!"parse", c!"-ohtml", c!"-i", c!"~/a.md"] =
    .run 3 (.parse [c!"home", c!"u", c!"a.md"] .html) :=
  C98_accepted.mpr (.parseTo (n := 3) (vs := [c!"--debug", c!"-vv"]) (is := [c!"-i", c!"~/a.md"]) (os := [c!"-ohtml"]) (tail := [])
    (opts := [c!"-ohtml", c!"-i", c!"~/a.md"])
    (.cons .debug (.cons (.short 2 (by decide)) .nil)) (.shortNext (by decide)) (by decide) (.joined (by decide) (by decide)) (.inr rfl) (.inl rfl))

/-- C98: a command line stands for one verbosity and one command. -/
theorem C98_unambiguous {v v' : Nat} {cmd cmd' : Command} (h : CommandLine canon home args v cmd) (h' : CommandLine canon home args v' cmd') :
    v = v' ∧ cmd = cmd' := by
  have := (C98_accepted.mpr h).symm.trans (C98_accepted.mpr h')
  cases this
  exact ⟨rfl, rfl⟩

/-! ### C99 -/

/-- C99 is false, for all accepted command lines: `-v` comes before the subcommand only, in each of its spellings. -/
theorem C99_refuted_always {v : Nat} {cmd : Command} (h : parseCli canon home args = .run v cmd) :
    ∃ n vs name rest, args = vs ++ name :: rest ∧ Verbs n vs ∧ (name = c!"parse" ∨ name = c!"initialize") ∧ ∀ a ∈ rest, ∀ m, ¬ VerbSrc m a := by
  have hin : ∀ {f as}, OptSrc 'i' c!"input" f as → ∀ a ∈ as, ∀ m, ¬ VerbSrc m a :=
    fun h => opt_not_verb (by decide) (by decide) (by decide) h
  have hout : ∀ {f as}, OptSrc 'o' c!"output" f as → ∀ a ∈ as, ∀ m, ¬ VerbSrc m a :=
    fun h => opt_not_verb (by decide) (by decide) (by decide) h
  have htail : ∀ {tail : List Str}, tail = [] ∨ tail = [c!"--"] → ∀ a ∈ tail, ∀ m, ¬ VerbSrc m a := by
    rintro tail (rfl | rfl) a ha m hv
    · cases ha
    · rw [List.mem_singleton.mp ha] at hv
      generalize e : c!"--" = b at hv
      cases hv with
      | short _ hn =>
        cases m with
        | zero => omega
        | succ m => simp [List.replicate_succ] at e
      | long => cases e
      | debug => cases e
  cases C98_accepted.mp h with
  | init hv ht => exact ⟨_, _, _, _, rfl, hv, .inr rfl, htail ht⟩
  | parse hv hi hp ht =>
    refine ⟨_, _, _, _, rfl, hv, .inl rfl, fun a ha => ?_⟩
    rcases List.mem_append.mp ha with ha | ha
    · exact hin hi a ha
    · exact htail ht a ha
  | parseTo hv hi hp ho ho' ht =>
    refine ⟨_, _, _, _, rfl, hv, .inl rfl, fun a ha => ?_⟩
    rcases List.mem_append.mp ha with ha | ha
    · rcases ho' with rfl | rfl
      · rcases List.mem_append.mp ha with ha | ha
        · exact hin hi a ha
        · exact hout ho a ha
      · rcases List.mem_append.mp ha with ha | ha
        · exact hout ho a ha
        · exact hin hi a ha
    · exact htail ht a ha

/-- C99 is false: `smd parse -i a.md` is accepted, `smd parse -i a.md -v` is not. -/
theorem C99_refuted : ¬ ∀ (canon : Str → Option Path) (home : Option Str) (xs ys : List Str) (v : Nat) (cmd : Command),
    parseCli canon home (xs ++ ys) = .run v cmd → ∃ v', parseCli canon home (xs ++ c!"-v" :: ys) = .run v' cmd := by
  intro h
  obtain ⟨v, hv⟩ := h oneFile none [c!"parse", c!"-i", c!"/home/u/a.md"] [] 0 (.parse [c!"home", c!"u", c!"a.md"] .pdf)
    (C98_accepted.mpr (.parse (vs := []) (is := [c!"-i", c!"/home/u/a.md"]) (tail := []) .nil (.shortNext (by decide)) (by decide) (.inl rfl)))
  obtain ⟨n, vs, name, rest, e, hvs, hname, hr⟩ := C99_refuted_always hv
  cases vs with
  | nil =>
    simp only [List.cons_append, List.nil_append, List.cons.injEq] at e
    exact hr c!"-v" (by rw [← e.2]; simp) 1 (.short 1 (by decide))
  | cons a vs =>
    simp only [List.cons_append, List.nil_append, List.cons.injEq] at e
    cases hvs with
    | cons h hs =>
      have := verb_ne_sub h
      rw [← e.1] at this
      exact absurd this (by decide)

/-- C99, the part that holds: before the subcommand any number of `-v` may be added, and they are counted up to 255.
Missing: after the subcommand. -/
theorem C99_partial {m n v : Nat} {vs us : List Str} {name : Str} {rest : List Str} {cmd : Command} (hv : Verbs n vs) (hu : Verbs m us)
    (hname : name = c!"parse" ∨ name = c!"initialize") (h : parseCli canon home (vs ++ name :: rest) = .run v cmd) :
    v = min n 255 ∧ parseCli canon home (vs ++ (us ++ name :: rest)) = .run (min (n + m) 255) cmd := by
  have hsub : name ∈ subcommands := by rcases hname with rfl | rfl <;> decide
  have hs : ∀ {k ws}, Verbs k ws → readLevel cliArgs subcommands (checkValue canon home) {} none (ws ++ name :: rest) =
      .sub { count := min k 255 } name rest := by
    intro k ws hw
    rw [level_verbs hw (Nat.zero_le _), readLevel, if_pos (by simpa using hsub)]
    simp
  have hvu : Verbs (n + m) (vs ++ us) := by
    clear h hs
    induction hv with
    | nil => simpa using hu
    | @cons a b x xs h hs ih => rw [Nat.add_assoc]; exact .cons h ih
  rw [← List.append_assoc]
  unfold parseCli at h ⊢
  rw [hs hv] at h
  rw [hs hvu]
  rcases hname with rfl | rfl
  · simp only [if_true] at h ⊢
    unfold readParse at h ⊢
    split at h
    · cases h
    · cases h
    · split at h
      · cases h
      · cases h; exact ⟨rfl, rfl⟩
  · simp only [show ¬ c!"initialize" = c!"parse" by decide, if_false] at h ⊢
    split at h
    · cases h
    · cases h
    · cases h; exact ⟨rfl, rfl⟩

example : parseCli oneFile none ([c!"-v"] ++ ([c!"--verbose"] ++ c!"initialize" :: [])) = .run 2 .init :=
  (C99_partial (n := 1) (m := 1) (.cons (.short 1 (by decide)) .nil) (.cons .long .nil) (.inr rfl)
    (C98_accepted.mpr (.init (n := 1) (.cons (.short 1 (by decide)) .nil) (.inl rfl)))).2

/-! ### C100 -/

open Smd.Npm in
/-- A value of a type, or `undefined`, since all options are optional. -/
def OfType : JsType → Js → Prop
  | _, .undefined => True
  | .boolean, .bool _ => True
  | .boolOrString, .bool _ => True
  | .boolOrString, .str _ => True
  | .string, .str _ => True
  | .stringOrArray, .str _ => True
  | .stringOrArray, .arr l => ∀ v ∈ l, ∃ s, v = .str s
  | .oneOf l, .str s => s ∈ l
  | _, _ => False

open Smd.Npm in
/-- C100 is false for every object: whatever options are given, if they have the types that `Options` asks for, no command is
run, because no option is a subcommand. -/
theorem C100_refuted (other : Js → Str) (canon : Str → Option Path) (home : Option Str) {o : List (Str × Js)}
    (h : ∀ e ∈ o, ∃ t, (e.1, t) ∈ optionTypes ∧ OfType t e.2) (v : Nat) (cmd : Command) :
    parseCli canon home ((runArgs (.options o)).map (argText other)) ≠ .run v cmd := by
  have known : ∀ e ∈ optionTypes, (e.1 = c!"help" ∨ e.1 = c!"version" ∨ e.1 = c!"verbose") ∧ (match e.2 with | .boolean => True | _ => False) ∨
      (hyphenCase e.1 ≠ [] ∧ '=' ∉ hyphenCase e.1 ∧ cliArgs.all fun d => !d.longs.contains (hyphenCase e.1)) := by
    have : optionTypes.all (fun e => (e.1 == c!"help" || e.1 == c!"version" || e.1 == c!"verbose") && (match e.2 with | .boolean => true | _ => false) ||
        (hyphenCase e.1 != [] && !(hyphenCase e.1).contains '=' && cliArgs.all fun d => !d.longs.contains (hyphenCase e.1))) = true := by decide +kernel
    intro e he
    have := List.all_eq_true.mp this e he
    simp only [Bool.or_eq_true, Bool.and_eq_true, beq_iff_eq, bne_iff_ne, Bool.not_eq_true', List.contains_eq_mem, decide_eq_false_iff_not] at this
    rcases this with ⟨h1, h2⟩ | ⟨⟨h1, h2⟩, h3⟩
    · left
      refine ⟨or_assoc.mp h1, ?_⟩
      split at h2
      · trivial
      · cases h2
    · exact .inr ⟨h1, h2, by simpa using h3⟩
  -- an unknown long option ends the reading
  have unknown : ∀ (check : Str → Str → Bool) (st : Vals) (k : Str) (rest : List Str), hyphenCase k ≠ [] → '=' ∉ hyphenCase k →
      (cliArgs.all fun d => !d.longs.contains (hyphenCase k)) = true →
      readLevel cliArgs subcommands check st none ((c!"--" ++ hyphenCase k) :: rest) = .stop .usage := by
    intro check st k rest h1 h2 h3
    have hs : subcommands.contains (c!"--" ++ hyphenCase k) = false := by simp [subcommands]
    have hk : kindOf (c!"--" ++ hyphenCase k) = .long (hyphenCase k) := by
      cases e : hyphenCase k with
      | nil => exact absurd e h1
      | cons a s => rfl
    have hf : cliArgs.find? (·.longs.contains (hyphenCase k)) = none := by
      rw [List.find?_eq_none]
      intro d hd
      have := List.all_eq_true.mp h3 d hd
      simpa using this
    rw [readLevel, hs]
    simp only [hk, readLong, splitOnce_none h2, hf, Bool.false_eq_true, if_false]
    rfl
  have key : ∀ (check : Str → Str → Bool) (o : List (Str × Js)), (∀ e ∈ o, ∃ t, (e.1, t) ∈ optionTypes ∧ OfType t e.2) → ∀ st s n r,
      readLevel cliArgs subcommands check st none ((optionsToStringArgs o).map (argText other)) ≠ .sub s n r := by
    intro check o
    induction o with
    | nil => intro _ st s n r h; simp [optionsToStringArgs, readLevel] at h
    | cons e o ih =>
      intro h st s n r
      obtain ⟨k, val⟩ := e
      obtain ⟨t, ht, hty⟩ := h (k, val) (by simp)
      have ih := ih fun e he => h e (by simp [he])
      simp only at hty
      rcases known _ ht with ⟨hk, hb⟩ | ⟨h1, h2, h3⟩
      · have hb : t = .boolean := by cases t <;> simp at hb ⊢
        subst hb
        -- `--help`, `--version` and `--verbose`, and what follows them
        have flags : ∀ rest : List Str, (∀ st s n r, readLevel cliArgs subcommands check st none rest ≠ .sub s n r) → ∀ st s n r,
            readLevel cliArgs subcommands check st none ((c!"--" ++ hyphenCase k) :: rest) ≠ .sub s n r := by
          intro rest hr st s n r
          simp only at hk
          rcases hk with rfl | rfl | rfl
          · have : c!"--" ++ hyphenCase c!"help" = c!"--help" := by decide +kernel
            rw [this, level_cli_help .help]
            exact fun h => by cases h
          · have : c!"--" ++ hyphenCase c!"version" = c!"--version" := by decide +kernel
            rw [this, level_cli_help .version]
            exact fun h => by cases h
          · have : c!"--" ++ hyphenCase c!"verbose" = c!"--verbose" := by decide +kernel
            rw [this, readLevel, verb_ne_sub .long]
            exact hr _ s n r
        cases val with
        | undefined =>
          refine flags (c!"undefined" :: _) (fun st s n r => ?_) st s n r
          rw [readLevel]
          exact fun h => by cases h
        | bool b =>
          cases b with
          | true => exact flags _ ih st s n r
          | false => exact ih st s n r
        | null => exact hty.elim
        | num _ => exact hty.elim
        | str _ => exact hty.elim
        | arr _ => exact hty.elim
      · have stop : ∀ rest : List Str, readLevel cliArgs subcommands check st none ((c!"--" ++ hyphenCase k) :: rest) ≠ .sub s n r := by
          intro rest
          rw [unknown check st k rest h1 h2 h3]
          exact fun h => by cases h
        cases val with
        | undefined => exact stop _
        | bool b =>
          cases b with
          | true => exact stop _
          | false => exact ih st s n r
        | null => exact ih st s n r
        | num _ => exact stop _
        | str _ => exact stop _
        | arr l =>
          cases l with
          | nil => exact ih st s n r
          | cons x l => exact stop _
  intro hp
  unfold parseCli at hp
  split at hp
  · cases hp
  · cases hp
  · rename_i hl
    exact key _ o h _ _ _ _ hl

open Smd.Npm in
example (v : Nat) (cmd : Command) :
    parseCli oneFile none ((runArgs (.options [(c!"verbose", .bool true), (c!"output", .str c!"html"), (c!"init", .str c!"x"),
      (c!"strip", .str c!"all"), (c!"ignoreTags", .arr [.str c!"parse"])])).map (argText fun _ => [])) ≠ .run v cmd :=
  C100_refuted _ _ _ (by
    intro e he
    simp only [List.mem_cons, List.not_mem_nil, or_false] at he
    rcases he with rfl | rfl | rfl | rfl | rfl
    · exact ⟨.boolean, by simp [optionTypes], trivial⟩
    · exact ⟨.string, by simp [optionTypes], trivial⟩
    · exact ⟨.boolOrString, by simp [optionTypes], trivial⟩
    · exact ⟨.oneOf [c!"header", c!"footer", c!"all"], by simp [optionTypes], by simp [OfType]⟩
    · exact ⟨.stringOrArray, by simp [optionTypes], by simp [OfType]⟩) v cmd

open Smd.Npm in
/-- C100, the part that holds: an array is passed on as it is, so that the commands of C98 are run for the same arrays.
Missing: objects. -/
theorem C100_partial (other : Js → Str) {l : List Str} {v : Nat} {cmd : Command} :
    parseCli canon home ((runArgs (.args l)).map (argText other)) = .run v cmd ↔ CommandLine canon home l v cmd := by
  have : (runArgs (.args l)).map (argText other) = l := by simp [runArgs, argText, Function.comp_def]
  rw [this, C98_accepted]

open Smd.Npm in
example : parseCli oneFile none ((runArgs (.args [c!"parse", c!"--input=/home/u/a.md"])).map (argText fun _ => [])) =
    .run 0 (.parse [c!"home", c!"u", c!"a.md"] .pdf) :=
  (C100_partial _).mpr (.parse (vs := []) (is := [c!"--input=/home/u/a.md"]) (tail := []) .nil .longEq (by decide) (.inl rfl))

/-! ### C101 -/

/-- C101: every command line is of one of three kinds, and the exit status of the process is that of the command, 0 or 2. -/
theorem C101_status (canon : Str → Option Path) (home : Option Str) (args : List Str) (ending : Command → End) :
    (∃ v cmd, CommandLine canon home args v cmd ∧ ¬ HelpLine canon home args ∧ processStatus canon home args ending = exitStatus (ending cmd)) ∨
    (HelpLine canon home args ∧ (¬ ∃ v cmd, CommandLine canon home args v cmd) ∧ processStatus canon home args ending = some 0) ∨
    (¬ HelpLine canon home args ∧ (¬ ∃ v cmd, CommandLine canon home args v cmd) ∧ processStatus canon home args ending = some 2) := by
  simp only [← C98_accepted, ← C97_partial]
  unfold processStatus
  cases e : parseCli canon home args with
  | run v cmd => exact .inl ⟨v, cmd, rfl, by simp, rfl⟩
  | stop s =>
    cases s with
    | help => exact .inr (.inl ⟨rfl, by simp, rfl⟩)
    | version => exact absurd e parseCli_version
    | usage => exact .inr (.inr ⟨by simp, by simp, rfl⟩)

/-- C101: the status is 2 exactly if the command line is wrong. -/
theorem C101_usage (ending : Command → End) :
    processStatus canon home args ending = some 2 ↔ ¬ HelpLine canon home args ∧ ¬ ∃ v cmd, CommandLine canon home args v cmd := by
  have h2 : ∀ e, exitStatus e ≠ some 2 := by
    intro e
    cases e with
    | ok r => cases r <;> simp [exitStatus]
    | panic => simp [exitStatus]
    | hang => simp [exitStatus]
    | fuelOut => simp [exitStatus]
  rcases C101_status canon home args ending with ⟨v, cmd, h, hn, e⟩ | ⟨h, hn, e⟩ | ⟨h, hn, e⟩
  · exact ⟨fun h' => absurd (e.symm.trans h') (h2 _), fun h' => absurd ⟨v, cmd, h⟩ h'.2⟩
  · exact ⟨fun h' => absurd (e.symm.trans h') (by simp), fun h' => absurd h h'.1⟩
  · exact ⟨fun _ => ⟨h, hn⟩, fun _ => e⟩

example : processStatus oneFile none [c!"parse"] (fun _ => .ok (.ok ())) = some 2 ∧
    processStatus oneFile none [c!"parse", c!"-h"] (fun _ => .panic) = some 0 ∧
    processStatus oneFile none [c!"parse", c!"-i/home/u/a.md"] (fun _ => .panic) = some 101 := by decide +kernel

/-- C101: the status of `smd parse -i arg` in C51 is that of the process. -/
theorem C101_parse {arg : Str} (h : arg.head? = some '-' → arg = c!"-") (ending : Command → End) :
    processStatus canon home [c!"parse", c!"-i", arg] ending = mainStatus canon home arg fun p => ending (.parse p .pdf) := by
  unfold mainStatus
  cases hp : parseInput canon home arg with
  | some p =>
    have : parseCli canon home [c!"parse", c!"-i", arg] = .run 0 (.parse p .pdf) :=
      C98_accepted.mpr (.parse (vs := []) (is := [c!"-i", arg]) (tail := []) .nil (.shortNext h) ((parseInput_eq ..).symm.trans hp) (.inl rfl))
    simp [processStatus, this]
  | none =>
    have hl := level_opt (check := checkValue canon home) (.input (.shortNext h)) {} []
    have hs : ({} : Vals).set (checkValue canon home) c!"input" arg = .error .usage := by
      simp [Vals.set, checkValue, hp]
    rw [hs] at hl
    have : parseCli canon home [c!"parse", c!"-i", arg] = .stop .usage := by
      have hc : readLevel cliArgs subcommands (checkValue canon home) {} none [c!"parse", c!"-i", arg] = .sub {} c!"parse" [c!"-i", arg] := by
        rw [readLevel, if_pos (by decide)]
      unfold parseCli
      rw [hc]
      simp only [if_true, readParse]
      rw [show [c!"-i", arg] = [c!"-i", arg] ++ [] from rfl, hl]
      rfl
    simp [processStatus, this]

example (ending : Command → End) : processStatus oneFile none [c!"parse", c!"-i", c!"/b.md"] ending = some 2 :=
  (C101_parse (by decide) ending).trans rfl

/-! ### C102 -/

/-- C102: the log filter for an accepted command line: `n` is how often `-v` is given, in any spelling. -/
theorem C102_filter {n v : Nat} {vs : List Str} {name : Str} {rest : List Str} {cmd : Command} (hv : Verbs n vs)
    (hname : name = c!"parse" ∨ name = c!"initialize") (h : parseCli canon home (vs ++ name :: rest) = .run v cmd) (env : Option Str) :
    rustLog v env = some (match n with
      | 0 => env.getD c!"info"
      | 1 => c!"debug"
      | _ => c!"trace") := by
  have e := (C99_partial hv .nil hname h).1
  subst e
  match n with
  | 0 => cases env <;> simp [rustLog]
  | 1 => simp [rustLog]
  | n + 2 =>
    have : min (n + 2) 255 ≠ 1 := by omega
    have : min (n + 2) 255 > 1 := by omega
    simp [rustLog, *]

example : rustLog 255 none = some c!"trace" :=
  C102_filter (canon := oneFile) (home := none) (n := 300) (vs := ['-' :: List.replicate 300 'v']) (rest := []) (cmd := .init)
    (.cons (m := 0) (.short 300 (by decide)) .nil) (.inr rfl)
    (C98_accepted.mpr (.init (n := 300) (.cons (m := 0) (.short 300 (by decide)) .nil) (.inl rfl))) none

end Smd.App
