import Verif.Npm.Cli

/-! C54, C64, C66, C108, C109: the npm wrapper. -/

namespace Smd.Npm
open Smd

/-! ### C54 -/

/-- C54: the arguments of all options are the arguments of the single options in order. -/
theorem C54_in_order (a b : List (Str × Js)) : optionsToStringArgs (a ++ b) = optionsToStringArgs a ++ optionsToStringArgs b := by
  induction a with
  | nil => rfl
  | cons e a ih =>
    obtain ⟨k, v⟩ := e
    simp only [List.cons_append, optionsToStringArgs, ih, List.append_assoc]

/-- C54: the arguments of one option, by its value. -/
theorem C54_one (k : Str) :
    optionsToStringArgs [(k, .bool true)] = [.str (c!"--" ++ hyphenCase k)] ∧
    optionsToStringArgs [(k, .bool false)] = [] ∧
    optionsToStringArgs [(k, .null)] = [] ∧
    (∀ s, optionsToStringArgs [(k, .str s)] = [.str (c!"--" ++ hyphenCase k), .str s]) ∧
    (∀ l : List Js, optionsToStringArgs [(k, .arr l)] = l.flatMap fun v => [.str (c!"--" ++ hyphenCase k), v]) := by
  refine ⟨rfl, rfl, rfl, fun s => rfl, fun l => ?_⟩
  simp [optionsToStringArgs, flag]

/-- The upper case of a lower case letter. -/
def upperFirst : Str → Str
  | [] => []
  | c :: s => c.toUpper :: s

theorem lower_toUpper : ∀ c : Char, 'a' ≤ c → c ≤ 'z' → ('A' ≤ c.toUpper ∧ c.toUpper ≤ 'Z') ∧ c.toUpper.toLower = c ∧ ¬ ('A' ≤ c ∧ c ≤ 'Z') ∧ c.toLower = c := by
  intro c h1 h2
  have h1 : 97 ≤ c.toNat := h1
  have h2 : c.toNat ≤ 122 := h2
  have : ∀ n : Nat, n ≤ 122 → 97 ≤ n → (('A' ≤ (Char.ofNat n).toUpper ∧ (Char.ofNat n).toUpper ≤ 'Z') ∧ (Char.ofNat n).toUpper.toLower = Char.ofNat n ∧
      ¬ ('A' ≤ Char.ofNat n ∧ Char.ofNat n ≤ 'Z') ∧ (Char.ofNat n).toLower = Char.ofNat n) := by
    intro n hn hn'
    have : n < 123 := by omega
    revert n
    decide +kernel
  have h := this c.toNat h2 h1
  rwa [Char.ofNat_toNat] at h

/-- Words of lower case letters and digits. -/
def Word (s : Str) : Prop := s ≠ [] ∧ (∀ c ∈ s, ('a' ≤ c ∧ c ≤ 'z') ∨ ('0' ≤ c ∧ c ≤ '9')) ∧ ∃ c, s.head? = some c ∧ 'a' ≤ c ∧ c ≤ 'z'

theorem hyphenCase_append (a b : Str) : hyphenCase (a ++ b) = hyphenCase a ++ hyphenCase b := by
  simp [hyphenCase]

theorem hyphenCase_plain {s : Str} (h : ∀ c ∈ s, ('a' ≤ c ∧ c ≤ 'z') ∨ ('0' ≤ c ∧ c ≤ '9')) : hyphenCase s = s := by
  induction s with
  | nil => rfl
  | cons c s ih =>
    have e := ih fun c hc => h c (List.mem_cons_of_mem _ hc)
    show hyphenCase ([c] ++ s) = _
    rw [hyphenCase_append, e]
    have : hyphenCase [c] = [c] := by
      rcases h c List.mem_cons_self with h | h
      · obtain ⟨_, _, h3, h4⟩ := lower_toUpper c h.1 h.2
        simp [hyphenCase, h3, h4]
      · have h1 : 48 ≤ c.toNat := h.1
        have h2 : c.toNat ≤ 57 := h.2
        have : ∀ n : Nat, n < 58 → 48 ≤ n → hyphenCase [Char.ofNat n] = [Char.ofNat n] := by decide +kernel
        have := this c.toNat (by omega) h1
        rwa [Char.ofNat_toNat] at this
    rw [this]
    rfl

/-- C54: a key made of words, the first in lower case and each other with an upper case letter in front, becomes the words
with hyphens between them. -/
theorem C54_keys {w : Str} {ws : List Str} (hw : Word w) (hws : ∀ v ∈ ws, Word v) :
    hyphenCase (w ++ ws.flatMap upperFirst) = w ++ ws.flatMap fun v => '-' :: v := by
  rw [hyphenCase_append, hyphenCase_plain hw.2.1]
  congr 1
  induction ws with
  | nil => rfl
  | cons v ws ih =>
    rw [List.flatMap_cons, List.flatMap_cons, hyphenCase_append, ih fun u hu => hws u (List.mem_cons_of_mem _ hu)]
    congr 1
    obtain ⟨_, h2, c, hc, h3, h4⟩ := hws v List.mem_cons_self
    cases v with
    | nil => cases hc
    | cons d v =>
      cases hc
      obtain ⟨h5, h6, _, _⟩ := lower_toUpper c h3 h4
      show hyphenCase ([c.toUpper] ++ v) = _
      rw [hyphenCase_append, hyphenCase_plain fun c hc => h2 c (List.mem_cons_of_mem _ hc)]
      have : hyphenCase [c.toUpper] = ['-', c] := by
        simp only [hyphenCase, List.flatMap_cons, List.flatMap_nil, if_pos h5, List.append_nil, List.map_cons, List.map_nil, h6]
        rfl
      rw [this]
      rfl

example : hyphenCase c!"withTagMessage" = c!"with-tag-message" := by
  refine C54_keys (w := c!"with") (ws := [c!"tag", c!"message"]) ⟨by decide, by decide, _, rfl, by decide, by decide⟩ ?_
  intro v hv
  simp only [List.mem_cons, List.not_mem_nil, or_false] at hv
  rcases hv with rfl | rfl <;> exact ⟨by decide, by decide, _, rfl, by decide, by decide⟩

/-! ### C64 -/

/-- A text. -/
def IsStr : Js → Prop
  | .str _ => True
  | _ => False

/-- C64 is false: an option that is present and undefined, which its type allows, is passed on as undefined. -/
theorem C64_refuted : ¬ ∀ (o : List (Str × Js)) (v : Js), v ∈ optionsToStringArgs o → IsStr v := by
  intro h
  exact h [(c!"tag", .undefined)] .undefined (by simp [optionsToStringArgs])

/-- C64, the part that holds: if every option is true, false, null, a text or an array of texts, all arguments are texts.
Missing: undefined and other values. -/
theorem C64_partial {o : List (Str × Js)} (h : ∀ e ∈ o, match e.2 with
      | .bool _ => True
      | .null => True
      | .str _ => True
      | .arr l => ∀ v ∈ l, IsStr v
      | _ => False) : ∀ v ∈ optionsToStringArgs o, IsStr v := by
  induction o with
  | nil => nofun
  | cons e o ih =>
    obtain ⟨k, a⟩ := e
    have h0 := h _ List.mem_cons_self
    have ih := ih fun e he => h e (List.mem_cons_of_mem _ he)
    intro v hv
    rcases List.mem_append.mp hv with hv | hv
    · clear ih
      cases a with
      | undefined => exact h0.elim
      | num n => exact h0.elim
      | null => cases hv
      | bool b =>
        cases b
        · cases hv
        · rw [List.mem_singleton.mp hv]; trivial
      | str s =>
        simp only [List.mem_cons, List.not_mem_nil, or_false] at hv
        rcases hv with rfl | rfl <;> trivial
      | arr l =>
        obtain ⟨u, hu, hv⟩ := List.mem_flatMap.mp hv
        simp only [List.mem_cons, List.not_mem_nil, or_false] at hv
        rcases hv with rfl | rfl
        · trivial
        · exact h0 _ hu
    · exact ih v hv

example : ∀ v ∈ optionsToStringArgs [(c!"verbose", .bool true), (c!"ignoreTags", .arr [.str c!"a", .str c!"b"])], IsStr v :=
  C64_partial (by
    intro e he
    simp only [List.mem_cons, List.not_mem_nil, or_false] at he
    rcases he with rfl | rfl
    · trivial
    · intro v hv
      simp only [List.mem_cons, List.not_mem_nil, or_false] at hv
      rcases hv with rfl | rfl <;> trivial)

/-- C64, exactly: undefined and other values are always passed on. -/
theorem C64_exact {o : List (Str × Js)} : (∀ v ∈ optionsToStringArgs o, IsStr v) ↔ ∀ e ∈ o, match e.2 with
      | .bool _ => True
      | .null => True
      | .str _ => True
      | .arr l => ∀ v ∈ l, IsStr v
      | _ => False := by
  refine ⟨fun h e he => ?_, C64_partial⟩
  obtain ⟨a, b, rfl⟩ := List.append_of_mem he
  have h : ∀ v ∈ optionsToStringArgs [e], IsStr v := fun v hv => h v (by
    rw [C54_in_order, show e :: b = [e] ++ b from rfl, C54_in_order]
    simp [hv])
  obtain ⟨k, v⟩ := e
  cases v with
  | undefined => exact h .undefined (by simp [optionsToStringArgs])
  | num n => exact h (.num n) (by simp [optionsToStringArgs])
  | null => trivial
  | bool b => trivial
  | str s => trivial
  | arr l => exact fun v hv => h v (by rw [(C54_one k).2.2.2.2]; exact List.mem_flatMap.mpr ⟨v, hv, by simp⟩)

example : ¬ ∀ v ∈ optionsToStringArgs [(c!"verbose", .bool true), (c!"ignoreTags", .arr [.str c!"a", .undefined])], IsStr v := by
  rw [C64_exact]
  intro h
  exact h (c!"ignoreTags", .arr [.str c!"a", .undefined]) (by simp) .undefined (by simp)

/-! ### C66 -/

/-- C66 is false, for every platform: the executable the wrapper looks for is in none of the packages it depends on. -/
theorem C66_refuted (platform arch : Str) : ∀ d ∈ dependencies, ¬ d ++ c!"/" <+: exeModule platform arch := by
  intro d hd ⟨t, ht⟩
  have h2 := congrArg (fun s => s.head?) ht
  have e : (exeModule platform arch).head? = some 'g' := rfl
  replace h2 := h2.trans e
  simp only [dependencies, List.mem_cons, List.not_mem_nil, or_false] at hd
  rcases hd with rfl | rfl | rfl | rfl | rfl | rfl | rfl <;> exact absurd h2 (by simp)

example : exeModule c!"win32" c!"x64" = c!"git-cliff-windows-x64/bin/git-cliff.exe" ∧ c!"smd-windows-x64" ∈ dependencies := by decide +kernel

/-- C66, the part that holds: but for the name of the program, the executable is that of a package the wrapper depends on. -/
theorem C66_partial (platform arch : Str) (hp : platform ∈ [c!"darwin", c!"linux", c!"win32", c!"cygwin"]) (ha : arch ∈ [c!"arm64", c!"x64"]) :
    ∃ x, c!"smd-" ++ x ∈ dependencies ∧ c!"git-cliff-" ++ x ++ c!"/bin/git-cliff" <+: exeModule platform arch := by
  refine ⟨(if platform = c!"win32" ∨ platform = c!"cygwin" then c!"windows" else platform) ++ '-' :: arch, ?_, ?_⟩
  · simp only [List.mem_cons, List.not_mem_nil, or_false] at hp ha
    rcases hp with rfl | rfl | rfl | rfl <;> rcases ha with rfl | rfl <;> decide
  · exact ⟨if platform = c!"win32" ∨ platform = c!"cygwin" then c!".exe" else [], by simp [exeModule]⟩

example : ∃ x, c!"smd-" ++ x ∈ dependencies ∧ c!"git-cliff-" ++ x ++ c!"/bin/git-cliff" <+: exeModule c!"cygwin" c!"x64" :=
  C66_partial _ _ (by decide) (by decide)

/-! ### C108 -/

/-- C108 is false: the status of the program is lost. An error in the command line of `smd` (status 2) ends the command with
status 1. -/
theorem C108_refuted : ¬ ∀ (installed : Str → Bool) (platform arch : Str) (child : Str → List Js → Child) (args : List Str) (n : Nat),
    installed c!"git-cliff-linux-x64" = true → platform = c!"linux" → arch = c!"x64" →
    child c!"git-cliff-linux-x64/bin/git-cliff" (args.map .str) = .exited n → cliStatus installed platform arch child args = n := by
  intro h
  exact absurd (h (fun _ => true) c!"linux" c!"x64" (fun _ _ => .exited 2) [] 2 rfl rfl rfl rfl) (by decide +kernel)

theorem takeWhile_slash (a b : Str) (h : '/' ∉ a) : (a ++ '/' :: b).takeWhile (· ≠ '/') = a := by
  induction a with
  | nil => simp
  | cons c a ih =>
    have hc : c ≠ '/' := fun e => h (by simp [e])
    have ha : '/' ∉ a := fun e => h (List.mem_cons_of_mem _ e)
    simp only [List.cons_append, List.takeWhile_cons, hc, ne_eq, not_false_eq_true, decide_true, if_true]
    exact congrArg (c :: ·) (ih ha)

/-- C108, the part that holds: if the package is installed, the arguments reach the program as they are, the status is 0 if
that of the program is, and else 1. Missing: statuses other than 0 and 1. -/
theorem C108_partial (installed : Str → Bool) (platform arch : Str) (child : Str → List Js → Child) (args : List Str)
    (hp : '/' ∉ platform) (ha : '/' ∉ arch)
    (h : installed (c!"git-cliff-" ++ (if platform = c!"win32" ∨ platform = c!"cygwin" then c!"windows" else platform) ++ '-' :: arch) = true) :
    cliStatus installed platform arch child args = if child (exeModule platform arch) (args.map .str) = .exited 0 then 0 else 1 := by
  have e : packageOf (exeModule platform arch) =
      c!"git-cliff-" ++ (if platform = c!"win32" ∨ platform = c!"cygwin" then c!"windows" else platform) ++ '-' :: arch := by
    unfold packageOf
    have : exeModule platform arch = (c!"git-cliff-" ++ (if platform = c!"win32" ∨ platform = c!"cygwin" then c!"windows" else platform) ++ '-' :: arch) ++
        '/' :: (c!"bin/git-cliff" ++ if platform = c!"win32" ∨ platform = c!"cygwin" then c!".exe" else []) := by
      simp [exeModule]
    rw [this]
    refine takeWhile_slash _ _ ?_
    split <;> simp [hp, ha]
  unfold cliStatus runGitCliff getExePath
  rw [e, if_pos h]
  show (match execa (child (exeModule platform arch) (args.map .str)) with | some code => code.getD 0 | none => 1) = _
  generalize child (exeModule platform arch) (args.map .str) = c
  cases c with
  | missing => rfl
  | killed s => rfl
  | exited n =>
    cases n with
    | zero => rfl
    | succ n => rw [if_neg (by simp)]; rfl

example : cliStatus (fun p => p == c!"git-cliff-windows-x64") c!"win32" c!"x64" (fun _ a => if a.length = 2 then .exited 0 else .exited 2) [c!"init", c!"-v"] = 0 :=
  (C108_partial _ _ _ _ _ (by decide) (by decide) (by decide +kernel)).trans (by decide +kernel)

/-! ### C109 -/

/-- C109 is false, always: with no other packages than those the wrapper depends on, the command ends with status 1,
whatever the platform, the arguments and the program. -/
theorem C109_refuted (installed : Str → Bool) (hi : ∀ p, installed p = true → p ∈ dependencies) (platform arch : Str) (child : Str → List Js → Child)
    (args : List Str) : cliStatus installed platform arch child args = 1 := by
  have e : installed (packageOf (exeModule platform arch)) = false := by
    cases h : installed (packageOf (exeModule platform arch)) with
    | false => rfl
    | true =>
      exfalso
      have hm := hi _ h
      have e : (packageOf (exeModule platform arch)).head? = some 'g' := rfl
      generalize packageOf (exeModule platform arch) = d at hm e
      simp only [dependencies, List.mem_cons, List.not_mem_nil, or_false] at hm
      rcases hm with rfl | rfl | rfl | rfl | rfl | rfl | rfl <;> exact absurd e (by simp)
  unfold cliStatus runGitCliff getExePath
  rw [e]
  rfl

example : ∃ installed : Str → Bool, (∀ p, installed p = true → p ∈ dependencies) ∧ installed c!"smd-linux-x64" = true :=
  ⟨fun p => p ∈ dependencies, fun p h => of_decide_eq_true h, by decide +kernel⟩

/-- C109, the part that holds: where a package with the name that the wrapper looks for is installed and holds `smd`, the command
succeeds exactly if `smd` does. Missing: such a package among those the wrapper depends on. -/
theorem C109_partial (installed : Str → Bool) (platform arch : Str) (child : Str → List Js → Child) (args : List Str)
    (h : installed (packageOf (exeModule platform arch)) = true) :
    cliStatus installed platform arch child args = 0 ↔ child (exeModule platform arch) (args.map .str) = .exited 0 := by
  unfold cliStatus runGitCliff getExePath
  rw [if_pos h]
  show (match execa (child (exeModule platform arch) (args.map .str)) with | some code => code.getD 0 | none => 1) = 0 ↔ _
  generalize child (exeModule platform arch) (args.map .str) = c
  cases c with
  | missing => simp [execa]
  | killed s => simp [execa]
  | exited n =>
    cases n with
    | zero => simp [execa]
    | succ n => simp [execa]

example : cliStatus (fun p => p == c!"git-cliff-linux-x64") c!"linux" c!"x64" (fun _ _ => .exited 0) [c!"init"] = 0 :=
  (C109_partial _ _ _ _ _ (by decide +kernel)).mpr rfl

end Smd.Npm
