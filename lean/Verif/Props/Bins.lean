import Verif.Lemmas.Bins
import Verif.Props.App

/-! C106 and C107: the programs that write the man page and the completion scripts. -/

namespace Smd.App
open Smd.Core

variable {os : Os} {x : Ctx} {w w' : World}

/-! ### C106 -/

/-- C106: without `OUT_DIR`, `smd-mangen` panics and changes nothing. -/
theorem C106_unset {resolve : Str → Path} {page : Bytes} (h : x.env.lookup c!"OUT_DIR" = none) (p : Prog End)
    (hs : Steps os x w (mangen x resolve page) w' p) : w' = w ∧ p = .ret .panic := by
  have e : mangen x resolve page = .ret .panic := by
    unfold mangen withOutDir
    rw [h]
  rw [e] at hs
  cases hs with
  | refl => exact ⟨rfl, rfl⟩
  | step _ _ _ _ _ _ h1 _ => cases h1

/-- C106: otherwise, whatever the system answers and however much of the page it writes at a time: at every moment only the
man page has changed, and it is as it was or a beginning of the page. The program ends with success or with an error of the
system. With success, the whole page is there. -/
theorem C106_page {resolve : Str → Path} {page : Bytes} {d : Str} (h : x.env.lookup c!"OUT_DIR" = some d) (hh : ∀ g, w.handles x.pid g = none)
    (p : Prog End) (hs : Steps os x w (mangen x resolve page) w' p) :
    (∀ q, q ≠ resolve d ++ [c!"smd.1"] → w'.names q = w.names q ∧ (¬ w.SameFile (resolve d ++ [c!"smd.1"]) q → w'.bytesAt q = w.bytesAt q)) ∧
    (w'.bytesAt (resolve d ++ [c!"smd.1"]) = w.bytesAt (resolve d ++ [c!"smd.1"]) ∨
      ∃ b, b <+: page ∧ w'.bytesAt (resolve d ++ [c!"smd.1"]) = some b) ∧
    ∀ r, p = .ret r → (r = .ok (.ok ()) ∧ w'.bytesAt (resolve d ++ [c!"smd.1"]) = some page) ∨ ∃ e, r = .ok (.error (.io e)) := by
  have e : mangen x resolve page = fsWrite (resolve d ++ [c!"smd.1"]) page := by
    unfold mangen withOutDir
    rw [h]
  rw [e] at hs
  have hk := Keep.steps (P := fun p => p = resolve d ++ [c!"smd.1"]) hs (Keep.refl hh) (createWith_only (P := fun p => p = resolve d ++ [c!"smd.1"]) rfl _)
  have ht := (createWith_track (os := os) (failed := fun e => .ok (.error e)) nofun (resolve d ++ [c!"smd.1"]) [page] w).steps hs
  have ef : [page].flatten = page := by simp
  rw [ef] at ht
  refine ⟨fun q hq => ⟨hk.names q hq, fun hs => hk.bytesAt hq fun p hp => by subst hp; exact hs⟩, ht.now, ?_⟩
  rintro r rfl
  obtain ⟨_, hw⟩ := ht
  obtain ⟨_, hr⟩ := (fsWrite_result (resolve d ++ [c!"smd.1"]) page w).steps hs
  rcases hr with rfl | hr
  · exact .inl ⟨rfl, hw.ok rfl⟩
  · exact .inr hr

theorem ends_call {α : Type} {w1 : World} {c : Call} {k : c.Ret → Prog α} {a : α} (r : c.Ret) (h : Sem os x w c r w1)
    (he : ∃ w', Ends os x w1 (k r) w' a) : ∃ w', Ends os x w (.call c k) w' a :=
  he.imp fun _ he => Ends.call r h he

/-- A process with `OUT_DIR`. -/
def builder : Ctx := ⟨1, [c!"d"], none, [(c!"HOME", c!"/h"), (c!"OUT_DIR", c!"/d")]⟩

/-- A directory with an old man page and an old script. -/
def disk2 : World := disk [([c!"d", c!"smd.1"], c!"old"), ([c!"d", c!"_smd"], c!"older")] [[], [c!"d"]]

/-- A page that is written in two steps. -/
example : builder.env.lookup c!"OUT_DIR" = some c!"/d" ∧ (∀ g, disk2.handles builder.pid g = none) ∧
    ∃ w', Ends (sys False) builder disk2 (mangen builder (fun _ => [c!"d"]) [1, 2, 3]) w' (.ok (.ok ())) := by
  refine ⟨by decide +kernel, fun _ => rfl, ?_⟩
  have e : mangen builder (fun _ => [c!"d"]) [1, 2, 3] = fsWrite [c!"d", c!"smd.1"] [1, 2, 3] := rfl
  rw [e]
  refine ends_call (c := .create _) (.ok 0) ⟨rfl, .inl ⟨0, by decide +kernel, rfl⟩⟩ ?_
  simp only [writePieces, writeAll, Prog.andThen, Prog.bind]
  refine ends_call (c := .write _ _) (.ok 2) ⟨by decide, False.elim, 0, 0, rfl, rfl⟩ ?_
  simp only [writeAll, List.drop, Prog.bind]
  refine ends_call (c := .write _ _) (.ok 1) ⟨by decide, False.elim, 0, 2, rfl, rfl⟩ ?_
  simp only [writeAll, List.drop, Prog.bind]
  exact ends_call (c := .close _) () rfl ⟨_, .ret _ _⟩

example : (proc 1).env.lookup c!"OUT_DIR" = none ∧
    Steps (sys True) (proc 1) disk2 (mangen (proc 1) (fun _ => [c!"d"]) [1, 2, 3]) disk2 (.ret .panic) := ⟨rfl, .refl _ _⟩

/-! ### C107 -/

/-- C107: without `OUT_DIR`, `smd-completions` panics and changes nothing. -/
theorem C107_unset {resolve : Str → Path} {scripts : Shell → List Bytes} (h : x.env.lookup c!"OUT_DIR" = none) (p : Prog End)
    (hs : Steps os x w (completions x resolve scripts) w' p) : w' = w ∧ p = .ret .panic := by
  have e : completions x resolve scripts = .ret .panic := by
    unfold completions withOutDir
    rw [h]
  rw [e] at hs
  cases hs with
  | refl => exact ⟨rfl, rfl⟩
  | step _ _ _ _ _ _ h1 _ => cases h1

/-- The file for the script of a shell. -/
def scriptFile : Shell → Str
  | .bash => c!"smd.bash"
  | .elvish => c!"smd.elv"
  | .fish => c!"smd.fish"
  | .powerShell => c!"_smd.ps1"
  | .zsh => c!"_smd"

theorem scriptFile_eq (s : Shell) : scriptFile s = s.fileName := by cases s <;> rfl

/-- C107: otherwise, at every moment only the five files have changed. The scripts of some of the first shells are complete,
that of the next one is as it was or a beginning, and the others are as they were. With success, all five are complete; else
there was an error of the system or a panic. -/
theorem C107_scripts {resolve : Str → Path} {scripts : Shell → List Bytes} {d : Str} (h : x.env.lookup c!"OUT_DIR" = some d)
    (hh : ∀ g, w.handles x.pid g = none) (hsep : ∀ s t, s ≠ t → ¬ w.SameFile (resolve d ++ [scriptFile s]) (resolve d ++ [scriptFile t]))
    (p : Prog End) (hs : Steps os x w (completions x resolve scripts) w' p) :
    (∀ q, (∀ s, q ≠ resolve d ++ [scriptFile s]) →
      w'.names q = w.names q ∧ ((∀ s, ¬ w.SameFile (resolve d ++ [scriptFile s]) q) → w'.bytesAt q = w.bytesAt q)) ∧
    (∃ done rest, done ++ rest = [Shell.bash, .elvish, .fish, .powerShell, .zsh] ∧
      (∀ s ∈ done, w'.bytesAt (resolve d ++ [scriptFile s]) = some (scripts s).flatten) ∧
      (∀ s ∈ rest.head?, w'.bytesAt (resolve d ++ [scriptFile s]) = w.bytesAt (resolve d ++ [scriptFile s]) ∨
        ∃ b, b <+: (scripts s).flatten ∧ w'.bytesAt (resolve d ++ [scriptFile s]) = some b) ∧
      ∀ s ∈ rest.tail, w'.bytesAt (resolve d ++ [scriptFile s]) = w.bytesAt (resolve d ++ [scriptFile s])) ∧
    ∀ r, p = .ret r → (r = .ok (.ok ()) ∧ ∀ s, w'.bytesAt (resolve d ++ [scriptFile s]) = some (scripts s).flatten) ∨
      (∃ e, r = .ok (.error (.io e))) ∨ r = .panic := by
  simp only [scriptFile_eq] at *
  have e : completions x resolve scripts = generateAll (resolve d) scripts Shell.all := by
    unfold completions withOutDir
    rw [h]
  rw [e] at hs
  have hk := Keep.steps (P := fun p => ∃ s ∈ Shell.all, p = resolve d ++ [s.fileName]) hs (Keep.refl hh)
    (generateAll_only (resolve d) scripts Shell.all fun s hs => ⟨s, hs, rfl⟩)
  have ht := (generateAll_track (os := os) (x := x) (scripts := scripts) (dir := resolve d) Shell.all w (by decide) hh
    fun s _ t _ hne => hsep s t hne).steps hs
  refine ⟨fun q hq => ⟨hk.names q fun ⟨s, _, e⟩ => hq s e, fun hs => hk.bytesAt (fun ⟨s, _, e⟩ => hq s e) ?_⟩, ?_, ?_⟩
  · rintro p ⟨s, _, rfl⟩
    exact hs s
  · obtain ⟨done, rest, e, h1, h2, h3⟩ := ht.now
    exact ⟨done, rest, e.symm, h1, h2, h3⟩
  · rintro r rfl
    obtain ⟨_, hw⟩ := ht
    obtain ⟨_, hr⟩ := (generateAll_result (os := os) (x := x) (resolve d) scripts Shell.all w).steps hs
    rcases hr with rfl | hr
    · exact .inl ⟨rfl, fun s => hw rfl s (by cases s <;> decide)⟩
    · exact .inr hr

theorem disk2_zsh {i : Nat} : ∀ s : Shell, disk2.names [c!"d", scriptFile s] = some (.file i) → s = .zsh
  | .zsh, _ => rfl
  | .bash, e => absurd (e.symm.trans (show disk2.names [c!"d", c!"smd.bash"] = none by decide +kernel)) nofun
  | .elvish, e => absurd (e.symm.trans (show disk2.names [c!"d", c!"smd.elv"] = none by decide +kernel)) nofun
  | .fish, e => absurd (e.symm.trans (show disk2.names [c!"d", c!"smd.fish"] = none by decide +kernel)) nofun
  | .powerShell, e => absurd (e.symm.trans (show disk2.names [c!"d", c!"_smd.ps1"] = none by decide +kernel)) nofun

theorem disk2_unused : disk2.Unused 2 := by
  refine ⟨fun q h => ?_, fun _ _ _ h => nomatch h⟩
  unfold disk2 disk at h
  simp only at h
  split at h
  · next i hi =>
    cases h
    have := (List.findIdx?_eq_some_iff_findIdx_eq.mp hi).1
    simp at this
  · split at h <;> cases h

/-- The first script is written, in two pieces, and the second cannot be. -/
example : builder.env.lookup c!"OUT_DIR" = some c!"/d" ∧ (∀ g, disk2.handles builder.pid g = none) ∧
    (∀ s t, s ≠ t → ¬ disk2.SameFile [c!"d", scriptFile s] [c!"d", scriptFile t]) ∧
    ∃ w', Ends (sys False) builder disk2 (completions builder (fun _ => [c!"d"]) fun _ => [[1, 2], [3]]) w' (.ok (.error (.io 7))) := by
  refine ⟨by decide +kernel, fun _ => rfl, fun s t hne ⟨i, e, e'⟩ => hne ((disk2_zsh s e).trans (disk2_zsh t e').symm), ?_⟩
  have e : completions builder (fun _ => [c!"d"]) (fun _ => [[1, 2], [3]]) = generateAll [c!"d"] (fun _ => [[1, 2], [3]]) Shell.all := rfl
  rw [e]
  refine ends_call (c := .create _) (.ok 0) ⟨rfl, .inr ⟨2, by decide +kernel, by decide, by decide +kernel, disk2_unused, rfl⟩⟩ ?_
  simp only [writePieces, writeAll, Prog.andThen, Prog.bind]
  refine ends_call (c := .write _ _) (.ok 2) ⟨by decide, False.elim, 2, 0, rfl, rfl⟩ ?_
  simp only [writeAll, List.drop, Prog.bind]
  refine ends_call (c := .write _ _) (.ok 1) ⟨by decide, False.elim, 2, 2, rfl, rfl⟩ ?_
  simp only [writeAll, List.drop, Prog.bind]
  refine ends_call (c := .close _) () rfl ?_
  exact ends_call (c := .create _) (.error 7) rfl ⟨_, .ret _ _⟩

end Smd.App
