import Verif.Lemmas.Failing
import Verif.Props.Talk

/-!
C127: the first failure is the one that is reported. When an operation of the system or the browser fails, the program does nothing more
(but close the file it was writing) and ends with the error of this operation. Without a failure a run ends with an error only because of
the configuration. For the browser the message tells which step has failed.
-/

namespace Smd.Core
open Smd.Spec Smd.App Smd.Rs

variable {os : Os} {x : Ctx}

/-- C127: once a call has failed, the rest of the program is to return this error; after a failed write the file is closed first. -/
theorem C127_at_once (cmd : Command) (w w1 : World) (c : Call) (k : c.Ret → Prog End) (h : Steps os x w (run os x cmd) w1 (.call c k)) (r : c.Ret)
    (f : Failure) (hf : failure c r = some f) :
    k r = .ret (.ok (.error f.error)) ∨ ∃ n b, c = .write n b ∧ k r = .call (.close n) fun _ => .ret (.ok (.error f.error)) :=
  (((run_strict cmd).steps h) r).2 f hf

example : (∃ k, Steps (sys True) (proc 1) disk1 (run (sys True) (proc 1) (.parse [c!"d", c!"a.md"] .html)) disk1 (.call (.read [c!"d", c!"a.md"]) k)) ∧
    failure (.read [c!"d", c!"a.md"]) (.error 2) = some (.io 2) :=
  ⟨⟨_, .step _ _ _ _ _ _ (.call _ _ _ _ false ⟨rfl, by decide +kernel⟩) (.refl _ _)⟩, rfl⟩

/-- C127: when a call has failed and the run ends, it ends with the error of this call, and nothing has changed since. -/
theorem C127_reported (cmd : Command) (w w1 w2 w3 : World) (c : Call) (k : c.Ret → Prog End) (h : Steps os x w (run os x cmd) w1 (.call c k))
    (r : c.Ret) (_hr : Sem os x w1 c r w2) (f : Failure) (hf : failure c r = some f) (a : End) (h3 : Ends os x w2 (k r) w3 a) :
    a = .ok (.error f.error) ∧ w3.names = w2.names ∧ w3.data = w2.data ∧ w3.tabs = w2.tabs := by
  rcases C127_at_once cmd w w1 c k h r f hf with e | ⟨n, b, -, e⟩
  · rw [e] at h3
    cases h3 with
    | refl => exact ⟨rfl, rfl, rfl, rfl⟩
    | step _ _ _ _ _ _ h _ => cases h
  · rw [e] at h3
    cases h3 with
    | step _ _ _ _ _ _ h hs =>
      cases h with
      | call _ _ _ _ h =>
        cases hs with
        | refl =>
          have h : _ = _ := h
          subst h
          exact ⟨rfl, rfl, rfl, rfl⟩
        | step _ _ _ _ _ _ h _ => cases h

/-- C127: no failure is ignored. In a run that ends with success no call has failed. -/
theorem C127_success (cmd : Command) (w w1 w2 w3 : World) (c : Call) (k : c.Ret → Prog End) (h : Steps os x w (run os x cmd) w1 (.call c k))
    (r : c.Ret) (hr : Sem os x w1 c r w2) (h3 : Ends os x w2 (k r) w3 (.ok (.ok ()))) : failure c r = none := by
  cases hf : failure c r with
  | none => rfl
  | some f => cases (C127_reported cmd w w1 w2 w3 c k h r hr f hf _ h3).1

/-- C127: an error has a cause. It is that of a call that has failed; or a configuration cannot be parsed, or is already there. -/
theorem C127_cause (cmd : Command) (w w' : World) (e : Error) (h : Ends os x w (run os x cmd) w' (.ok (.error e))) :
    (∃ w1 w2 c k r f, Steps os x w (run os x cmd) w1 (.call c k) ∧ Sem os x w1 c r w2 ∧ failure c r = some f ∧ e = f.error) ∨
    ((∃ i f, cmd = .parse i f) ∧ e = .configRead) ∨ (cmd = .init ∧ e = .configExists (configFile x)) := by
  by_cases h1 : (∃ i f, cmd = .parse i f) ∧ e = .configRead
  · exact .inr (.inl h1)
  by_cases h2 : cmd = .init ∧ e = .configExists (configPath x)
  · exact .inr (.inr (by rw [configFile_eq]; exact h2))
  obtain ⟨w1, w2, c, k, r, f, h3, h4, h5, h6⟩ := Honest.cause h rfl (run_honest cmd) (by
    rintro (h | ⟨h3, h⟩ | ⟨h3, h⟩)
    · exact h e rfl
    · exact h1 ⟨h3, by injection h with h; injection h⟩
    · exact h2 ⟨h3, by injection h with h; injection h⟩)
  refine .inl ⟨w1, w2, c, k, r, f, h3, h4, h5, ?_⟩
  have := (C127_reported cmd w w1 w2 w' c k h3 r h4 f h5 _ h6).1
  injection this with this
  injection this

example : Ends (sys True) (proc 1) disk1 (run (sys True) (proc 1) (.parse [c!"d", c!"a.md"] .html)) ((disk1.setData 1 []).setHandle 1 0 none)
    (.ok (.error (.io 28))) :=
  html_run_fails (x := proc 1) (i := 1) (e := 28) (by decide +kernel) (by decide +kernel) render_b (by decide +kernel) rfl

/-- C127: the message about the browser tells which step has failed, and for a tab that is missing which one. -/
theorem C127_stage (s t : Stage) (h : s.text = t.text) : s = t := by
  cases s <;> cases t <;> first | rfl | (simp [Stage.text] at h; done) | skip
  rename_i m n
  have h : dec m = dec n := List.append_cancel_left h
  have := congrArg (Nat.ofDigitChars 10 · 0) h
  simp only [dec, Nat.ofDigitChars_ten_toDigits] at this
  rw [this]

/-- The message about a file system does not tell which operation has failed. -/
theorem C127_io_same (p q : Path) (e : IoErr) : failure (.create p) (.error e) = failure (.read q) (.error e) := rfl

end Smd.Core
