import Verif.Lemmas.Cause
import Verif.Props.Talk

/-! C190: a failed run says what failed. -/

namespace Smd.App
open Smd.Core Smd.Spec

variable {os : Os} {x : Ctx} {w w' : World} {g : Texts} {o : List Line}

/-- **C190** When a run fails, it has made a call that failed and whose failure ends the command, and the last line, an error, is the message for it. -/
theorem C190_said {cmd : Command} {e : Error} (h : LEnds os x w (mainL g os x cmd) w' o (.ok (.error e))) :
    ∃ w1 w2 o1 o2 c k r msg, LSteps os x w [] (mainL g os x cmd) w1 o1 (.call c k) ∧ Sem os x w1 c r w2 ∧ LSteps os x w2 o1 (k r) w' o (.ret (.ok (.error e))) ∧
      Cause g os x cmd c r msg ∧ o = o2 ++ [⟨.error, c!"smd", msg⟩] := by
  rcases (blames_main (K := fun _ => False) g cmd).found h rfl rfl with h1 | ⟨w1, w2, o1, c, k, r, h1, h2, h3, h4⟩
  · exact h1.elim
  · obtain ⟨o2, ho⟩ := (C113_reported h).2 e rfl
    exact ⟨w1, w2, o1, o2, c, k, r, _, h1, h2, h3, h4, ho⟩

example : ∃ w1 w2 o1 o2 c k r msg, LSteps (sys True) (proc 1) disk1 [] (mainL texts (sys True) (proc 1) (.parse [c!"d", c!"a.md"] .html)) w1 o1 (.call c k) ∧
    Sem (sys True) (proc 1) w1 c r w2 ∧ LSteps (sys True) (proc 1) w2 o1 (k r) disk1 (o2 ++ [⟨.error, c!"smd", msg⟩]) (.ret (.ok (.error (.io 13)))) ∧
    Cause texts (sys True) (proc 1) (.parse [c!"d", c!"a.md"] .html) c r msg := by
  have := create_failsL (g := texts) (os := sys True) (x := proc 1) (w := disk1) (input := [c!"d", c!"a.md"]) 13 (by decide +kernel) (by decide +kernel) render_b
  obtain ⟨w1, w2, o1, o2, c, k, r, msg, h1, h2, h3, h4, ho⟩ := C190_said this
  exact ⟨w1, w2, o1, o2, c, k, r, msg, h1, h2, ho ▸ h3, h4⟩

/-- **C190** When there is a configuration already, `init` names it. -/
theorem C190_existing {e : Error} (hc : w.names (configFile x) ≠ none) (h : LEnds os x w (mainL g os x .init) w' o (.ok (.error e))) :
    o = [⟨.error, c!"smd", c!"`" ++ pathStr (configFile x) ++ c!"` already exists! Please back it up before continuing."⟩] := by
  rw [configFile_eq] at hc ⊢
  have : LHolds os x (fun r _ o => r = .ok (.error e) →
      o = [⟨.error, c!"smd", c!"`" ++ pathStr (configPath x) ++ c!"` already exists! Please back it up before continuing."⟩]) (mainL g os x .init) w := by
    intro r w1 hr
    obtain ⟨rfl, hr⟩ := hr
    cases r with
    | true => exact fun _ => rfl
    | false => simp_all
  exact this.ends h rfl

example : ∃ o, LEnds (sys True) (proc 1) (disk [([c!"c", c!"smd", c!"config.toml"], c!"")] []) (mainL texts (sys True) (proc 1) .init)
    (disk [([c!"c", c!"smd", c!"config.toml"], c!"")] []) o (.ok (.error (.configExists [c!"c", c!"smd", c!"config.toml"]))) :=
  ⟨_, .step _ _ _ _ _ _ _ _ _ (.call _ _ _ _ _ true ⟨rfl, by decide +kernel⟩) (.step _ _ _ _ _ _ _ _ _ (.say ..) (.refl ..))⟩

/-- **C190** The message says whether a step of the browser has failed, and which: runs that fail in different steps say different things. -/
theorem C190_steps {cmd cmd' : Command} {x' : Ctx} {os' : Os} {g' : Texts} {c c' : Call} {r : c.Ret} {r' : c'.Ret} {msg : Str}
    (h : Cause g os x cmd c r msg) (h' : Cause g' os' x' cmd' c' r' msg) : failedStep c r = failedStep c' r' := by
  rw [cause_step h, cause_step h']

example : ∃ msg, Cause texts (sys True) (proc 1) (.parse [c!"d", c!"a.md"] .pdf) (.openTab c!"file:///d/tmp.html") (.error .wait) msg ∧
    failedStep (.openTab c!"file:///d/tmp.html") (.error .wait) = some .wait :=
  ⟨_, .wait _, rfl⟩

end Smd.App
