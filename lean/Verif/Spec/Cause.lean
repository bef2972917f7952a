import Verif.App.Talk
import Verif.Spec.Config

/-! Why a run of the program fails, and what it says then. -/

namespace Smd.Spec
open Smd.Core Smd.App

/-- The program may write to `p` when it is asked for `cmd`. -/
inductive Writes (x : Ctx) : Command → Path → Prop
  | config : Writes x .init (configFile x)
  | html (input : Path) : Writes x (.parse input .html) (setExtension c!"html" input)
  | temporary (input : Path) : Writes x (.parse input .pdf) (x.cwd ++ [c!"tmp.html"])
  | pdf (input : Path) : Writes x (.parse input .pdf) (setExtension c!"pdf" input)

/-- `Cause g os x cmd c r msg`: with the answer `r` to the call `c` the command `cmd` has failed, and `msg` is to be said. -/
inductive Cause (g : Texts) (os : Os) (x : Ctx) : Command → (c : Call) → c.Ret → Str → Prop
  | exists_ : Cause g os x .init (.isThere (configFile x)) true
      (c!"`" ++ pathStr (configFile x) ++ c!"` already exists! Please back it up before continuing.")
  | dirs (e : IoErr) : Cause g os x .init (.createDirs (configFile x).dropLast) (.error e) (c!"IO error: `" ++ g.io e ++ c!"`")
  | create (cmd : Command) (p : Path) (h : Writes x cmd p) (e : IoErr) : Cause g os x cmd (.create p) (.error e) (c!"IO error: `" ++ g.io e ++ c!"`")
  | write (cmd : Command) (n : Nat) (b : Bytes) (e : IoErr) : Cause g os x cmd (.write n b) (.error e) (c!"IO error: `" ++ g.io e ++ c!"`")
  | readConfig (input : Path) (f : Format) (e : IoErr) :
      Cause g os x (.parse input f) (.read (configFile x)) (.error e) (c!"IO error: `" ++ g.io e ++ c!"`")
  | config (input : Path) (f : Format) (s : Str) (h : ∀ file, os.toml s = some file →
        ¬ ((∃ v a, setting file x.env c!"on_parse_error" = some v ∧ MeansAction os.anyCase v a) ∧
          ∃ v b, setting file x.env c!"keep_temp_files" = some v ∧ MeansBool v b)) :
      Cause g os x (.parse input f) (.read (configFile x)) (.ok s) (c!"Cannot parse config: `" ++ g.config ++ c!"`")
  | readInput (input : Path) (f : Format) (e : IoErr) : Cause g os x (.parse input f) (.read input) (.error e) (c!"IO error: `" ++ g.io e ++ c!"`")
  | cwd (input : Path) (e : IoErr) : Cause g os x (.parse input .pdf) .cwd (.error e) (c!"IO error: `" ++ g.io e ++ c!"`")
  | remove (input : Path) (e : IoErr) :
      Cause g os x (.parse input .pdf) (.remove (x.cwd ++ [c!"tmp.html"])) (.error e) (c!"IO error: `" ++ g.io e ++ c!"`")
  | start (input : Path) : Cause g os x (.parse input .pdf) .startBrowser (.error ()) c!"Headless-chrome error: `Failed to initialze headless_chrome session.`"
  | newTab (input : Path) :
      Cause g os x (.parse input .pdf) (.openTab (c!"file://" ++ pathStr (x.cwd ++ [c!"tmp.html"]))) (.error .newTab) c!"Headless-chrome error: `Failed to open new tab.`"
  | navigate (input : Path) :
      Cause g os x (.parse input .pdf) (.openTab (c!"file://" ++ pathStr (x.cwd ++ [c!"tmp.html"]))) (.error .navigate) c!"Headless-chrome error: `Failed to open html file.`"
  | wait (input : Path) :
      Cause g os x (.parse input .pdf) (.openTab (c!"file://" ++ pathStr (x.cwd ++ [c!"tmp.html"]))) (.error .wait) c!"Headless-chrome error: `Failed to wait until navigation is done.`"
  | lock (input : Path) (t : Nat) :
      Cause g os x (.parse input .pdf) (.print t fullPage) (.error .lock) c!"Headless-chrome error: `Failed to lock tabs mutex`"
  | missing (input : Path) (t : Nat) :
      Cause g os x (.parse input .pdf) (.print t fullPage) (.error .missing) (c!"Headless-chrome error: `No tab found with TargetID: " ++ Rs.dec t ++ c!"`")
  | print (input : Path) (t : Nat) :
      Cause g os x (.parse input .pdf) (.print t fullPage) (.error .print) c!"Headless-chrome error: `Failed to print to PDF:`"

/-- The steps of the browser. -/
inductive BrowserStep where
  | start | tab | load | wait | lock | find | print
  deriving DecidableEq

/-- The step of the browser that has failed with an answer to a call. -/
def failedStep : (c : Call) → c.Ret → Option BrowserStep
  | .startBrowser, .error _ => some .start
  | .openTab _, .error .newTab => some .tab
  | .openTab _, .error .navigate => some .load
  | .openTab _, .error .wait => some .wait
  | .print _ _, .error .lock => some .lock
  | .print _ _, .error .missing => some .find
  | .print _ _, .error .print => some .print
  | _, _ => none

end Smd.Spec
