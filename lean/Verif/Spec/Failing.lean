import Verif.Core.Fs

/-! What an operation that fails has to be reported as (C127). -/

namespace Smd.Spec
open Smd.Core Smd.Rs

/-- The step of the browser that fails. -/
inductive Stage where
  | start
  | newTab
  | navigate
  | wait
  | lock
  | missing (tab : Nat)
  | print
  deriving DecidableEq

/-- What is said about it (browser.rs 25-76). -/
def Stage.text : Stage → Str
  | .start => c!"Failed to initialze headless_chrome session."
  | .newTab => c!"Failed to open new tab."
  | .navigate => c!"Failed to open html file."
  | .wait => c!"Failed to wait until navigation is done."
  | .lock => c!"Failed to lock tabs mutex"
  | .missing t => c!"No tab found with TargetID: " ++ dec t
  | .print => c!"Failed to print to PDF:"

/-- A failure: an error of the system or a step of the browser. -/
inductive Failure where
  | io (e : IoErr)
  | browser (s : Stage)
  deriving DecidableEq

/-- The error it is reported as. -/
def Failure.error : Failure → Error
  | .io e => .io e
  | .browser s => .browser s.text

/-- Whether a call has failed, given its answer, and how. -/
def failure : (c : Call) → c.Ret → Option Failure
  | .read _, .error e => some (.io e)
  | .create _, .error e => some (.io e)
  | .write _ _, .error e => some (.io e)
  | .createDirs _, .error e => some (.io e)
  | .remove _, .error e => some (.io e)
  | .cwd, .error e => some (.io e)
  | .startBrowser, .error _ => some (.browser .start)
  | .openTab _, .error .newTab => some (.browser .newTab)
  | .openTab _, .error .navigate => some (.browser .navigate)
  | .openTab _, .error .wait => some (.browser .wait)
  | .print _ _, .error .lock => some (.browser .lock)
  | .print t _, .error .missing => some (.browser (.missing t))
  | .print _ _, .error .print => some (.browser .print)
  | _, _ => none

end Smd.Spec
