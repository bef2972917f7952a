import Verif.Gfm.Iter

/-!
Model of `smd/src/logger.rs`: the width of the target column. `env_logger` calls the format closure in the thread that
logs, without a lock; `MAX_MODULE_WIDTH` is shared by all threads. Colours are not modelled.
-/

namespace Smd.App

/-- `log::Level`. -/
inductive Level where
  | trace
  | debug
  | info
  | warn
  | error
deriving DecidableEq

/-- `colored_level` (logger.rs 53-64), without the colour. -/
def levelText : Level → Str
  | .trace => c!"TRACE"
  | .debug => c!"DEBUG"
  | .info => c!"INFO "
  | .warn => c!"WARN "
  | .error => c!"ERROR"

/-- `str::len`: bytes. -/
def byteLen (s : Str) : Nat := (Gfm.Iter.enc s).length

/-- `Padded` (logger.rs 30-39): `{: <width$}` counts characters. -/
def padded (s : Str) (width : Nat) : Str := s ++ List.replicate (width - s.length) ' '

/-- The line that is written (logger.rs 74-85). -/
def logLine (l : Level) (target : Str) (width : Nat) (msg : Str) : Str :=
  ' ' :: levelText l ++ ' ' :: padded target width ++ c!" > " ++ msg ++ c!"\n"

/-- Where a thread is: between two log calls, or in `max_target_width` (logger.rs 42-50) after the `load`, or with the width
it is going to use. -/
inductive Thread where
  | idle (todo : List Str)
  | loaded (target : Str) (seen : Nat) (todo : List Str)
  | ready (target : Str) (width : Nat) (todo : List Str)

/-- The shared variable and what has been written so far: targets with the width of their column. -/
structure Shared where
  maxWidth : Nat
  lines : List (Str × Nat)

/-- One step of one thread. -/
inductive LogStep : Shared → Thread → Shared → Thread → Prop
  /-- `load` (logger.rs 43) -/
  | load (s : Shared) (t : Str) (ts : List Str) : LogStep s (.idle (t :: ts)) s (.loaded t s.maxWidth ts)
  /-- `store` (logger.rs 44-46) -/
  | store (s : Shared) (t : Str) (m : Nat) (ts : List Str) (h : m < byteLen t) :
      LogStep s (.loaded t m ts) { s with maxWidth := byteLen t } (.ready t (byteLen t) ts)
  /-- no `store` (logger.rs 47-49) -/
  | keep (s : Shared) (t : Str) (m : Nat) (ts : List Str) (h : ¬ m < byteLen t) : LogStep s (.loaded t m ts) s (.ready t m ts)
  /-- writing the line (logger.rs 84) -/
  | print (s : Shared) (t : Str) (n : Nat) (ts : List Str) : LogStep s (.ready t n ts) { s with lines := s.lines ++ [(t, n)] } (.idle ts)

/-- Any number of threads, of which one makes a step. -/
inductive LogSteps : Shared → List Thread → Shared → List Thread → Prop
  | refl (s : Shared) (ts : List Thread) : LogSteps s ts s ts
  | step (s s1 s2 : Shared) (a b : List Thread) (t t1 : Thread) (ts : List Thread) (h : LogStep s t s1 t1) (hs : LogSteps s1 (a ++ t1 :: b) s2 ts) :
      LogSteps s (a ++ t :: b) s2 ts

end Smd.App
