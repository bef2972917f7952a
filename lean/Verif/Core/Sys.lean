import Verif.Gfm.Iter

/-!
The operating system and browser as seen by the program: a file system with names and inodes, open files, and browser
tabs. A program is a tree of calls; the answer to each call is chosen by the system within `Sem`, so a theorem about all
executions covers every failure the system may report at every point.
-/

namespace Smd.Core

/-- Bytes of a file. -/
abbrev Bytes := List UInt8

/-- The UTF-8 bytes of a text. -/
abbrev enc (s : Str) : Bytes := Gfm.Iter.enc s

/-- An absolute path without `.` and `..`: its components from the root on. -/
abbrev Path := List Str

/-- A file system error. What it says is left open. -/
abbrev IoErr := Nat

/-- What a name stands for. Two names with the same inode are the same file (hard links, or a symbolic link and its
target). -/
inductive Node where
  | file (inode : Nat)
  | dir
  deriving DecidableEq

/-- Everything outside the program. -/
structure World where
  /-- the directory tree -/
  names : Path → Option Node
  /-- what is in an inode -/
  data : Nat → Bytes
  /-- the open files of each process: inode and position -/
  handles : Nat → Nat → Option (Nat × Nat)
  /-- the browser tabs of each process: what was loaded -/
  tabs : Nat → Nat → Option Bytes

namespace World

/-- The content of the file at a path, if there is one. -/
def bytesAt (w : World) (p : Path) : Option Bytes :=
  match w.names p with
  | some (.file i) => some (w.data i)
  | _ => none

/-- Two paths name the same file. -/
def SameFile (w : World) (p q : Path) : Prop := ∃ i, w.names p = some (.file i) ∧ w.names q = some (.file i)

/-- An inode that nothing refers to. -/
def Unused (w : World) (i : Nat) : Prop := (∀ q, w.names q ≠ some (.file i)) ∧ ∀ pid h o, w.handles pid h ≠ some (i, o)

/-- The world with another value for one handle of a process. -/
def setHandle (w : World) (pid h : Nat) (v : Option (Nat × Nat)) : World :=
  { w with handles := fun p g => if p = pid ∧ g = h then v else w.handles p g }

/-- The world with another content of an inode. -/
def setData (w : World) (i : Nat) (b : Bytes) : World := { w with data := fun j => if j = i then b else w.data j }

/-- The world with another meaning of a name. -/
def setName (w : World) (p : Path) (n : Option Node) : World := { w with names := fun q => if q = p then n else w.names q }

/-- The world with another value for one tab of a process. -/
def setTab (w : World) (pid t : Nat) (v : Option Bytes) : World :=
  { w with tabs := fun p g => if p = pid ∧ g = t then v else w.tabs p g }

end World

/-- What belongs to one process. -/
structure Ctx where
  pid : Nat
  cwd : Path
  /-- `dirs::config_dir()` -/
  configDir : Option Path
  /-- the environment variables -/
  env : List (Str × Str)

/-- A value of a configuration file or of an environment variable. -/
inductive Val where
  | str (s : Str)
  | bool (b : Bool)
  | int (n : Int)
  deriving DecidableEq

/-- `struct PrintToPdfOptions` (crate `headless_chrome`), the fields that convert.rs 39-46 sets; the others have their defaults.
A margin is a number of inches, of which only zero occurs. -/
structure PrintOptions where
  marginTop : Option Nat
  marginBottom : Option Nat
  marginLeft : Option Nat
  marginRight : Option Nat
  printBackground : Option Bool
  deriving DecidableEq

/-- The parts of the system that are functions, and whether writes are always complete. -/
structure Os where
  /-- a write that succeeds writes everything -/
  fullWrites : Prop
  /-- what the browser prints for a loaded file -/
  pdf : PrintOptions → Bytes → Bytes
  /-- the keys and values of a TOML file (crate `toml`) -/
  toml : Str → Option (List (Str × Val))
  /-- the case of the name of a variant does not matter (crate `config`) -/
  anyCase : Bool
  /-- the path a browser opens for a URL -/
  urlPath : Str → Path

/-- Where opening a file in the browser fails. -/
inductive TabErr where
  /-- `new_tab` -/
  | newTab
  /-- `navigate_to` -/
  | navigate
  /-- `wait_until_navigated` -/
  | wait
  deriving DecidableEq

/-- Where printing fails. -/
inductive PrintErr where
  /-- the lock on the tabs -/
  | lock
  /-- the tab is gone -/
  | missing
  /-- `Tab::print_to_pdf` -/
  | print
  deriving DecidableEq

/-- The calls a program makes. -/
inductive Call where
  /-- `std::fs::read_to_string` -/
  | read (p : Path)
  /-- `Path::exists` -/
  | isThere (p : Path)
  /-- `File::create` -/
  | create (p : Path)
  /-- one `Write::write` on an open file -/
  | write (h : Nat) (b : Bytes)
  /-- closing an open file -/
  | close (h : Nat)
  /-- `std::fs::create_dir_all` -/
  | createDirs (p : Path)
  /-- `std::fs::remove_file` -/
  | remove (p : Path)
  /-- `env::current_dir` -/
  | cwd
  /-- `Browser::default` -/
  | startBrowser
  /-- `new_tab`, `navigate_to` and `wait_until_navigated` -/
  | openTab (url : Str)
  /-- `Tab::print_to_pdf` -/
  | print (tab : Nat) (o : PrintOptions)

/-- The answer to a call. -/
@[reducible] def Call.Ret : Call → Type
  | read _ => Except IoErr Str
  | isThere _ => Bool
  | create _ => Except IoErr Nat
  | write _ _ => Except IoErr Nat
  | close _ => Unit
  | createDirs _ => Except IoErr Unit
  | remove _ => Except IoErr Unit
  | cwd => Except IoErr Path
  | startBrowser => Except Unit Unit
  | openTab _ => Except TabErr Nat
  | print _ _ => Except PrintErr Bytes

/-- A program. -/
inductive Prog (α : Type) where
  | ret (a : α)
  | call (c : Call) (k : c.Ret → Prog α)

namespace Prog

def bind {α β : Type} : Prog α → (α → Prog β) → Prog β
  | ret a, f => f a
  | call c k, f => call c fun r => (k r).bind f

instance : Monad Prog where
  pure := ret
  bind := bind

/-- One call. -/
def ask (c : Call) : Prog c.Ret := call c ret

end Prog

/-- Writing `b` at position `o`. -/
def overwrite (old : Bytes) (o : Nat) (b : Bytes) : Bytes :=
  (old ++ List.replicate (o - old.length) 0).take o ++ b ++ old.drop (o + b.length)

/-- `w'` is `w` with the given directories added. -/
def AddsDirs (ps : Path → Prop) (w w' : World) : Prop :=
  w' = { w with names := w'.names } ∧ ∀ q, w'.names q = w.names q ∨ (w.names q = none ∧ w'.names q = some .dir ∧ ps q)

/-- The answers the system may give and the changes it then makes. Every call that can fail may fail at any time, in which
case nothing changes (but `create_dir_all` may have created some of the directories). -/
def Sem (os : Os) (x : Ctx) (w : World) : (c : Call) → c.Ret → World → Prop
  | .read p, r, w' => w' = w ∧ ∀ s, r = .ok s → w.bytesAt p = some (enc s)
  | .isThere p, r, w' => w' = w ∧ (r = true ↔ w.names p ≠ none)
  | .create _, .error _, w' => w' = w
  | .create p, .ok h, w' =>
    w.handles x.pid h = none ∧
      ((∃ i, w.names p = some (.file i) ∧ w' = (w.setData i []).setHandle x.pid h (some (i, 0))) ∨
       (∃ i, w.names p = none ∧ p ≠ [] ∧ w.names p.dropLast = some .dir ∧ w.Unused i ∧
          w' = ((w.setName p (some (.file i))).setData i []).setHandle x.pid h (some (i, 0))))
  | .write _ _, .error _, w' => w' = w
  | .write h b, .ok n, w' =>
    n ≤ b.length ∧ (os.fullWrites → n = b.length) ∧
      ∃ i o, w.handles x.pid h = some (i, o) ∧
        w' = (w.setData i (overwrite (w.data i) o (b.take n))).setHandle x.pid h (some (i, o + n))
  | .close h, _, w' => w' = w.setHandle x.pid h none
  | .createDirs p, .error _, w' => AddsDirs (fun q => q <+: p) w w'
  | .createDirs p, .ok _, w' => AddsDirs (fun q => q <+: p) w w' ∧ ∀ q, q <+: p → w'.names q = some .dir
  | .remove _, .error _, w' => w' = w
  | .remove p, .ok _, w' =>
    (∃ i, w.names p = some (.file i)) ∧ w' = w.setName p none
  | .cwd, r, w' => w' = w ∧ ∀ p, r = .ok p → p = x.cwd
  | .startBrowser, _, w' => w' = w
  | .openTab _, .error _, w' => w' = w
  | .openTab url, .ok t, w' =>
    w.tabs x.pid t = none ∧ ∃ b, (w.bytesAt (os.urlPath url) = some b ∨ w.names (os.urlPath url) = some .dir) ∧
      w' = w.setTab x.pid t (some b)
  | .print t o, r, w' => w' = w ∧ ∀ b, r = .ok b → ∃ c, w.tabs x.pid t = some c ∧ b = os.pdf o c

/-- One step of a program. -/
inductive Step {α : Type} (os : Os) (x : Ctx) : World → Prog α → World → Prog α → Prop
  | call (w w' : World) (c : Call) (k : c.Ret → Prog α) (r : c.Ret) (h : Sem os x w c r w') : Step os x w (.call c k) w' (k r)

/-- Any number of steps: where a program may be at some time, for instance when it is interrupted. -/
inductive Steps {α : Type} (os : Os) (x : Ctx) : World → Prog α → World → Prog α → Prop
  | refl (w : World) (p : Prog α) : Steps os x w p w p
  | step (w w1 w2 : World) (p p1 p2 : Prog α) (h : Step os x w p w1 p1) (hs : Steps os x w1 p1 w2 p2) : Steps os x w p w2 p2

/-- The program ends with `a`. -/
def Ends {α : Type} (os : Os) (x : Ctx) (w : World) (p : Prog α) (w' : World) (a : α) : Prop := Steps os x w p w' (.ret a)

/-- Two processes: each step is made by one of them. -/
inductive Steps2 {α β : Type} (os : Os) (x y : Ctx) : World → Prog α → Prog β → World → Prog α → Prog β → Prop
  | refl (w : World) (p : Prog α) (q : Prog β) : Steps2 os x y w p q w p q
  | left (w w1 w2 : World) (p p1 p2 : Prog α) (q q2 : Prog β) (h : Step os x w p w1 p1) (hs : Steps2 os x y w1 p1 q w2 p2 q2) :
      Steps2 os x y w p q w2 p2 q2
  | right (w w1 w2 : World) (p p2 : Prog α) (q q1 q2 : Prog β) (h : Step os y w q w1 q1) (hs : Steps2 os x y w1 p q1 w2 p2 q2) :
      Steps2 os x y w p q w2 p2 q2

/-- Any number of processes, one for each index: each step is made by one of them. -/
inductive StepsN {ι α : Type} [DecidableEq ι] (os : Os) (xs : ι → Ctx) : World → (ι → Prog α) → World → (ι → Prog α) → Prop
  | refl (w : World) (ps : ι → Prog α) : StepsN os xs w ps w ps
  | step (i : ι) (w w1 w2 : World) (ps qs : ι → Prog α) (p1 : Prog α) (h : Step os (xs i) w (ps i) w1 p1)
      (hs : StepsN os xs w1 (fun j => if j = i then p1 else ps j) w2 qs) : StepsN os xs w ps w2 qs

end Smd.Core
