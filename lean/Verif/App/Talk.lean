import Verif.App.Run
import Verif.App.Logger
import Verif.Gfm.Said

/-!
What the program says: the calls of `log` in `smd`, `smd-core` and (`Gfm/Said`) `gfm`, the texts of errors (`smd-core/src/error.rs`), and which
lines are shown. Paths are shown as the model has them; the program shows them as they were given. The programs of `Core` and `App/Run` are repeated here with their log calls; without these they are the same
programs (`erase_mainL`).
-/

namespace Smd.Core

/-- A line of the log, before it is laid out: level, target (the module that logs) and message. -/
structure Line where
  level : App.Level
  target : Str
  msg : Str
deriving DecidableEq

/-- A program that logs. -/
inductive LProg (α : Type) where
  | ret (a : α)
  | say (l : Line) (k : LProg α)
  | call (c : Call) (k : c.Ret → LProg α)

namespace LProg

variable {α β : Type}

def bind : LProg α → (α → LProg β) → LProg β
  | ret a, f => f a
  | say l k, f => say l (k.bind f)
  | call c k, f => call c fun r => (k r).bind f

/-- The operator `?`. -/
def andThen (p : LProg (Res α)) (f : α → LProg (Res β)) : LProg (Res β) :=
  p.bind fun
    | .ok a => f a
    | .error e => .ret (.error e)

/-- Several lines. -/
def sayAll : List Line → LProg α → LProg α
  | [], k => k
  | l :: ls, k => say l (sayAll ls k)

/-- The program without what it says. -/
def erase : LProg α → Prog α
  | ret a => .ret a
  | say _ k => k.erase
  | call c k => .call c fun r => (k r).erase

end LProg

/-- One step of a program that logs; the second component is what has been said so far. -/
inductive LStep {α : Type} (os : Os) (x : Ctx) : World → List Line → LProg α → World → List Line → LProg α → Prop
  | say (w : World) (o : List Line) (l : Line) (k : LProg α) : LStep os x w o (.say l k) w (o ++ [l]) k
  | call (w w' : World) (o : List Line) (c : Call) (k : c.Ret → LProg α) (r : c.Ret) (h : Sem os x w c r w') :
      LStep os x w o (.call c k) w' o (k r)

/-- Any number of steps. -/
inductive LSteps {α : Type} (os : Os) (x : Ctx) : World → List Line → LProg α → World → List Line → LProg α → Prop
  | refl (w : World) (o : List Line) (p : LProg α) : LSteps os x w o p w o p
  | step (w w1 w2 : World) (o o1 o2 : List Line) (p p1 p2 : LProg α) (h : LStep os x w o p w1 o1 p1)
      (hs : LSteps os x w1 o1 p1 w2 o2 p2) : LSteps os x w o p w2 o2 p2

/-- The program ends with `a` and has said `o`. -/
def LEnds {α : Type} (os : Os) (x : Ctx) (w : World) (p : LProg α) (w' : World) (o : List Line) (a : α) : Prop :=
  LSteps os x w [] p w' o (.ret a)

/-- What is only shown: the texts of errors of other crates, and `Debug`. -/
structure Texts where
  /-- `Display` of `std::io::Error` -/
  io : IoErr → Str
  /-- `Display` of `config::ConfigError` -/
  config : Str
  dbg : Gfm.Dbg

/-- A log call of `gfm`. -/
def noteLine (n : Gfm.Note) : Line := ⟨if n.warn then .warn else .debug, n.target, n.text⟩

/-- What `gfm` logs while it renders a text. -/
def Texts.render (g : Texts) (s : Str) : List Line := (Gfm.renderL g.dbg s).notes.map noteLine

/-- `Display` of `Error` (error.rs 5-41). -/
def Error.text (g : Texts) : Error → Str
  | .io e => c!"IO error: `" ++ g.io e ++ c!"`"
  | .configRead => c!"Cannot parse config: `" ++ g.config ++ c!"`"
  | .configExists p => c!"`" ++ pathStr p ++ c!"` already exists! Please back it up before continuing."
  | .browser m => c!"Headless-chrome error: `" ++ m ++ c!"`"
  | .deserialize m => c!"Deserialization error: `" ++ m ++ c!"`"

/-- A line of `smd-core/src/fs.rs`. -/
def fsLine (l : App.Level) (msg : Str) : Line := ⟨l, c!"smd_core::fs", msg⟩

/-- `read_to_string` (fs.rs 28-40). -/
def readToStringL (p : Path) : LProg (Res Str) :=
  .say (fsLine .debug (c!"Attempting to read file: " ++ pathStr p)) <|
  .call (.read p) fun
    | .ok s => .say (fsLine .info (c!"Successfully read file: " ++ pathStr p)) (.ret (.ok s))
    | .error e => .say (fsLine .error (c!"Failed to read file: " ++ pathStr p)) (.ret (.error (.io e)))

/-- The common part of `write_to_file` and `write_bytes` (fs.rs 43-82); `written` is the message for a number of bytes. The
file is closed at the end of the function. -/
def writeL (p : Path) (b : Bytes) (written : Nat → Str) : LProg (Res Unit) :=
  .say (fsLine .debug (c!"Attempting to write file: " ++ pathStr p)) <|
  .call (.create p) fun
    | .error e => .ret (.error (.io e))
    | .ok h => .call (.write h b) fun
      | .ok n => .say (fsLine .info (written n)) (.call (.close h) fun _ => .ret (.ok ()))
      | .error e => .say (fsLine .error (c!"Failed to write file: " ++ pathStr p)) (.call (.close h) fun _ => .ret (.error (.io e)))

/-- `content.lines().count()` (fs.rs 45; std): lines end with a line feed, the last one may do without. -/
def lineCount (s : Str) : Nat := s.count '\n' + if s.getLast?.getD '\n' = '\n' then 0 else 1

/-- `write_to_file` (fs.rs 43-63). -/
def writeToFileL (p : Path) (content : Str) : LProg (Res Unit) :=
  writeL p (enc content) fun n => c!"\"" ++ pathStr p ++ c!"\" " ++ Rs.dec (lineCount content) ++ c!"L, " ++ Rs.dec n ++ c!"B written"

/-- `write_bytes` (fs.rs 66-82). -/
def writeBytesL (p : Path) (b : Bytes) : LProg (Res Unit) :=
  writeL p b fun n => c!"\"" ++ pathStr p ++ c!"\", " ++ Rs.dec n ++ c!"B written"

/-- `Config::load_config` (config.rs 54-64). -/
def loadConfigL (os : Os) (x : Ctx) : LProg (Res Config) :=
  .call (.isThere (configPath x)) fun
    | true => (readToStringL (configPath x)).andThen fun content => .ret (parseFromStr os x content)
    | false => .ret (.ok .default)

/-- `Config::initialize` (config.rs 66-87). -/
def initConfigL (x : Ctx) : LProg (Res Unit) :=
  .call (.isThere (configPath x)) fun
    | true => .ret (.error (.configExists (configPath x)))
    | false => .call (.createDirs (configPath x).dropLast) fun
      | .error e => .ret (.error (.io e))
      | .ok _ => (writeToFileL (configPath x) defaultToml).andThen fun _ => .ret (.ok ())

/-- `BrowserSession::initialize` (browser.rs 21-29). -/
def browserInitL : LProg (Res Unit) :=
  .call .startBrowser fun
    | .ok _ => .ret (.ok ())
    | .error _ => .ret (.error (.browser c!"Failed to initialze headless_chrome session."))

/-- `BrowserSession::open_file` (browser.rs 32-52). -/
def openFileL (p : Path) : LProg (Res Nat) :=
  .call .cwd fun
    | .error e => .ret (.error (.io e))
    | .ok _ => .call (.openTab (fileUrl p)) fun
      | .ok t => .ret (.ok t)
      | .error e => .ret (.error (.browser (tabErrText e)))

/-- `BrowserSession::print_to_pdf` (browser.rs 55-79). -/
def printToPdfL (t : Nat) (o : PrintOptions) : LProg (Res Bytes) :=
  .call (.print t o) fun
    | .ok b => .ret (.ok b)
    | .error e => .ret (.error (.browser (printErrText t e)))

/-- `fs::remove_file(tmpfile)?` (convert.rs 37). -/
def removeFileL (p : Path) : LProg (Res Unit) := .call (.remove p) fun r => .ret (ioRes r)

/-- `PDFConverter::from_html` (convert.rs 29-50). -/
def fromHtmlL (html : Str) : LProg (Res Bytes) :=
  browserInitL.andThen fun _ =>
  LProg.andThen (.call .cwd fun r => .ret (ioRes r)) fun dir =>
  (writeToFileL (tmpPath dir) html).andThen fun _ =>
  (openFileL (tmpPath dir)).andThen fun tab =>
  (removeFileL (tmpPath dir)).andThen fun _ =>
  printToPdfL tab pdfOptions

end Smd.Core

namespace Smd.App
open Smd.Core Smd.Rs

/-- `?` in `run`. -/
def orErrL {α : Type} (p : LProg (Res α)) (f : α → LProg End) : LProg End :=
  p.bind fun
    | .ok a => f a
    | .error e => .ret (.ok (.error e))

/-- Rendering as a step of `run`. -/
def withRenderL (o : Outcome Str) (f : Str → LProg End) : LProg End :=
  match o with
  | .ok html => f html
  | .panic => .ret .panic
  | .hang => .ret .hang
  | .fuelOut => .ret .fuelOut

/-- The `Parse` arm of `run` (lib.rs 32-56). -/
def convertL (g : Texts) (input : Path) (output : Format) : LProg End :=
  orErrL (readToStringL input) fun content =>
  .say ⟨.info, c!"smd", c!"Transpiling markdown"⟩ <|
  .sayAll (g.render content) <|
  withRenderL (Gfm.render content) fun result =>
  match output with
  | .html => orErrL (writeToFileL (setExtension Format.html.ending input) result) fun _ => .ret (.ok (.ok ()))
  | .pdf => orErrL (fromHtmlL result) fun converted =>
      orErrL (writeBytesL (setExtension Format.pdf.ending input) converted) fun _ => .ret (.ok (.ok ()))

/-- `run` (lib.rs 23-61). -/
def runL (g : Texts) (os : Os) (x : Ctx) : Command → LProg End
  | .init => (initConfigL x).bind fun r => .ret (.ok r)
  | .parse input output => orErrL (loadConfigL os x) fun _ => convertL g input output

/-- `main` after the logger is initialised (main.rs 21-29): the error of `run` is logged. -/
def mainL (g : Texts) (os : Os) (x : Ctx) (cmd : Command) : LProg End :=
  (runL g os x cmd).bind fun
    | .ok (.error e) => .say ⟨.error, c!"smd", e.text g⟩ (.ret (.ok (.error e)))
    | r => .ret r

/-- How detailed a level is (crate `log`: `Error` is 1, `Trace` is 5). -/
def Level.num : Level → Nat
  | .error => 1
  | .warn => 2
  | .info => 3
  | .debug => 4
  | .trace => 5

/-- The names of levels in `RUST_LOG`. -/
def Level.name : Level → Str
  | .error => c!"error"
  | .warn => c!"warn"
  | .info => c!"info"
  | .debug => c!"debug"
  | .trace => c!"trace"

/-- What `Builder::parse_filters` makes of the value of `RUST_LOG` (logger.rs 87-89; crate `env_logger`): which lines are
shown. Only the meaning of the plain names of levels is assumed. -/
structure Filters where
  shows : Str → Line → Bool
  level : ∀ (n : Level) (l : Line), shows n.name l = decide (l.level.num ≤ n.num)

/-- The lines that are shown on standard error. `verbose` is the number of `-v`, `env` the variable `RUST_LOG` (main.rs
12-18, logger.rs 87-89). -/
def shown (fl : Filters) (verbose : Nat) (env : Option Str) (o : List Line) : List Line :=
  match rustLog verbose env with
  | some spec => o.filter (fl.shows spec)
  | none => []

end Smd.App
