import Verif.Core.Fs

/-! Model of `smd-core/src/browser.rs` and `smd-core/src/convert.rs`. -/

namespace Smd.Core

/-- A path as written. -/
def pathStr (p : Path) : Str := p.flatMap fun c => '/' :: c

/-- The URL of a file (browser.rs 35). -/
def fileUrl (p : Path) : Str := c!"file://" ++ pathStr p

/-- `BrowserSession::initialize` (browser.rs 21-29). -/
def browserInit : Prog (Res Unit) :=
  .call .startBrowser fun
    | .ok _ => .ret (.ok ())
    | .error _ => .ret (.error (.browser c!"Failed to initialze headless_chrome session."))

/-- The messages of `BrowserSession::open_file` (browser.rs 37-49). -/
def tabErrText : TabErr → Str
  | .newTab => c!"Failed to open new tab."
  | .navigate => c!"Failed to open html file."
  | .wait => c!"Failed to wait until navigation is done."

/-- The messages of `BrowserSession::print_to_pdf` (browser.rs 60-76). Tabs are numbers here. -/
def printErrText (t : Nat) : PrintErr → Str
  | .lock => c!"Failed to lock tabs mutex"
  | .missing => c!"No tab found with TargetID: " ++ Rs.dec t
  | .print => c!"Failed to print to PDF:"

/-- `BrowserSession::open_file` (browser.rs 32-52). The path is absolute here, so `join` yields it. -/
def openFile (p : Path) : Prog (Res Nat) :=
  .call .cwd fun
    | .error e => .ret (.error (.io e))
    | .ok _ => .call (.openTab (fileUrl p)) fun
      | .ok t => .ret (.ok t)
      | .error e => .ret (.error (.browser (tabErrText e)))

/-- `BrowserSession::print_to_pdf` (browser.rs 55-79). -/
def printToPdf (t : Nat) (o : PrintOptions) : Prog (Res Bytes) :=
  .call (.print t o) fun
    | .ok b => .ret (.ok b)
    | .error e => .ret (.error (.browser (printErrText t e)))

/-- The temporary file (convert.rs 33). -/
def tmpPath (cwd : Path) : Path := cwd ++ [c!"tmp.html"]

/-- `fs::remove_file(tmpfile)?` (convert.rs 37). -/
def removeFile (p : Path) : Prog (Res Unit) := .call (.remove p) fun r => .ret (ioRes r)

/-- The options (convert.rs 39-46). -/
def pdfOptions : PrintOptions where
  marginTop := some 0
  marginBottom := some 0
  marginLeft := some 0
  marginRight := some 0
  printBackground := some true

/-- `PDFConverter::from_html` (convert.rs 29-50). -/
def fromHtml (html : Str) : Prog (Res Bytes) :=
  browserInit.andThen fun _ =>
  Prog.andThen (.call .cwd fun r => .ret (ioRes r)) fun dir =>
  (writeToFile (tmpPath dir) html).andThen fun _ =>
  (openFile (tmpPath dir)).andThen fun tab =>
  (removeFile (tmpPath dir)).andThen fun _ =>
  printToPdf tab pdfOptions

end Smd.Core
