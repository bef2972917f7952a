import Verif.Core.Sys

/-! Model of `smd-core/src/error.rs` and `smd-core/src/fs.rs`. Logging is not modelled. -/

namespace Smd.Core

/-- `enum Error` (error.rs 5-41), the variants that are constructed by the modelled code. -/
inductive Error where
  | io (e : IoErr)
  | configRead
  | configExists (p : Path)
  | browser (msg : Str)
  | deserialize (s : Str)
  deriving DecidableEq

/-- `Result<T>` (error.rs 44). -/
abbrev Res (α : Type) := Except Error α

/-- The operator `?`: go on with the value or return the error. -/
def Prog.andThen {α β : Type} (p : Prog (Res α)) (f : α → Prog (Res β)) : Prog (Res β) :=
  p.bind fun
    | .ok a => f a
    | .error e => .ret (.error e)

/-- `std::io::Error` becomes `Error::IoError` (error.rs 7). -/
def ioRes {α : Type} : Except IoErr α → Res α
  | .ok a => .ok a
  | .error e => .error (.io e)

/-- `read_to_string` (fs.rs 28-40). -/
def readToString (p : Path) : Prog (Res Str) := .call (.read p) fun r => .ret (ioRes r)

/-- `write_bytes` (fs.rs 66-82): one `write`, whose count is logged and not looked at. The file is closed when it goes out
of scope. -/
def writeBytes (p : Path) (b : Bytes) : Prog (Res Unit) :=
  .call (.create p) fun
    | .error e => .ret (.error (.io e))
    | .ok h => .call (.write h b) fun r => .call (.close h) fun _ =>
      .ret (match r with
        | .ok _ => .ok ()
        | .error e => .error (.io e))

/-- `write_to_file` (fs.rs 43-63). -/
def writeToFile (p : Path) (content : Str) : Prog (Res Unit) := writeBytes p (enc content)

/-- `encode_to_string` (fs.rs 85-100); `serialize` is the trait's method. -/
def encodeToString {α : Type} (serialize : α → Res Str) (a : α) : Res Str :=
  match serialize a with
  | .ok s => .ok s
  | .error e => .error e

/-- `decode_from_file` (fs.rs 103-119); `deserialize` is the trait's method. -/
def decodeFromFile {α : Type} (deserialize : Str → Res α) (p : Path) : Prog (Res α) :=
  (readToString p).andThen fun content =>
    .ret (match deserialize content with
      | .ok a => .ok a
      | .error e => .error e)

end Smd.Core
