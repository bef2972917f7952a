import Verif.Rust.Str

/-!
Platforms: the targets of Rust (https://doc.rust-lang.org/rustc/platform-support.html) and the words of node for systems and processors (`process.platform`,
`process.arch`).
-/

namespace Smd.Spec
open Smd

/-- The processor of a target of Rust, in the words of node. -/
def targetCpu (t : Str) : Option Str :=
  if c!"x86_64-" <+: t then some c!"x64"
  else if c!"aarch64-" <+: t then some c!"arm64"
  else if c!"i686-" <+: t then some c!"ia32"
  else none

/-- The system of a target of Rust, in the words of node. -/
def targetOs (t : Str) : Option Str :=
  if c!"-unknown-linux-" <:+: t then some c!"linux"
  else if c!"-pc-windows-" <:+: t then some c!"win32"
  else if c!"-apple-darwin" <:+ t then some c!"darwin"
  else none

end Smd.Spec
