import Verif.Rust.Str

/-!
The files that a manifest lists for cargo-deb (`[package.metadata.deb]`) and cargo-generate-rpm (`[package.metadata.generate-rpm]`), for manifests with one item
per line, and where the packages install them.
-/

namespace Smd.Spec
open Smd

/-- The first text in quotes of a line that begins with spaces and a quote. -/
def quotedItem (l : Str) : Str := ((l.dropWhile (· == ' ')).drop 1).takeWhile (· != '"')

/-- The assets of cargo-deb: the first two items of the inner lists. -/
def debAssets : List Str → List (Str × Str)
  | a :: b :: c :: ls => if a = c!"  [" then (quotedItem b, quotedItem c) :: debAssets (b :: c :: ls) else debAssets (b :: c :: ls)
  | _ => []

/-- The assets of cargo-generate-rpm: `source` and `dest` of the inner tables. -/
def rpmAssets : List Str → List (Str × Str)
  | [] => []
  | l :: ls =>
    if c!"  { source = \"" <+: l then
      ((l.drop 14).takeWhile (· != '"'), (((l.drop 14).dropWhile (· != '"')).drop 11).takeWhile (· != '"')) :: rpmAssets ls
    else rpmAssets ls

/-- The file that cargo-deb takes for a source in the manifest of the crate in the directory `dir`: what is built is in the directory of the workspace, all else
relative to the manifest. -/
def debFile (dir src : Str) : Str :=
  if c!"target/release/" <+: src then src else if c!"../" <+: src then src.drop 3 else dir ++ c!"/" ++ src

/-- Where a file is installed, without the leading slash: in the directory, if the destination is one. -/
def installed (src dest : Str) : Str :=
  let d := if dest.head? = some '/' then dest.drop 1 else dest
  if dest.getLast? = some '/' then d ++ (src.reverse.takeWhile (· != '/')).reverse else d

end Smd.Spec
