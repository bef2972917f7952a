import Verif.Rust.Str

/-! Where a browser goes for an address in a document, after RFC 3986: the parts of a reference (appendix B) and the resolution of a
reference against the address of the document (section 5.2). -/

namespace Smd.Spec
open Smd

/-- The parts of an address or of a relative reference. -/
structure Ref where
  scheme : Option Str
  authority : Option Str
  path : Str
  query : Option Str
  fragment : Option Str
deriving DecidableEq

/-- The part before the first character of `stop`. -/
def before (stop s : Str) : Str := s.takeWhile fun c => decide (c ∉ stop)

/-- The first character of `stop` and what follows it. -/
def after (stop s : Str) : Str := s.dropWhile fun c => decide (c ∉ stop)

/-- `([^:/?#]+):` -/
def refScheme (s : Str) : Option Str × Str :=
  match before c!":/?#" s, after c!":/?#" s with
  | c :: a, ':' :: r => (some (c :: a), r)
  | _, _ => (none, s)

/-- `//([^/?#]*)` -/
def refAuthority : Str → Option Str × Str
  | '/' :: '/' :: r => (some (before c!"/?#" r), after c!"/?#" r)
  | s => (none, s)

/-- `\?([^#]*)` -/
def refQuery : Str → Option Str × Str
  | '?' :: r => (some (before c!"#" r), after c!"#" r)
  | s => (none, s)

/-- `#(.*)` -/
def refFragment : Str → Option Str
  | '#' :: r => some r
  | _ => none

/-- The parts of a reference (RFC 3986, appendix B). -/
def parseRef (s : Str) : Ref :=
  let p1 := refScheme s
  let p2 := refAuthority p1.2
  let p3 := refQuery (after c!"?#" p2.2)
  { scheme := p1.1, authority := p2.1, path := before c!"?#" p2.2, query := p3.1, fragment := refFragment p3.2 }

/-- The output without its last segment and the slash before it. -/
def dropSegment (out : Str) : Str := ((out.reverse.dropWhile (· ≠ '/')).drop 1).reverse

/-- `remove_dot_segments` (section 5.2.4), with the input and the output buffer; every step shortens the input. -/
def removeDotsGo : Nat → Str → Str → Str
  | 0, _, out => out
  | n + 1, s, out =>
    match s with
    | [] => out
    | '.' :: '.' :: '/' :: r => removeDotsGo n r out
    | '.' :: '/' :: r => removeDotsGo n r out
    | '/' :: '.' :: '/' :: r => removeDotsGo n ('/' :: r) out
    | ['/', '.'] => removeDotsGo n ['/'] out
    | '/' :: '.' :: '.' :: '/' :: r => removeDotsGo n ('/' :: r) (dropSegment out)
    | ['/', '.', '.'] => removeDotsGo n ['/'] (dropSegment out)
    | ['.'] => out
    | ['.', '.'] => out
    | c :: r => removeDotsGo n (after c!"/" r) (out ++ c :: before c!"/" r)

def removeDots (s : Str) : Str := removeDotsGo (s.length + 1) s []

/-- `merge` (section 5.2.3). -/
def mergePaths (base : Ref) (path : Str) : Str :=
  if base.authority.isSome ∧ base.path = [] then '/' :: path else (base.path.reverse.dropWhile (· ≠ '/')).reverse ++ path

/-- The address a reference means in a document at `base` (section 5.2.2). -/
def resolve (base r : Ref) : Ref :=
  if r.scheme.isSome then { r with path := removeDots r.path }
  else if r.authority.isSome then { r with scheme := base.scheme, path := removeDots r.path }
  else
    { scheme := base.scheme
      authority := base.authority
      path :=
        if r.path = [] then base.path
        else if r.path.head? = some '/' then removeDots r.path
        else removeDots (mergePaths base r.path)
      query := if r.path = [] ∧ r.query = none then base.query else r.query
      fragment := r.fragment }

/-- An address as text (section 5.3). -/
def refText (r : Ref) : Str :=
  (r.scheme.map (· ++ c!":")).getD [] ++ (r.authority.map (c!"//" ++ ·)).getD [] ++ r.path ++ (r.query.map ('?' :: ·)).getD [] ++
    (r.fragment.map ('#' :: ·)).getD []

-- The examples of section 5.4.
example : ∀ p ∈ ([(c!"g:h", c!"g:h"), (c!"g", c!"http://a/b/c/g"), (c!"./g", c!"http://a/b/c/g"), (c!"g/", c!"http://a/b/c/g/"),
    (c!"/g", c!"http://a/g"), (c!"//g", c!"http://g"), (c!"?y", c!"http://a/b/c/d;p?y"), (c!"g?y", c!"http://a/b/c/g?y"),
    (c!"#s", c!"http://a/b/c/d;p?q#s"), (c!"g#s", c!"http://a/b/c/g#s"), (c!"g?y#s", c!"http://a/b/c/g?y#s"), (c!";x", c!"http://a/b/c/;x"),
    (c!"g;x", c!"http://a/b/c/g;x"), (c!"g;x?y#s", c!"http://a/b/c/g;x?y#s"), (c!"", c!"http://a/b/c/d;p?q"), (c!".", c!"http://a/b/c/"),
    (c!"./", c!"http://a/b/c/"), (c!"..", c!"http://a/b/"), (c!"../", c!"http://a/b/"), (c!"../g", c!"http://a/b/g"), (c!"../..", c!"http://a/"),
    (c!"../../", c!"http://a/"), (c!"../../g", c!"http://a/g"), (c!"../../../g", c!"http://a/g"), (c!"../../../../g", c!"http://a/g"),
    (c!"/./g", c!"http://a/g"), (c!"/../g", c!"http://a/g"), (c!"g.", c!"http://a/b/c/g."), (c!".g", c!"http://a/b/c/.g"),
    (c!"g..", c!"http://a/b/c/g.."), (c!"..g", c!"http://a/b/c/..g"), (c!"./../g", c!"http://a/b/g"), (c!"./g/.", c!"http://a/b/c/g/"),
    (c!"g/./h", c!"http://a/b/c/g/h"), (c!"g/../h", c!"http://a/b/c/h"), (c!"g;x=1/./y", c!"http://a/b/c/g;x=1/y"),
    (c!"g;x=1/../y", c!"http://a/b/c/y"), (c!"g?y/./x", c!"http://a/b/c/g?y/./x"), (c!"g#s/../x", c!"http://a/b/c/g#s/../x"),
    (c!"http:g", c!"http:g")] : List (Str × Str)), refText (resolve (parseRef c!"http://a/b/c/d;p?q") (parseRef p.1)) = p.2 := by
  decide +kernel

end Smd.Spec
