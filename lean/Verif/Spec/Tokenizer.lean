import Verif.Rust.Str

/-!
How a browser reads tags: the start and end tag states of the HTML tokenizer (WHATWG HTML, section 13.2.5, states 13.2.5.1
and 13.2.5.6 to 13.2.5.40), as a machine that reads one character at a time. Not included: comments and declarations
(everything from `<!` or `<?` to the next `>` is skipped), decoding of character references in values (values are given as
written), and the raw text modes of `script`, `style`, `title` and `textarea` (none of which the renderer writes).
-/

namespace Smd.Spec

/-- A tag found by the tokenizer. -/
structure HTag where
  close : Bool := false
  name : Str := []
  attrs : List (Str × Str) := []
  deriving DecidableEq, Repr

inductive HState where
  | data | tagOpen | endTagOpen | tagName | beforeAttr | attrName | afterAttrName | beforeVal | valDq | valSq | valUq
  | afterVal | selfClose | bogus
  deriving DecidableEq, Repr

/-- The tag and the attribute being read. -/
structure HAcc where
  tag : HTag := {}
  key : Str := []
  val : Str := []
  deriving DecidableEq, Repr

/-- White space inside tags. -/
def tagWs (c : Char) : Bool := c == ' ' || c == '\n' || c == '\t' || c == Char.ofNat 12 || c == '\r'

/-- Add the finished attribute to the tag. -/
def HAcc.fin (a : HAcc) : HAcc := { tag := { a.tag with attrs := a.tag.attrs ++ [(a.key, a.val)] } }

/-- "Before attribute name" on a character. -/
def attrStart (a : HAcc) (c : Char) : HState × HAcc × Option HTag :=
  if tagWs c then (.beforeAttr, a, none)
  else if c = '/' then (.selfClose, a, none)
  else if c = '>' then (.data, {}, some a.tag)
  else (.attrName, { a with key := [c.toLower], val := [] }, none)

/-- One step of the tokenizer: the next state, what is being read, and the tag that is complete, if any. -/
def hstep : HState → HAcc → Char → HState × HAcc × Option HTag
  | .data, a, c => if c = '<' then (.tagOpen, {}, none) else (.data, a, none)
  | .tagOpen, a, c =>
    if c = '/' then (.endTagOpen, a, none)
    else if c = '!' ∨ c = '?' then (.bogus, a, none)
    else if c.isAlpha then (.tagName, { tag := { name := [c.toLower] } }, none)
    else if c = '<' then (.tagOpen, {}, none)
    else (.data, {}, none)
  | .endTagOpen, a, c =>
    if c.isAlpha then (.tagName, { tag := { close := true, name := [c.toLower] } }, none)
    else if c = '>' then (.data, {}, none)
    else (.bogus, a, none)
  | .tagName, a, c =>
    if tagWs c then (.beforeAttr, a, none)
    else if c = '/' then (.selfClose, a, none)
    else if c = '>' then (.data, {}, some a.tag)
    else (.tagName, { a with tag := { a.tag with name := a.tag.name ++ [c.toLower] } }, none)
  | .beforeAttr, a, c => attrStart a c
  | .attrName, a, c =>
    if tagWs c then (.afterAttrName, a, none)
    else if c = '/' then (.selfClose, a.fin, none)
    else if c = '>' then (.data, {}, some a.fin.tag)
    else if c = '=' then (.beforeVal, a, none)
    else (.attrName, { a with key := a.key ++ [c.toLower] }, none)
  | .afterAttrName, a, c =>
    if tagWs c then (.afterAttrName, a, none)
    else if c = '/' then (.selfClose, a.fin, none)
    else if c = '=' then (.beforeVal, a, none)
    else if c = '>' then (.data, {}, some a.fin.tag)
    else (.attrName, { a.fin with key := [c.toLower], val := [] }, none)
  | .beforeVal, a, c =>
    if tagWs c then (.beforeVal, a, none)
    else if c = '"' then (.valDq, a, none)
    else if c = '\'' then (.valSq, a, none)
    else if c = '>' then (.data, {}, some a.fin.tag)
    else (.valUq, { a with val := [c] }, none)
  | .valDq, a, c => if c = '"' then (.afterVal, a.fin, none) else (.valDq, { a with val := a.val ++ [c] }, none)
  | .valSq, a, c => if c = '\'' then (.afterVal, a.fin, none) else (.valSq, { a with val := a.val ++ [c] }, none)
  | .valUq, a, c =>
    if tagWs c then (.beforeAttr, a.fin, none)
    else if c = '>' then (.data, {}, some a.fin.tag)
    else (.valUq, { a with val := a.val ++ [c] }, none)
  | .afterVal, a, c => attrStart a c
  | .selfClose, a, c => attrStart a c
  | .bogus, a, c => if c = '>' then (.data, {}, none) else (.bogus, a, none)

/-- The tags found from a state on. A tag that is not complete at the end of the text is dropped. -/
def hscan : HState → HAcc → Str → List HTag
  | _, _, [] => []
  | st, a, c :: cs => (hstep st a c).2.2.toList ++ hscan (hstep st a c).1 (hstep st a c).2.1 cs

/-- The tags a browser finds in a text. -/
def htmlTags (s : Str) : List HTag := hscan .data {} s

example : htmlTags c!"a < b<P class=\"x>y\" id='z' CHECKED src=q>t</p ><br/><!-- <p -->" =
    [⟨false, c!"p", [(c!"class", c!"x>y"), (c!"id", c!"z"), (c!"checked", []), (c!"src", c!"q")]⟩, ⟨true, c!"p", []⟩,
     ⟨false, c!"br", []⟩] := by decide

end Smd.Spec
