import Verif.Spec.Text
import Verif.Spec.Codec
import Verif.Spec.Tokenizer

/-!
What safe HTML output is: a sequence of characters other than `<` and of tags from a fixed list of elements, with
attributes from a fixed list whose values are quoted. Nothing here is taken from the code.
-/

namespace Smd.Spec

/-- The elements of a rendered document. There is none that runs code or loads anything but an image. -/
def elementNames : List Str :=
  [c!"p", c!"blockquote", c!"ol", c!"ul", c!"li", c!"pre", c!"code", c!"sup", c!"a", c!"h1", c!"h2", c!"h3", c!"h4",
   c!"h5", c!"h6", c!"em", c!"strong", c!"strike", c!"table", c!"thead", c!"tbody", c!"tr", c!"th", c!"td",
   c!"details", c!"summary", c!"div", c!"img", c!"input"]

/-- The elements that have no closing tag. -/
def voidNames : List Str := [c!"img", c!"input"]

/-- The attributes of a rendered document. There are no event handlers. -/
def attrNames : List Str :=
  [c!"id", c!"role", c!"href", c!"class", c!"rel", c!"src", c!"alt", c!"referrerpolicy", c!"type", c!"checked", c!"style"]

/-- An attribute as written in a tag. -/
def attrText (a : Str × Str) : Str := ' ' :: a.1 ++ c!"=\"" ++ a.2 ++ c!"\""

/-- An opening tag. -/
def openTag (n : Str) (attrs : List (Str × Str)) : Str := '<' :: n ++ attrs.flatMap attrText ++ c!">"

/-- A closing tag. -/
def closeTag (n : Str) : Str := '<' :: '/' :: n ++ c!">"

example : openTag c!"a" [(c!"href", c!"x")] = c!"<a href=\"x\">" := by decide
example : closeTag c!"p" = c!"</p>" := by decide

/-- A tag of a rendered document whose attributes satisfy `A`. The last two are a rule and a tag the renderer writes for
links with a title (it puts the target behind the tag instead of inside). -/
inductive TagOf (A : Str → Str → Prop) : Str → Prop
  | opening (n : Str) (attrs : List (Str × Str)) (hn : n ∈ elementNames) (ha : ∀ a ∈ attrs, A a.1 a.2) :
      TagOf A (openTag n attrs)
  | closing (n : Str) (hn : n ∈ elementNames) : TagOf A (closeTag n)
  | rule : TagOf A c!"<hr />"
  | emptyHref : TagOf A c!"<a href=>"

/-- A sequence of tags and of characters other than `<`. -/
inductive Tagged (A : Str → Str → Prop) : Str → Prop
  | nil : Tagged A []
  | text (c : Char) (s : Str) (hc : c ≠ '<') (hs : Tagged A s) : Tagged A (c :: s)
  | tag (t s : Str) (ht : TagOf A t) (hs : Tagged A s) : Tagged A (t ++ s)

/-- A link target that runs no script: empty, a place in the document, or a URL whose scheme is made of letters, digits
and `+.-` (so a browser finds nothing to decode or to skip in it) and is not `javascript` in any letter case. -/
def SafeHref (v : Str) : Prop :=
  v = [] ∨ v.head? = some '#' ∨
    ':' ∈ v ∧ (∀ c ∈ urlScheme v, c.isAlphanum = true ∨ c ∈ c!"+.-") ∧ ¬ eqIgnoreCase (urlScheme v) c!"javascript"

/-- A safe attribute: its name is in the list, its value contains no `<` and (if `q`) no `"`, and a link target runs no
script. -/
def SafeAttr (q : Prop) (k v : Str) : Prop :=
  k ∈ attrNames ∧ '<' ∉ v ∧ (q → '"' ∉ v) ∧ (k = c!"href" → SafeHref v)

/-- The names of tags a browser may find in a rendered document. -/
def tagNames : List Str := c!"hr" :: elementNames

/-- A tag that does no harm: a known name, known attributes, and no script behind a link. -/
def SafeTag (t : HTag) : Prop :=
  t.name ∈ tagNames ∧ ∀ a ∈ t.attrs, a.1 ∈ attrNames ∧ (a.1 = c!"href" → SafeHref a.2)

/-- A document in which the three constructs the renderer copies unescaped contain no markup: text around `[^`, the target
and title of `](…)`, and the inside of `<…>` if it can be a URL or a mail address (no white space, a `:` or an `@`). -/
structure SafeSource (q : Prop) (d : Str) : Prop where
  note : ¬ c!"[^" <:+: d ∨ '<' ∉ d
  target : ∀ x, c!"](" ++ x <:+: d → ')' ∉ x → '<' ∉ x ∧ (q → '"' ∉ x.takeWhile (· != ' '))
  auto : ∀ x, '<' :: (x ++ c!">") <:+: d → '>' ∉ x → (∀ c ∈ x, Rs.isWs c = false) → ':' ∈ x ∨ '@' ∈ x →
    '<' ∉ x ∧ (q → '"' ∉ x)

/-- The number of opening tags of the element `n`. -/
def opens (n s : Str) : Nat := occ ('<' :: n ++ c!">") s + occ ('<' :: n ++ c!" ") s

/-- The number of closing tags of the element `n`. -/
def closes (n s : Str) : Nat := occ (closeTag n) s

example : opens c!"ul" c!"<ul><ul class=\"x\"></ul><uli>" = 2 ∧ closes c!"ul" c!"<ul><ul class=\"x\"></ul><uli>" = 1 := by
  decide

end Smd.Spec
