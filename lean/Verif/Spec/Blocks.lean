import Verif.Spec.Markdown
import Verif.Spec.Text

/-! Blocks and whole documents: how they are written and what they are expected to render to. Nothing here is taken from
the code. -/

namespace Smd.Spec
open Smd

/-- A text that can stand between `n` backticks. -/
structure CodeText (n : Nat) (t : Str) : Prop where
  nonempty : t ≠ []
  start : t.head? ≠ some '`'
  stop : t.getLast? ≠ some '`'
  inside : ¬ times n '`' <:+: t

/-- The text that is shown: without the spaces around it if there are spaces on both sides. -/
def codeShown (t : Str) : Str :=
  if t.head? = some ' ' ∧ t.getLast? = some ' ' then ((t.dropWhile (· == ' ')).reverse.dropWhile (· == ' ')).reverse else t

/-- A text with a line end at its end. -/
def endLine (t : Str) : Str := if t.getLast? = some '\n' then t else t ++ c!"\n"

/-- `n` copies of a text. -/
def copies (n : Nat) (x : Str) : Str := (List.replicate n x).flatten

/-- A text with two spaces for every tab. -/
def detab (x : Str) : Str := x.flatMap fun c => if c = '\t' then c!"  " else [c]

/-- A quoted line: level, spaces after the markers, text, line ends after it. -/
structure QuoteLine where
  level : Nat
  spaces : Nat
  text : Str
  ends : Nat

namespace QuoteLine

def src (l : QuoteLine) : Str := times l.level '>' ++ times l.spaces ' ' ++ l.text ++ times l.ends '\n'

structure Good (l : QuoteLine) : Prop where
  level : 1 ≤ l.level ∧ l.level ≤ 255
  spaces : 1 ≤ l.spaces
  oneLine : '\n' ∉ l.text
  start : l.text.head? ≠ some ' '

end QuoteLine

/-- The tags between a line at level `q` and a line at level `n`. -/
def quoteMove (q n : Nat) : Str :=
  if n < q then copies (q - n) c!"</blockquote>" else copies (n - q) c!"<blockquote>\n"

/-- Lines with their renderings, at the levels given, after a line at level `q`. -/
def quoteHtml : Nat → List (QuoteLine × Str) → Str
  | _, [] => []
  | q, l :: ls => quoteMove q l.1.level ++ l.2 ++ quoteHtml l.1.level ls

/-- The level after the lines. -/
def quoteEnd (q : Nat) (ls : List (QuoteLine × Str)) : Nat := (ls.getLast?.map fun l => l.1.level).getD q

/-- The definition of a footnote: name, spaces after the colon, first line, further lines with their indentation, line
ends after it. -/
structure NoteDef where
  id : Str
  spaces : Nat
  first : Str
  more : List (Str × Str)
  ends : Nat

namespace NoteDef

def text (d : NoteDef) : Str := d.first ++ d.more.flatMap fun m => '\n' :: (m.1 ++ m.2)

def src (d : NoteDef) : Str := c!"[^" ++ d.id ++ c!"]:" ++ times d.spaces ' ' ++ d.text ++ times d.ends '\n'

/-- Further lines are indented by a tab or two or four spaces. -/
structure Good (d : NoteDef) : Prop where
  id : NoteId d.id
  first : '\n' ∉ d.first
  more : ∀ m ∈ d.more, m.1 ∈ [c!"\t", c!"  ", c!"    "] ∧ '\n' ∉ m.2 ∧ m.2.head? ≠ some ' '
  start : ∃ a u, d.text = a :: u ∧ Rs.isWs a = false
  stop : ∃ a u, d.text = u ++ [a] ∧ Rs.isWs a = false

/-- The endnote. Its identifier is the same for all. -/
def html (d : NoteDef) : Str :=
  c!"\t\t<li id=\"fn:1\" role=\"doc-endnote\">\t\t\t<p>" ++ escape d.text ++ c!"<a href=\"#fnref:" ++ escape d.id ++
  c!"\" class=\"reversefootnote\" role=\"doc-backlink\">↩</a></p>\t\t</li>"

end NoteDef

/-- The endnotes. -/
def notesHtml (ds : List NoteDef) : Str :=
  c!"<div class=\"footnotes\" role=\"doc-endnotes\">\n\t<ol>\n" ++ ds.flatMap NoteDef.html ++ c!"\t</ol>\n</div>\n"

/-- A cell of a table: running text between spaces. -/
structure Cell where
  before : Nat
  text : List Inline
  after : Nat

/-- A link. -/
def Inline.isLink : Inline → Bool
  | .link _ _ => true
  | .autolink _ => true
  | _ => false

/-- Text between double tildes. -/
def Inline.isStrike : Inline → Bool
  | .strike _ => true
  | _ => false

/-- A piece of running text in a cell. Spaces are kept, text between double tildes is dropped. A link is replaced by
`whole`, the whole text of the cell as a paragraph. -/
def Inline.cellHtml (whole : Str) : Inline → Str
  | .space n => times n ' '
  | .strike _ => []
  | .noteRef id => escape (c!"[^" ++ id ++ c!"]")
  | .link _ _ => whole
  | .autolink _ => whole
  | i => i.html

namespace Cell

def src (c : Cell) : Str := times c.before ' ' ++ inlineSrc c.text ++ times c.after ' '

def html (c : Cell) : Str := c.text.flatMap (Inline.cellHtml (elem c!"p" (inlineHtml c.text) ++ c!"\n"))

structure Good (c : Cell) : Prop where
  nonempty : c.src ≠ []
  chars : '|' ∉ c.src ∧ '\n' ∉ c.src
  good : InlineGood none c.text
  links : ∀ i ∈ c.text, i.isLink = true → ∀ j ∈ c.text, j.isStrike = false
  ends : c.text = [] ∨ (∃ i, c.text.head? = some i ∧ i.Visible) ∧ ∃ i, c.text.getLast? = some i ∧ i.Visible

end Cell

/-- A table: the cells of the heading, those of the delimiter row, and the rows. -/
structure Table where
  head : List Str
  delims : List Str
  rows : List (List Cell)

/-- One line of a table. -/
def rowSrc (cells : List Str) : Str := '|' :: cells.flatMap (· ++ c!"|")

/-- The code points with the property White_Space (PropList.txt of Unicode). -/
def whiteSpace : List Nat :=
  [0x9, 0xA, 0xB, 0xC, 0xD, 0x20, 0x85, 0xA0, 0x1680, 0x2000, 0x2001, 0x2002, 0x2003, 0x2004, 0x2005, 0x2006, 0x2007, 0x2008, 0x2009,
    0x200A, 0x2028, 0x2029, 0x202F, 0x205F, 0x3000]

def isWhite (c : Char) : Bool := whiteSpace.contains c.toNat

/-- A text without the white space around it. -/
def trimmed (x : Str) : Str := ((x.dropWhile isWhite).reverse.dropWhile isWhite).reverse

/-- The alignment a delimiter cell gives to its column. -/
def alignOf (delim : Str) : Str :=
  if (trimmed delim).getLast? = some ':' then
    if (trimmed delim).head? = some ':' then c!"center" else c!"right"
  else c!"left"

namespace Table

def src (t : Table) : Str :=
  rowSrc t.head ++ '\n' :: rowSrc t.delims ++ t.rows.flatMap fun r => '\n' :: rowSrc (r.map Cell.src)

def html (t : Table) : Str :=
  c!"<table class=\"table table-bordered\">\n\t<thead>\n\t<tr>\n" ++
  ((t.delims.zip t.head).flatMap fun c => c!"\t\t<th style=\"text-align: " ++ alignOf c.1 ++ c!"\">" ++ escape (trimmed c.2) ++ c!"</th>") ++
  c!"\t</tr>\n\t</thead>\n\t<tbody>" ++
  (t.rows.flatMap fun r => c!"\n\t<tr>" ++
    ((t.delims.zip r).flatMap fun c => c!"\n\t\t<td style=\"text-align: " ++ alignOf c.1 ++ c!"\">" ++ c.2.html ++ c!"</td>") ++
    c!"\n\t</tr>") ++
  c!"\n\t</tbody>\n</table>"

/-- At least one row, the same number of cells in every line, no line ends or pipes in cells. -/
structure Good (t : Table) : Prop where
  rows : t.rows ≠ []
  head : ∀ c ∈ t.head, c ≠ [] ∧ '|' ∉ c ∧ '\n' ∉ c
  delims : ∀ c ∈ t.delims, c ≠ [] ∧ '|' ∉ c ∧ '\n' ∉ c
  cells : ∀ r ∈ t.rows, ∀ c ∈ r, c.Good
  same : t.delims.length = t.head.length ∧ ∀ r ∈ t.rows, r.length = t.head.length

end Table

/-- What follows the first colon. -/
def afterColon (t : Str) : Str := (t.dropWhile (· ≠ ':')).drop 1

/-- What a task is rendered to. -/
def taskHtml (checked : Bool) (w : Str) : Str :=
  c!"<li class=\"task-list-item\"><input type=\"checkbox\" class=\"task-list-item-checkbox\"" ++
    (if checked then c!" checked=\"\"" else []) ++ c!">" ++ escape w ++ c!"</li>"

/-- What a document may end with. Every item has the number of line ends after it. -/
inductive Ending where
  | none
  /-- marker and text -/
  | bullets (items : List (Char × List Inline × Nat))
  /-- digit and text -/
  | ordered (items : List (Char × Str × Nat))
  /-- marker, box and text -/
  | tasks (items : List (Char × Char × Str × Nat))
  /-- quoted lines with their renderings -/
  | quotes (lines : List (QuoteLine × Str))
  /-- text between `n` backticks -/
  | code (n : Nat) (t : Str)
  /-- footnotes -/
  | notes (defs : List NoteDef)

namespace Ending

def src : Ending → Str
  | none => []
  | bullets items => items.flatMap fun i => i.1 :: ' ' :: inlineSrc i.2.1 ++ times i.2.2 '\n'
  | ordered items => items.flatMap fun i => i.1 :: '.' :: ' ' :: i.2.1 ++ times i.2.2 '\n'
  | tasks items => items.flatMap fun i => i.1 :: ' ' :: '[' :: i.2.1 :: ']' :: ' ' :: i.2.2.1 ++ times i.2.2.2 '\n'
  | quotes lines => lines.flatMap fun l => l.1.src
  | code n t => times n '`' ++ t ++ times n '`'
  | notes defs => defs.flatMap NoteDef.src

def html : Ending → Str
  | none => []
  | bullets items =>
    c!"<ul>\n" ++ (items.flatMap fun i => c!"<li>\n" ++ (elem c!"p" (inlineHtml i.2.1) ++ c!"\n") ++ c!"</li>\n") ++ c!"</ul>\n"
  | ordered items => c!"<ol>\n" ++ (items.flatMap fun i => c!"<li>\n" ++ escape i.2.1 ++ c!"</li>\n") ++ c!"</ol>\n"
  | tasks items =>
    c!"<ul class=\"contains-task-list\">" ++ (items.flatMap fun i => taskHtml (decide (i.2.1 ≠ ' ')) i.2.2.1) ++ c!"</ul>\n"
  | quotes lines => quoteHtml 0 lines ++ copies (quoteEnd 0 lines) c!"</blockquote>\n"
  | code _ t => c!"<pre><code>" ++ endLine (escape (codeShown t)) ++ c!"</code></pre>"
  | notes defs => notesHtml defs

/-- Items are single lines, and each but the last is followed by a line end. -/
def Good (R : Str → Str → Prop) : Ending → Prop
  | none => True
  | bullets items => items ≠ [] ∧ (∀ i ∈ items.dropLast, 1 ≤ i.2.2) ∧
      ∀ i ∈ items, (i.1 = '-' ∨ i.1 = '+' ∨ i.1 = '*') ∧ InlineGood (some '\n') i.2.1 ∧ '\n' ∉ inlineSrc i.2.1 ∧
        (∃ j, i.2.1.head? = some j ∧ j.Visible) ∧ ∀ x ∈ c!" xX", ¬ ['[', x, ']', ' '] <+: inlineSrc i.2.1
  | ordered items => items ≠ [] ∧ (∀ i ∈ items.dropLast, 1 ≤ i.2.2) ∧ ∀ i ∈ items, i.1 ∈ c!"0123456789" ∧ '\n' ∉ i.2.1
  | tasks items => items ≠ [] ∧ (∀ i ∈ items.dropLast, 1 ≤ i.2.2.2) ∧
      ∀ i ∈ items, (i.1 = '-' ∨ i.1 = '+') ∧ i.2.1 ∈ c!" xX" ∧ '\n' ∉ i.2.2.1
  | quotes lines => lines ≠ [] ∧ (∀ l ∈ lines.dropLast, 1 ≤ l.1.ends) ∧
      ∀ l ∈ lines, l.1.Good ∧ ∃ x, R (escape l.1.text) x ∧ l.2 = detab x
  | code n t => 1 ≤ n ∧ n ≠ 3 ∧ CodeText n t
  | notes defs => defs ≠ [] ∧ (∀ d ∈ defs.dropLast, 1 ≤ d.ends) ∧ ∀ d ∈ defs, d.Good

/-- The HTML of a list before its closing tag. -/
def opened : Ending → Str
  | bullets items => c!"<ul>\n" ++ items.flatMap fun i => c!"<li>\n" ++ (elem c!"p" (inlineHtml i.2.1) ++ c!"\n") ++ c!"</li>\n"
  | ordered items => c!"<ol>\n" ++ items.flatMap fun i => c!"<li>\n" ++ escape i.2.1 ++ c!"</li>\n"
  | tasks items => c!"<ul class=\"contains-task-list\">" ++ items.flatMap fun i => taskHtml (decide (i.2.1 ≠ ' ')) i.2.2.1
  | _ => []

/-- The closing tag of a list. -/
def close : Ending → Str
  | ordered _ => c!"</ol>\n"
  | _ => c!"</ul>\n"

/-- A list in which every item is followed by a line end. -/
def Spaced : Ending → Prop
  | bullets items => ∀ i ∈ items, 1 ≤ i.2.2
  | ordered items => ∀ i ∈ items, 1 ≤ i.2.2
  | tasks items => ∀ i ∈ items, 1 ≤ i.2.2.2
  | _ => False

/-- A list with a blank line after it. -/
def Apart : Ending → Prop
  | bullets items => ∀ i ∈ items.getLast?, 2 ≤ i.2.2
  | ordered items => ∀ i ∈ items.getLast?, 2 ≤ i.2.2
  | tasks items => ∀ i ∈ items.getLast?, 2 ≤ i.2.2.2
  | _ => False

end Ending

/-- A block. -/
inductive Block where
  /-- a paragraph -/
  | para (is : List Inline)
  /-- a heading of level `n` -/
  | heading (n : Nat) (is : List Inline)
  /-- a run of `n` characters as a thematic break -/
  | rule (n : Nat) (c : Char)
  /-- a table -/
  | table (t : Table)
  /-- an image by itself -/
  | image (text target : Str)
  /-- a collapsible section: summary, content and what the content renders to -/
  | details (summary inner shown : Str)
  /-- quoted lines with their renderings, and a paragraph after them -/
  | quoted (lines : List (QuoteLine × Str)) (is : List Inline)
  /-- a list, and a paragraph after it that begins with `a` and `b` -/
  | listed (l : Ending) (a b : Char) (is : List Inline)
  /-- a list, and a heading of level `n` after it -/
  | listedHeading (l : Ending) (n : Nat) (is : List Inline)
  /-- a list, and a thematic break after it -/
  | listedRule (l : Ending) (n : Nat) (c : Char)
  /-- code between lines of three backticks, with what is written after the first -/
  | fenced (lang body : Str)

/-- In the content of a section sections are closed before others are opened, and all are closed. -/
structure Sections (inner : Str) : Prop where
  flat : ∀ a b, inner = a ++ c!"</details>" ++ b → occ c!"<details>" a = occ c!"</details>" a + 1
  closed : occ c!"<details>" inner = occ c!"</details>" inner

namespace Block

def src : Block → Str
  | para is => inlineSrc is
  | heading n is => times n '#' ++ c!" " ++ inlineSrc is
  | rule n c => times n c
  | table t => t.src
  | image text target => c!"![" ++ text ++ c!"](" ++ target ++ c!")"
  | details summary inner _ => c!"<details>\n<summary>" ++ summary ++ c!"</summary>\n" ++ inner ++ c!"</details>"
  | quoted lines is => (Ending.quotes lines).src ++ inlineSrc is
  | listed l a b is => l.src ++ a :: b :: inlineSrc is
  | listedHeading l n is => l.src ++ (times n '#' ++ c!" " ++ inlineSrc is)
  | listedRule l n c => l.src ++ times n c
  | fenced lang body => c!"```" ++ lang ++ '\n' :: (body ++ c!"```")

/-- The scheme of the address of an image is dropped. A section ends with stray characters. A list is closed behind the
first character of the paragraph after it. A heading or a thematic break after a list is put into a paragraph. Of code
between fences nothing is shown. -/
def html : Block → Str
  | para is => elem c!"p" (inlineHtml is) ++ c!"\n"
  | heading n is => elem ('h' :: Rs.dec n) (inlineHtml is) ++ c!"\n"
  | rule _ _ => c!"<hr />\n"
  | table t => t.html
  | image text target => c!"<p><img src=\"" ++ afterColon target ++ c!"\" alt=\"" ++ escape text ++ c!"\" referrerpolicy=\"no-referrer\"></p>"
  | details summary _ shown => c!"<details>\n<summary>" ++ escape summary ++ c!"</summary>\n" ++ shown ++ c!"\\\n\t\t\t\t\t\t\t n</details>"
  | quoted lines is => quoteHtml 0 lines ++ copies (quoteEnd 0 lines) c!"</blockquote>" ++ (elem c!"p" (inlineHtml is) ++ c!"\n")
  | listed l a b is => l.opened ++ (elem c!"p" (escape [a] ++ l.close ++ escape [b] ++ inlineHtml is) ++ c!"\n")
  | listedHeading l n is => l.opened ++ l.close ++ (elem c!"p" (elem ('h' :: Rs.dec n) (inlineHtml is) ++ c!"\n") ++ c!"\n")
  | listedRule l _ _ => l.opened ++ l.close ++ (elem c!"p" c!"<hr />\n" ++ c!"\n")
  | fenced _ _ => []

/-- A well-formed block; `R` is the relation between a text and what it renders to. -/
def Good (R : Str → Str → Prop) : Block → Prop
  | para is => InlineGood (some '\n') is ∧ ∃ i, is.head? = some i ∧ i.Visible
  | heading n is => 1 ≤ n ∧ n ≤ 6 ∧ InlineGood (some '\n') is ∧ '\n' ∉ inlineSrc is ∧ '#' ∉ inlineSrc is ∧
      (∃ i, is.head? = some i ∧ i.Visible) ∧ ∃ i, is.getLast? = some i ∧ i.Visible
  | rule n c => (c = '-' ∨ c = '+') ∧ 3 ≤ n ∨ (c = '*' ∨ c = '_') ∧ 4 ≤ n
  | table t => t.Good
  | image text target => ']' ∉ text ∧ PlainTarget target ∧ afterColon target ≠ []
  | details summary inner shown => '\n' ∉ summary ∧ '\r' ∉ summary ∧ Sections inner ∧ R ('\n' :: inner) shown
  | quoted lines is => (Ending.quotes lines).Good R ∧ (∀ l ∈ lines, 1 ≤ l.1.ends) ∧ InlineGood (some '\n') is ∧
      ∃ i, is.head? = some i ∧ i.Visible
  | listed l a b is => l.Good R ∧ l.Spaced ∧ Word [a, b] ∧ InlineGood (some '\n') is
  | listedHeading l n is => l.Good R ∧ l.Spaced ∧ (1 ≤ n ∧ n ≤ 6 ∧ InlineGood (some '\n') is ∧ '\n' ∉ inlineSrc is ∧ '#' ∉ inlineSrc is ∧
      (∃ i, is.head? = some i ∧ i.Visible) ∧ ∃ i, is.getLast? = some i ∧ i.Visible)
  | listedRule l n c => l.Good R ∧ l.Spaced ∧ ((c = '-' ∨ c = '+') ∧ 3 ≤ n ∨ (c = '*' ∨ c = '_') ∧ 4 ≤ n)
  | fenced lang body => '\n' ∉ lang ∧ '`' ∉ lang ∧ '`' ∉ body

/-- A paragraph, or what is put into one. -/
def isPara : Block → Bool
  | para _ => true
  | quoted _ _ => true
  | listed _ _ _ _ => true
  | listedHeading _ _ _ => true
  | listedRule _ _ _ => true
  | _ => false

/-- The number of line ends needed between two blocks. -/
def gap (a b : Block) : Nat :=
  match a, b with
  | table _, table _ => 2
  | _, heading _ _ => 1
  | _, details _ _ _ => 1
  | _, fenced _ _ => 1
  | _, _ => if a.isPara then 2 else 1

end Block

/-- Blocks, each with the number of line ends after it. -/
def docSrc (bs : List (Block × Nat)) : Str := bs.flatMap fun b => b.1.src ++ times b.2 '\n'

def docHtml (bs : List (Block × Nat)) : Str := bs.flatMap fun b => b.1.html

/-- Well-formed blocks with enough line ends between them. -/
def DocGood (R : Str → Str → Prop) : List (Block × Nat) → Prop
  | [] => True
  | [(b, _)] => b.Good R
  | (b, n) :: (b', n') :: bs => b.Good R ∧ b.gap b' ≤ n ∧ DocGood R ((b', n') :: bs)

/-- A document: line ends, blocks, and perhaps an ending. -/
structure Doc where
  before : Nat
  blocks : List (Block × Nat)
  ending : Ending

namespace Doc

def src (d : Doc) : Str := times d.before '\n' ++ docSrc d.blocks ++ d.ending.src

/-- A document ends with a line end; so does what comes before footnotes. -/
def html (d : Doc) : Str :=
  match d.ending with
  | .none => endLine (docHtml d.blocks)
  | .notes defs => endLine (docHtml d.blocks) ++ notesHtml defs
  | e => docHtml d.blocks ++ e.html

/-- The blocks are well formed, the ending is well formed and separated from a block before it. -/
structure Good (R : Str → Str → Prop) (d : Doc) : Prop where
  blocks : DocGood R d.blocks
  ending : d.ending.Good R
  between : d.ending = .none ∨ ∀ b, d.blocks.getLast? = some b → (if b.1.isPara then 2 else 1) ≤ b.2

end Doc

/-- An entry of a list of bullets: its line, and further lines, each after a blank line and a tab. With every line goes
what it shows. -/
structure ListEntry where
  marker : Char
  text : Str × Str
  more : List (Str × Str)
  ends : Nat

namespace ListEntry

def src (e : ListEntry) : Str := e.marker :: ' ' :: e.text.1 ++ (e.more.flatMap fun l => c!"\n\n\t" ++ l.1) ++ times e.ends '\n'

def html (e : ListEntry) : Str := c!"<li>\n" ++ e.text.2 ++ (e.more.flatMap fun l => l.2) ++ c!"</li>\n"

/-- `Shows s x`: the text `s` by itself shows `x`. -/
structure Good (Shows : Str → Str → Prop) (e : ListEntry) : Prop where
  marker : e.marker = '-' ∨ e.marker = '+' ∨ e.marker = '*' ∧ e.more = []
  noBox : ∀ x ∈ c!" xX", ¬ ['[', x, ']', ' '] <+: e.text.1
  lines : ∀ l ∈ e.text :: e.more, '\n' ∉ l.1 ∧ l.1.head? ≠ some ' ' ∧ l.1.head? ≠ some '\t' ∧ Shows l.1 l.2 ∧ ¬ c!"<pre><code>" <:+: l.2

end ListEntry

end Smd.Spec
