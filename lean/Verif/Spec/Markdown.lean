import Verif.Spec.Codec

/-! Ordinary text, escaping, and the HTML expected for simple Markdown. Nothing here is taken from the code. -/

namespace Smd.Spec

/-- The characters that can start something other than text. -/
def controlChars : List Char := c!"#\n \t0123456789*_-+>~`[!<|\\"

/-- A word: at least one character, no white space and no control characters. -/
def Word (w : Str) : Prop := w ≠ [] ∧ ∀ c ∈ w, c ∉ controlChars ∧ Rs.isWs c = false

/-- Words joined by single spaces or line ends, and the same without what joins them. -/
inductive Paragraph : Str → Str → Prop
  | one (w : Str) (h : Word w) : Paragraph w w
  | more (w p l : Str) (sep : Char) (h : Word w) (hs : sep = ' ' ∨ sep = '\n') (hp : Paragraph p l) :
      Paragraph (w ++ sep :: p) (w ++ l)

/-- Text as HTML: every character that has an entity is replaced by it. Backslashes are dropped. -/
def escape (s : Str) : Str :=
  (s.filter (· ≠ '\\')).flatMap fun c =>
    match entityTable.find? (fun e => e.2 == c) with
    | some e => e.1
    | none => [c]

example : escape c!"a<b>&\\c" = c!"a&lt;b&gt;&amp;c" := by decide

/-- An element with its content. -/
def elem (n x : Str) : Str := '<' :: n ++ c!">" ++ x ++ c!"</" ++ n ++ c!">"

example : elem c!"p" c!"x" = c!"<p>x</p>" := by decide

/-- `n` copies of a character. -/
abbrev times (n : Nat) (c : Char) : Str := List.replicate n c

/-- A link target that needs no encoding: a scheme of 2 to 32 letters, a colon and ASCII characters that may stand in a
URL and in an attribute. Targets that run scripts or embed data are not meant here, nor are mail addresses. -/
structure PlainTarget (t : Str) : Prop where
  split : ∃ scheme rest, t = scheme ++ ':' :: rest ∧ 2 ≤ scheme.length ∧ scheme.length ≤ 32 ∧
    (∀ c ∈ scheme, c.isAlpha = true) ∧ scheme.map Char.toLower ≠ c!"javascript" ∧
    scheme.map Char.toLower ≠ c!"data" ∧ scheme ≠ c!"mailto"
  chars : ∀ c ∈ t, c.toNat < 128 ∧ Rs.isWs c = false ∧ c ∉ c!"%#[]!$'()*\\&@<>\""

/-- The name of a footnote. -/
def NoteId (id : Str) : Prop := id ≠ [] ∧ ∀ c ∈ id, Rs.isWs c = false ∧ c ≠ '[' ∧ c ≠ ']'

/-- A piece of running text. -/
inductive Inline where
  /-- an ordinary word -/
  | word (w : Str)
  /-- spaces -/
  | space (n : Nat)
  /-- a line end -/
  | eol
  /-- a digit -/
  | digit (c : Char)
  /-- an exclamation mark -/
  | bang
  /-- text between single markers -/
  | em (m : Char) (t : Str)
  /-- text between double markers -/
  | strong (m : Char) (t : Str)
  /-- text between triple markers -/
  | strongEm (m : Char) (t : Str)
  /-- text between double tildes -/
  | strike (t : Str)
  /-- tildes that are text -/
  | tildes (n : Nat)
  /-- a character after a backslash -/
  | escaped (c : Char)
  /-- `[text](target)` -/
  | link (text target : Str)
  /-- `<target>` -/
  | autolink (target : Str)
  /-- `[^id]` -/
  | noteRef (id : Str)
  /-- `>` signs that are text -/
  | arrows (n : Nat)
  /-- a digit and a dot -/
  | digitDot (c : Char)
  /-- `[text]` -/
  | brackets (t : Str)
  /-- text between angle brackets that is not a link -/
  | angle (t : Str)
  /-- hashes after a backslash -/
  | escapedHashes (n : Nat)
  /-- two hyphens or plus signs -/
  | dashes (a b : Char)

namespace Inline

/-- How it is written. -/
def src : Inline → Str
  | word w => w
  | space n => times n ' '
  | eol => c!"\n"
  | digit c => [c]
  | bang => c!"!"
  | em m t => times 1 m ++ t ++ times 1 m
  | strong m t => times 2 m ++ t ++ times 2 m
  | strongEm m t => times 3 m ++ t ++ times 3 m
  | strike t => times 2 '~' ++ t ++ times 2 '~'
  | tildes n => times n '~'
  | escaped c => ['\\', c]
  | link text target => c!"[" ++ text ++ c!"](" ++ target ++ c!")"
  | autolink target => c!"<" ++ target ++ c!">"
  | noteRef id => c!"[^" ++ id ++ c!"]"
  | arrows n => times n '>'
  | digitDot c => [c, '.']
  | brackets t => c!"[" ++ t ++ c!"]"
  | angle t => c!"<" ++ t ++ c!">"
  | escapedHashes n => '\\' :: times n '#'
  | dashes a b => [a, b]

/-- How it is rendered. Spaces and line ends are dropped; every reference has the number 1. -/
def html : Inline → Str
  | word w => escape w
  | space _ => []
  | eol => []
  | digit c => [c]
  | bang => c!"!"
  | em _ t => elem c!"em" (escape t)
  | strong _ t => elem c!"strong" (escape t)
  | strongEm _ t => elem c!"strong" (elem c!"em" (escape t))
  | strike t => elem c!"strike" (escape t)
  | tildes n => escape (times n '~')
  | escaped c => escape [c]
  | link text target => c!"<a href=\"" ++ target ++ c!"\">" ++ escape text ++ c!"</a>"
  | autolink target => c!"<a href=\"" ++ target ++ c!"\">" ++ target ++ c!"</a>"
  | noteRef id => c!"<sup id=\"fnref:" ++ escape id ++ c!"\" role=\"doc-noteref\"><a href=\"#fn:" ++ escape id ++
      c!"\" class=\"footnote\" rel=\"footnote\">1</a></sup>"
  | arrows n => escape (times n '>')
  | digitDot c => [c, '.']
  | brackets t => escape (c!"[" ++ t ++ c!"]")
  | angle t => escape (c!"<" ++ t ++ c!">")
  | escapedHashes n => times n '#'
  | dashes a b => [a, b]

/-- It shows something. -/
def Visible : Inline → Prop
  | space _ => False
  | eol => False
  | _ => True

/-- Text that can be emphasised. -/
def EmText (t : Str) : Prop := (∃ c u, t = c :: u ∧ c ∉ c!" \t\n") ∧ '*' ∉ t ∧ '_' ∉ t

/-- It is well formed, and `next`, the character after it, does not change its meaning. -/
def Good (next : Option Char) : Inline → Prop
  | word w => Word w
  | space n => 1 ≤ n ∧ n ≤ 3 ∧ next ≠ some ' ' ∧ next ≠ some '\t'
  | eol => next ≠ some '\n'
  | digit c => c ∈ c!"0123456789" ∧ next ≠ some '.'
  | bang => next ≠ some '['
  | em m t => (m = '*' ∨ m = '_') ∧ EmText t
  | strong m t => (m = '*' ∨ m = '_') ∧ EmText t ∧ next ≠ some '*' ∧ next ≠ some '_'
  | strongEm m t => (m = '*' ∨ m = '_') ∧ EmText t ∧ next ≠ some '*' ∧ next ≠ some '_'
  | strike t => t ≠ [] ∧ '~' ∉ t ∧ next ≠ some '~'
  | tildes n => 1 ≤ n ∧ n ≠ 2 ∧ next ≠ some '~'
  | escaped c => Rs.isWs c = false ∧ c ≠ '#' ∧ c ≠ '\\'
  | link text target => ']' ∉ text ∧ PlainTarget target
  | autolink target => PlainTarget target
  | noteRef id => NoteId id ∧ next ≠ some ':' ∧ next ≠ some '('
  | arrows n => 1 ≤ n ∧ next ≠ some '>' ∧ next ≠ some ' ' ∧ next ≠ some '\t'
  | digitDot c => c ∈ c!"0123456789" ∧ next ≠ some ' '
  | brackets t => ']' ∉ t ∧ '\n' ∉ t ∧ t.head? ≠ some '^' ∧ ¬ c!"[^" <:+: t ∧ next ≠ some '('
  | angle t => t ≠ [] ∧ '>' ∉ t ∧ '\n' ∉ t ∧ ¬ c!"[^" <:+: t ∧ t ≠ c!"details" ∧
      ((∃ c ∈ t, Rs.isWs c = true) ∨ ':' ∉ t ∧ '@' ∉ t)
  | escapedHashes n => 1 ≤ n ∧ next ≠ some '#'
  | dashes a b => (a = '-' ∨ a = '+') ∧ (b = '-' ∨ b = '+') ∧ next ≠ some '-' ∧ next ≠ some '+'

end Inline

/-- How running text is written. -/
def inlineSrc (is : List Inline) : Str := is.flatMap Inline.src

/-- How running text is rendered. -/
def inlineHtml (is : List Inline) : Str := is.flatMap Inline.html

/-- Every piece is well formed in front of what follows it; `next` is the character after the last piece. -/
def InlineGood (next : Option Char) : List Inline → Prop
  | [] => True
  | i :: is => i.Good ((inlineSrc is).head?.or next) ∧ InlineGood next is

end Smd.Spec
