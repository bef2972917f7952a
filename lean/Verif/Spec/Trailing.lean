import Verif.Gfm.Token

/-! Tokens that are complete at the end of a document (C125). -/

namespace Smd.Spec
open Smd.Rs Smd.Gfm

/-- `Sealed p t`: the token `t`, made of the characters `p` at the very end of a document, is complete, so that line feeds after it do not
belong to it. Headings, quotes, tables, rules, footnotes, strong text and the entries of ordered and task lists are. Emphasis must have its
closing delimiter, a link or an image its closing parenthesis, a folded section its closing tag. An entry of an unordered list is one line or
ends with a line feed. Indented code ends with a line feed. Other text must be a single character that does not begin a construct. -/
def Sealed (p : Str) : Token → Prop
  | .plaintext _ => ∃ c, p = [c] ∧ c ∉ c!"#\t*_-+`[<|\\"
  | .header _ _ _ => True
  | .unorderedListEntry _ => '\n' ∉ p ∨ p.getLast? = some '\n'
  | .orderedListEntry _ => True
  | .italic _ => 2 ≤ p.length ∧ (p.getLast? = some '*' ∨ p.getLast? = some '_')
  | .bold _ => True
  | .boldItalic _ => True
  | .newline => True
  | .horizontalRule => True
  | .strikethrough _ => True
  | .code _ => p.head? = some '`' ∨ p.getLast? = some '\n'
  | .codeBlock _ _ => p.head? = some '`'
  | .blockQuote _ _ => True
  | .image _ _ => p.getLast? = some ')'
  | .link _ _ _ => p.head? = some '<' ∨ p.getLast? = some ')'
  | .table _ _ => True
  | .taskListItem _ _ => True
  | .footnote _ _ => True
  | .detail _ _ => c!"</details>" <:+ p
  | _ => False

end Smd.Spec
