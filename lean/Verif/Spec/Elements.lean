import Verif.Spec.Html

/-! Which signs of a document stand for which elements. Nothing here is taken from the code. -/

namespace Smd.Spec

/-- The document `d` has a sign that can stand for the element `n`. `message` is not a sign of Markdown: with `!` the renderer can put a
message of its own into a list entry, and that message has an underscore. Four spaces may have backslashes between them: in a quotation the
renderer takes the backslashes away first. -/
inductive Sign (d : Str) : Str → Prop
  | paragraph : Sign d c!"p"
  | heading (n : Str) (hn : n ∈ [c!"h1", c!"h2", c!"h3", c!"h4", c!"h5", c!"h6"]) (h : '#' ∈ d) : Sign d n
  | quote (h : '>' ∈ d) : Sign d c!"blockquote"
  | bullet (n : Str) (hn : n ∈ [c!"ul", c!"li"]) (c : Char) (hc : c ∈ c!"-+*_") (h : c ∈ d) : Sign d n
  | box (c : Char) (hc : c ∈ c!"-+*_") (h : c ∈ d) (hb : '[' ∈ d) : Sign d c!"input"
  | number (n : Str) (hn : n ∈ [c!"ol", c!"li"]) (c : Char) (hc : c ∈ c!"0123456789") (h : c ∈ d) (hd : '.' ∈ d) : Sign d n
  | note (n : Str) (hn : n ∈ [c!"sup", c!"a", c!"div", c!"ol", c!"li"]) (h : '[' ∈ d) (hc : '^' ∈ d) : Sign d n
  | code (n : Str) (hn : n ∈ [c!"pre", c!"code"]) (h : '`' ∈ d ∨ '\t' ∈ d ∨ c!"    " <:+: d.filter (· != '\\')) : Sign d n
  | emphasis (n : Str) (hn : n ∈ [c!"em", c!"strong"]) (h : '*' ∈ d ∨ '_' ∈ d) : Sign d n
  | message (h : '!' ∈ d) : Sign d c!"em"
  | strike (h : '~' ∈ d) : Sign d c!"strike"
  | link (h : c!"](" <:+: d) : Sign d c!"a"
  | autolink (h : '<' ∈ d) : Sign d c!"a"
  | image (h : '!' ∈ d) (hl : c!"](" <:+: d) : Sign d c!"img"
  | details (n : Str) (hn : n ∈ [c!"details", c!"summary"]) (h : '<' ∈ d) : Sign d n
  | table (n : Str) (hn : n ∈ [c!"table", c!"thead", c!"tbody", c!"tr", c!"th", c!"td"]) (h : '|' ∈ d) : Sign d n
  | rule (c : Char) (hc : c ∈ c!"-+*_") (h : c ∈ d) : Sign d c!"hr"

end Smd.Spec
