import Verif.Gfm.Lexer

/-!
Model of `Parser::parse` and `Parser::sanitize_display_text` (`gfm/src/lib.rs`).
-/

namespace Smd.Gfm
open Smd.Rs

/-- `Parser::sanitize_display_text` (lib.rs 572-588): fourteen sequential replacements. -/
def sanitize (source : Str) : Str :=
  let s := replaceC '&' c!"&amp;" source
  let s := replaceC '<' c!"&lt;" s
  let s := replaceC '>' c!"&gt;" s
  let s := replaceC '"' c!"&quot;" s
  let s := replaceC '\'' c!"&apos;" s
  let s := replaceC '[' c!"&lbrack;" s
  let s := replaceC ']' c!"&rbrack;" s
  let s := replaceC '{' c!"&lbrace;" s
  let s := replaceC '}' c!"&rbrace;" s
  let s := replaceC '|' c!"&mid;" s
  let s := replaceC '\\' c!"" s
  let s := replaceC '~' c!"&tilde;" s
  let s := replaceC ')' c!"&#41;" s
  replaceC '(' c!"&#40;" s

/-- The mutable variables of `Parser::parse` (lib.rs 54-61). -/
structure PState where
  html : Str := []
  quoteLevel : Nat := 0
  inTask : Bool := false
  inPara : Bool := false
  inOl : Bool := false
  inUl : Bool := false
  inCode : Bool := false
  refs : List (Str × Str) := []
  deriving DecidableEq, Repr

/-- `html.push_str(x)`. -/
def PState.push (st : PState) (x : Str) : PState := { st with html := st.html ++ x }

/-- `n` copies of a string, one after the other. -/
def rep (n : Nat) (x : Str) : Str := (List.replicate n x).flatten

/-- Tokens of the fifth arm of the first `match` (lib.rs 77-82). -/
def opensPara : Token → Bool
  | .plaintext _ => true
  | .italic _ => true
  | .bold _ => true
  | .boldItalic _ => true
  | .strikethrough _ => true
  | .link _ _ _ => true
  | _ => false

/-- Tokens `CodeBlock | Newline | Header` (lib.rs 116-118). -/
def closesPara : Token → Bool
  | .codeBlock _ _ => true
  | .newline => true
  | .header _ _ _ => true
  | _ => false

/-- Tokens `OrderedListEntry | UnorderedListEntry | Newline` (lib.rs 72-74). -/
def staysInList : Token → Bool
  | .orderedListEntry _ => true
  | .unorderedListEntry _ => true
  | .newline => true
  | _ => false

/-- Tokens `TaskListItem | Newline` (lib.rs 76). -/
def staysInTask : Token → Bool
  | .taskListItem _ _ => true
  | .newline => true
  | _ => false

/-- Tokens `BlockQuote | Newline` (lib.rs 124). -/
def staysInQuote : Token → Bool
  | .blockQuote _ _ => true
  | .newline => true
  | _ => false

def isBlankPlain : Token → Bool
  | .plaintext t => (trim t).isEmpty
  | _ => false

def isTab : Token → Bool
  | .tab => true
  | .doubleTab => true
  | _ => false

def isCode : Token → Bool
  | .code _ => true
  | _ => false

/-- "open a paragraph unless one is open" (lib.rs 95-98, 103-106, 111-114). -/
def PState.ensurePara (st : PState) : PState :=
  if !st.inPara then { st with inPara := true }.push c!"<p>" else st

/-- The first `match token` of the loop in `Parser::parse` (lib.rs 69-139), arm by arm. The loop at 85-88 pushes one
`</blockquote>` per level and leaves level 0. The arm at 126-133 repeats the one at 116-123 and is unreachable. -/
def step1 (t : Token) (st : PState) : PState :=
  if isBlankPlain t then st
  else if isTab t then st
  else if staysInList t && (st.inOl || st.inUl) then st
  else if staysInTask t && st.inTask then st
  else if opensPara t && !st.inPara then
    ({ st with quoteLevel := 0, inPara := true }.push (rep st.quoteLevel c!"</blockquote>")).push c!"<p>"
  else if st.inOl then ({ st with inOl := false }.push c!"</ol>\n").ensurePara
  else if st.inUl then ({ st with inUl := false }.push c!"</ul>\n").ensurePara
  else if st.inTask then ({ st with inTask := false }.push c!"</ul>\n").ensurePara
  else if closesPara t && st.inPara then { st with inPara := false }.push c!"</p>\n"
  else if staysInQuote t && decide (st.quoteLevel > 0) then st
  else if isCode t && !st.inCode then { st with inCode := true }.push c!"<pre><code>"
  else st

/-- The `<sup>` of a footnote reference (lib.rs 162-175). -/
def supTag (reference : Str) (count : Nat) : Str :=
  c!"<sup id=\"fnref:" ++ reference ++ c!"\" role=\"doc-noteref\"><a href=\"#fn:" ++ reference ++
  c!"\" class=\"footnote\" rel=\"footnote\">" ++ dec count ++ c!"</a></sup>"

/-- The loop over `t.split("[^")` (lib.rs 156-180). -/
def footRefs : Nat → List Str → Str
  | _, [] => []
  | count, tok :: toks =>
    if endsWith (trimEnd tok) c!"]" then
      supTag (sanitize (trimEndP (· == ']') (trimEnd tok))) count ++ footRefs (count + 1) toks
    else tok ++ footRefs count toks

/-- The removal of trailing blank lines (lib.rs 148-153). -/
def plainTrim (t : Str) : Str :=
  match afterLast '\n' t with
  | none => t
  | some after => if after.all isWs then trimEndStr after t else t

/-- What a non-blank `Plaintext` pushes (lib.rs 148-186). -/
def plainOut (t0 : Str) : Str :=
  let t := plainTrim t0
  if contains t c!"[^" && contains t c!"]" then footRefs 1 (splitStr c!"[^" t)
  else sanitize (t.dropWhile (· == '\n'))

/-- What a `Header` pushes (lib.rs 188-211). -/
def headerOut (l : Nat) (t : Str) : Option Str → Str
  | some lbl =>
    c!"<h" ++ dec l ++ c!" id=\"" ++ sanitize (replaceC ' ' c!"-" lbl) ++ c!"\">" ++ t ++ c!"</h" ++ dec l ++ c!">\n"
  | none => c!"<h" ++ dec l ++ c!">" ++ t ++ c!"</h" ++ dec l ++ c!">\n"

/-- What an `Image` pushes (lib.rs 261-289). -/
def imageOut (l : Str) (t : Option Str) : Str :=
  match t with
  | none =>
    if trim l = [] then c!"<p><img src=\"data:,\"></p>"
    else c!"<p><img src=\"" ++ l ++ c!"\"> referrerpolicy=\"no-referrer\"></p>"
  | some t =>
    if trim l = [] then c!"<p><img src=\"data:,\" alt=\"" ++ sanitize t ++ c!"\"></p>"
    else c!"<p><img src=\"" ++ l ++ c!"\" alt=\"" ++ sanitize t ++ c!"\" referrerpolicy=\"no-referrer\"></p>"

/-- What a `Link` pushes (lib.rs 290-324). -/
def linkOut (l : ValidURL) : Option Str → Option Str → Str
  | some t, some ht => c!"<a href=>\"" ++ l.display ++ c!"\" title=\"" ++ ht ++ c!"\">" ++ sanitize t ++ c!"</a>"
  | some t, none => c!"<a href=\"" ++ l.display ++ c!"\">" ++ sanitize t ++ c!"</a>"
  | none, some ht => c!"<a href=\"" ++ l.display ++ c!"\" title=\"" ++ sanitize ht ++ c!"\">" ++ l.display ++ c!"</a>"
  | none, none => c!"<a href=\"" ++ l.display ++ c!"\">" ++ l.fmtUnsafe ++ c!"</a>"

/-- What a `TaskListItem` pushes after the opening `<ul>` (lib.rs 396-416). -/
def taskOut (b : TaskBox) (t : Str) : Str :=
  match b with
  | .checked =>
    c!"<li class=\"task-list-item\"><input type=\"checkbox\" class=\"task-list-item-checkbox\" checked=\"\">" ++
      sanitize t ++ c!"</li>"
  | .unchecked =>
    c!"<li class=\"task-list-item\"><input type=\"checkbox\" class=\"task-list-item-checkbox\">" ++
      sanitize t ++ c!"</li>"

/-- The tokens of a list entry (lib.rs 235-258): only `Plaintext` entries are shown, each rendered recursively. -/
def entryOut (r : Rec) : List Token → Outcome Str
  | [] => .ok []
  | .plaintext text :: ts =>
    let arg :=
      if startsWith text c!"\t\t" then trimStartP (· == ' ') (text.drop 1) else trimStartP (· == ' ') text
    r.render [] arg >>= fun h =>
    entryOut r ts >>= fun rest =>
    .ok (replaceStr c!"<pre><code>" c!"<pre><code>  " h ++ rest)
  | _ :: ts => entryOut r ts

/-- `matches!(t, Token::Plaintext(_))` (lib.rs 232). -/
def isPlaintext : Token → Bool
  | .plaintext _ => true
  | _ => false

/-- What the opening/closing of block quotes pushes for a `BlockQuote` of level `l` (lib.rs 364-381). -/
def quoteTags (l q : Nat) : Str :=
  if l = q then []
  else if l < q then rep (q - l) c!"</blockquote>"
  else rep (l - q) c!"<blockquote>\n"

/-- The `BlockQuote` arm (lib.rs 359-390). -/
def quoteStep (r : Rec) (l : Nat) (t : Str) (st : PState) : Outcome PState :=
  let st := if st.inPara then { st with inPara := false }.push c!"</p>" else st
  let st := { st with quoteLevel := l }.push (quoteTags l st.quoteLevel)
  if t.isEmpty then .ok st
  else
    r.render [] (sanitize (trimStartP (· == ' ') t)) >>= fun h =>
    .ok (st.push (replaceStr c!"\t" c!"  " h))

/-- Heading cells of a table (lib.rs 426-436). -/
def headCells (hs : List (Alignment × Str)) : Str :=
  hs.flatMap (fun h =>
    c!"\t\t<th style=\"text-align: " ++ h.1.display ++ c!"\">" ++ sanitize h.2 ++ c!"</th>")

/-- The content of a table cell (lib.rs 441-486); `whole` is `Self::parse(&elem.1)`, used for every token of another
kind (lib.rs 483-484). -/
def cellText (whole : Outcome Str) : List Token → Outcome Str
  | [] => .ok []
  | t :: ts =>
    (match t with
      | .plaintext s => .ok (sanitize s)
      | .italic s => .ok (c!"<em>" ++ sanitize s ++ c!"</em>")
      | .bold s => .ok (c!"<strong>" ++ sanitize s ++ c!"</strong>")
      | .boldItalic s => .ok (c!"<strong><em>" ++ sanitize s ++ c!"</em></strong>")
      | .lineBreak => .ok c!"<br>"
      | .horizontalRule => .ok c!"<hr />"
      | .strikethrough s => .ok (c!"<strike>" ++ sanitize s ++ c!"</strike>")
      | _ => whole) >>= fun h =>
    cellText whole ts >>= fun rest => .ok (h ++ rest)

/-- One entry of the endnotes (lib.rs 550-563). -/
def noteOut (n : Str × Str) : Str :=
  c!"\t\t<li id=\"fn:1\" role=\"doc-endnote\">" ++
  c!"\t\t\t<p>" ++ sanitize n.2 ++ c!"<a href=\"#fnref:" ++ sanitize n.1 ++
  c!"\" class=\"reversefootnote\" role=\"doc-backlink\">↩</a></p>" ++
  c!"\t\t</li>"

/-- "push a newline unless the text already ends with one" (lib.rs 536-538). -/
def endNl (h : Str) : Str := if h.getLast?.getD ' ' ≠ '\n' then h ++ c!"\n" else h

/-- The epilogue of `Parser::parse` (lib.rs 522-569). `token_iter.peek()` is `None` here, so the second conjunct at 539
holds. -/
def finish (st : PState) : Str :=
  let h := st.html
  let h := if st.inPara then h ++ c!"</p>\n" else h
  let h := h ++ rep st.quoteLevel c!"</blockquote>\n"
  let h := if st.inTask || st.inUl then h ++ c!"</ul>" else h
  let h := if st.inOl then h ++ c!"</ol>" else h
  let h := endNl h
  let h := if st.inCode then endNl h ++ c!"</code></pre>" else h
  if st.refs.length > 0 then
    h ++ c!"<div class=\"footnotes\" role=\"doc-endnotes\">\n" ++ c!"\t<ol>\n" ++ st.refs.flatMap noteOut ++
      c!"\t</ol>\n" ++ c!"</div>\n"
  else h

/-- The second `match token` (lib.rs 141-519) for tokens without nested tokens to parse. The `continue`s at 145 and 420
leave the state unchanged. -/
def step2 (r : Rec) (t : Token) (st : PState) : Outcome PState :=
  match t with
  | .plaintext t => if (trim t).isEmpty then .ok st else .ok (st.push (plainOut t))
  | .header l t lbl => .ok (st.push (headerOut l t lbl))
  | .orderedListEntry t =>
    let st := if !st.inOl then { st with inOl := true }.push c!"<ol>\n" else st
    .ok (st.push (c!"<li>\n" ++ sanitize t ++ c!"</li>\n"))
  | .unorderedListEntry toks =>
    let st := if !st.inUl then { st with inUl := true }.push c!"<ul>\n" else st
    let st := st.push c!"<li>"
    let st := if toks.all isPlaintext then st.push c!"\n" else st
    entryOut r toks >>= fun h => .ok ((st.push h).push c!"</li>\n")
  | .image l t => .ok (st.push (imageOut l t))
  | .link l t ht => .ok (st.push (linkOut l t ht))
  | .italic t => .ok (st.push (c!"<em>" ++ sanitize t ++ c!"</em>"))
  | .bold t => .ok (st.push (c!"<strong>" ++ sanitize t ++ c!"</strong>"))
  | .boldItalic t => .ok (st.push (c!"<strong><em>" ++ sanitize t ++ c!"</em></strong>"))
  | .blockQuote l t => quoteStep r l t st
  | .taskListItem c t =>
    let st := if !st.inTask then { st with inTask := true }.push c!"<ul class=\"contains-task-list\">" else st
    .ok (st.push (taskOut c t))
  | .strikethrough t => .ok (st.push (c!"<strike>" ++ sanitize t ++ c!"</strike>"))
  | .code t => .ok (st.push (sanitize t))
  | .horizontalRule => .ok (st.push c!"<hr />\n")
  | .newline => .ok st
  | .tab => .ok (st.push c!"\t")
  | .doubleTab => .ok (st.push c!"\t\t")
  | .footnote i t => .ok { st with refs := st.refs ++ [(i, t)] }
  | .lineBreak => .ok st
  | .codeBlock _ _ => .ok st
  | .detail _ _ => .ok st   -- handled in `parseTok`
  | .table _ _ => .ok st    -- handled in `parseTok`

/-- What a `Detail` pushes, given the rendering of its content (lib.rs 331-339). The format string at 333-334 contains
an escaped backslash followed by a line break and seven tabs, not a line continuation. -/
def detailOut (summary inner : Str) : Str :=
  c!"<details>\n<summary>" ++ sanitize summary ++ c!"</summary>\n" ++ inner ++
  c!"\\\n\t\t\t\t\t\t\t n</details>"

mutual

/-- One iteration of the loop of `Parser::parse` (lib.rs 65-520). -/
def parseTok (r : Rec) : Token → PState → Outcome PState
  | .detail summary inner, st0 =>
    let st := step1 (.detail summary inner) st0
    let st := if st.inPara then { st with inPara := false }.push c!"</p>\n" else st
    (parseToks r inner {}).bind fun s => .ok (st.push (detailOut summary (finish s)))
  | .table headings rows, st0 =>
    let st := step1 (.table headings rows) st0
    match rows with
    | [] => .panic
    | r0 :: rs =>
      if headings.length ≠ r0.length then .ok st
      else
        (parseRow r r0).bind fun b0 =>
        (parseRows r rs).bind fun bs =>
        .ok (st.push (c!"<table class=\"table table-bordered\">\n\t<thead>\n\t<tr>\n" ++ headCells headings ++
          c!"\t</tr>\n\t</thead>\n\t<tbody>" ++ (c!"\n\t<tr>" ++ b0 ++ c!"\n\t</tr>") ++ bs ++ c!"\n\t</tbody>\n</table>"))
  | t, st => step2 r t (step1 t st)

/-- The loop of `Parser::parse` (lib.rs 65-520). -/
def parseToks (r : Rec) : List Token → PState → Outcome PState
  | [], st => .ok st
  | t :: ts, st => (parseTok r t st).bind fun st => parseToks r ts st

/-- The body rows of a table (lib.rs 438-498). -/
def parseRows (r : Rec) : List (List (Alignment × List Token)) → Outcome Str
  | [] => .ok []
  | row :: rows =>
    (parseRow r row).bind fun b =>
    (parseRows r rows).bind fun bs => .ok ((c!"\n\t<tr>" ++ b ++ c!"\n\t</tr>") ++ bs)

/-- The cells of one row (lib.rs 440-496). -/
def parseRow (r : Rec) : List (Alignment × List Token) → Outcome Str
  | [] => .ok []
  | cell :: row =>
    (parseCell r cell).bind fun b =>
    (parseRow r row).bind fun bs => .ok (b ++ bs)

/-- One cell (lib.rs 441-495). -/
def parseCell (r : Rec) : Alignment × List Token → Outcome Str
  | (align, toks) =>
    (cellText ((parseToks r toks {}).bind fun s => .ok (finish s)) toks).bind fun txt =>
    .ok (c!"\n\t\t<td style=\"text-align: " ++ align.display ++ c!"\">" ++ txt ++ c!"</td>")

end

/-- `Parser::parse` (lib.rs 52-570). -/
def parseDoc (r : Rec) (ts : List Token) : Outcome Str :=
  (parseToks r ts {}).bind fun s => .ok (finish s)

end Smd.Gfm
