import Verif.Gfm.Render
import Verif.Gfm.Iter

/-!
What the lexer and the renderer log (`gfm/src/lexer.rs` 42-199, `gfm/src/lib.rs` 31-568). The functions that log, or call
functions that do, are repeated here with their log calls; without these they are the same functions (`erase_renderL`).
-/

namespace Smd.Gfm
open Smd.Rs

/-- A log call of this crate: `warn!` or `debug!`, the module, and the text. -/
structure Note where
  warn : Bool
  target : Str
  text : Str
deriving DecidableEq

/-- `Debug` of the standard library and of tokens: texts that are only shown. -/
structure Dbg where
  /-- of a `str` -/
  str : Str → Str
  /-- of a `Token` -/
  tok : Token → Str
  /-- of a slice of characters -/
  chars : List Char → Str

/-- An outcome, and what was logged on the way. -/
structure Said (α : Type) where
  notes : List Note
  out : Outcome α

namespace Said

variable {α β : Type}

def of (o : Outcome α) : Said α := ⟨[], o⟩

/-- A log call in front. -/
def say (n : Note) (x : Said α) : Said α := ⟨n :: x.notes, x.out⟩

protected def bind (x : Said α) (f : α → Said β) : Said β :=
  match x.out with
  | .ok a => ⟨x.notes ++ (f a).notes, (f a).out⟩
  | .panic => ⟨x.notes, .panic⟩
  | .hang => ⟨x.notes, .hang⟩
  | .fuelOut => ⟨x.notes, .fuelOut⟩

instance : Monad Said where
  pure a := of (.ok a)
  bind := Said.bind

end Said

/-- `str::len`: the number of bytes. -/
def byteLen (s : Str) : Nat := (Iter.enc s).length

/-- `debug!` in lexer.rs and lib.rs, `warn!` in lexer.rs. -/
def dbgLex (text : Str) : Note := ⟨false, c!"gfm::lexer", text⟩
def dbgLib (text : Str) : Note := ⟨false, c!"gfm", text⟩
def warnLex (text : Str) : Note := ⟨true, c!"gfm::lexer", text⟩

/-- The recursive entry points, with what they log. -/
structure RecL where
  lex : Str → Said (List Token)
  render : List Char → Str → Said Str

/-- The entry points without what they log. -/
def RecL.erase (r : RecL) : Rec := ⟨fun s => (r.lex s).out, fun ig s => (r.render ig s).out⟩

/-- `lex_heading` (lexer.rs 203-255). -/
def lexHeadingL (r : RecL) (s : Str) : Said (LexRes × Str) :=
  let hashes := s.takeWhile (· == '#')
  let s1 := s.dropWhile (· == '#')
  if hashes.length > 6 then .of (.ok (.error hashes, s1))
  else
    match headingSep s1 with
    | none => .of (.ok (.error hashes, s1))
    | some s2 =>
      let line0 := s2.takeWhile (· != '\n')
      let s3 := s2.dropWhile (· != '\n')
      Said.of (headingLabel line0) >>= fun line =>
      if line.all (· == '#') then .of (.ok (.ok (.header hashes.length [] none), s3))
      else
        r.render ['#'] (trimEndP (fun c => c == ' ' || c == '\t') (headingTrim line)) >>= fun html =>
        .of (.ok (.ok (.header hashes.length (headingPost html) none), s3))

/-- `lex_plus_minus` (lexer.rs 487-558). -/
def lexPlusMinusL (r : RecL) (s : Str) : Said (LexRes × Str) :=
  let run := s.takeWhile (fun c => c == '-' || c == '+')
  let s1 := s.dropWhile (fun c => c == '-' || c == '+')
  if run.length ≥ 3 then .of (.ok (.ok .horizontalRule, s1))
  else if run.length = 2 then .of (.ok (.error (slice s s1), s1))
  else if run.length = 1 then
    let first := s1.takeWhile (· != '\n')
    let s2 := s1.dropWhile (· != '\n')
    let more := (contLines s2.length s2).1
    let s3 := (contLines s2.length s2).2
    let line := slice s1 s3
    let s4 := skipIf '\n' s3
    let elems := (first :: more).map Token.plaintext
    if startsWith line c!" [ ] " then .of (.ok (.ok (.taskListItem .unchecked (line.drop 5)), s4))
    else if startsWith line c!" [x] " || startsWith line c!" [X] " then
      .of (.ok (.ok (.taskListItem .checked (line.drop 5)), s4))
    else
      match lineAhead s4 with
      | some (l, s5) =>
        if startsWith l c!"  " then
          r.lex l >>= fun ts => .of (.ok (.ok (.unorderedListEntry (elems ++ ts)), s5))
        else if startsWith l c!"\t" then
          r.lex (l.drop 1) >>= fun ts => .of (.ok (.ok (.unorderedListEntry (elems ++ ts)), s5))
        else .of (.ok (.ok (.unorderedListEntry elems), s4))
      | none => .of (.ok (.ok (.unorderedListEntry elems), s4))
  else .of (.ok (.error c!"string length error", s1))

/-- `parse_details` (lexer.rs 867-907). -/
def parseDetailsL (r : RecL) (s : Str) : Said (LexRes × Str) :=
  let summary := s.takeWhile (fun c => c != '\n' && c != '\r')
  let s1 := skipIf '\r' (s.dropWhile (fun c => c != '\n' && c != '\r'))
  if !startsWith summary c!"<summary>" || !endsWith summary c!"</summary>" then .of (.ok (.error summary, s1))
  else
    match stripPrefix c!"<summary>" summary with
    | none => .of .panic
    | some sum1 =>
      let sum2 := (stripSuffix c!"</summary>" sum1).getD []
      let rem := (untilTail c!"</details>" s1).1
      let s2 := (untilTail c!"</details>" s1).2
      Said.of (if contains rem c!"<details>" then detailsLoop s1 s2.length s2 else .ok (rem, s2)) >>= fun res =>
      r.lex ((stripSuffix c!"</details>" res.1).getD []) >>= fun inner =>
      .of (.ok (.ok (.detail sum2 inner), res.2))

/-- `lex_side_carrot` (lexer.rs 817-865): only `parse_details` logs, by lexing the content. -/
def lexSideCarrotL (r : RecL) (s : Str) : Said (LexRes × Str) :=
  if s.head? ≠ some '<' then .of (.ok (.error [], s))
  else
    let s1 := s.drop 1
    let t := s1.takeWhile (· != '>')
    let s2 := s1.dropWhile (· != '>')
    if s2.head? = some '>' then
      let s3 := s2.drop 1
      if t = c!"details" then
        let s4 := skipIf '\r' s3
        if s4.head? = some '\n' then parseDetailsL r (s4.drop 1)
        else .of (.ok (.error t, s4))
      else if t.length ≥ 1 then
        if t.any isWs then .of (.ok (.error (slice s s3), s3))
        else
          match validateLink t with
          | .ok vl => if vl.scheme.isSome then .of (.ok (.ok (.link vl none none), s3)) else .of (.ok (.error (slice s s3), s3))
          | .error _ => .of (.ok (.error (slice s s3), s3))
      else .of (.ok (.error c!"<>", s3))
    else .of (.ok (.error t, s2))

/-- Lexing the cells of a row (lexer.rs 965-970). -/
def rowTokensL (r : RecL) : List Str → Said (List (List Token))
  | [] => .of (.ok [])
  | e :: es =>
    r.lex e >>= fun ts =>
    rowTokensL r es >>= fun rest =>
    .of (.ok (ts.filter Token.isUsableInTable :: rest))

/-- The rows of the table (lexer.rs 958-974). -/
def tableRowsL (r : RecL) (aligns : List Alignment) : List Str → Said (List (List (Alignment × List Token)))
  | [] => .of (.ok [])
  | l :: ls =>
    rowTokensL r ((cells l).map trim) >>= fun row =>
    tableRowsL r aligns ls >>= fun rest =>
    .of (.ok (aligns.zip row :: rest))

/-- `lex_pipes` (lexer.rs 909-979). -/
def lexPipesL (r : RecL) (s : Str) : Said (LexRes × Str) :=
  let lines := (pipeLines s.length s).1
  let s1 := (pipeLines s.length s).2
  if lines.length < 3 then .of (.ok (.error (slice s s1), s1))
  else
    match lines with
    | l0 :: l1 :: body =>
      if !(lines.all (fun l => countStr c!"|" l == countStr c!"|" l0)) then .of (.ok (.error (slice s s1), s1))
      else
        let headings := (cells l0).map trim
        let aligns := (cells l1).map cellAlign
        tableRowsL r aligns body >>= fun rows =>
        .of (.ok (.ok (.table (aligns.zip headings) rows), s1))
    | _ => .of .panic

/-- The routine chosen by the next character, and the text of the warning if it returns an error (lexer.rs 56-196). -/
def lexDispatchL (r : RecL) (ignore : List Char) (last : Option Token) (c : Char) (s : Str) : Str × Said (LexRes × Str) :=
  if c = '#' ∧ ignore.contains '#' = false then (c!"Error while lexing heading: ", lexHeadingL r s)
  else if c = '\n' then (c!"Error while lexing newline: ", .of (.ok (lexNewlines s)))
  else if c = ' ' ∨ c = '\t' then (c!"Error while lexing whitespaces: ", .of (.ok (lexTabsSpaces last s)))
  else if c ∈ c!"1234567890" then (c!"Error while lexing number: ", .of (.ok (lexNumbers s)))
  else if c = '*' ∨ c = '_' then (c!"Error while lexing asterisks and underscores: ", .of (.ok (lexAsteriskUnderscore s)))
  else if c = '-' ∨ c = '+' then (c!"Error while lexing plus or minus: ", lexPlusMinusL r s)
  else if c = '>' then (c!"Error while lexing block quotes: ", .of (.ok (lexBlockquotes s)))
  else if c = '~' then (c!"Error while tilde: ", .of (.ok (lexTilde s)))
  else if c = '`' then (c!"Error while lexing backticks: ", .of (.ok (lexBackticks s)))
  else if c = '[' then (c!"Error while lexing link: ", .of (.ok (lexLinks s)))
  else if c = '!' then (c!"Error while lexing image: ", .of (.ok (lexImages s)))
  else if c = '<' then (c!"Error while lexing side carrot: ", lexSideCarrotL r s)
  else if c = '|' then (c!"Error while lexing pipe: ", lexPipesL r s)
  else if c = '\\' then (c!"Error while lexing escaped character: ", .of (.ok (lexEscaped s)))
  else ([], .of (.ok (.ok (.plaintext [c]), s.drop 1)))

/-- The warning for an error (lexer.rs 58-64 and alike). -/
def warning (d : Dbg) (text : Str) : LexRes → List Note
  | .ok _ => []
  | .error e => [warnLex (text ++ d.str e)]

/-- `Lexer::next_token` (lexer.rs 49-201). `peek` is the character as an `Option<&str>`. -/
def nextTokenL (d : Dbg) (r : RecL) (ignore : List Char) (last : Option Token) (s : Str) : Said (Option (Token × Str)) :=
  match s with
  | [] => .say (dbgLex c!"End of input reached, no more tokens") (.of (.ok none))
  | c :: cs =>
    .say (dbgLex (c!"Processing character: Some(" ++ d.str [c] ++ c!")")) <|
    (lexDispatchL r ignore last c (c :: cs)).2 >>= fun res =>
    ⟨warning d (lexDispatchL r ignore last c (c :: cs)).1 res.1, .ok (some (resToken res.1, res.2))⟩

/-- The loop of `Parser::lex` (lib.rs 44-46). -/
def lexLoopL (d : Dbg) (r : RecL) (ignore : List Char) : Nat → List Token → Str → Said (List Token)
  | 0, _, _ => .of .fuelOut
  | fuel + 1, acc, s =>
    nextTokenL d r ignore acc.getLast? s >>= fun
      | none => .of (.ok acc)
      | some (t, s') => lexLoopL d r ignore fuel (acc ++ [t]) s'

/-- `Parser::lex` (lib.rs 39-50), with `Lexer::new` (lexer.rs 41-46). -/
def lexWithL (d : Dbg) (r : RecL) (ignore : List Char) (s : Str) : Said (List Token) :=
  .say (dbgLib (c!"Lexing source with ignore list: " ++ d.chars ignore)) <|
  .say (dbgLex (c!"Initializing Lexer with input of length: " ++ dec (byteLen s))) <|
  lexLoopL d r ignore (s.length + 1) [] s >>= fun ts =>
  .say (dbgLib (c!"Lexing completed, total tokens: " ++ dec ts.length)) (.of (.ok ts))

/-- The tokens of a list entry (lib.rs 235-258). -/
def entryOutL (r : RecL) : List Token → Said Str
  | [] => .of (.ok [])
  | .plaintext text :: ts =>
    let arg :=
      if startsWith text c!"\t\t" then trimStartP (· == ' ') (text.drop 1) else trimStartP (· == ' ') text
    r.render [] arg >>= fun h =>
    entryOutL r ts >>= fun rest =>
    .of (.ok (replaceStr c!"<pre><code>" c!"<pre><code>  " h ++ rest))
  | _ :: ts => entryOutL r ts

/-- The `BlockQuote` arm (lib.rs 359-390). -/
def quoteStepL (r : RecL) (l : Nat) (t : Str) (st : PState) : Said PState :=
  let st := if st.inPara then { st with inPara := false }.push c!"</p>" else st
  let st := { st with quoteLevel := l }.push (quoteTags l st.quoteLevel)
  if t.isEmpty then .of (.ok st)
  else
    r.render [] (sanitize (trimStartP (· == ' ') t)) >>= fun h =>
    .of (.ok (st.push (replaceStr c!"\t" c!"  " h)))

/-- The content of a table cell (lib.rs 441-486). -/
def cellTextL (whole : Said Str) : List Token → Said Str
  | [] => .of (.ok [])
  | t :: ts =>
    (match t with
      | .plaintext s => .of (.ok (sanitize s))
      | .italic s => .of (.ok (c!"<em>" ++ sanitize s ++ c!"</em>"))
      | .bold s => .of (.ok (c!"<strong>" ++ sanitize s ++ c!"</strong>"))
      | .boldItalic s => .of (.ok (c!"<strong><em>" ++ sanitize s ++ c!"</em></strong>"))
      | .lineBreak => .of (.ok c!"<br>")
      | .horizontalRule => .of (.ok c!"<hr />")
      | .strikethrough s => .of (.ok (c!"<strike>" ++ sanitize s ++ c!"</strike>"))
      | _ => whole) >>= fun h =>
    cellTextL whole ts >>= fun rest => .of (.ok (h ++ rest))

/-- The second `match token` (lib.rs 141-519): only list entries and block quotes log, by rendering. -/
def step2L (r : RecL) (t : Token) (st : PState) : Said PState :=
  match t with
  | .unorderedListEntry toks =>
    let st := if !st.inUl then { st with inUl := true }.push c!"<ul>\n" else st
    let st := st.push c!"<li>"
    let st := if toks.all isPlaintext then st.push c!"\n" else st
    entryOutL r toks >>= fun h => .of (.ok ((st.push h).push c!"</li>\n"))
  | .blockQuote l t => quoteStepL r l t st
  | t => .of (step2 r.erase t st)

/-- `Parser::parse` logs at its start and end (lib.rs 53, 568). -/
def parseStart (n : Nat) : Note := dbgLib (c!"Parsing " ++ dec n ++ c!" tokens")

mutual

/-- One iteration of the loop of `Parser::parse` (lib.rs 65-520). -/
def parseTokL (d : Dbg) (r : RecL) : Token → PState → Said PState
  | .detail summary inner, st0 =>
    let st := step1 (.detail summary inner) st0
    let st := if st.inPara then { st with inPara := false }.push c!"</p>\n" else st
    .say (dbgLib (c!"Processing token: " ++ d.tok (.detail summary inner))) <|
    .say (parseStart inner.length) <|
    (parseToksL d r inner {}).bind fun s =>
    .say (dbgLib c!"Parsing completed") (.of (.ok (st.push (detailOut summary (finish s)))))
  | .table headings rows, st0 =>
    let st := step1 (.table headings rows) st0
    .say (dbgLib (c!"Processing token: " ++ d.tok (.table headings rows))) <|
    match rows with
    | [] => .of .panic
    | r0 :: rs =>
      if headings.length ≠ r0.length then .of (.ok st)
      else
        (parseRowL d r r0).bind fun b0 =>
        (parseRowsL d r rs).bind fun bs =>
        .of (.ok (st.push (c!"<table class=\"table table-bordered\">\n\t<thead>\n\t<tr>\n" ++ headCells headings ++
          c!"\t</tr>\n\t</thead>\n\t<tbody>" ++ (c!"\n\t<tr>" ++ b0 ++ c!"\n\t</tr>") ++ bs ++ c!"\n\t</tbody>\n</table>")))
  | t, st => .say (dbgLib (c!"Processing token: " ++ d.tok t)) (step2L r t (step1 t st))

/-- The loop of `Parser::parse` (lib.rs 65-520). -/
def parseToksL (d : Dbg) (r : RecL) : List Token → PState → Said PState
  | [], st => .of (.ok st)
  | t :: ts, st => (parseTokL d r t st).bind fun st => parseToksL d r ts st

/-- The body rows of a table (lib.rs 438-498). -/
def parseRowsL (d : Dbg) (r : RecL) : List (List (Alignment × List Token)) → Said Str
  | [] => .of (.ok [])
  | row :: rows =>
    (parseRowL d r row).bind fun b =>
    (parseRowsL d r rows).bind fun bs => .of (.ok ((c!"\n\t<tr>" ++ b ++ c!"\n\t</tr>") ++ bs))

/-- The cells of one row (lib.rs 440-496). -/
def parseRowL (d : Dbg) (r : RecL) : List (Alignment × List Token) → Said Str
  | [] => .of (.ok [])
  | cell :: row =>
    (parseCellL d r cell).bind fun b =>
    (parseRowL d r row).bind fun bs => .of (.ok (b ++ bs))

/-- One cell (lib.rs 441-495). -/
def parseCellL (d : Dbg) (r : RecL) : Alignment × List Token → Said Str
  | (align, toks) =>
    (cellTextL (.say (parseStart toks.length) ((parseToksL d r toks {}).bind fun s =>
      .say (dbgLib c!"Parsing completed") (.of (.ok (finish s))))) toks).bind fun txt =>
    .of (.ok (c!"\n\t\t<td style=\"text-align: " ++ align.display ++ c!"\">" ++ txt ++ c!"</td>"))

end

/-- `Parser::parse` (lib.rs 52-570). -/
def parseDocL (d : Dbg) (r : RecL) (ts : List Token) : Said Str :=
  .say (parseStart ts.length) <|
  (parseToksL d r ts {}).bind fun s => .say (dbgLib c!"Parsing completed") (.of (.ok (finish s)))

/-- `Parser::render` logs (lib.rs 31), `Parser::render_ignore` does not. -/
def renderStart (ignore : List Char) (s : Str) : List Note :=
  if ignore = [] then [dbgLib (c!"Rendering source of length: " ++ dec (byteLen s))] else []

/-- The entry points with at most `n` nested calls of themselves. -/
def recL (d : Dbg) : Nat → RecL
  | 0 => { lex := fun _ => .of .fuelOut, render := fun _ _ => .of .fuelOut }
  | n + 1 =>
    { lex := fun s => lexWithL d (recL d n) [] s
      render := fun ignore s =>
        (⟨renderStart ignore s, .ok ()⟩ : Said PUnit) >>= fun _ => lexWithL d (recL d n) ignore s >>= fun ts => parseDocL d (recL d n) ts }

/-- `Parser::render` (lib.rs 30-33), with what is logged. -/
@[irreducible] def renderL (d : Dbg) (s : Str) : Said Str := (recL d (fuelFor s)).render [] s

end Smd.Gfm
