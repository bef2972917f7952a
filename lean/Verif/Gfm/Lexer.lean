import Verif.Gfm.Token

/-!
Model of `gfm/src/lexer.rs`.

The lexer's `MarkdownIter` (a string and a byte index) is modelled by the remaining text `s : Str`; the byte-level
iterator is proved to refine this cursor in `Verif.Gfm.Iter`.  In particular `peek` is the first remaining character,
`next` drops it, `consume_while_case_holds` is `takeWhile`/`dropWhile` and always returns `Some`, so the `unwrap_or("")`
after it is never taken.  Each routine returns the `Result` (an `Err` carries `ParseError.content`) and the new remaining
text.  Calls back into `Parser::lex` and `Parser::render_ignore` go through `Rec`, tied in `Verif.Gfm.Render`.
Logging is not modelled.
-/

namespace Smd.Gfm
open Smd.Rs

/-- `Result<Token, ParseError>`; the error is `ParseError.content`. -/
abbrev LexRes := Except Str Token

/-- The recursive entry points of `Parser` (lib.rs 30-50): `lex s = Parser::lex(s, &[])`,
`render ignore s = Parser::render_ignore(s, ignore)` (and `Parser::render(s)` for `ignore = []`). -/
structure Rec where
  lex : Str → Outcome (List Token)
  render : List Char → Str → Outcome Str

/-- `MarkdownIter::get_substring_from(start)` (iter.rs 93-95) where `start` is the remaining text at the saved index
and `s` the remaining text now. -/
def slice (start s : Str) : Str := start.take (start.length - s.length)

/-- `MarkdownIter::next_if_eq(c)` (iter.rs 44-49), result ignored: the remaining text afterwards. -/
def skipIf (c : Char) : Str → Str
  | [] => []
  | x :: xs => if x = c then xs else x :: xs

/-- `MarkdownIter::consume_until_tail_is` (iter.rs 62-75): move characters to the consumed part until it ends with
`tail` or the text is exhausted. Returns consumed part and remaining text. -/
def untilTailGo (tail : Str) : Str → Str → Str × Str
  | acc, [] => (acc, [])
  | acc, c :: cs => if tail.isSuffixOf acc then (acc, c :: cs) else untilTailGo tail (acc ++ [c]) cs

def untilTail (tail s : Str) : Str × Str := untilTailGo tail [] s

/-- `MarkdownIter::consume_line_ahead` (iter.rs 117-133); `peek_line_ahead` (iter.rs 105-115) is its first component. -/
def lineAhead (s : Str) : Option (Str × Str) :=
  if s.contains '\n' then some (s.takeWhile (· != '\n') ++ ['\n'], (s.dropWhile (· != '\n')).drop 1)
  else if s = [] then none
  else some (s, [])

/-- The separator test of `lex_heading` (lexer.rs 211-216): the text after the separator, if there is one. -/
def headingSep : Str → Option Str
  | ' ' :: t => some t
  | '\t' :: t => some t
  | '\n' :: t => some ('\n' :: t)
  | _ => none

/-- The `{#label}` handling of `lex_heading` (lexer.rs 221-230); the two inner `unwrap`s can panic. -/
def headingLabel (line : Str) : Outcome Str :=
  if contains line c!"{#" && line.contains '}' then
    match splitOnce '{' line with
    | none => .panic
    | some (heading, _) =>
      match stripPrefix heading line with
      | none => .panic
      | some l1 =>
        match stripPrefix c!"{#" l1 with
        | none => .panic
        | some l2 =>
          match stripSuffix c!"}" l2 with
          | none => .panic
          | some l3 => .ok l3
  else .ok line

/-- `line_without_optional_trailing_hash_sequence` (lexer.rs 231-238). -/
def headingTrim (line : Str) : Str :=
  match rsplitOnce ' ' (trimEnd line) with
  | some (left, right) => if right.all (· == '#') then left else line
  | none => line

/-- Post-processing of the rendered heading text (lexer.rs 247-252). -/
def headingPost (html : Str) : Str :=
  trim ((stripSuffix c!"</p>\n" ((stripPrefix c!"<p>" html).getD [])).getD [])

/-- `lex_heading` (lexer.rs 203-255). `hashes.len()` is a byte length of `#`s, i.e. their number. -/
def lexHeading (r : Rec) (s : Str) : Outcome (LexRes × Str) :=
  let hashes := s.takeWhile (· == '#')
  let s1 := s.dropWhile (· == '#')
  if hashes.length > 6 then .ok (.error hashes, s1)
  else
    match headingSep s1 with
    | none => .ok (.error hashes, s1)
    | some s2 =>
      let line0 := s2.takeWhile (· != '\n')
      let s3 := s2.dropWhile (· != '\n')
      headingLabel line0 >>= fun line =>
      if line.all (· == '#') then .ok (.ok (.header hashes.length [] none), s3)
      else
        r.render ['#'] (trimEndP (fun c => c == ' ' || c == '\t') (headingTrim line)) >>= fun html =>
        .ok (.ok (.header hashes.length (headingPost html) none), s3)

/-- `lex_newlines` (lexer.rs 257-263). -/
def lexNewlines (s : Str) : LexRes × Str :=
  let nl := s.takeWhile (· == '\n')
  let s1 := s.dropWhile (· == '\n')
  if nl.length ≥ 2 then (.ok .newline, s1) else (.error nl, s1)

/-- `matches!(tokens.last(), Some(Token::Plaintext(_)))`. -/
def isPlain : Option Token → Bool
  | some (.plaintext _) => true
  | _ => false

/-- `matches!(tokens.last(), Some(Token::Newline))`. -/
def isNewline : Option Token → Bool
  | some .newline => true
  | _ => false

/-- `lex_tabs_spaces` (lexer.rs 265-331); `last` is `tokens.last()`. The routine calls itself on the following lines;
the fuel is the length of the remaining text (each call consumes at least one character). The arm at 305-307 is
subsumed by the one at 308. The recursive call never yields `CodeBlock`, but the arm 315-323 is kept. -/
def lexTabsSpacesGo (last : Option Token) : Nat → Str → LexRes × Str
  | 0, s => (.error [], s)
  | fuel + 1, s =>
    let ws := s.takeWhile (fun c => c == '\t' || c == ' ')
    let s1 := s.dropWhile (fun c => c == '\t' || c == ' ')
    if decide (1 ≤ ws.length) && decide (ws.length ≤ 3) && !ws.contains '\t' then (.error ws, s1)
    else if decide (2 ≤ ws.length) && !ws.contains '\t' && s1.head? == some '\n' then (.ok .lineBreak, s1)
    else
      let line := (untilTail c!"\n" s1).1
      let s2 := (untilTail c!"\n" s1).2
      if ws = c!"    " ∧ isPlain last = true ∧ line.contains '#' = true then (.error line, s2)
      else if ws = c!"    " ∧ isNewline last = true ∧ line.contains '#' = true then (.error line, s2)
      else if ws = c!"\t" ∨ ws = c!"    " ∨ ws = c!"  \t" then (.ok (.code line), s2)
      else if ws = c!"\t\t" then (.ok (.code (c!"\t" ++ line)), s2)
      else if s2.head? = some '\t' ∨ s2.head? = some ' ' then
        match lexTabsSpacesGo last fuel s2 with
        | (.ok (.codeBlock _ _), s3) => (.ok (.codeBlock (slice s s3) []), s3)
        | (.error e, s3) => (.error e, s3)
        | (.ok _, s3) => (.error [], s3)
      else (.error (slice s s2), s2)

def lexTabsSpaces (last : Option Token) (s : Str) : LexRes × Str := lexTabsSpacesGo last s.length s

/-- `lex_numbers` (lexer.rs 333-355). -/
def lexNumbers (s : Str) : LexRes × Str :=
  match s with
  | _ :: '.' :: ' ' :: t => (.ok (.orderedListEntry (t.takeWhile (· != '\n'))), t.dropWhile (· != '\n'))
  | c :: '.' :: t => (.error [c, '.'], t)
  | c :: t => (.error [c], t)
  | [] => (.error [], [])

/-- `lex_escaped_character` (lexer.rs 357-372). -/
def lexEscaped (s : Str) : LexRes × Str :=
  match s.drop 1 with
  | [] => (.error c!"EOF", [])
  | c :: t =>
    if c = '#' then (.ok (.plaintext ((c :: t).takeWhile (· == '#'))), (c :: t).dropWhile (· == '#'))
    else (.ok (.plaintext [c]), t)

/-- `c == "*" || c == "_"`. -/
def isAU (c : Char) : Bool := c == '*' || c == '_'

/-- `lex_asterisk_underscore` (lexer.rs 374-464). The condition at 400-402 (`!= "*" || != "_"`) is always true, so the
`Err` at 406-411 is unreachable; the model keeps the condition. -/
def lexAsteriskUnderscore (s : Str) : LexRes × Str :=
  let au := s.takeWhile (fun c => c == '*' || c == '_' || c == '\t')
  let s1 := s.dropWhile (fun c => c == '*' || c == '_' || c == '\t')
  if au.length = 1 ∧ s1.head? = some ' ' then
    let s2 := s1.drop 1
    (.ok (.unorderedListEntry [.plaintext (s2.takeWhile (· != '\n'))]), (s2.dropWhile (· != '\n')).drop 1)
  else if au.all (· == '*') = true ∧ s1.head? = some '\n' then (.ok .horizontalRule, s1)
  else if au.length = 1 then
    let t := s1.takeWhile (fun c => !isAU c)
    let s2 := s1.dropWhile (fun c => !isAU c)
    if s2.head? ≠ some '*' ∨ s2.head? ≠ some '_' then (.ok (.italic t), s2.drop 1)
    else (.error (slice s s2), s2)
  else if au.length = 2 then
    let t := s1.takeWhile (fun c => !isAU c)
    let s2 := s1.dropWhile (fun c => !isAU c)
    let tr := s2.takeWhile isAU
    let s3 := s2.dropWhile isAU
    if tr.length = 2 then (.ok (.bold t), s3) else (.error (slice s s3), s3)
  else if au.length = 3 then
    let t := s1.takeWhile (fun c => !isAU c)
    let s2 := s1.dropWhile (fun c => !isAU c)
    let tr := s2.takeWhile isAU
    let s3 := s2.dropWhile isAU
    if tr.length = 3 then (.ok (.boldItalic t), s3) else (.error (slice s s3), s3)
  else if (au.filter (· != '\t')).all (· == '*') || au.all (· == '_') then (.ok .horizontalRule, s1)
  else (.error au, s1)

/-- `lex_blockquotes` (lexer.rs 466-485). The level is `right_arrows.len() as u8`, i.e. modulo 256. -/
def lexBlockquotes (s : Str) : LexRes × Str :=
  let arrows := s.takeWhile (· == '>')
  let s1 := s.dropWhile (· == '>')
  if s1.head? = some ' ' ∨ s1.head? = some '\t' then
    (.ok (.blockQuote (arrows.length % 256) (s1.takeWhile (· != '\n'))), skipIf '\n' (s1.dropWhile (· != '\n')))
  else (.error arrows, s1)

/-- The `while get_substring_ahead(3) == Some("\n\n\t")` loop of `lex_plus_minus` (lexer.rs 519-529): the texts of the
continuation paragraphs and the remaining text. Fuel: the length of the text. -/
def contLines : Nat → Str → List Str × Str
  | 0, s => ([], s)
  | fuel + 1, s =>
    if startsWith s c!"\n\n\t" then
      let s1 := s.drop 3
      let rest := contLines fuel (s1.dropWhile (· != '\n'))
      (s1.takeWhile (· != '\n') :: rest.1, rest.2)
    else ([], s)

/-- `lex_plus_minus` (lexer.rs 487-558). -/
def lexPlusMinus (r : Rec) (s : Str) : Outcome (LexRes × Str) :=
  let run := s.takeWhile (fun c => c == '-' || c == '+')
  let s1 := s.dropWhile (fun c => c == '-' || c == '+')
  if run.length ≥ 3 then .ok (.ok .horizontalRule, s1)
  else if run.length = 2 then .ok (.error (slice s s1), s1)
  else if run.length = 1 then
    let first := s1.takeWhile (· != '\n')
    let s2 := s1.dropWhile (· != '\n')
    let more := (contLines s2.length s2).1
    let s3 := (contLines s2.length s2).2
    let line := slice s1 s3
    let s4 := skipIf '\n' s3
    let elems := (first :: more).map Token.plaintext
    if startsWith line c!" [ ] " then .ok (.ok (.taskListItem .unchecked (line.drop 5)), s4)
    else if startsWith line c!" [x] " || startsWith line c!" [X] " then
      .ok (.ok (.taskListItem .checked (line.drop 5)), s4)
    else
      match lineAhead s4 with
      | some (l, s5) =>
        if startsWith l c!"  " then
          r.lex l >>= fun ts => .ok (.ok (.unorderedListEntry (elems ++ ts)), s5)
        else if startsWith l c!"\t" then
          r.lex (l.drop 1) >>= fun ts => .ok (.ok (.unorderedListEntry (elems ++ ts)), s5)
        else .ok (.ok (.unorderedListEntry elems), s4)
      | none => .ok (.ok (.unorderedListEntry elems), s4)
  else .ok (.error c!"string length error", s1)

/-- `lex_tilde` (lexer.rs 560-602). -/
def lexTilde (s : Str) : LexRes × Str :=
  let lead := s.takeWhile (· == '~')
  let s1 := s.dropWhile (· == '~')
  if lead.length = 1 then (.error lead, s1)
  else if lead.length = 2 then
    let line := s1.takeWhile (· != '~')
    let s2 := s1.dropWhile (· != '~')
    let tl := s2.takeWhile (· == '~')
    let s3 := s2.dropWhile (· == '~')
    if lead.length ≠ tl.length then (.error (slice s s3), s3)
    else (.ok (.strikethrough line), s3)
  else (.error lead, s1)

/-- `lex_backticks` (lexer.rs 604-663). -/
def lexBackticks (s : Str) : LexRes × Str :=
  let ticks := s.takeWhile (· == '`')
  let s1 := s.dropWhile (· == '`')
  if ticks.length = 3 then
    let lang := if s1.head? = some '\n' then [] else s1.takeWhile (· != '\n')
    let s2 := if s1.head? = some '\n' then s1.drop 1 else (s1.dropWhile (· != '\n')).drop 1
    let body := s2.takeWhile (· != '`')
    let s3 := s2.dropWhile (· != '`')
    let trailing := s3.takeWhile (· == '`')
    let s4 := s3.dropWhile (· == '`')
    if ticks.length ≠ trailing.length then (.error (slice s s4), s4)
    else (.ok (.codeBlock body lang), s4)
  else
    let tail := List.replicate ticks.length '`'
    let body := (untilTail tail s1).1
    let s2 := (untilTail tail s1).2
    if !endsWith body tail then (.error (slice s s2), s2)
    else
      let body := trimEndStr tail body
      if startsWith body c!" " && endsWith body c!" " then
        (.ok (.code (trimEndP (· == ' ') (trimStartP (· == ' ') body))), s2)
      else (.ok (.code body), s2)

/-- The `loop` reading a footnote's text in `lex_links` (lexer.rs 686-716). Returns whether it left the loop normally
(`true`) or through the `return Err` at 704-712 (`false`), and the remaining text. Fuel: the length of the text + 1. -/
def footnoteLoop : Nat → Str → Bool × Str
  | 0, s => (true, s)
  | fuel + 1, s =>
    let s1 := (s.dropWhile (· != '\n')).drop 1
    if s1.head? ≠ some ' ' ∧ s1.head? ≠ some '\t' then (true, s1)
    else if s1.head? = some '\t' then footnoteLoop fuel (s1.drop 1)
    else
      let spaces := s1.takeWhile (· == ' ')
      let s2 := s1.dropWhile (· == ' ')
      if spaces.length = 2 ∨ spaces.length = 4 then footnoteLoop fuel s2
      else (false, s2)

/-- `lex_links` (lexer.rs 665-790). -/
def lexLinks (s : Str) : LexRes × Str :=
  if s.head? ≠ some '[' then (.error [], s)
  else
    let s1 := s.drop 1
    let title := s1.takeWhile (· != ']')
    let s2 := s1.dropWhile (· != ']')
    if s2.head? ≠ some ']' then (.error (slice s s2), s2)
    else
      let s3 := s2.drop 1
      if startsWith title c!"^" = true ∧ s3.head? = some ':' then
        let refId := (stripPrefix c!"^" title).getD []
        let s4 := s3.drop 1
        let res := footnoteLoop (s4.length + 1) s4
        if !res.1 then (.error (slice s res.2), res.2)
        else if refId.any isWs then (.error (slice s res.2), res.2)
        else (.ok (.footnote refId (trim (slice s4 res.2))), res.2)
      else if s3.head? ≠ some '(' then (.error (slice s s3), s3)
      else
        let s4 := s3.drop 1
        let link := s4.takeWhile (fun c => c != ')' && c != ' ')
        let s5 := s4.dropWhile (fun c => c != ')' && c != ' ')
        if s5.head? ≠ some ')' ∧ s5.head? ≠ some ' ' then (.error (slice s s5), s5)
        else if s5.head? = some ')' then
          match validateLink link with
          | .ok vl => (.ok (.link vl (some title) none), s5.drop 1)
          | .error e => (.error e, s5.drop 1)
        else
          let hover := s5.takeWhile (· != ')')
          let s6 := (((s5.dropWhile (· != ')')).dropWhile (· != '\n')).drop 1)
          match validateLink link with
          | .ok vl => (.ok (.link vl (some title) (some hover)), s6)
          | .error e => (.error e, s6)

/-- `lex_images` (lexer.rs 792-816). -/
def lexImages (s : Str) : LexRes × Str :=
  if s.head? ≠ some '!' then (.error [], s)
  else
    match lexLinks (s.drop 1) with
    | (.error _, s1) => (.error (slice s s1), s1)
    | (.ok (.link link title _), s1) => (.ok (.image link.content title), s1)
    | (.ok _, s1) => (.error c!"Non link token returned from lex_links", s1)

/-- The `while opens == closes` loop of `parse_details` (lexer.rs 892-900). `start` is the remaining text at
`remaining_text_index`. At the end of the text with `opens == closes` an iteration changes nothing, so the loop never
exits: that is the outcome `hang` (see `C10_hang_is_endless` in `Verif.Props.Termination`). Fuel: the length of the text. -/
def detailsLoop (start : Str) : Nat → Str → Outcome (Str × Str)
  | fuel, s =>
    let remaining := slice start s
    if countStr c!"<details>" remaining ≠ countStr c!"</details>" remaining then .ok (remaining, s)
    else
      match fuel with
      | 0 => .hang
      | fuel + 1 => if s = [] then .hang else detailsLoop start fuel (untilTail c!"</details>" s).2

/-- `parse_details` (lexer.rs 867-907). The third conjunct of the guard at 873-875 is `(!summary_line.len()) >= 20` with
`!` the bitwise complement of a `usize`, true for every string shorter than 2^64 - 20 bytes, hence for every string. -/
def parseDetails (r : Rec) (s : Str) : Outcome (LexRes × Str) :=
  let summary := s.takeWhile (fun c => c != '\n' && c != '\r')
  let s1 := skipIf '\r' (s.dropWhile (fun c => c != '\n' && c != '\r'))
  if !startsWith summary c!"<summary>" || !endsWith summary c!"</summary>" then .ok (.error summary, s1)
  else
    match stripPrefix c!"<summary>" summary with
    | none => .panic
    | some sum1 =>
      let sum2 := (stripSuffix c!"</summary>" sum1).getD []
      let rem := (untilTail c!"</details>" s1).1
      let s2 := (untilTail c!"</details>" s1).2
      (if contains rem c!"<details>" then detailsLoop s1 s2.length s2 else .ok (rem, s2)) >>= fun res =>
      r.lex ((stripSuffix c!"</details>" res.1).getD []) >>= fun inner =>
      .ok (.ok (.detail sum2 inner), res.2)

/-- `lex_side_carrot` (lexer.rs 817-865). -/
def lexSideCarrot (r : Rec) (s : Str) : Outcome (LexRes × Str) :=
  if s.head? ≠ some '<' then .ok (.error [], s)
  else
    let s1 := s.drop 1
    let t := s1.takeWhile (· != '>')
    let s2 := s1.dropWhile (· != '>')
    if s2.head? = some '>' then
      let s3 := s2.drop 1
      if t = c!"details" then
        let s4 := skipIf '\r' s3
        if s4.head? = some '\n' then parseDetails r (s4.drop 1)
        else .ok (.error t, s4)
      else if t.length ≥ 1 then
        if t.any isWs then .ok (.error (slice s s3), s3)
        else
          match validateLink t with
          | .ok vl => if vl.scheme.isSome then .ok (.ok (.link vl none none), s3) else .ok (.error (slice s s3), s3)
          | .error _ => .ok (.error (slice s s3), s3)
      else .ok (.error c!"<>", s3)
    else .ok (.error t, s2)

/-- The `while next_if_eq("|")` loop of `lex_pipes` (lexer.rs 912-919). Fuel: the length of the text. -/
def pipeLines : Nat → Str → List Str × Str
  | 0, s => ([], s)
  | fuel + 1, s =>
    if s.head? = some '|' then
      let s1 := s.drop 1
      let rest := pipeLines fuel ((s1.dropWhile (· != '\n')).drop 1)
      (s1.takeWhile (· != '\n') :: rest.1, rest.2)
    else ([], s)

/-- `l.split("|").filter(|x| x != "")` (lexer.rs 941-942, 947-948, 961-962). -/
def cells (l : Str) : List Str := (splitStr c!"|" l).filter (fun x => x ≠ [])

/-- The alignment of one delimiter cell (lexer.rs 949-956). -/
def cellAlign (x : Str) : Alignment :=
  match startsWith (trim x) c!":", endsWith (trim x) c!":" with
  | true, false => .left
  | true, true => .center
  | false, true => .right
  | _, _ => .left

/-- Lexing the cells of a row (lexer.rs 965-970). -/
def rowTokens (r : Rec) : List Str → Outcome (List (List Token))
  | [] => .ok []
  | e :: es =>
    r.lex e >>= fun ts =>
    rowTokens r es >>= fun rest =>
    .ok (ts.filter Token.isUsableInTable :: rest)

/-- The rows of the table (lexer.rs 958-974). -/
def tableRows (r : Rec) (aligns : List Alignment) : List Str → Outcome (List (List (Alignment × List Token)))
  | [] => .ok []
  | l :: ls =>
    rowTokens r ((cells l).map trim) >>= fun row =>
    tableRows r aligns ls >>= fun rest =>
    .ok (aligns.zip row :: rest)

/-- `lex_pipes` (lexer.rs 909-979). -/
def lexPipes (r : Rec) (s : Str) : Outcome (LexRes × Str) :=
  let lines := (pipeLines s.length s).1
  let s1 := (pipeLines s.length s).2
  if lines.length < 3 then .ok (.error (slice s s1), s1)
  else
    match lines with
    | l0 :: l1 :: body =>
      if !(lines.all (fun l => countStr c!"|" l == countStr c!"|" l0)) then .ok (.error (slice s s1), s1)
      else
        let headings := (cells l0).map trim
        let aligns := (cells l1).map cellAlign
        tableRows r aligns body >>= fun rows =>
        .ok (.ok (.table (aligns.zip headings) rows), s1)
    | _ => .panic

/-- `Lexer::next_token` (lexer.rs 49-201) before the conversion of errors: the routine chosen by the next character.
`tokens.last()` is `last`. -/
def lexDispatch (r : Rec) (ignore : List Char) (last : Option Token) (c : Char) (s : Str) : Outcome (LexRes × Str) :=
  if c = '#' ∧ ignore.contains '#' = false then lexHeading r s
  else if c = '\n' then .ok (lexNewlines s)
  else if c = ' ' ∨ c = '\t' then .ok (lexTabsSpaces last s)
  else if c ∈ c!"1234567890" then .ok (lexNumbers s)
  else if c = '*' ∨ c = '_' then .ok (lexAsteriskUnderscore s)
  else if c = '-' ∨ c = '+' then lexPlusMinus r s
  else if c = '>' then .ok (lexBlockquotes s)
  else if c = '~' then .ok (lexTilde s)
  else if c = '`' then .ok (lexBackticks s)
  else if c = '[' then .ok (lexLinks s)
  else if c = '!' then .ok (lexImages s)
  else if c = '<' then lexSideCarrot r s
  else if c = '|' then lexPipes r s
  else if c = '\\' then .ok (lexEscaped s)
  else .ok (.ok (.plaintext [c]), s.drop 1)

/-- An `Err(e)` becomes `Token::Plaintext(e.content)` (lexer.rs 58-64 and alike). -/
def resToken : LexRes → Token
  | .ok t => t
  | .error e => .plaintext e

/-- `Lexer::next_token` (lexer.rs 49-201): `none` at the end of the text. -/
def nextToken (r : Rec) (ignore : List Char) (last : Option Token) (s : Str) : Outcome (Option (Token × Str)) :=
  match s with
  | [] => .ok none
  | c :: cs => lexDispatch r ignore last c (c :: cs) >>= fun res => .ok (some (resToken res.1, res.2))

/-- The loop of `Parser::lex` (lib.rs 39-50). Fuel: one more than the length of the text; each round consumes at least
one character (proved), so the fuel never runs out. -/
def lexLoop (r : Rec) (ignore : List Char) : Nat → List Token → Str → Outcome (List Token)
  | 0, _, _ => .fuelOut
  | fuel + 1, acc, s =>
    nextToken r ignore acc.getLast? s >>= fun
      | none => .ok acc
      | some (t, s') => lexLoop r ignore fuel (acc ++ [t]) s'

/-- `Parser::lex` (lib.rs 39-50). -/
def lexWith (r : Rec) (ignore : List Char) (s : Str) : Outcome (List Token) :=
  lexLoop r ignore (s.length + 1) [] s

end Smd.Gfm
