import Verif.Rust.Str

/-! Model of `gfm/src/token.rs`. -/

namespace Smd.Gfm
open Smd.Rs

/-- `enum Scheme` (token.rs 134-140). -/
inductive Scheme where
  | http (s : Str)
  | email (s : Str)
  | irc (s : Str)
  | other (s : Str)
  deriving DecidableEq, Repr

/-- `impl Display for Scheme` (token.rs 142-151). -/
def Scheme.display : Scheme → Str
  | .http s => s
  | .email s => s
  | .irc s => s
  | .other s => s

/-- `struct ValidURL` (token.rs 95-99). -/
structure ValidURL where
  content : Str
  scheme : Option Scheme
  deriving DecidableEq, Repr

/-- `enum TaskBox` (token.rs 170-174). -/
inductive TaskBox where
  | checked
  | unchecked
  deriving DecidableEq, Repr

/-- `enum Alignment` (token.rs 177-182). -/
inductive Alignment where
  | left
  | right
  | center
  deriving DecidableEq, Repr

/-- `impl Display for Alignment` (token.rs 184-192). -/
def Alignment.display : Alignment → Str
  | .left => c!"left"
  | .right => c!"right"
  | .center => c!"center"

/-- `enum Token` (token.rs 12-66). `Header`'s level is a `usize` and `BlockQuote`'s a `u8` (the lexer model reduces it
modulo 256). -/
inductive Token where
  | plaintext (t : Str)
  | header (level : Nat) (text : Str) (label : Option Str)
  | unorderedListEntry (toks : List Token)
  | orderedListEntry (t : Str)
  | italic (t : Str)
  | bold (t : Str)
  | boldItalic (t : Str)
  | lineBreak
  | newline
  | horizontalRule
  | tab
  | doubleTab
  | strikethrough (t : Str)
  | code (t : Str)
  | codeBlock (t : Str) (lang : Str)
  | blockQuote (level : Nat) (t : Str)
  | image (link : Str) (title : Option Str)
  | link (url : ValidURL) (title : Option Str) (hover : Option Str)
  | detail (summary : Str) (inner : List Token)
  | table (headings : List (Alignment × Str)) (rows : List (List (Alignment × List Token)))
  | taskListItem (box : TaskBox) (t : Str)
  | footnote (refId : Str) (text : Str)

/-- `Token::is_usable_in_table` (token.rs 82-92). -/
def Token.isUsableInTable : Token → Bool
  | .code _ => true
  | .link _ _ _ => true
  | .bold _ => true
  | .italic _ => true
  | .boldItalic _ => true
  | .plaintext _ => true
  | _ => false

/-- `COMMONMARK_SCHEME_ASCII` (token.rs 3-10). -/
def schemeAscii : List Char :=
  c!"ABCDEFGHIJKLMNOPQRSTUVWXYZabcdefghijklmnopqrstuvwxyz1234567890+.-"

/-- `percent_encode` (token.rs 153-167): twelve sequential replacements. -/
def percentEncode (source : Str) : Str :=
  let s := replaceC '%' c!"%25" source
  let s := replaceC '#' c!"%23" s
  let s := replaceC '[' c!"%5B" s
  let s := replaceC ']' c!"%5D" s
  let s := replaceC '!' c!"%21" s
  let s := replaceC '$' c!"%24" s
  let s := replaceC '\'' c!"%27" s
  let s := replaceC '(' c!"%28" s
  let s := replaceC ')' c!"%29" s
  let s := replaceC '*' c!"%2A" s
  let s := replaceC ' ' c!"%20" s
  replaceC '\\' c!"%5C" s

/-- `ValidURL::fmt_unsafe` (token.rs 102-109). -/
def ValidURL.fmtUnsafe (u : ValidURL) : Str :=
  let amp := replaceC '&' c!"&amp;" u.content
  match u.scheme with
  | none => c!"http:" ++ amp
  | some (.email _) => amp
  | some s => s.display ++ c!":" ++ amp

/-- `impl Display for ValidURL` (token.rs 112-132). -/
def ValidURL.display (u : ValidURL) : Str :=
  match u.scheme with
  | none => c!"http:" ++ replaceC '&' c!"&amp;" (percentEncode u.content)
  | some s => s.display ++ c!":" ++ replaceC '&' c!"&amp;" (percentEncode u.content)

/-- The scheme and path of token.rs 201: `source.split_at(source.find(':').unwrap_or(0))`. -/
def splitScheme (source : Str) : Str × Str :=
  if source.contains ':' then (source.takeWhile (· != ':'), source.dropWhile (· != ':')) else ([], source)

/-- `source_scheme` (token.rs 214-232). `parts[0]` is the text before the first `:`. Length is in bytes in the code;
the source is ASCII at this point, so bytes are characters. -/
def sourceScheme (source : Str) : Option Scheme :=
  let p0 := source.takeWhile (· != ':')
  if source.contains ':' && p0.all (fun c => schemeAscii.contains c) && decide (2 ≤ p0.length) && decide (p0.length ≤ 32) then
    if p0 = c!"http" then some (.http p0)
    else if p0 = c!"mailto" then some (.email p0)
    else if p0 = c!"irc" then some (.irc p0)
    else some (.other p0)
  else none

/-- The last piece of `source.split(":")` (token.rs 242). -/
def afterLastColon (source : Str) : Str := (source.reverse.takeWhile (· != ':')).reverse

/-- `source.strip_prefix(s).unwrap_or("").strip_prefix(":").unwrap_or("")` (token.rs 259-263 and 267-287). -/
def stripScheme (s source : Str) : Str :=
  (stripPrefix c!":" ((stripPrefix s source).getD [])).getD []

/-- `validate_link` (token.rs 194-295). An error carries the source, as `SanitizationError` does. -/
def validateLink (source : Str) : Except Str ValidURL :=
  if !isAscii source || source.any isWs then .error source
  else
    let scheme := (splitScheme source).1
    let path := (splitScheme source).2
    if lower scheme == c!"javascript" || !isAscii scheme then .error source
    else if lower scheme == c!"data" && !startsWith path c!":image/" then .error source
    else if scheme.length != 0 && (decide (scheme.length < 2) || decide (scheme.length > 32)) then .error source
    else
      let ss := sourceScheme source
      if source.contains '@' && source.count '@' == 1 && !source.contains '\\' then
        match ss with
        | some sc => .ok { scheme := some sc, content := afterLastColon source }
        | none => .ok { scheme := some (.email c!"mailto"), content := source }
      else if source.contains '@' && source.count '@' == 1 && source.contains '\\' then .error source
      else
        match ss with
        | some (.http s) => .ok { content := stripScheme s source, scheme := some (.http s) }
        | some (.email s) => .ok { content := stripScheme s source, scheme := some (.email s) }
        | some (.irc s) => .ok { content := stripScheme s source, scheme := some (.irc s) }
        | some (.other s) => .ok { content := stripScheme s source, scheme := some (.other s) }
        | none => .ok { content := source, scheme := none }

end Smd.Gfm
