import Verif.Gfm.Said

/-!
The log of the renderer as a tree: every call that renders, lexes or parses says when it starts and when it is done, with the
logs of the calls it makes in between.
-/

namespace Smd.Spec
open Smd.Rs Smd.Gfm

/-- What a part of a log is about. -/
inductive What where
  /-- A text is rendered. -/
  | rendered (s : Str)
  /-- A text is rendered with some characters treated as text. -/
  | ignoring (ignore : List Char) (s : Str)
  /-- A text is lexed, with these tokens. -/
  | lexed (ignore : List Char) (s : Str) (ts : List Token)
  /-- The tokens of a text are found one after the other. -/
  | lexing (s : Str) (ts : List Token)
  /-- The calls made while a token is found at a character. -/
  | found (c : Char) (t : Token)
  /-- A number of texts are lexed. -/
  | lexings (n : Nat)
  /-- Tokens are parsed. -/
  | parsed (ts : List Token)
  /-- Tokens are parsed one after the other. -/
  | parsing (ts : List Token)
  /-- The calls made while a token is parsed. -/
  | inside (t : Token)
  /-- A number of texts are rendered. -/
  | renderings (n : Nat)
  /-- The cells of a table are parsed. -/
  | cells (cs : List (Alignment × List Token))
  /-- Tokens are parsed a number of times. -/
  | parsings (ts : List Token) (n : Nat)

/-- The warnings, by the character at which the token was looked for. -/
def warningsAt : List (Str × Str) :=
  [(c!"#", c!"lexing heading"), (c!"\n", c!"lexing newline"), (c!" \t", c!"lexing whitespaces"), (c!"0123456789", c!"lexing number"),
    (c!"*_", c!"lexing asterisks and underscores"), (c!"-+", c!"lexing plus or minus"), (c!">", c!"lexing block quotes"), (c!"~", c!"tilde"),
    (c!"`", c!"lexing backticks"), (c!"[", c!"lexing link"), (c!"!", c!"lexing image"), (c!"<", c!"lexing side carrot"), (c!"|", c!"lexing pipe"),
    (c!"\\", c!"lexing escaped character")]

/-- Nothing, or the warning that a text is not what its first character promises; the text is then the token. -/
inductive Warned (d : Dbg) (c : Char) : Token → List Note → Prop
  | none (t : Token) : Warned d c t []
  | text (cs what e : Str) (hw : (cs, what) ∈ warningsAt) (hc : c ∈ cs) :
      Warned d c (.plaintext e) [⟨true, c!"gfm::lexer", c!"Error while " ++ what ++ c!": " ++ d.str e⟩]

/-- The number of bytes of a text. -/
def bytes (s : Str) : Nat := (s.map Char.utf8Size).sum

/-- Tokens that can only be found by calls. -/
def Deep : Token → Prop
  | .header _ (_ :: _) _ | .detail _ _ => True
  | .table _ rows => (rows.map List.length).sum ≠ 0
  | .unorderedListEntry ts => ∃ t ∈ ts, ∀ x, t ≠ .plaintext x
  | _ => False

/-- Tokens that are parsed by calls. -/
def Outer : Token → Prop
  | .unorderedListEntry _ | .detail _ _ | .table _ _ => True
  | .blockQuote _ t => t ≠ []
  | _ => False

/-- Tokens a cell shows itself; for any other token it is parsed as a whole. -/
def ownToken : Token → Bool
  | .plaintext _ | .italic _ | .bold _ | .boldItalic _ | .lineBreak | .horizontalRule | .strikethrough _ => true
  | _ => false

/-- A complete log. -/
inductive Told (d : Dbg) : What → List Note → Prop
  | rendered (s : Str) (ts : List Token) (a b : List Note) (ha : Told d (.lexed [] s ts) a) (hb : Told d (.parsed ts) b) :
      Told d (.rendered s) (⟨false, c!"gfm", c!"Rendering source of length: " ++ dec (bytes s)⟩ :: (a ++ b))
  | ignoring (ig : List Char) (s : Str) (ts : List Token) (a b : List Note) (ha : Told d (.lexed ig s ts) a) (hb : Told d (.parsed ts) b) :
      Told d (.ignoring ig s) (a ++ b)
  | lexed (ig : List Char) (s : Str) (ts : List Token) (a : List Note) (ha : Told d (.lexing s ts) a) :
      Told d (.lexed ig s ts) (⟨false, c!"gfm", c!"Lexing source with ignore list: " ++ d.chars ig⟩ ::
        ⟨false, c!"gfm::lexer", c!"Initializing Lexer with input of length: " ++ dec (bytes s)⟩ ::
        (a ++ [⟨false, c!"gfm::lexer", c!"End of input reached, no more tokens"⟩,
          ⟨false, c!"gfm", c!"Lexing completed, total tokens: " ++ dec ts.length⟩]))
  | end : Told d (.lexing [] []) []
  | next (c : Char) (p s : Str) (t : Token) (ts : List Token) (a w b : List Note) (ha : Told d (.found c t) a) (hw : Warned d c t w)
      (hb : Told d (.lexing s ts) b) :
      Told d (.lexing (c :: p ++ s) (t :: ts)) (⟨false, c!"gfm::lexer", c!"Processing character: Some(" ++ d.str [c] ++ c!")"⟩ :: (a ++ w ++ b))
  | found (c : Char) (t : Token) (h : ¬ Deep t) : Told d (.found c t) []
  | heading (l : Nat) (x s : Str) (a : List Note) (ha : Told d (.ignoring c!"#" s) a) : Told d (.found '#' (.header l x none)) a
  | item (c : Char) (hc : c ∈ c!"-+") (xs : List Str) (s : Str) (ts : List Token) (a : List Note) (ha : Told d (.lexed [] s ts) a) :
      Told d (.found c (.unorderedListEntry (xs.map .plaintext ++ ts))) a
  | details (sum s : Str) (ts : List Token) (a : List Note) (ha : Told d (.lexed [] s ts) a) : Told d (.found '<' (.detail sum ts)) a
  | table (heads : List (Alignment × Str)) (rows : List (List (Alignment × List Token))) (n : Nat) (hn : (rows.map List.length).sum ≤ n)
      (a : List Note) (ha : Told d (.lexings n) a) : Told d (.found '|' (.table heads rows)) a
  | noLexings : Told d (.lexings 0) []
  | lexings (n : Nat) (s : Str) (ts : List Token) (a b : List Note) (ha : Told d (.lexed [] s ts) a) (hb : Told d (.lexings n) b) :
      Told d (.lexings (n + 1)) (a ++ b)
  | parsed (ts : List Token) (a : List Note) (ha : Told d (.parsing ts) a) :
      Told d (.parsed ts) (⟨false, c!"gfm", c!"Parsing " ++ dec ts.length ++ c!" tokens"⟩ :: (a ++ [⟨false, c!"gfm", c!"Parsing completed"⟩]))
  | done : Told d (.parsing []) []
  | token (t : Token) (ts : List Token) (a b : List Note) (ha : Told d (.inside t) a) (hb : Told d (.parsing ts) b) :
      Told d (.parsing (t :: ts)) (⟨false, c!"gfm", c!"Processing token: " ++ d.tok t⟩ :: (a ++ b))
  | alone (t : Token) (h : ¬ Outer t) : Told d (.inside t) []
  | entry (ts : List Token) (a : List Note) (ha : Told d (.renderings (ts.countP fun | .plaintext _ => true | _ => false)) a) :
      Told d (.inside (.unorderedListEntry ts)) a
  | quote (l : Nat) (t s : Str) (ht : t ≠ []) (a : List Note) (ha : Told d (.rendered s) a) : Told d (.inside (.blockQuote l t)) a
  | section (sum : Str) (ts : List Token) (a : List Note) (ha : Told d (.parsed ts) a) : Told d (.inside (.detail sum ts)) a
  | skipped (heads : List (Alignment × Str)) (row : List (Alignment × List Token)) (rows : List (List (Alignment × List Token)))
      (h : heads.length ≠ row.length) : Told d (.inside (.table heads (row :: rows))) []
  | rows (heads : List (Alignment × Str)) (row : List (Alignment × List Token)) (rows : List (List (Alignment × List Token)))
      (h : heads.length = row.length) (a : List Note) (ha : Told d (.cells (row :: rows).flatten) a) : Told d (.inside (.table heads (row :: rows))) a
  | noRenderings : Told d (.renderings 0) []
  | renderings (n : Nat) (s : Str) (a b : List Note) (ha : Told d (.rendered s) a) (hb : Told d (.renderings n) b) :
      Told d (.renderings (n + 1)) (a ++ b)
  | noCells : Told d (.cells []) []
  | cells (al : Alignment) (ts : List Token) (cs : List (Alignment × List Token)) (a b : List Note)
      (ha : Told d (.parsings ts (ts.countP fun t => !ownToken t)) a) (hb : Told d (.cells cs) b) : Told d (.cells ((al, ts) :: cs)) (a ++ b)
  | noParsings (ts : List Token) : Told d (.parsings ts 0) []
  | parsings (ts : List Token) (n : Nat) (a b : List Note) (ha : Told d (.parsed ts) a) (hb : Told d (.parsings ts n) b) :
      Told d (.parsings ts (n + 1)) (a ++ b)

/-- How many lines start like this. -/
def linesLike (p : Str) (notes : List Note) : Nat := notes.countP fun n => p.isPrefixOf n.text

end Smd.Spec
