import Verif.Gfm.Token

/-! Tokens at any depth of a token list. -/

namespace Smd.Spec
open Smd.Gfm

/-- `t` occurs in `ts` or inside a token that does: in a list entry, a details block or a table cell. -/
inductive Found (ts : List Token) : Token → Prop
  | here (t : Token) (h : t ∈ ts) : Found ts t
  | item (l : List Token) (t : Token) (hl : Found ts (.unorderedListEntry l)) (h : t ∈ l) : Found ts t
  | detail (sum : Str) (l : List Token) (t : Token) (hl : Found ts (.detail sum l)) (h : t ∈ l) : Found ts t
  | cell (heads : List (Alignment × Str)) (rows : List (List (Alignment × List Token))) (row : List (Alignment × List Token))
      (c : Alignment × List Token) (t : Token) (hl : Found ts (.table heads rows)) (hr : row ∈ rows) (hc : c ∈ row)
      (h : t ∈ c.2) : Found ts t

end Smd.Spec
