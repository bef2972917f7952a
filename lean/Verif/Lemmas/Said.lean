import Verif.Gfm.Said
import Verif.Lemmas.Fuel

/-! Rendering with and without its log calls. -/

namespace Smd.Gfm
open Smd.Rs

variable {α β : Type}

@[simp] theorem Said.of_out (o : Outcome α) : (Said.of o).out = o := rfl

@[simp] theorem Said.of_notes (o : Outcome α) : (Said.of o).notes = [] := rfl

@[simp] theorem Said.say_out (n : Note) (x : Said α) : (Said.say n x).out = x.out := rfl

@[simp] theorem Said.say_notes (n : Note) (x : Said α) : (Said.say n x).notes = n :: x.notes := rfl

theorem Said.out_bind' (x : Said α) (f : α → Said β) : (x.bind f).out = x.out.bind fun a => (f a).out := by
  unfold Said.bind Outcome.bind
  cases x.out <;> rfl

@[simp] theorem Said.out_bind (x : Said α) (f : α → Said β) : (x >>= f).out = (x.out >>= fun a => (f a).out) := Said.out_bind' x f

theorem erase_lexHeadingL (r : RecL) (s : Str) : (lexHeadingL r s).out = lexHeading r.erase s := by
  unfold lexHeadingL lexHeading
  simp only [apply_ite Said.out]
  split
  · rfl
  · split <;> simp only [Said.out_bind, Said.of_out, apply_ite Said.out, RecL.erase, *]

theorem erase_lexPlusMinusL (r : RecL) (s : Str) : (lexPlusMinusL r s).out = lexPlusMinus r.erase s := by
  unfold lexPlusMinusL lexPlusMinus
  simp only [apply_ite Said.out, Said.of_out]
  congr
  split <;> simp only [apply_ite Said.out, Said.out_bind, Said.of_out, RecL.erase, *]

theorem erase_parseDetailsL (r : RecL) (s : Str) : (parseDetailsL r s).out = parseDetails r.erase s := by
  unfold parseDetailsL parseDetails
  simp only [apply_ite Said.out, Said.of_out]
  congr
  split <;> simp only [Said.out_bind, Said.of_out, RecL.erase, *]

theorem erase_lexSideCarrotL (r : RecL) (s : Str) : (lexSideCarrotL r s).out = lexSideCarrot r.erase s := by
  unfold lexSideCarrotL lexSideCarrot
  simp only [apply_ite Said.out, Said.of_out, erase_parseDetailsL]
  congr
  split <;> simp only [apply_ite Said.out, Said.of_out, *]

theorem erase_rowTokensL (r : RecL) : ∀ es : List Str, (rowTokensL r es).out = rowTokens r.erase es
  | [] => rfl
  | e :: es => by simp only [rowTokensL, rowTokens, Said.out_bind, Said.of_out, erase_rowTokensL r es, RecL.erase]

theorem erase_tableRowsL (r : RecL) (al : List Alignment) : ∀ ls : List Str, (tableRowsL r al ls).out = tableRows r.erase al ls
  | [] => rfl
  | l :: ls => by simp only [tableRowsL, tableRows, Said.out_bind, Said.of_out, erase_rowTokensL, erase_tableRowsL r al ls]

theorem erase_lexPipesL (r : RecL) (s : Str) : (lexPipesL r s).out = lexPipes r.erase s := by
  unfold lexPipesL lexPipes
  simp only [apply_ite Said.out, Said.of_out]
  congr
  split <;> simp only [apply_ite Said.out, Said.out_bind, Said.of_out, erase_tableRowsL, *]

theorem erase_lexDispatchL (r : RecL) (ig : List Char) (last : Option Token) (c : Char) (s : Str) :
    (lexDispatchL r ig last c s).2.out = lexDispatch r.erase ig last c s := by
  unfold lexDispatchL lexDispatch
  simp only [apply_ite Prod.snd, apply_ite Said.out, Said.of_out, erase_lexHeadingL, erase_lexPlusMinusL, erase_lexSideCarrotL, erase_lexPipesL]

theorem erase_nextTokenL (d : Dbg) (r : RecL) (ig : List Char) (last : Option Token) (s : Str) :
    (nextTokenL d r ig last s).out = nextToken r.erase ig last s := by
  cases s with
  | nil => rfl
  | cons c cs => simp only [nextTokenL, nextToken, Said.say_out, Said.out_bind, erase_lexDispatchL]

theorem erase_lexLoopL (d : Dbg) (r : RecL) (ig : List Char) : ∀ (n : Nat) (acc : List Token) (s : Str),
    (lexLoopL d r ig n acc s).out = lexLoop r.erase ig n acc s
  | 0, _, _ => rfl
  | n + 1, acc, s => by
    simp only [lexLoopL, lexLoop, Said.out_bind, erase_nextTokenL]
    congr
    funext o
    cases o with
    | none => rfl
    | some p => exact erase_lexLoopL d r ig n _ _

theorem erase_lexWithL (d : Dbg) (r : RecL) (ig : List Char) (s : Str) : (lexWithL d r ig s).out = lexWith r.erase ig s := by
  simp only [lexWithL, lexWith, Said.say_out, Said.out_bind, Said.of_out, erase_lexLoopL]
  cases lexLoop r.erase ig (s.length + 1) [] s <;> rfl

theorem erase_entryOutL (r : RecL) : ∀ ts : List Token, (entryOutL r ts).out = entryOut r.erase ts
  | [] => rfl
  | t :: ts => by
    cases t <;> simp only [entryOutL, entryOut, Said.out_bind, Said.of_out, erase_entryOutL r ts, RecL.erase]

theorem erase_quoteStepL (r : RecL) (l : Nat) (t : Str) (st : PState) : (quoteStepL r l t st).out = quoteStep r.erase l t st := by
  simp only [quoteStepL, quoteStep, apply_ite Said.out, Said.out_bind, Said.of_out, RecL.erase]

theorem erase_step2L (r : RecL) (t : Token) (st : PState) : (step2L r t st).out = step2 r.erase t st := by
  cases t <;> simp only [step2L, step2, Said.of_out, Said.out_bind, erase_entryOutL, erase_quoteStepL]

theorem erase_cellTextL (w : Said Str) : ∀ ts : List Token, (cellTextL w ts).out = cellText w.out ts
  | [] => rfl
  | t :: ts => by
    simp only [cellTextL, cellText, Said.out_bind, Said.of_out, erase_cellTextL w ts]
    congr
    cases t <;> rfl

mutual

theorem erase_parseTokL (d : Dbg) (r : RecL) : ∀ (t : Token) (st : PState), (parseTokL d r t st).out = parseTok r.erase t st
  | .detail summary inner, st => by
    simp only [parseTokL, parseTok, Said.say_out, Said.out_bind', Said.of_out, erase_parseToksL d r inner]
  | .table headings [], st => by simp only [parseTokL, parseTok, Said.say_out, Said.of_out]
  | .table headings (r0 :: rs), st => by
    simp only [parseTokL, parseTok, Said.say_out, apply_ite Said.out, Said.out_bind', Said.of_out, erase_parseRowL d r r0, erase_parseRowsL d r rs]
  | .plaintext _, st | .header _ _ _, st | .orderedListEntry _, st | .unorderedListEntry _, st | .image _ _, st | .link _ _ _, st | .italic _, st
  | .bold _, st | .boldItalic _, st | .blockQuote _ _, st | .taskListItem _ _, st | .strikethrough _, st | .code _, st | .horizontalRule, st
  | .newline, st | .tab, st | .doubleTab, st | .footnote _ _, st | .lineBreak, st | .codeBlock _ _, st => by
    simp only [parseTokL, parseTok, Said.say_out, erase_step2L]

theorem erase_parseToksL (d : Dbg) (r : RecL) : ∀ (ts : List Token) (st : PState), (parseToksL d r ts st).out = parseToks r.erase ts st
  | [], _ => by simp only [parseToksL, parseToks, Said.of_out]
  | t :: ts, st => by
    simp only [parseToksL, parseToks, Said.out_bind', erase_parseTokL d r t st]
    congr
    funext st
    exact erase_parseToksL d r ts st

theorem erase_parseRowsL (d : Dbg) (r : RecL) : ∀ rows : List (List (Alignment × List Token)), (parseRowsL d r rows).out = parseRows r.erase rows
  | [] => by simp only [parseRowsL, parseRows, Said.of_out]
  | row :: rows => by
    simp only [parseRowsL, parseRows, Said.out_bind', Said.of_out, erase_parseRowL d r row, erase_parseRowsL d r rows]

theorem erase_parseRowL (d : Dbg) (r : RecL) : ∀ row : List (Alignment × List Token), (parseRowL d r row).out = parseRow r.erase row
  | [] => by simp only [parseRowL, parseRow, Said.of_out]
  | cell :: row => by
    simp only [parseRowL, parseRow, Said.out_bind', Said.of_out, erase_parseCellL d r cell, erase_parseRowL d r row]

theorem erase_parseCellL (d : Dbg) (r : RecL) : ∀ cell : Alignment × List Token, (parseCellL d r cell).out = parseCell r.erase cell
  | (al, toks) => by
    simp only [parseCellL, parseCell, Said.out_bind', Said.of_out, erase_cellTextL, Said.say_out, erase_parseToksL d r toks]

end

theorem erase_parseDocL (d : Dbg) (r : RecL) (ts : List Token) : (parseDocL d r ts).out = parseDoc r.erase ts := by
  simp only [parseDocL, parseDoc, Said.say_out, Said.out_bind', Said.of_out, erase_parseToksL]

theorem erase_recL (d : Dbg) : ∀ n, (recL d n).erase = recF n
  | 0 => rfl
  | n + 1 => by
    unfold RecL.erase recF
    simp only [recL, Said.out_bind, erase_lexWithL, erase_parseDocL, erase_recL d n]
    rfl

/-- Rendering with its log calls renders. -/
theorem erase_renderL (d : Dbg) (s : Str) : (renderL d s).out = render s := by
  unfold renderL render renderIgnore
  rw [← erase_recL d]
  rfl

end Smd.Gfm
