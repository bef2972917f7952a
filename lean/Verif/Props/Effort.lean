import Verif.Lemmas.ManyLinks
import Verif.Props.Warns

/-!
How much is logged (C120).
-/

namespace Smd.Gfm
open Smd.Rs Smd.Spec

/-- **C120, negated** What is logged is not at most proportional to the document: whatever the factor, some document is
rendered with more lines than that. A table cell is rendered once more for every link in it. -/
theorem C120_refuted (d : Dbg) : ∀ K : Nat, ∃ s html, (renderL d s).out = .ok html ∧ K * (s.length + 1) < (renderL d s).notes.length := by
  intro K
  refine ⟨(linksTable (16 * K + 1)).src, _, (erase_renderL d _).trans (C56_table _ (linksTable_good _)), ?_⟩
  rw [linksTable_src]
  have h : (16 * K + 1) * (16 * K + 1) ≤ (renderL d (linksTable (16 * K + 1)).src).notes.length := links_cost d (16 * K)
  have h1 : K * (10 + 6 * (16 * K + 1) + 1) + 1 ≤ (16 * K + 1) * (16 * K + 1) := by nlinarith
  omega

example : (renderL App.texts.dbg c!"|a|\n|-|\n|<ab:c>|").notes.length = 17 ∧
    (renderL App.texts.dbg c!"|a|\n|-|\n|<ab:c><ab:c>|").notes.length = 23 ∧
    (renderL App.texts.dbg c!"|a|\n|-|\n|<ab:c><ab:c><ab:c>|").notes.length = 31 := by decide +kernel

/-- **C120, part** Documents without `|`, so without tables: at most a constant number of lines for each character. Missing: the
documents with tables, for which `C120_square` says how far it goes. -/
theorem C120_partial (d : Dbg) {s : Str} (h : '|' ∉ s) : (renderL d s).notes.length ≤ 5300 * (s.length + 1) := by
  have := render_cost d (b := false) (s := s) fun _ => h
  simp only [parseBound, Said.cost, Bool.false_eq_true, if_false] at this
  omega

example : '|' ∉ c!"- a <ab:c>\n> b\n" ∧ (renderL App.texts.dbg c!"- a <ab:c>\n> b\n").notes.length = 34 := by decide +kernel

/-- **C120, all documents** At most a constant times the square of the length. -/
theorem C120_square (d : Dbg) (s : Str) : (renderL d s).notes.length ≤ 12300 * (s.length + 1) ^ 2 := by
  have := render_cost d (b := true) (s := s) nofun
  simp only [parseBound, Said.cost, if_true] at this
  generalize s.length = n at *
  nlinarith

end Smd.Gfm

namespace Smd.App
open Smd.Core Smd.Spec

variable {g : Texts} {os : Os} {x : Ctx} {w w' : World} {o : List Line}

/-- **C120, the program** A conversion to HTML that succeeds logs, at all levels together, at most a constant number of lines for
each character of the input, if the input has no `|`. -/
theorem C120_run {input : Path} {s : Str} (hs : w.bytesAt input = some (enc s)) (hp : '|' ∉ s)
    (h : LEnds os x w (mainL g os x (.parse input .html)) w' o (.ok (.ok ()))) : o.length ≤ 5300 * (s.length + 1) + 7 := by
  obtain ⟨o', h1, h2⟩ := (mainL_holds (html_holds g input w)).ends h
  obtain ⟨s', html, hs', _, n, _, _, _, ho⟩ := h1
  have e : s' = s := (Gfm.Iter.enc_inj (Option.some.inj (hs.symm.trans hs'))).symm
  subst e
  have := Gfm.C120_partial g.dbg hp
  have h3 : (configLines x w).length ≤ 2 := by
    unfold configLines
    split <;> simp [readLines]
  rw [h2, ho]
  simp only [startLines, readLines, Texts.render, List.length_append, List.length_cons, List.length_nil, List.length_map]
  omega

example : diskWords.bytesAt [c!"d", c!"a.md"] = some (enc c!"a b") ∧ '|' ∉ c!"a b" ∧
    ∃ w' o, LEnds (sys True) (proc 1) diskWords (mainL texts (sys True) (proc 1) (.parse [c!"d", c!"a.md"] .html)) w' o (.ok (.ok ())) := by
  refine ⟨by decide +kernel, by decide +kernel, ?_⟩
  obtain ⟨o, h⟩ := C118_same (g := texts) |>.mpr (html_run (os := sys True) (x := proc 1) (w := diskWords) (input := [c!"d", c!"a.md"]) (i := 1)
    (s := c!"a b") (html := c!"<p>ab</p>\n") (by decide +kernel) (by decide +kernel) (by decide +kernel) (by decide +kernel) rfl (Nat.le_refl _) fun _ => rfl)
  exact ⟨_, o, h⟩

end Smd.App
