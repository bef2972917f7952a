import Verif.Lemmas.Warns
import Verif.Props.Talk

/-! C119: the warnings of ordinary text. -/

namespace Smd.Gfm
open Smd.Rs Smd.Spec

/-- Words with a space between them cause a warning, so ordinary text does cause warnings. -/
theorem C119_refuted (d : Dbg) : ¬ ∀ s l, Paragraph s l → (renderL d s).notes.filter (·.warn) = [] := by
  intro h
  have hw : ∀ c, c ∉ controlChars ∧ isWs c = false → Word [c] := fun c hc => ⟨by simp, by simpa using hc⟩
  have := h c!"a b" c!"ab" (.more c!"a" c!"b" c!"b" ' ' (hw 'a' (by decide)) (.inl rfl) (.one c!"b" (hw 'b' (by decide))))
  have hp := renderL_prose d (s := c!"a b") ⟨by decide, by
    intro h
    exact absurd h.length_le (by decide)⟩
  rw [show (renderL d c!"a b").warns = [] from this] at hp
  exact absurd hp (by simp [runs, List.splitBy, List.splitBy.loop, runWarning])

/-- The warnings of text without control characters, with at most three spaces in a row: one for each run of spaces and one for
each line end that does not make a paragraph, in their order, and no others. -/
theorem C119_partial (d : Dbg) {s : Str} (h1 : ∀ c ∈ s, c ∉ controlChars ∨ c = ' ' ∨ c = '\n') (h2 : ¬ c!"    " <:+: s) :
    (renderL d s).notes.filter (·.warn) = (s.splitBy (· == ·)).filterMap fun run =>
      if run.head? = some ' ' then some ⟨true, c!"gfm::lexer", c!"Error while lexing whitespaces: " ++ d.str run⟩
      else if run = c!"\n" then some ⟨true, c!"gfm::lexer", c!"Error while lexing newline: " ++ d.str run⟩ else none :=
  renderL_prose d ⟨h1, h2⟩

/-- The text of the example. -/
def prose : Str := c!"To be,  or\nnot\n\nto be"

example : (∀ c ∈ prose, c ∉ controlChars ∨ c = ' ' ∨ c = '\n') ∧ ¬ c!"    " <:+: prose ∧
    (prose.splitBy (· == ·)) = [c!"T", c!"o", c!" ", c!"b", c!"e", c!",", c!"  ", c!"o", c!"r", c!"\n", c!"n", c!"o", c!"t", c!"\n\n",
      c!"t", c!"o", c!" ", c!"b", c!"e"] := by decide +kernel

example : ((renderL ⟨fun s => '"' :: s ++ ['"'], fun _ => [], fun _ => []⟩ prose).notes.filter (·.warn)).map (·.text) =
    [c!"Error while lexing whitespaces: \" \"", c!"Error while lexing whitespaces: \"  \"", c!"Error while lexing newline: \"\n\"",
      c!"Error while lexing whitespaces: \" \""] := by decide +kernel

/-- **C119, negated** Every such text with a space causes a warning. -/
theorem C119_refuted_always (d : Dbg) {s : Str} (h1 : ∀ c ∈ s, c ∉ controlChars ∨ c = ' ' ∨ c = '\n') (h2 : ¬ c!"    " <:+: s) (h3 : ' ' ∈ s) :
    (renderL d s).notes.filter (·.warn) ≠ [] := by
  rw [C119_partial d h1 h2]
  rw [← List.flatten_splitBy (· == ·) s, List.mem_flatten] at h3
  obtain ⟨run, hr, hm⟩ := h3
  have hc := List.isChain_of_mem_splitBy hr
  have hh : run.head? = some ' ' := by
    cases run with
    | nil => simp at hm
    | cons a t =>
      have hp : List.Pairwise (· = ·) (a :: t) := List.isChain_iff_pairwise.1 (hc.imp fun _ _ h => by simpa using h)
      rcases List.mem_cons.1 hm with e | e
      · simp [← e]
      · simp [(List.pairwise_cons.1 hp).1 _ e]
  exact List.ne_nil_of_mem (List.mem_filterMap.2 ⟨run, hr, by rw [if_pos hh]⟩)

example : (∀ c ∈ c!"a b", c ∉ controlChars ∨ c = ' ' ∨ c = '\n') ∧ ' ' ∈ c!"a b" := by decide

end Smd.Gfm

namespace Smd.App
open Smd.Core Smd.Spec

variable {os : Os} {x : Ctx} {w w' : World} {g : Texts} {o : List Line}

/-- The same of the program: a conversion of such a text to HTML shows these warnings and no others, with neither `-v` nor `RUST_LOG`. -/
theorem C119_shown (fl : Filters) {input : Path} {s : Str} (hs : w.bytesAt input = some (enc s))
    (h1 : ∀ c ∈ s, c ∉ controlChars ∨ c = ' ' ∨ c = '\n') (h2 : ¬ c!"    " <:+: s)
    (h : LEnds os x w (mainL g os x (.parse input .html)) w' o (.ok (.ok ()))) :
    (shown fl 0 none o).filter (fun l => decide (l.level = .warn)) = (s.splitBy (· == ·)).filterMap fun run =>
      if run.head? = some ' ' then some ⟨.warn, c!"gfm::lexer", c!"Error while lexing whitespaces: " ++ g.dbg.str run⟩
      else if run = c!"\n" then some ⟨.warn, c!"gfm::lexer", c!"Error while lexing newline: " ++ g.dbg.str run⟩ else none := by
  obtain ⟨s', html, lines, n, hs', hr, hl, hn, ho⟩ := C117_shown fl h
  have e : s' = s := (Gfm.Iter.enc_inj (Option.some.inj (hs.symm.trans hs'))).symm
  subst e
  have hw : (g.render s').filter (fun l => decide (l.level = .warn)) = ((Gfm.renderL g.dbg s').notes.filter (·.warn)).map noteLine := by
    unfold Texts.render
    rw [List.filter_map]
    congr 1
    refine List.filter_congr fun n _ => ?_
    obtain ⟨b, t, x⟩ := n
    cases b <;> rfl
  have hi : ∀ t x : Str, decide ((⟨.info, t, x⟩ : Line).level = .warn) = false := fun _ _ => rfl
  rw [ho]
  simp only [List.filter_append, List.filter_filter, Bool.and_self]
  rw [hw, Gfm.C119_partial g.dbg h1 h2, List.map_filterMap]
  split <;> simp only [List.filter_cons, List.filter_nil, hi, Bool.false_eq_true, if_false, List.nil_append, List.append_nil] <;>
    (congr 1; funext run; split <;> [rfl; split <;> rfl])

/-- A file system with two words in a file. -/
def diskWords : World := disk [([c!"d", c!"a.md"], c!"a b"), ([c!"d", c!"a.html"], c!"old")] [[], [c!"d"]]

example : diskWords.bytesAt [c!"d", c!"a.md"] = some (enc c!"a b") ∧ (∀ c ∈ c!"a b", c ∉ controlChars ∨ c = ' ' ∨ c = '\n') ∧
    ¬ c!"    " <:+: c!"a b" ∧
    ∃ w' o, LEnds (sys True) (proc 1) diskWords (mainL texts (sys True) (proc 1) (.parse [c!"d", c!"a.md"] .html)) w' o (.ok (.ok ())) := by
  refine ⟨by decide +kernel, by decide +kernel, by decide +kernel, ?_⟩
  obtain ⟨o, h⟩ := C118_same (g := texts) |>.mpr (html_run (os := sys True) (x := proc 1) (w := diskWords) (input := [c!"d", c!"a.md"]) (i := 1)
    (s := c!"a b") (html := c!"<p>ab</p>\n") (by decide +kernel) (by decide +kernel) (by decide +kernel) (by decide +kernel) rfl (Nat.le_refl _) fun _ => rfl)
  exact ⟨_, o, h⟩

end Smd.App
