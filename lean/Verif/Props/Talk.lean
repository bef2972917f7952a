import Verif.Lemmas.Talk
import Verif.Lemmas.Said
import Verif.Props.App

/-! C113–C118: what the program says while it runs. -/

namespace Smd.App
open Smd.Core Smd.Spec

variable {os : Os} {x : Ctx} {w w' : World} {g : Texts} {o : List Line}

/-! ### Texts for the examples -/

/-- Texts for the examples. -/
def texts : Texts where
  io _ := c!"Permission denied (os error 13)"
  config := c!"missing field"
  dbg := ⟨fun s => '"' :: s ++ ['"'], fun _ => c!"Token", fun _ => c!"[]"⟩

/-- A reading of `RUST_LOG` that knows the names of levels only. -/
def plainFilters : Filters where
  shows s l := [Level.error, .warn, .info, .debug, .trace].any fun n => decide (s = n.name) && decide (l.level.num ≤ n.num)
  level n l := by cases n <;> simp [Level.name]

/-! ### C113 -/

/-- A run of the program has exit status 1 if and only if it has logged an error; the last line then says which. -/
theorem C113_reported {cmd : Command} {r : End} (h : LEnds os x w (mainL g os x cmd) w' o r) :
    ((∃ l ∈ o, l.level = .error) ↔ exitStatus r = some 1) ∧
    ∀ e, r = .ok (.error e) → ∃ before, o = before ++ [⟨.error, c!"smd", e.text g⟩] := by
  obtain ⟨o', h1, h2⟩ := (mainL_holds (calm_run g cmd w)).ends h
  subst h2
  have hn : (∀ e, r ≠ .ok (.error e)) → ¬ ∃ l ∈ o', l.level = .error := fun h => by
    rintro ⟨l, hl, he⟩
    exact h1 h l hl he
  cases r with
  | ok r =>
    cases r with
    | ok u =>
      refine ⟨⟨fun hx => absurd ?_ (hn nofun), nofun⟩, nofun⟩
      simpa using hx
    | error e =>
      refine ⟨⟨fun _ => rfl, fun _ => ⟨⟨.error, c!"smd", e.text g⟩, by simp, rfl⟩⟩, fun e' he => ⟨o', ?_⟩⟩
      cases he
      rfl
  | panic =>
    refine ⟨⟨fun hx => absurd ?_ (hn nofun), nofun⟩, nofun⟩
    simpa using hx
  | hang =>
    refine ⟨⟨fun hx => absurd ?_ (hn nofun), nofun⟩, nofun⟩
    simpa using hx
  | fuelOut =>
    refine ⟨⟨fun hx => absurd ?_ (hn nofun), nofun⟩, nofun⟩
    simpa using hx

/-- Unless `RUST_LOG` says otherwise, and always with `-v`, errors are shown. -/
theorem C113_shown (fl : Filters) {v : Nat} {env : Option Str} (hv : 1 ≤ v ∨ env = none) {cmd : Command} {r : End}
    (h : LEnds os x w (mainL g os x cmd) w' o r) :
    ((∃ l ∈ shown fl v env o, l.level = .error) ↔ exitStatus r = some 1) ∧
    ∀ e, r = .ok (.error e) → ∃ before, shown fl v env o = before ++ [⟨.error, c!"smd", e.text g⟩] := by
  have ⟨h1, h2⟩ := C113_reported h
  obtain ⟨n, hn, hs⟩ := shown_some fl hv o
  have he : ∀ l : Line, l.level = .error → decide (l.level.num ≤ n) = true := by
    intro l hl
    rw [hl]
    exact decide_eq_true hn
  rw [hs]
  refine ⟨⟨fun ⟨l, hl, hx⟩ => h1.mp ⟨l, (List.mem_filter.mp hl).1, hx⟩, fun hx => ?_⟩, fun e hr => ?_⟩
  · obtain ⟨l, hl, hx⟩ := h1.mpr hx
    exact ⟨l, List.mem_filter.mpr ⟨hl, he l hx⟩, hx⟩
  · obtain ⟨before, rfl⟩ := h2 e hr
    refine ⟨before.filter fun l => decide (l.level.num ≤ n), ?_⟩
    have := he ⟨.error, c!"smd", e.text g⟩ rfl
    simp [List.filter_append, this]

example : exitStatus (.ok (.error (.io 13))) = some 1 ∧ ∃ o, LEnds (sys True) (proc 1) disk1
    (mainL texts (sys True) (proc 1) (.parse [c!"d", c!"a.md"] .html)) disk1 o (.ok (.error (.io 13))) ∧
    shown plainFilters 0 none o = [⟨.info, c!"smd_core::fs", c!"Successfully read file: /d/a.md"⟩, ⟨.info, c!"smd", c!"Transpiling markdown"⟩,
      ⟨.error, c!"smd", c!"IO error: `Permission denied (os error 13)`"⟩] :=
  ⟨rfl, _, create_failsL 13 (by decide +kernel) (by decide +kernel) render_b, by decide +kernel⟩

/-! ### C118 -/

/-- The program that logs does what the program does: the same results in the same states. -/
theorem C118_same {cmd : Command} {r : End} :
    (∃ o, LEnds os x w (mainL g os x cmd) w' o r) ↔ Ends os x w (run os x cmd) w' r := by
  constructor
  · rintro ⟨o, h⟩
    have := LSteps.erase h
    rwa [erase_mainL] at this
  · intro h
    rw [← erase_mainL g] at h
    exact lsteps_of_ends _ [] h

/-- The renderer that logs renders what the renderer renders. -/
theorem C118_render (d : Gfm.Dbg) (s : Str) : (Gfm.renderL d s).out = Gfm.render s := Gfm.erase_renderL d s

example : (Gfm.renderL texts.dbg c!"*b*").out = .ok c!"<p><em>b</em></p>\n" ∧
    (Gfm.renderL texts.dbg c!"*b*").notes.length = 9 := by decide +kernel

/-! ### C114 -/

/-- C114 is false: when the output cannot be created, no error names it. -/
theorem C114_refuted : ¬ ∀ (g : Texts) (os : Os) (x : Ctx) (w w' : World) (o : List Line) (input : Path) (e : IoErr),
    LEnds os x w (mainL g os x (.parse input .html)) w' o (.ok (.error (.io e))) →
    ∃ l ∈ o, l.level = .error ∧ ∃ p ∈ [configFile x, input, setExtension c!"html" input], pathStr p <:+: l.msg := by
  intro h
  have := h texts (sys True) (proc 1) disk1 disk1 _ [c!"d", c!"a.md"] 13 (create_failsL 13 (by decide +kernel) (by decide +kernel) render_b)
  obtain ⟨l, hl, he, p, hp, hi⟩ := this
  have hl : l.msg = (Error.io 13).text texts := by
    simp only [readLines, writeLine, List.mem_append, List.mem_cons, List.not_mem_nil, or_false] at hl
    rcases hl with (((rfl | rfl) | rfl) | hl) | rfl | rfl
    · cases he
    · cases he
    · cases he
    · rcases Texts.quiet _ _ l hl with h | h <;> rw [h] at he <;> cases he
    · cases he
    · rfl
  have hp : '/' ∈ pathStr p := by
    simp only [List.mem_cons, List.not_mem_nil, or_false] at hp
    rcases hp with rfl | rfl | rfl <;> decide
  have := hi.subset hp
  rw [hl] at this
  revert this
  decide

/-- C114, the part that holds: when a conversion to HTML fails because of a file, an error names the file, or nothing has
been changed and the program has only said (for debugging) that it is going to write the output. Missing: files that cannot be
created. -/
theorem C114_partial {input : Path} {e : IoErr} (h : LEnds os x w (mainL g os x (.parse input .html)) w' o (.ok (.error (.io e)))) :
    (∃ l ∈ o, l.level = .error ∧ ∃ p ∈ [configFile x, input, setExtension c!"html" input], pathStr p <:+: l.msg) ∨
    (w' = w ∧ ∃ before, o = before ++ [⟨.debug, c!"smd_core::fs", c!"Attempting to write file: " ++ pathStr (setExtension c!"html" input)⟩,
      ⟨.error, c!"smd", (Error.io e).text g⟩]) := by
  rw [configFile_eq]
  obtain ⟨o', h1, h2⟩ := (mainL_holds (html_holds g input w)).ends h
  subst h2
  rcases h1 with h1 | ⟨_, ⟨l, hl, h3⟩ | ⟨h3, pre, h4, _⟩⟩
  · cases h1
  · exact .inl ⟨l, List.mem_append_left _ hl, h3⟩
  · refine .inr ⟨h3, pre, ?_⟩
    rw [h4]
    simp [writeLine, fsLine]

example : ∃ o, LEnds (sys True) (proc 1) disk1 (mainL texts (sys True) (proc 1) (.parse [c!"d", c!"a.md"] .html)) ((disk1.setData 1 []).setHandle 1 0 none) o
    (.ok (.error (.io 28))) :=
  C118_same.mpr (html_run_fails (x := proc 1) (i := 1) (e := 28) (by decide +kernel) (by decide +kernel) render_b (by decide +kernel) rfl)

/-! ### C115 -/

/-- C115, the part that holds: after a successful conversion to HTML the last line says how many bytes are in the output; it
says how many lines there are if the system writes everything it is asked to write. Missing: the number of lines after a short
write. -/
theorem C115_partial {input : Path} (h : LEnds os x w (mainL g os x (.parse input .html)) w' o (.ok (.ok ()))) :
    ∃ before bytes lines, w'.bytesAt (setExtension c!"html" input) = some bytes ∧
      o = before ++ [⟨.info, c!"smd_core::fs", c!"\"" ++ pathStr (setExtension c!"html" input) ++ c!"\" " ++ Rs.dec lines ++ c!"L, " ++
        Rs.dec bytes.length ++ c!"B written"⟩] ∧ (os.fullWrites → ∃ s, bytes = enc s ∧ LinesOf s lines) := by
  obtain ⟨o', h1, h2⟩ := (mainL_holds (html_holds g input w)).ends h
  obtain ⟨s, html, _, _, n, hn, hf, hb, ho⟩ := h1
  refine ⟨startLines g x w input s ++ [writeLine (setExtension c!"html" input)], _, lineCount html, hb, ?_, fun hw => ⟨html, ?_, linesOf_iff.mpr rfl⟩⟩
  · rw [h2, ho, List.length_take, Nat.min_eq_left hn]
    simp [fsLine, wroteText]
  · rw [hf hw, List.take_length]

example : ∃ o, LEnds (sys True) (proc 1) disk1 (mainL texts (sys True) (proc 1) (.parse [c!"d", c!"a.md"] .html))
    (wrote disk1 1 1 (enc c!"<p><em>b</em></p>\n").length (enc c!"<p><em>b</em></p>\n")) o (.ok (.ok ())) :=
  C118_same.mpr (html_run (x := proc 1) (i := 1) (by decide +kernel) (by decide +kernel) render_b (by decide +kernel) rfl (Nat.le_refl _) fun _ => rfl)

/-- The same for PDF, where no lines are announced. -/
theorem C115_pdf {input : Path} (h : LEnds os x w (mainL g os x (.parse input .pdf)) w' o (.ok (.ok ()))) :
    ∃ before bytes, w'.bytesAt (setExtension c!"pdf" input) = some bytes ∧
      o = before ++ [⟨.info, c!"smd_core::fs", c!"\"" ++ pathStr (setExtension c!"pdf" input) ++ c!"\", " ++
        Rs.dec bytes.length ++ c!"B written"⟩] := by
  obtain ⟨o', h1, h2⟩ := (mainL_holds (pdf_holds g input w)).ends h
  obtain ⟨s, html, n, bytes, _, _, _, _, hb, ho⟩ := h1 rfl
  refine ⟨startLines g x w input s ++ [writeLine (tmpPath x.cwd), fsLine .info (wroteText (tmpPath x.cwd) html n),
    writeLine (setExtension c!"pdf" input)], bytes, hb, ?_⟩
  rw [h2, ho]
  simp [fsLine, wroteBytes]

example : ∃ w' o, LEnds (sys True) (proc 1) disk1 (mainL texts (sys True) (proc 1) (.parse [c!"d", c!"a.md"] .pdf)) w' o (.ok (.ok ())) :=
  ⟨_, C118_same.mpr (pdf_run (x := proc 1) (i := 2) (j := 3) (t := 0) (by decide +kernel) (by decide +kernel) (by decide +kernel) render_b (by decide +kernel)
    (by decide +kernel) (by decide +kernel) rfl rfl)⟩

/-- C115 is false: after a short write, the number of lines is that of the whole rendering. -/
theorem C115_refuted : ¬ ∀ (g : Texts) (os : Os) (x : Ctx) (w w' : World) (o : List Line) (input : Path),
    LEnds os x w (mainL g os x (.parse input .html)) w' o (.ok (.ok ())) →
    ∃ before s lines, w'.bytesAt (setExtension c!"html" input) = some (enc s) ∧ LinesOf s lines ∧
      o = before ++ [⟨.info, c!"smd_core::fs", c!"\"" ++ pathStr (setExtension c!"html" input) ++ c!"\" " ++ Rs.dec lines ++ c!"L, " ++
        Rs.dec (enc s).length ++ c!"B written"⟩] := by
  intro h
  have hr : Gfm.render c!"a\n\nb" = .ok c!"<p>a</p>\n<p>b</p>\n" := by decide +kernel
  have hend := html_run (os := sys False) (x := proc 1) (w := disk [([c!"d", c!"a.md"], c!"a\n\nb"), ([c!"d", c!"a.html"], c!"")] [[], [c!"d"]])
    (input := [c!"d", c!"a.md"]) (i := 1) (n := 9) (by decide +kernel) (by decide +kernel) hr (by decide +kernel) rfl (by decide +kernel) False.elim
  obtain ⟨o, hL⟩ := (C118_same (g := texts)).mpr hend
  obtain ⟨before, s, lines, hs, hl, ho⟩ := h _ _ _ _ _ _ _ hL
  rw [linesOf_iff] at hl
  subst hl
  have hs' : s = c!"<p>a</p>\n" := by
    refine (Gfm.Iter.enc_inj (Option.some.inj (Eq.trans (Eq.symm ?_) hs))).symm
    decide +kernel
  subst hs'
  obtain ⟨o', h1, h2⟩ := (mainL_holds (html_holds _ _ _)).ends hL
  obtain ⟨s, html, hs, hr', n, hn, _, hb, ho'⟩ := h1
  have hs' : s = c!"a\n\nb" := by
    refine (Gfm.Iter.enc_inj (Option.some.inj (Eq.trans (Eq.symm ?_) hs))).symm
    decide +kernel
  subst hs'
  rw [hr] at hr'
  cases hr'
  have hn' : n = 9 := by
    have := congrArg (fun b => b.map List.length) (hb.symm.trans (show _ = some (enc c!"<p>a</p>\n") by decide +kernel))
    simp only [Option.map_some, List.length_take, Nat.min_eq_left hn] at this
    exact Option.some.inj this
  subst hn'
  have := congrArg List.getLast? (ho.symm.trans (h2.trans (congrArg (· ++ _) ho')))
  simp at this
  have := congrArg Line.msg this
  revert this
  decide

/-! ### C116 -/

/-- Without `-v` and `RUST_LOG` exactly the errors, warnings and information are shown; with one `-v` debugging lines, too;
with more everything, whatever `RUST_LOG` is. -/
theorem C116_levels (fl : Filters) (env : Option Str) (o : List Line) :
    shown fl 0 none o = o.filter (fun l => decide (l.level ≠ .debug ∧ l.level ≠ .trace)) ∧
    shown fl 1 env o = o.filter (fun l => decide (l.level ≠ .trace)) ∧ ∀ v, 2 ≤ v → shown fl v env o = o := by
  refine ⟨(shown_info fl o).trans ?_, (shown_debug fl env o).trans ?_, fun v hv => shown_trace fl hv env o⟩
  · refine congrArg (o.filter ·) (funext fun l => ?_)
    cases l.level <;> rfl
  · refine congrArg (o.filter ·) (funext fun l => ?_)
    cases l.level <;> rfl

/-- C116 is false: with `RUST_LOG=trace`, a `-v` hides lines. -/
theorem C116_refuted : ¬ ∀ (fl : Filters) (v : Nat) (env : Option Str) (o : List Line),
    (shown fl v env o).Sublist (shown fl (v + 1) env o) := by
  intro h
  have := (h plainFilters 0 (some c!"trace") [⟨.trace, [], []⟩]).length_le
  revert this
  decide

/-- C116, the part that holds: if `RUST_LOG` is not set, or there is a `-v` already, another `-v` hides nothing. Missing:
values of `RUST_LOG` that show more than `debug`. -/
theorem C116_partial (fl : Filters) {v : Nat} {env : Option Str} (h : 1 ≤ v ∨ env = none) (o : List Line) :
    (shown fl v env o).Sublist (shown fl (v + 1) env o) := by
  match v with
  | 0 =>
    obtain rfl : env = none := h.resolve_left (by omega)
    rw [shown_info, shown_debug]
    refine List.monotone_filter_right o fun l hl => ?_
    have := of_decide_eq_true hl
    exact decide_eq_true (by omega)
  | v + 1 =>
    rw [shown_trace fl (v := v + 1 + 1) (by omega)]
    obtain ⟨n, _, hs⟩ := shown_some fl (v := v + 1) (env := env) h o
    rw [hs]
    exact List.filter_sublist

example : (1 ≤ 0 ∨ (none : Option Str) = none) ∧ shown plainFilters 0 none [⟨.info, c!"a", c!"b"⟩, ⟨.debug, c!"a", c!"c"⟩] = [⟨.info, c!"a", c!"b"⟩] :=
  ⟨.inr rfl, rfl⟩

/-! ### C117 -/

theorem quiet_filter (g : Texts) (s : Str) :
    (g.render s).filter (fun l => decide (l.level.num ≤ 3)) = (g.render s).filter (fun l => decide (l.level = .warn)) := by
  refine List.filter_congr fun l hl => ?_
  rcases g.quiet s l hl with h | h <;> rw [h] <;> rfl

/-- What a successful conversion to HTML shows with neither `-v` nor `RUST_LOG`: that the configuration has been read, if there is
one; that the input has been read; that it is translated; the warnings of the renderer; and what has been written. -/
theorem C117_shown (fl : Filters) {input : Path} (h : LEnds os x w (mainL g os x (.parse input .html)) w' o (.ok (.ok ()))) :
    ∃ s html lines n, w.bytesAt input = some (enc s) ∧ Gfm.render s = .ok html ∧ LinesOf html lines ∧ (os.fullWrites → n = (enc html).length) ∧
      shown fl 0 none o = (if w.names (configFile x) = none then [] else
          [⟨.info, c!"smd_core::fs", c!"Successfully read file: " ++ pathStr (configFile x)⟩]) ++
        [⟨.info, c!"smd_core::fs", c!"Successfully read file: " ++ pathStr input⟩, ⟨.info, c!"smd", c!"Transpiling markdown"⟩] ++
        (g.render s).filter (fun l => decide (l.level = .warn)) ++
        [⟨.info, c!"smd_core::fs", c!"\"" ++ pathStr (setExtension c!"html" input) ++ c!"\" " ++ Rs.dec lines ++ c!"L, " ++
          Rs.dec n ++ c!"B written"⟩] := by
  obtain ⟨o', h1, h2⟩ := (mainL_holds (html_holds g input w)).ends h
  obtain ⟨s, html, hs, hr, n, hn, hf, hb, ho⟩ := h1
  refine ⟨s, html, _, n, hs, hr, linesOf_iff.mpr rfl, hf, ?_⟩
  rw [shown_info, h2, ho, configFile_eq]
  simp only [startLines, configLines, List.filter_append, List.filter_cons, quiet_filter]
  split <;> simp [readLines, fsLine, writeLine, wroteText, Level.num]

example : ∃ w' o, LEnds (sys True) (proc 1) disk1 (mainL texts (sys True) (proc 1) (.parse [c!"d", c!"a.md"] .html)) w' o (.ok (.ok ())) ∧
    shown plainFilters 0 none o = [⟨.info, c!"smd_core::fs", c!"Successfully read file: /d/a.md"⟩, ⟨.info, c!"smd", c!"Transpiling markdown"⟩,
      ⟨.info, c!"smd_core::fs", c!"\"/d/a.html\" 1L, 18B written"⟩] := by
  obtain ⟨o, h⟩ := C118_same (g := texts) |>.mpr (html_run (os := sys True) (x := proc 1) (w := disk1) (input := [c!"d", c!"a.md"]) (i := 1)
    (by decide +kernel) (by decide +kernel) render_b (by decide +kernel) rfl (Nat.le_refl _) fun _ => rfl)
  refine ⟨_, o, h, ?_⟩
  obtain ⟨s, html, lines, n, hs, hr, hl, hn, ho⟩ := C117_shown plainFilters h
  have hs' : s = c!"*b*" := by
    refine (Gfm.Iter.enc_inj (Option.some.inj (Eq.trans (Eq.symm ?_) hs))).symm
    decide +kernel
  subst hs'
  rw [render_b] at hr
  cases hr
  rw [ho, hn trivial, linesOf_iff.mp hl]
  decide +kernel

/-- The same for PDF: two files are written, the first of which is the rendering. -/
theorem C117_pdf (fl : Filters) {input : Path} (h : LEnds os x w (mainL g os x (.parse input .pdf)) w' o (.ok (.ok ()))) :
    ∃ s html lines n bytes, w.bytesAt input = some (enc s) ∧ Gfm.render s = .ok html ∧ LinesOf html lines ∧ (os.fullWrites → n = (enc html).length) ∧
      w'.bytesAt (setExtension c!"pdf" input) = some bytes ∧
      shown fl 0 none o = (if w.names (configFile x) = none then [] else
          [⟨.info, c!"smd_core::fs", c!"Successfully read file: " ++ pathStr (configFile x)⟩]) ++
        [⟨.info, c!"smd_core::fs", c!"Successfully read file: " ++ pathStr input⟩, ⟨.info, c!"smd", c!"Transpiling markdown"⟩] ++
        (g.render s).filter (fun l => decide (l.level = .warn)) ++
        [⟨.info, c!"smd_core::fs", c!"\"" ++ pathStr (x.cwd ++ [c!"tmp.html"]) ++ c!"\" " ++ Rs.dec lines ++ c!"L, " ++ Rs.dec n ++ c!"B written"⟩,
          ⟨.info, c!"smd_core::fs", c!"\"" ++ pathStr (setExtension c!"pdf" input) ++ c!"\", " ++ Rs.dec bytes.length ++ c!"B written"⟩] := by
  obtain ⟨o', h1, h2⟩ := (mainL_holds (pdf_holds g input w)).ends h
  obtain ⟨s, html, n, bytes, hs, hr, _, hf, hb, ho⟩ := h1 rfl
  refine ⟨s, html, _, n, bytes, hs, hr, linesOf_iff.mpr rfl, hf, hb, ?_⟩
  rw [shown_info, h2, ho, configFile_eq]
  simp only [startLines, configLines, List.filter_append, List.filter_cons, quiet_filter]
  split <;> simp [readLines, fsLine, writeLine, wroteText, wroteBytes, Level.num, tmpPath]

example : ∃ w' o, LEnds (sys True) (proc 1) disk1 (mainL texts (sys True) (proc 1) (.parse [c!"d", c!"a.md"] .pdf)) w' o (.ok (.ok ())) ∧
    shown plainFilters 0 none o = [⟨.info, c!"smd_core::fs", c!"Successfully read file: /d/a.md"⟩, ⟨.info, c!"smd", c!"Transpiling markdown"⟩,
      ⟨.info, c!"smd_core::fs", c!"\"/d/tmp.html\" 1L, 18B written"⟩, ⟨.info, c!"smd_core::fs", c!"\"/d/a.pdf\", 19B written"⟩] := by
  obtain ⟨o, h⟩ := C118_same (g := texts) |>.mpr (pdf_run (os := sys True) (x := proc 1) (w := disk1) (input := [c!"d", c!"a.md"]) (i := 2) (j := 3) (t := 0)
    (by decide +kernel) (by decide +kernel) (by decide +kernel) render_b (by decide +kernel) (by decide +kernel) (by decide +kernel) rfl rfl)
  refine ⟨_, o, h, ?_⟩
  obtain ⟨s, html, lines, n, bytes, hs, hr, hl, hn, hb, ho⟩ := C117_pdf plainFilters h
  have hs' : s = c!"*b*" := by
    refine (Gfm.Iter.enc_inj (Option.some.inj (Eq.trans (Eq.symm ?_) hs))).symm
    decide +kernel
  subst hs'
  rw [render_b] at hr
  cases hr
  have hb' : bytes = 37 :: enc c!"<p><em>b</em></p>\n" := by
    refine (Option.some.inj (Eq.trans (Eq.symm ?_) hb)).symm
    decide +kernel
  subst hb'
  rw [ho, hn trivial, linesOf_iff.mp hl]
  decide +kernel

/-- A successful initialisation shows one line, about the configuration it has written. -/
theorem C117_init (fl : Filters) (h : LEnds os x w (mainL g os x .init) w' o (.ok (.ok ()))) :
    ∃ s lines bytes, w'.bytesAt (configFile x) = some bytes ∧ bytes <+: enc s ∧ LinesOf s lines ∧ (os.fullWrites → bytes = enc s) ∧
      shown fl 0 none o = [⟨.info, c!"smd_core::fs", c!"\"" ++ pathStr (configFile x) ++ c!"\" " ++ Rs.dec lines ++ c!"L, " ++
        Rs.dec bytes.length ++ c!"B written"⟩] := by
  obtain ⟨o', h1, h2⟩ := (mainL_holds (init_holds g w)).ends h
  obtain ⟨n, hn, hf, hb, ho⟩ := h1 rfl
  rw [configFile_eq]
  refine ⟨defaultToml, _, _, hb, List.take_prefix _ _, linesOf_iff.mpr rfl, fun hw => by rw [hf hw, List.take_length], ?_⟩
  rw [shown_info, h2, ho, List.length_take, Nat.min_eq_left hn]
  simp [fsLine, writeLine, wroteText, Level.num]

example : ∃ w' o, LEnds (sys True) (proc 1) disk1 (mainL texts (sys True) (proc 1) .init) w' o (.ok (.ok ())) := by
  obtain ⟨o, h⟩ := C118_same (g := texts) |>.mpr (init_run (os := sys True) (x := proc 1) (by decide +kernel) disk1_dirs disk1_unused rfl)
  exact ⟨_, o, h⟩

/-! ### The texts of errors -/

example : (Error.configExists [c!"c", c!"smd", c!"config.toml"]).text texts = c!"`/c/smd/config.toml` already exists! Please back it up before continuing." ∧
    Error.configRead.text texts = c!"Cannot parse config: `missing field`" ∧
    (Error.browser c!"no tab").text texts = c!"Headless-chrome error: `no tab`" ∧
    (Error.deserialize c!"x").text texts = c!"Deserialization error: `x`" := by decide

end Smd.App
