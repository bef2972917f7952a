import Verif.Lemmas.Again
import Verif.Props.Warns

/-! C121–C123: the settings of the configuration, and conversions one after the other. -/

namespace Smd.App
open Smd.Core Smd.Spec

variable {os os' : Os} {x y : Ctx} {w w' w'' : World}

/-! ### C121 and C122 -/

/-- The configuration that a process finds, if there is a file, has these values. -/
def Configured (os : Os) (x : Ctx) (w : World) (c : Config) : Prop := ∃ s, w.bytesAt (configFile x) = some (enc s) ∧ parseFromStr os x s = .ok c

/-- There is no configuration file, or it is valid. -/
def Valid (os : Os) (x : Ctx) (w : World) : Prop := w.names (configFile x) = none ∨ ∃ c, Configured os x w c

theorem Valid.load (h : Valid os x w) : ∃ c, Ends os x w (loadConfig os x) w (.ok c) := by
  unfold Valid Configured at h
  rw [configFile_eq] at h
  rcases h with h | ⟨c, s, hs, hc⟩
  · exact ⟨_, config_run h⟩
  · obtain ⟨i, hi, _⟩ := World.names_of_bytesAt hs
    refine ⟨c, .call true ⟨rfl, by simp [hi]⟩ ?_⟩
    refine (read_run hs (os := os) (x := x)).bind ?_
    rw [← hc]
    exact .ret w _

/-- **C122, what holds of all configurations** The values of the configuration do not matter: whatever the valid configurations of two
processes, their variables and their directories of configurations are, a conversion has the same executions. -/
theorem C122_no_influence (hs : os.fullWrites ↔ os'.fullWrites) (hp : os.pdf = os'.pdf) (hu : os.urlPath = os'.urlPath)
    (hx : x.pid = y.pid) (hd : x.cwd = y.cwd) (h1 : Valid os x w) (h2 : Valid os' y w) {input : Path} {f : Format} {r : End} :
    Ends os x w (run os x (.parse input f)) w' r ↔ Ends os' y w (run os' y (.parse input f)) w' r := by
  have key : ∀ {os os' : Os} {x y : Ctx}, SameSys os os' → SameProc x y → Valid os x w → Valid os' y w →
      Ends os x w (run os x (.parse input f)) w' r → Ends os' y w (run os' y (.parse input f)) w' r := by
    intro os os' x y hs hx h1 h2 h
    obtain ⟨c', h2⟩ := h2.load
    refine orErr_run h2 ?_
    rcases run_inv h with ⟨w1, c, h3, h4⟩ | ⟨e, h3, rfl⟩
    · rw [(C47_load h3).1] at h4
      exact Steps.same hs hx h4
    · obtain ⟨e1, hn, hf⟩ := C47_load h3
      subst e1
      have hio : ∃ e', e = .io e' := by
        rcases h1 with h1 | ⟨c, s, hc, hp⟩
        · cases hn h1
        · obtain ⟨i, hi, _⟩ := World.names_of_bytesAt hc
          rcases hf (by simp [hi]) with ⟨e', he⟩ | ⟨s', hs', he⟩
          · exact ⟨e', by cases he; rfl⟩
          · have := Gfm.Iter.enc_inj (Option.some.inj (hc.symm.trans hs'))
            subst this
            rw [hp] at he
            cases he
      obtain ⟨e', rfl⟩ := hio
      exact convert_read_fails _ _ _ _
  exact ⟨key ⟨hs, hp, hu⟩ ⟨hx, hd⟩ h1 h2, key ⟨hs.symm, hp.symm, hu.symm⟩ ⟨hx.symm, hd.symm⟩ h2 h1⟩

/-- A file system with a configuration. -/
def diskSet : World :=
  disk [([c!"d", c!"a.md"], c!"a b"), ([c!"d", c!"a.html"], c!"old"), ([c!"d", c!"tmp.html"], c!"note"), ([c!"d", c!"a.pdf"], c!"older"),
    ([c!"c", c!"smd", c!"config.toml"], c!"[parse]\non_parse_error = \"abort\"\nkeep_temp_files = true\n")] [[], [c!"d"], [c!"c"], [c!"c", c!"smd"]]

/-- A process like `proc` that finds no configuration. -/
def bare (pid : Nat) : Ctx := ⟨pid, [c!"d"], none, []⟩

theorem set_read : Configured (sys True) (proc 1) diskSet ⟨.abort, true⟩ :=
  ⟨c!"[parse]\non_parse_error = \"abort\"\nkeep_temp_files = true\n", by decide +kernel, by decide +kernel⟩

example : Valid (sys True) (proc 1) diskSet ∧ Valid (sys True) (bare 1) diskSet ∧ (proc 1).cwd = (bare 1).cwd ∧
    configFile (proc 1) ≠ configFile (bare 1) := ⟨.inr ⟨_, set_read⟩, .inl (by decide +kernel), rfl, by decide +kernel⟩

theorem render_ab : Gfm.render c!"a b" = .ok c!"<p>ab</p>\n" := by decide +kernel

theorem set_run : ∃ w', Ends (sys True) (proc 1) diskSet (run (sys True) (proc 1) (.parse [c!"d", c!"a.md"] .pdf)) w' (.ok (.ok ())) :=
  ⟨_, (C122_no_influence (os := sys True) (os' := sys True) (x := bare 1) (y := proc 1) (w := diskSet) Iff.rfl rfl rfl rfl rfl (.inl (by decide +kernel))
      (.inr ⟨_, set_read⟩)).mp
    (pdf_run (os := sys True) (x := bare 1) (w := diskSet) (input := [c!"d", c!"a.md"]) (i := 2) (j := 3) (t := 0) (by decide +kernel) (by decide +kernel)
      (by decide +kernel) render_ab (by decide +kernel) (by decide +kernel) (by decide +kernel) rfl rfl)⟩

/-- **C121, what holds** After a successful conversion to PDF there is no temporary file, whatever is configured. Missing: it is not kept
if the configuration says so. -/
theorem C121_partial {input : Path} (h : Ends os x w (run os x (.parse input .pdf)) w' (.ok (.ok ()))) : w'.names (x.cwd ++ [c!"tmp.html"]) = none := by
  obtain ⟨s, html, _, _, w1, b, h1, h2⟩ := success_inv h
  exact (write_names (pdf_ne_tmp input x.cwd).symm h2).trans (C48_partial h1)

example : ∃ w', Ends (sys True) (proc 1) diskSet (run (sys True) (proc 1) (.parse [c!"d", c!"a.md"] .pdf)) w' (.ok (.ok ())) := set_run

/-- C121 is false: a temporary file is not kept although the configuration says so. -/
theorem C121_refuted : ¬ ∀ (os : Os) (x : Ctx) (w w' : World) (input : Path) (c : Config), (∀ g, w.handles x.pid g = none) →
    Configured os x w c → c.keepTempFiles = true → Ends os x w (run os x (.parse input .pdf)) w' (.ok (.ok ())) →
    w'.names (x.cwd ++ [c!"tmp.html"]) ≠ none := by
  intro h
  obtain ⟨w', hr⟩ := set_run
  exact h _ _ _ _ _ _ (fun _ => rfl) set_read rfl hr (C121_partial hr)

theorem ab_warns (d : Gfm.Dbg) : (⟨true, c!"gfm::lexer", c!"Error while lexing whitespaces: " ++ d.str c!" "⟩ : Gfm.Note) ∈ (Gfm.renderL d c!"a b").notes := by
  have := Gfm.C119_partial d (s := c!"a b") (by decide) (fun h => absurd h.length_le (by decide))
  refine (List.mem_filter (p := (·.warn)).mp ?_).1
  rw [this]
  simp [List.splitBy, List.splitBy.loop]

/-- C122 is false: a document with a part that the lexer reports as an error is converted although the configuration says `abort`. -/
theorem C122_refuted (d : Gfm.Dbg) : ¬ ∀ (os : Os) (x : Ctx) (w w' : World) (input : Path) (f : Format) (c : Config) (s : Str) (r : End),
    (∀ g, w.handles x.pid g = none) → Configured os x w c → c.onParseError = .abort → w.bytesAt input = some (enc s) →
    (∃ n ∈ (Gfm.renderL d s).notes, n.warn = true ∧ c!"Error while lexing" <+: n.text) → Ends os x w (run os x (.parse input f)) w' r →
    r ≠ .ok (.ok ()) := by
  intro h
  obtain ⟨w', hr⟩ := set_run
  exact h _ _ _ _ _ _ _ c!"a b" _ (fun _ => rfl) set_read rfl (by decide +kernel) ⟨_, ab_warns d, rfl, c!" whitespaces: " ++ d.str c!" ", rfl⟩ hr rfl

/-- C122 is false of the default `serialize`, too: the part that is reported is not in the output. -/
theorem C122_refuted_serialize (d : Gfm.Dbg) : ¬ ∀ (os : Os) (x : Ctx) (w w' : World) (input : Path) (s part : Str), os.fullWrites →
    (∀ g, w.handles x.pid g = none) → w.names (configFile x) = none → w.bytesAt input = some (enc s) →
    (⟨true, c!"gfm::lexer", c!"Error while lexing whitespaces: " ++ d.str part⟩ : Gfm.Note) ∈ (Gfm.renderL d s).notes →
    Ends os x w (run os x (.parse input .html)) w' (.ok (.ok ())) →
    ∃ out, w'.bytesAt (setExtension c!"html" input) = some (enc out) ∧ part <:+: out := by
  intro h
  obtain ⟨out, ho, hp⟩ := h (sys True) (bare 1) diskSet _ [c!"d", c!"a.md"] c!"a b" c!" " trivial (fun _ => rfl) (by decide +kernel) (by decide +kernel) (ab_warns d)
    (html_run (os := sys True) (x := bare 1) (w := diskSet) (input := [c!"d", c!"a.md"]) (i := 1) (by decide +kernel) (by decide +kernel) render_ab
      (by decide +kernel) rfl (Nat.le_refl _) fun _ => rfl)
  have e : out = c!"<p>ab</p>\n" := Gfm.Iter.enc_inj (Option.some.inj (ho.symm.trans (by decide +kernel)))
  subst e
  exact absurd (hp.subset (List.mem_singleton.mpr rfl)) (by decide)

/-! ### C48 by the kind of failure -/

/-- **C48, after a failure of the browser** Nothing has changed if it did not start; the temporary file stays if the file could not be
opened; it is removed if the tab could not be printed. -/
theorem C48_failures {html m : Str} (h : Ends os x w (fromHtml html) w' (.error (.browser m))) :
    (m = c!"Failed to initialze headless_chrome session." ∧ w' = w) ∨
    (m ∈ [c!"Failed to open new tab.", c!"Failed to open html file.", c!"Failed to wait until navigation is done."] ∧
      ∃ c, c <+: enc html ∧ w'.bytesAt (x.cwd ++ [c!"tmp.html"]) = some c) ∨
    ((m ∈ [c!"Failed to lock tabs mutex", c!"Failed to print to PDF:"] ∨ c!"No tab found with TargetID: " <+: m) ∧
      w'.names (x.cwd ++ [c!"tmp.html"]) = none) := by
  rcases andThen_inv h with ⟨w1, _, h1, h⟩ | ⟨e, h1, he⟩
  · obtain ⟨w1', r, hs, h1⟩ := call_inv h1
    cases show w1' = w from hs
    cases show w1 = w by cases r <;> exact (ret_inv h1).1
    rcases andThen_inv h with ⟨w2, dir, h1, h⟩ | ⟨e, h1, he⟩
    · obtain ⟨w2', r, hs, g1⟩ := call_inv h1
      obtain ⟨rfl, hd⟩ := hs
      obtain ⟨rfl, hr⟩ := ret_inv g1
      cases r with
      | error e => cases hr
      | ok d =>
        cases hr
        obtain rfl := hd _ rfl
        rcases andThen_inv h with ⟨w3, _, h1, h⟩ | ⟨e, h1, he⟩
        · obtain ⟨c, hc, hb, _⟩ := (C43_partial h1).1 rfl
          rcases andThen_inv h with ⟨w4, t, h1, h⟩ | ⟨e, h1, he⟩
          · rcases andThen_inv h with ⟨w5, _, h1, h⟩ | ⟨e, h1, he⟩
            · obtain ⟨w6, r, hs, h1⟩ := call_inv h1
              obtain ⟨rfl, hr⟩ := ret_inv h1
              cases r with
              | error e => cases hr
              | ok _ =>
                obtain ⟨_, rfl⟩ := hs
                obtain ⟨w7, r, hs, h⟩ := call_inv h
                obtain ⟨rfl, _⟩ := hs
                cases r with
                | ok b => cases (ret_inv h).2
                | error e =>
                  obtain ⟨rfl, hr⟩ := ret_inv h
                  refine .inr (.inr ⟨?_, if_pos rfl⟩)
                  cases hr
                  cases e with
                  | lock => exact .inl (.head _)
                  | missing => exact .inr ⟨_, rfl⟩
                  | print => exact .inl (.tail _ (.head _))
            · obtain ⟨w6, r, hs, h1⟩ := call_inv h1
              obtain ⟨rfl, hr⟩ := ret_inv h1
              cases he
              cases r <;> cases hr
          · cases he
            obtain ⟨w4, r, hs, h1⟩ := call_inv h1
            obtain ⟨rfl, _⟩ := hs
            cases r with
            | error e => cases (ret_inv h1).2
            | ok d =>
              obtain ⟨w5, r, hs, h1⟩ := call_inv h1
              cases r with
              | ok t => cases (ret_inv h1).2
              | error e =>
                cases show w5 = w4 from hs
                obtain ⟨rfl, hr⟩ := ret_inv h1
                refine .inr (.inl ⟨?_, c, hc, hb⟩)
                cases hr
                cases e <;> decide
        · cases he
          obtain ⟨e', he⟩ := write_error h1
          cases he
    · cases he
      obtain ⟨w2, r, hs, h1⟩ := call_inv h1
      obtain ⟨_, hr⟩ := ret_inv h1
      cases r <;> cases hr
  · cases he
    obtain ⟨w1, r, hs, h1⟩ := call_inv h1
    cases show w1 = w from hs
    cases r with
    | ok _ => cases (ret_inv h1).2
    | error _ =>
      obtain ⟨rfl, hr⟩ := ret_inv h1
      cases hr
      exact .inl ⟨rfl, rfl⟩

example : ∃ w', Ends (sys True) (proc 1) disk1 (fromHtml []) w' (.error (.browser c!"Failed to open new tab.")) :=
  ⟨_, (pdfStart_run (i := 2) (x := proc 1) (by decide +kernel) rfl (Nat.le_refl _) fun _ => rfl).trans pdfRest_fails⟩

/-! ### C123 -/

/-- C123 is false: the rendering of an input that is called like its output is rendered again. -/
theorem C123_refuted : ¬ ∀ (os : Os) (x : Ctx) (w w' w'' : World) (input : Path) (f : Format), os.fullWrites →
    (∀ p g, w.handles p g = none) → (∀ p g, w'.handles p g = none) → Ends os x w (run os x (.parse input f)) w' (.ok (.ok ())) →
    Ends os x w' (run os x (.parse input f)) w'' (.ok (.ok ())) → ∀ q, w''.bytesAt q = w'.bytesAt q := by
  intro h
  have h1 := html_run (os := sys True) (x := proc 1) (w := disk1) (input := [c!"d", c!"a.html"]) (i := 1) (s := c!"old") (html := c!"<p>old</p>\n")
    (by decide +kernel) (by decide +kernel) (by decide +kernel) (by decide +kernel) rfl (Nat.le_refl _) fun _ => rfl
  have hh : ∀ p g, (wrote disk1 (proc 1).pid 1 (enc c!"<p>old</p>\n").length (enc c!"<p>old</p>\n")).handles p g = none := by
    intro p g
    simp [wrote, disk1, disk, World.setHandle, World.setData]
  have h2 := html_run (os := sys True) (x := proc 1) (w := wrote disk1 (proc 1).pid 1 (enc c!"<p>old</p>\n").length (enc c!"<p>old</p>\n"))
    (input := [c!"d", c!"a.html"]) (i := 1) (s := c!"<p>old</p>\n") (html := c!"<p>&lt;p&gt;old&lt;/p&gt;</p>\n")
    (by decide +kernel) (by decide +kernel) (by decide +kernel) (by decide +kernel) (hh _ _) (Nat.le_refl _) fun _ => rfl
  exact absurd (h _ _ _ _ _ _ _ trivial (fun _ _ => rfl) hh h1 h2 [c!"d", c!"a.html"]) (by decide +kernel)

/-- **C123, the part that holds** Converting again, by the same or another process in the same directory, leaves every name and the
content of every file as they are, if the input is not the output nor the temporary file, nor linked to one of them. Missing: such
inputs, and systems that write less. -/
theorem C123_partial {input : Path} {f : Format} (hfull : os.fullWrites) (hurl : f = .pdf → os.urlPath (fileUrl (tmpPath x.cwd)) = tmpPath x.cwd)
    (hcwd : y.cwd = x.cwd) (hx : ∀ g, w.handles x.pid g = none) (hy : ∀ g, w'.handles y.pid g = none)
    (ho : setExtension f.ending input ≠ input ∧ ¬ w.SameFile (setExtension f.ending input) input)
    (ht : f = .pdf → tmpPath x.cwd ≠ input ∧ ¬ w.SameFile (tmpPath x.cwd) input)
    (h : Ends os x w (run os x (.parse input f)) w' (.ok (.ok ()))) (h' : Ends os y w' (run os y (.parse input f)) w'' (.ok (.ok ()))) (q : Path) :
    w''.names q = w'.names q ∧ w''.bytesAt q = w'.bytesAt q := by
  have hin := (C44_partial hx ho ht h).2
  obtain ⟨s', html', hs', hr', h2⟩ := success_inv h'
  cases f with
  | html =>
    obtain ⟨⟨s, html, hs, hr, hb⟩, _⟩ := C42_partial hfull hx h
    have := Gfm.Iter.enc_inj (Option.some.inj ((hs'.symm.trans hin).trans hs))
    subst this
    cases hr.symm.trans hr'
    obtain ⟨i, hi, hd⟩ := World.names_of_bytesAt hb
    obtain ⟨e1, e2⟩ := write_inv hfull hi h2
    have e2 : w''.data = w'.data := by
      rw [e2]
      funext j
      split
      · next e => rw [e, hd]
      · rfl
    refine ⟨by rw [e1], ?_⟩
    unfold World.bytesAt
    rw [e1, e2]
  | pdf =>
    obtain ⟨⟨s, html, hs, hr, hb⟩, _⟩ := C42_pdf_partial hfull (hurl rfl) hx h
    have := Gfm.Iter.enc_inj (Option.some.inj ((hs'.symm.trans hin).trans hs))
    subst this
    obtain rfl : html = html' := Outcome.ok.inj (hr.symm.trans hr')
    have htmp : w'.names (tmpPath y.cwd) = none := by rw [hcwd]; exact C121_partial h
    obtain ⟨w1, b, h1, h2⟩ := h2
    obtain ⟨htmp1, hp⟩ := (fromHtml_holds (P := fun _ => True) .alone trivial html w').ends h1
    obtain ⟨n, _, hn, rfl⟩ := hp (by rw [hcwd]; exact hurl rfl)
    rw [hn hfull, List.take_length] at h2
    have hk := Keep.steps (P := fun p => p = tmpPath y.cwd) h1 (Keep.refl hy) (fromHtml_only (P := fun p => p = tmpPath y.cwd) rfl html)
    obtain ⟨i, hi, hd⟩ := World.names_of_bytesAt hb
    have names : w1.names = w'.names := by
      funext p
      by_cases e : p = tmpPath y.cwd
      · rw [e, htmp, htmp1]
      · exact hk.names p e
    obtain ⟨e1, e2⟩ := write_inv hfull (by rw [names]; exact hi) h2
    refine ⟨by rw [e1, names], ?_⟩
    unfold World.bytesAt
    rw [e1, e2, names]
    split
    · next j e =>
      refine congrArg some ?_
      show (if j = i then _ else _) = _
      split
      · next e =>
        rw [e, hd]
        rfl
      · refine hk.data j ?_
        rintro (⟨p, rfl, e'⟩ | hm)
        · rw [htmp] at e'
          cases e'
        · exact hm q (fun e' => by rw [e', htmp] at e; cases e) e
    · rfl

example : (∃ w' w'', Ends (sys True) (proc 1) disk1 (run (sys True) (proc 1) (.parse [c!"d", c!"a.md"] .html)) w' (.ok (.ok ())) ∧
      Ends (sys True) (proc 2) w' (run (sys True) (proc 2) (.parse [c!"d", c!"a.md"] .html)) w'' (.ok (.ok ()))) ∧
    setExtension Format.html.ending [c!"d", c!"a.md"] ≠ [c!"d", c!"a.md"] ∧
    disk1.names (setExtension Format.html.ending [c!"d", c!"a.md"]) ≠ disk1.names [c!"d", c!"a.md"] := by
  refine ⟨⟨_, _, html_run (x := proc 1) (i := 1) (by decide +kernel) (by decide +kernel) render_b (by decide +kernel) rfl (Nat.le_refl _) fun _ => rfl,
    html_run (x := proc 2) (i := 1) (s := c!"*b*") (by decide +kernel) (by decide +kernel) render_b (by decide +kernel) rfl (Nat.le_refl _) fun _ => rfl⟩,
    by decide +kernel, by decide +kernel⟩

end Smd.App
