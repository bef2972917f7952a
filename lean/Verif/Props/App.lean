import Verif.Lemmas.Exec
import Verif.Lemmas.Paths
import Verif.Lemmas.Config
import Verif.Props.Termination

/-! C42–C52, C55, C61–C63, C65: the application, the configuration, files and PDF conversion. The theorems speak about every
execution the system allows: every call may fail at any time. -/

namespace Smd.App
open Smd.Core Smd.Spec

variable {os : Os} {x y : Ctx} {w w' : World}

/-! ### A file system for the examples -/

/-- A world with the given files, each its own inode, and directories. -/
def disk (files : List (Path × Str)) (dirs : List Path) : World where
  names p := match files.findIdx? (fun f => f.1 = p) with
    | some i => some (.file i)
    | none => if p ∈ dirs then some .dir else none
  data i := match files[i]? with
    | some f => enc f.2
    | none => []
  handles _ _ := none
  tabs _ _ := none

/-- A system for the examples. -/
def sys (full : Prop) : Os where
  fullWrites := full
  pdf _ b := 37 :: b
  toml := tomlOf
  anyCase := false
  urlPath := fileUrlPath

/-- A process in the directory `/d`. -/
def proc (pid : Nat) : Ctx := ⟨pid, [c!"d"], some [c!"c"], []⟩

/-- A file system with a document and earlier outputs. -/
def disk1 : World :=
  disk [([c!"d", c!"a.md"], c!"*b*"), ([c!"d", c!"a.html"], c!"old"), ([c!"d", c!"tmp.html"], c!"note"), ([c!"d", c!"a.pdf"], c!"older"),
    ([c!"d", c!"b.md"], c!"c"), ([c!"d", c!"b.pdf"], c!""), ([c!"d", c!"tmp.pdf"], c!"")] [[], [c!"d"], [c!"c"], [c!"c", c!"smd"]]

theorem render_b : Gfm.render c!"*b*" = .ok c!"<p><em>b</em></p>\n" := by decide +kernel

/-! ### C42 -/

/-- The path of the output: the extension of the input is replaced; a name without an extension (no dot, or only a dot in
front) gets one. -/
theorem C42_output_path (e : Str) (dir : Path) (stem : Str) :
    (∀ ext, stem ≠ [] → '.' ∉ ext → stem ++ '.' :: ext ≠ c!".." → setExtension e (dir ++ [stem ++ '.' :: ext]) = dir ++ [stem ++ '.' :: e]) ∧
    ('.' ∉ stem → setExtension e (dir ++ [stem]) = dir ++ [stem ++ '.' :: e]) ∧
    ('.' ∉ stem → setExtension e (dir ++ ['.' :: stem]) = dir ++ ['.' :: stem ++ '.' :: e]) := by
  refine ⟨fun ext hs he hd => ?_, fun h => ?_, fun h => ?_⟩
  · rw [setExtension_append, fileStem_ext hs he hd]
  · rw [setExtension_append, fileStem_plain h]
  · rw [setExtension_append, fileStem_hidden h]

example : setExtension c!"html" [c!"d", c!"a.b.md"] = [c!"d", c!"a.b.html"] :=
  (C42_output_path c!"html" [c!"d"] c!"a.b").1 c!"md" (by decide) (by decide) (by decide)

/-- C42, the part that holds: if the system writes everything it is asked to write, a successful HTML conversion leaves
exactly the rendering of the input in the output file, and no file at another path changes, unless it is the same file
under another name. Missing: systems that write less (`C42_refuted`). -/
theorem C42_partial {input : Path} (hfull : os.fullWrites) (hh : ∀ g, w.handles x.pid g = none)
    (h : Ends os x w (run os x (.parse input .html)) w' (.ok (.ok ()))) :
    (∃ s html, w.bytesAt input = some (enc s) ∧ Gfm.render s = .ok html ∧ w'.bytesAt (setExtension c!"html" input) = some (enc html)) ∧
    ∀ q, q ≠ setExtension c!"html" input → w'.names q = w.names q ∧
      (¬ w.SameFile (setExtension c!"html" input) q → w'.bytesAt q = w.bytesAt q) := by
  constructor
  · have := (parse_holds (P := fun _ => True) (f := .html) .alone trivial trivial trivial (fun _ => trivial) w).ends h
    obtain ⟨s, html, hs, hr, hw, _⟩ := this
    obtain ⟨n, _, hn, hb⟩ := hw rfl
    rw [hn hfull, List.take_length] at hb
    exact ⟨s, html, hs, hr, hb⟩
  · intro q hq
    have hk := Keep.steps (P := fun p => p = setExtension c!"html" input) h (Keep.refl hh) (parse_only rfl nofun)
    exact ⟨hk.names q hq, fun hs => hk.bytesAt hq fun p hp => by subst hp; exact hs⟩

example : Ends (sys True) (proc 1) disk1 (run (sys True) (proc 1) (.parse [c!"d", c!"a.md"] .html))
      (wrote disk1 1 1 (enc c!"<p><em>b</em></p>\n").length (enc c!"<p><em>b</em></p>\n")) (.ok (.ok ())) ∧
    (sys True).fullWrites ∧ ∀ g, disk1.handles (proc 1).pid g = none :=
  ⟨html_run (x := proc 1) (i := 1) (by decide +kernel) (by decide +kernel) render_b (by decide +kernel) rfl (Nat.le_refl _) fun _ => rfl, trivial, fun _ => rfl⟩

/-- The same for PDF, if the browser finds the temporary file at its URL. -/
theorem C42_pdf_partial {input : Path} (hfull : os.fullWrites) (hurl : os.urlPath (fileUrl (tmpPath x.cwd)) = tmpPath x.cwd)
    (hh : ∀ g, w.handles x.pid g = none) (h : Ends os x w (run os x (.parse input .pdf)) w' (.ok (.ok ()))) :
    (∃ s html, w.bytesAt input = some (enc s) ∧ Gfm.render s = .ok html ∧
      w'.bytesAt (setExtension c!"pdf" input) = some (os.pdf fullPage (enc html))) ∧
    ∀ q, q ≠ setExtension c!"pdf" input → q ≠ tmpPath x.cwd → w'.names q = w.names q ∧
      (¬ w.SameFile (setExtension c!"pdf" input) q → ¬ w.SameFile (tmpPath x.cwd) q → w'.bytesAt q = w.bytesAt q) := by
  constructor
  · have := (parse_holds (P := fun _ => True) (f := .pdf) .alone trivial trivial trivial (fun _ => trivial) w).ends h
    obtain ⟨s, html, hs, hr, _, hw⟩ := this
    exact ⟨s, html, hs, hr, hw rfl hurl hfull⟩
  · intro q hq hq'
    have hk := Keep.steps (P := fun p => p = setExtension c!"pdf" input ∨ p = tmpPath x.cwd) h (Keep.refl hh) (parse_only (.inl rfl) fun _ => .inr rfl)
    refine ⟨hk.names q (fun h => h.elim hq hq'), fun hs hs' => hk.bytesAt (fun h => h.elim hq hq') fun p hp => ?_⟩
    rcases hp with rfl | rfl
    · exact hs
    · exact hs'

example : (∃ w', Ends (sys True) (proc 1) disk1 (run (sys True) (proc 1) (.parse [c!"d", c!"a.md"] .pdf)) w' (.ok (.ok ()))) ∧
    (sys True).urlPath (fileUrl (tmpPath (proc 1).cwd)) = tmpPath (proc 1).cwd :=
  ⟨⟨_, pdf_run (x := proc 1) (i := 2) (j := 3) (t := 0) (by decide +kernel) (by decide +kernel) (by decide +kernel) render_b (by decide +kernel)
    (by decide +kernel) (by decide +kernel) rfl rfl⟩, by decide +kernel⟩

/-- C42 is false: a system may write only a part, which is reported as success. -/
theorem C42_refuted : ¬ ∀ (os : Os) (x : Ctx) (w w' : World) (input : Path) (s html : Str),
    (∀ g, w.handles x.pid g = none) → w.bytesAt input = some (enc s) → Gfm.render s = .ok html →
    Ends os x w (run os x (.parse input .html)) w' (.ok (.ok ())) → w'.bytesAt (setExtension c!"html" input) = some (enc html) := by
  intro h
  have := h (sys False) (proc 1) disk1 _ [c!"d", c!"a.md"] c!"*b*" _ (fun _ => rfl) (by decide +kernel) render_b
    (html_run (x := proc 1) (i := 1) (n := 3) (by decide +kernel) (by decide +kernel) render_b (by decide +kernel) rfl (by decide +kernel) False.elim)
  exact absurd this (by decide +kernel)

/-! ### C43 -/

/-- C43 is false: the count that `write` returns is not looked at. -/
theorem C43_refuted : ¬ ∀ (os : Os) (x : Ctx) (w w' : World) (p : Path) (b : Bytes),
    Ends os x w (writeBytes p b) w' (.ok ()) → w'.bytesAt p = some b := by
  intro h
  have := h (sys False) (proc 1) disk1 _ [c!"d", c!"a.md"] [1, 2] (write_run (x := proc 1) (i := 0) (n := 1) (by decide +kernel) rfl (by decide) False.elim)
  exact absurd this (by decide +kernel)

/-- C43, the part that holds: after a reported success the file holds a beginning of the content, and all of it if the
system writes everything it is asked to write; after a reported failure it is as before or empty. This is so even while other
processes change other files. Missing: systems that write less. -/
theorem C43_partial {p : Path} {b : Bytes} {r : Res Unit} (h : Ends os x w (writeBytes p b) w' r) :
    (r = .ok () → ∃ c, c <+: b ∧ w'.bytesAt p = some c ∧ (os.fullWrites → c = b)) ∧
    (∀ e, r = .error e → w'.bytesAt p = w.bytesAt p ∨ w'.bytesAt p = some []) := by
  have := (writeBytes_holds (P := fun _ => True) .alone trivial b w).ends h
  obtain ⟨_, this⟩ := this
  constructor
  · intro hr
    subst hr
    obtain ⟨_, n, _, hn, hb⟩ := this
    exact ⟨b.take n, List.take_prefix _ _, hb, fun hf => by rw [hn hf, List.take_length]⟩
  · intro e hr
    subst hr
    exact this.2

example : Ends (sys True) (proc 1) disk1 (writeBytes [c!"d", c!"a.md"] [1, 2]) (wrote disk1 1 0 2 [1, 2]) (.ok ()) :=
  write_run (x := proc 1) (by decide +kernel) rfl (by decide) fun _ => rfl

/-! ### C44 -/

/-- C44 is false: a file whose extension is already `html` is replaced by its own rendering. -/
theorem C44_refuted : ¬ ∀ (os : Os) (x : Ctx) (w w' : World) (input : Path) (f : Format) (r : End),
    (∀ g, w.handles x.pid g = none) → Ends os x w (run os x (.parse input f)) w' r → w'.bytesAt input = w.bytesAt input := by
  intro h
  have := h (sys True) (proc 1) disk1 _ [c!"d", c!"a.html"] .html _ (fun _ => rfl)
    (html_run (x := proc 1) (i := 1) (s := c!"old") (html := c!"<p>old</p>\n") (by decide +kernel) (by decide +kernel) (by decide +kernel) (by decide +kernel) rfl
      (Nat.le_refl _) fun _ => rfl)
  exact absurd this (by decide +kernel)

/-- C44 is false for PDF, too: an input called `tmp.html` in the working directory is deleted. -/
theorem C44_pdf_refuted : ¬ ∀ (os : Os) (x : Ctx) (w w' : World) (input : Path) (r : End),
    (∀ g, w.handles x.pid g = none) → Ends os x w (run os x (.parse input .pdf)) w' r → w'.bytesAt input = w.bytesAt input := by
  intro h
  have := h (sys True) (proc 1) disk1 _ [c!"d", c!"tmp.html"] _ (fun _ => rfl)
    (pdf_run (x := proc 1) (i := 2) (j := 6) (t := 0) (s := c!"note") (html := c!"<p>note</p>\n") (by decide +kernel) (by decide +kernel) (by decide +kernel) (by decide +kernel)
      (by decide +kernel) (by decide +kernel) (by decide +kernel) rfl rfl)
  exact absurd this (by decide +kernel)

/-- C44 is false for every input that is its own output: after a successful run it holds its rendering. -/
theorem C44_refuted_always {input : Path} (hfull : os.fullWrites) (hh : ∀ g, w.handles x.pid g = none) (hi : setExtension c!"html" input = input)
    (h : Ends os x w (run os x (.parse input .html)) w' (.ok (.ok ()))) :
    ∃ s html, w.bytesAt input = some (enc s) ∧ Gfm.render s = .ok html ∧ w'.bytesAt input = some (enc html) := by
  have := (C42_partial hfull hh h).1
  rwa [hi] at this

example : setExtension c!"html" [c!"d", c!"a.html"] = [c!"d", c!"a.html"] ∧
    ∃ w', Ends (sys True) (proc 1) disk1 (run (sys True) (proc 1) (.parse [c!"d", c!"a.html"] .html)) w' (.ok (.ok ())) :=
  ⟨by decide, _, html_run (x := proc 1) (i := 1) (s := c!"old") (html := c!"<p>old</p>\n") (by decide +kernel) (by decide +kernel) (by decide +kernel)
    (by decide +kernel) rfl (Nat.le_refl _) fun _ => rfl⟩

/-- C44, the part that holds: if the output, and for PDF the temporary file, is not the input under the same or another
name, then at every moment of every run, successful, failed or interrupted, the input is as it was. Missing: inputs with
the extension of the output, the input `tmp.html` in the working directory, and outputs linked to the input. -/
theorem C44_partial {input : Path} {f : Format} {p' : Prog End} (hh : ∀ g, w.handles x.pid g = none)
    (ho : setExtension f.ending input ≠ input ∧
      ¬ w.SameFile (setExtension f.ending input) input)
    (ht : f = .pdf → tmpPath x.cwd ≠ input ∧ ¬ w.SameFile (tmpPath x.cwd) input)
    (h : Steps os x w (run os x (.parse input f)) w' p') : w'.names input = w.names input ∧ w'.bytesAt input = w.bytesAt input := by
  have hk := Keep.steps (P := fun p => p = outPath input f ∨ (f = .pdf ∧ p = tmpPath x.cwd)) h (Keep.refl hh) (parse_only (.inl rfl) fun hf => .inr ⟨hf, rfl⟩)
  have hq : ¬ (input = outPath input f ∨ (f = .pdf ∧ input = tmpPath x.cwd)) := by
    rintro (h | ⟨hf, h⟩)
    · exact ho.1 h.symm
    · exact (ht hf).1 h.symm
  refine ⟨hk.names _ hq, hk.bytesAt hq fun p hp => ?_⟩
  rcases hp with rfl | ⟨hf, rfl⟩
  · exact ho.2
  · exact (ht hf).2

example : setExtension c!"pdf" [c!"d", c!"a.md"] ≠ [c!"d", c!"a.md"] ∧ ¬ disk1.SameFile (setExtension c!"pdf" [c!"d", c!"a.md"]) [c!"d", c!"a.md"] ∧
    tmpPath (proc 1).cwd ≠ [c!"d", c!"a.md"] ∧ ¬ disk1.SameFile (tmpPath (proc 1).cwd) [c!"d", c!"a.md"] ∧
    Steps (sys True) (proc 1) disk1 (run (sys True) (proc 1) (.parse [c!"d", c!"a.md"] .pdf)) disk1
      (orErr (fromHtml c!"<p><em>b</em></p>\n") fun b => orErr (writeBytes [c!"d", c!"a.pdf"] b) fun _ => .ret (.ok (.ok ()))) := by
  refine ⟨by decide, ?_, by decide, ?_, start_run (f := .pdf) (by decide +kernel) (s := c!"*b*") (by decide +kernel) render_b⟩
  · rintro ⟨i, h1, h2⟩
    rw [show disk1.names (setExtension c!"pdf" [c!"d", c!"a.md"]) = some (.file 3) by decide +kernel] at h1
    rw [show disk1.names [c!"d", c!"a.md"] = some (.file 0) by decide +kernel] at h2
    cases h1; cases h2
  · rintro ⟨i, h1, h2⟩
    rw [show disk1.names (tmpPath (proc 1).cwd) = some (.file 2) by decide +kernel] at h1
    rw [show disk1.names [c!"d", c!"a.md"] = some (.file 0) by decide +kernel] at h2
    cases h1; cases h2

/-! ### C45 -/

/-- Without a readable input that can be rendered, or with a configuration that cannot be used, nothing is changed at all. -/
theorem C45_nothing_changed {input : Path} {f : Format} {r : End}
    (hbad : (∀ s html, w.bytesAt input = some (enc s) → Gfm.render s ≠ .ok html) ∨
      (w.names (configPath x) ≠ none ∧ ∀ s c, w.bytesAt (configPath x) = some (enc s) → parseFromStr os x s ≠ .ok c))
    (h : Ends os x w (run os x (.parse input f)) w' r) : w' = w ∧ r ≠ .ok (.ok ()) := (parse_noop w hbad).ends h

example : (∀ s html, disk1.bytesAt [c!"d", c!"z.md"] = some (enc s) → Gfm.render s ≠ .ok html) ∧
    Ends (sys True) (proc 1) disk1 (run (sys True) (proc 1) (.parse [c!"d", c!"z.md"] .pdf)) disk1 (.ok (.error (.io 2))) := by
  refine ⟨fun s html hs => ?_, ?_⟩
  · rw [show disk1.bytesAt [c!"d", c!"z.md"] = none by decide +kernel] at hs
    cases hs
  · refine (config_run (by decide +kernel)).bind ?_
    exact Ends.call (c := .read _) (.error 2) (w1 := disk1) ⟨rfl, nofun⟩ (Ends.ret _ _)

/-- C45: however a conversion fails, the output file is as it was, unless a file system call failed, in which case it may be
empty; so a failing configuration, browser, or rendering leaves it intact. For PDF the output must not be a link to
the temporary file. -/
theorem C45_failed_conversion {input : Path} {f : Format} {r : End} (hh : ∀ g, w.handles x.pid g = none)
    (ht : f = .pdf → ¬ w.SameFile (tmpPath x.cwd) (setExtension c!"pdf" input))
    (h : Ends os x w (run os x (.parse input f)) w' r) (hr : r ≠ .ok (.ok ())) :
    (w'.bytesAt (setExtension f.ending input) =
        w.bytesAt (setExtension f.ending input)) ∨
      ((∃ e, r = .ok (.error (.io e))) ∧
        w'.bytesAt (setExtension f.ending input) = some []) := by
  have := (parse_fail (os := os) w hh (fun hf => by subst hf; exact ⟨pdf_ne_tmp _ _, ht rfl⟩)).ends h
  unfold FailEnd at this
  split at this
  · exact absurd rfl hr
  · next e =>
    rcases this with h | h
    · exact .inl h
    · exact .inr ⟨⟨e, rfl⟩, h⟩
  · exact .inl this

/-- The exception is real: when writing fails, the earlier output is gone. -/
theorem C45_failed_write_refuted : ¬ ∀ (os : Os) (x : Ctx) (w w' : World) (input : Path) (e : Error),
    (∀ g, w.handles x.pid g = none) → Ends os x w (run os x (.parse input .html)) w' (.ok (.error e)) →
    w'.bytesAt (setExtension c!"html" input) = w.bytesAt (setExtension c!"html" input) := by
  intro h
  have := h (sys True) (proc 1) disk1 _ [c!"d", c!"a.md"] _ (fun _ => rfl)
    (html_run_fails (x := proc 1) (i := 1) (e := 28) (by decide +kernel) (by decide +kernel) render_b (by decide +kernel) rfl)
  exact absurd this (by decide +kernel)

example : ∃ w', Ends (sys True) (proc 1) disk1 (run (sys True) (proc 1) (.parse [c!"d", c!"a.md"] .pdf)) w' (.ok (.error (.browser c!"Failed to open new tab."))) :=
  ⟨_, (start_run (s := c!"*b*") (by decide +kernel) (by decide +kernel) render_b).trans
    (Ends.bind ((pdfStart_run (i := 2) (by decide +kernel) rfl (Nat.le_refl _) fun _ => rfl).trans pdfRest_fails) (Ends.ret _ _))⟩

/-! ### C46 -/

theorem configFile_eq (x : Ctx) : configFile x = configPath x := by
  unfold configFile configPath
  cases x.configDir <;> rfl

/-- C46: an existing configuration makes `initialize` fail and change nothing. -/
theorem C46_existing {r : End} (hn : w.names (configFile x) ≠ none) (h : Ends os x w (run os x .init) w' r) :
    w' = w ∧ r = .ok (.error (.configExists (configFile x))) := by
  rw [configFile_eq] at hn ⊢
  have : Holds os x Eq (fun r w' => w' = w ∧ r = .ok (.error (.configExists (configPath x)))) (run os x .init) w := by
    refine Holds.bind ((initConfig_holds w).mono ?_)
    intro r w1 ⟨h1, _⟩
    obtain ⟨e, rfl⟩ := h1 hn
    exact ⟨e, rfl⟩
  exact this.ends h

/-- C46, the part that depends on the system: a successful `initialize` leaves the default configuration if the system
writes everything it is asked to write, and only a beginning otherwise. -/
theorem C46_partial (h : Ends os x w (run os x .init) w' (.ok (.ok ()))) :
    w.names (configFile x) = none ∧ ∃ c, c <+: enc firstConfig ∧ w'.bytesAt (configFile x) = some c ∧ (os.fullWrites → c = enc firstConfig) := by
  rw [configFile_eq]
  have hn : w.names (configPath x) = none := Classical.byContradiction fun hn => by
    have := (C46_existing (configFile_eq x ▸ hn) h).2
    cases this
  refine ⟨hn, ?_⟩
  rw [← show defaultToml = firstConfig by decide +kernel]
  have : Holds os x Eq (fun r w' => r = .ok (.ok ()) → ∃ c, c <+: enc defaultToml ∧ w'.bytesAt (configPath x) = some c ∧
      (os.fullWrites → c = enc defaultToml)) (run os x .init) w := by
    refine Holds.bind ((initConfig_holds w).mono ?_)
    intro r w1 ⟨_, h2⟩ hr
    cases r with
    | error e => cases hr
    | ok u =>
      obtain ⟨_, n, _, hn, hb⟩ := h2 rfl
      exact ⟨_, List.take_prefix _ _, hb, fun hf => by rw [hn hf, List.take_length]⟩
  exact this.ends h rfl

/-- C46: a second `initialize` reports the existing file and changes nothing. -/
theorem C46_twice {w'' : World} {r : End} (h : Ends os x w (run os x .init) w' (.ok (.ok ()))) (h' : Ends os x w' (run os x .init) w'' r) :
    w'' = w' ∧ r = .ok (.error (.configExists (configFile x))) := by
  obtain ⟨_, c, _, hc, _⟩ := C46_partial h
  obtain ⟨i, hi, _⟩ := World.names_of_bytesAt hc
  exact C46_existing (by rw [hi]; intro h; cases h) h'

theorem init_run (hn : w.names (configPath x) = none) (hd : ∀ q, q <+: (configPath x).dropLast → w.names q = some .dir)
    {i : Nat} (hu : w.Unused i) (hh : w.handles x.pid 0 = none) :
    Ends os x w (run os x .init) (wrote (w.setName (configPath x) (some (.file i))) x.pid i (enc defaultToml).length (enc defaultToml)) (.ok (.ok ())) := by
  refine Ends.call (c := .isThere _) false (w1 := w) ⟨rfl, by rw [hn]; simp⟩ ?_
  refine Ends.call (c := .createDirs _) (.ok ()) (w1 := w) ⟨⟨rfl, fun q => .inl rfl⟩, hd⟩ ?_
  refine Ends.bind (Ends.bind (create_run (os := os) hn ?_ (hd _ (List.prefix_refl _)) hu hh (Nat.le_refl _) fun _ => rfl) (Ends.ret _ _)) (Ends.ret _ _)
  simp [configPath]

theorem disk1_unused : disk1.Unused 9 := by
  refine ⟨fun q h => ?_, fun _ _ _ h => nomatch h⟩
  unfold disk1 disk at h
  simp only at h
  split at h
  · next i hi =>
    cases h
    have := (List.findIdx?_eq_some_iff_findIdx_eq.mp hi).1
    simp at this
  · split at h <;> cases h

theorem disk1_dirs : ∀ q, q <+: (configPath (proc 1)).dropLast → disk1.names q = some .dir := by
  intro q hq
  have e := List.prefix_iff_eq_take.mp hq
  have hl : q.length ≤ 2 := hq.length_le
  rw [e]
  generalize q.length = n at hl
  revert n
  decide +kernel

example : (∃ w', Ends (sys True) (proc 1) disk1 (run (sys True) (proc 1) .init) w' (.ok (.ok ()))) ∧
    (disk [([c!"c", c!"smd", c!"config.toml"], c!"x")] []).names (configPath (proc 1)) ≠ none :=
  ⟨⟨_, init_run (x := proc 1) (by decide +kernel) disk1_dirs disk1_unused rfl⟩, by decide +kernel⟩

/-- C46 is false when another process creates the configuration between the test and the writing: after `a` there is a
configuration, `initialize` is alone from then on, reports success, and the configuration is gone. -/
theorem C46_race_refuted : ¬ ∀ (os : Os) (x y : Ctx) (w a w' : World) (b : Bytes) (p : Prog End),
    os.fullWrites → Steps2 os x y w (run os x .init) (writeBytes (configPath x) b) a p (.ret (.ok ())) →
    a.bytesAt (configPath x) = some b → Ends os x a p w' (.ok (.ok ())) → w'.bytesAt (configPath x) = some b := by
  intro h
  have h1 : Steps (sys True) (proc 1) disk1 (run (sys True) (proc 1) .init) disk1 _ :=
    .step _ _ _ _ _ _ (.call _ _ (.isThere _) _ false ⟨rfl, by
      rw [show disk1.names (configPath (proc 1)) = none by decide +kernel]
      simp⟩) (.refl _ _)
  have h2 : Ends (sys True) (proc 2) disk1 (writeBytes (configPath (proc 1)) [7]) _ (.ok ()) :=
    create_run (i := 9) (n := 1) (by decide +kernel) (by decide) (by decide +kernel) disk1_unused rfl (Nat.le_refl _) fun _ => rfl
  have := h (sys True) (proc 1) (proc 2) disk1 _ _ [7] _ trivial ((Steps.left2 _ h1).trans (Steps.right2 _ h2)) (by decide +kernel)
    (Ends.call (c := .createDirs _) (.ok ()) (w1 := _) ⟨⟨rfl, fun q => .inl rfl⟩, fun q hq => ?_⟩
      (Ends.bind (Ends.bind (write_run (i := 9) (by decide +kernel) rfl (Nat.le_refl _) fun _ => rfl) (Ends.ret _ _)) (Ends.ret _ _)))
  · exact absurd this (by decide +kernel)
  · show (if q = configPath (proc 1) then _ else disk1.names q) = _
    rw [if_neg (fun e => by rw [e] at hq; exact absurd hq.length_le (by decide))]
    exact disk1_dirs q hq

/-! ### C47 -/

/-- C47: loading changes nothing. Without a configuration file the result is the default. With one, the result is an error
of the file system or is determined by the text of the file and the environment. -/
theorem C47_load {r : Res Config} (h : Ends os x w (loadConfig os x) w' r) :
    w' = w ∧ (w.names (configFile x) = none → r = .ok .default) ∧
      (w.names (configFile x) ≠ none → (∃ e, r = .error (.io e)) ∨
        ∃ s, w.bytesAt (configFile x) = some (enc s) ∧ r = parseFromStr os x s) := by
  rw [configFile_eq]
  have := (loadConfig_holds (P := fun _ => True) .alone trivial w).ends h
  exact ⟨this.1.symm, this.2⟩

example : Ends (sys True) (proc 1) disk1 (loadConfig (sys True) (proc 1)) disk1 (.ok .default) := config_run (by decide +kernel)

/-- C47: a text gives a configuration exactly if it is TOML and, counting variables of the environment before the file, both
settings are there and valid; and it is the configuration they mean. -/
theorem C47_values (s : Str) (c : Config) : parseFromStr os x s = .ok c ↔
    ∃ file, os.toml s = some file ∧ (∃ v, setting file x.env c!"on_parse_error" = some v ∧ MeansAction os.anyCase v c.onParseError) ∧
      ∃ v, setting file x.env c!"keep_temp_files" = some v ∧ MeansBool v c.keepTempFiles := parseFromStr_iff os x s c

/-- C47: a variable overrides the file. -/
theorem C47_environment {file : List (Str × Val)} {v : Str} {value : Str} {env : List (Str × Str)} {name : Str}
    (h : v.map Char.toLower = c!"smd__parse__" ++ name) : setting file (env ++ [(v, value)]) name = some (.str value) := by
  unfold setting
  rw [List.filter_append, List.getLast?_append]
  have : Names v name = true := by unfold Names; simp [h]
  simp [this]

example : parseFromStr { sys True with anyCase := true } (proc 1) c!"[parse]\non_parse_error = \"Skip\"\nkeep_temp_files = true\n" =
    .ok ⟨.skip, true⟩ := by decide +kernel

example : parseFromStr (sys True) { proc 1 with env := [(c!"HOME", c!"/"), (c!"SMD__PARSE__ON_PARSE_ERROR", c!"skip")] } defaultToml =
    .ok ⟨.skip, false⟩ := by decide +kernel

/-- C47: a setting that is in neither place is an error. -/
theorem C47_missing {s : Str} {file : List (Str × Val)} (hf : os.toml s = some file)
    (h : setting file x.env c!"on_parse_error" = none ∨ setting file x.env c!"keep_temp_files" = none) (c : Config) :
    parseFromStr os x s ≠ .ok c := by
  intro hc
  obtain ⟨file', hf', ⟨v, hv, _⟩, u, hu, _⟩ := (C47_values s c).mp hc
  rw [hf] at hf'
  cases hf'
  rcases h with h | h
  · rw [h] at hv; cases hv
  · rw [h] at hu; cases hu

example : setting [(c!"parse.on_parse_error", .str c!"skip")] [(c!"SMD_PARSE__KEEP_TEMP_FILES", c!"1")] c!"keep_temp_files" = none := by decide +kernel

/-! ### C48 -/

/-- C48 is false: when the browser cannot open the file, the temporary file stays. -/
theorem C48_refuted : ¬ ∀ (os : Os) (x : Ctx) (w w' : World) (html : Str) (r : Res Bytes),
    Ends os x w (fromHtml html) w' r → w'.names (tmpPath x.cwd) = none := by
  intro h
  have := h (sys True) (proc 1) disk1 _ [] _
    ((pdfStart_run (i := 2) (x := proc 1) (by decide +kernel) rfl (Nat.le_refl _) fun _ => rfl).trans pdfRest_fails)
  exact absurd this (by decide +kernel)

/-- The same when there was no such file before. -/
theorem C48_left_behind : ∃ (w w' : World), w.names (tmpPath (proc 1).cwd) = none ∧
    Ends (sys True) (proc 1) w (fromHtml c!"a") w' (.error (.browser c!"Failed to open new tab.")) ∧ w'.bytesAt (tmpPath (proc 1).cwd) = some (enc c!"a") := by
  refine ⟨disk [] [[c!"d"]], wrote ((disk [] [[c!"d"]]).setName (tmpPath (proc 1).cwd) (some (.file 0))) 1 0 1 (enc c!"a"), by decide +kernel, ?_, by decide +kernel⟩
  refine .step _ _ _ _ _ _ (.call _ _ .startBrowser _ (.ok ()) rfl) ?_
  refine .step _ _ _ _ _ _ (.call _ _ .cwd _ (.ok [c!"d"]) ⟨rfl, fun p hp => by cases hp; rfl⟩) ?_
  have hw : Ends (sys True) (proc 1) (disk [] [[c!"d"]]) (writeBytes (tmpPath (proc 1).cwd) (enc c!"a"))
      (wrote ((disk [] [[c!"d"]]).setName (tmpPath (proc 1).cwd) (some (.file 0))) 1 0 1 (enc c!"a")) (.ok ()) := by
    refine create_run (x := proc 1) (i := 0) (n := 1) (by decide +kernel) (by decide) (by decide +kernel) ⟨fun q => ?_, fun _ _ _ h => nomatch h⟩ rfl (by decide +kernel)
      fun _ => by decide +kernel
    unfold disk
    simp only [List.findIdx?_nil]
    split <;> simp
  exact (Steps.bind hw _).trans (pdfRest_fails (x := proc 1))

/-- C48, the part that holds: after a successful conversion there is no temporary file. Missing: failures of the browser and
of the file system after the file has been created. -/
theorem C48_partial {html : Str} {b : Bytes} (h : Ends os x w (fromHtml html) w' (.ok b)) : w'.names (tmpPath x.cwd) = none :=
  ((fromHtml_holds (P := fun _ => True) .alone trivial html w).ends h).1

example : ∃ w', Ends (sys True) (proc 1) disk1 (fromHtml c!"a") w' (.ok (37 :: enc c!"a")) ∧ disk1.bytesAt (tmpPath (proc 1).cwd) = some (enc c!"note") :=
  ⟨_, fromHtml_run (i := 2) (t := 0) (by decide +kernel) (by decide +kernel) rfl rfl, by decide +kernel⟩

/-! ### C49 -/

/-- The files a command may create, write or remove. -/
def footprint (x : Ctx) : Command → Path → Prop
  | .parse input f => fun q => q = setExtension f.ending input ∨ (f = .pdf ∧ q = tmpPath x.cwd)
  | .init => fun q => q <+: configPath x

/-- C49: at any moment of a run, so also when it is interrupted, every name outside the footprint of the command stands for
what it stood for, and every file outside, that is not the same file as one inside, has the same content. -/
theorem C49_footprint {cmd : Command} {p' : Prog End} (hh : ∀ g, w.handles x.pid g = none) (h : Steps os x w (run os x cmd) w' p')
    {q : Path} (hq : ¬ footprint x cmd q) :
    w'.names q = w.names q ∧ ((∀ p, footprint x cmd p → ¬ w.SameFile p q) → w'.bytesAt q = w.bytesAt q) := by
  have ho : Only os x (footprint x cmd) (run os x cmd) := by
    cases cmd with
    | parse input f => exact parse_only (.inl rfl) fun hf => .inr ⟨hf, rfl⟩
    | init => exact Only.bind (f := fun r : Res Unit => (.ret (.ok r) : Prog End)) (fun _ => trivial) (initConfig_only (P := footprint x .init) fun q hq => hq)
  have hk := Keep.steps h (Keep.refl hh) ho
  exact ⟨hk.names q hq, hk.bytesAt hq⟩

example : Steps (sys True) (proc 1) disk1 (run (sys True) (proc 1) (.parse [c!"d", c!"a.md"] .pdf)) (wrote disk1 1 2 18 (enc c!"<p><em>b</em></p>\n"))
      (orErr (afterWrite [c!"d"]) fun b => orErr (writeBytes [c!"d", c!"a.pdf"] b) fun _ => .ret (.ok (.ok ()))) ∧
    ¬ footprint (proc 1) (.parse [c!"d", c!"a.md"] .pdf) [c!"d", c!"b.md"] := by
  refine ⟨(start_run (f := .pdf) (s := c!"*b*") (by decide +kernel) (by decide +kernel) render_b).trans
    (Steps.bind (pdfStart_run (x := proc 1) (i := 2) (by decide +kernel) rfl (by decide +kernel) fun _ => by decide +kernel) _), ?_⟩
  rintro (h | ⟨_, h⟩)
  · exact absurd h (by decide)
  · exact absurd h (by decide)

/-! ### C50 -/

/-- C50 is false: of two conversions in the same directory, one may print the document of the other. -/
theorem C50_refuted : ¬ ∀ (os : Os) (x y : Ctx) (w w' : World) (inX inY : Path) (s html : Str) (q' : Prog End),
    os.fullWrites → os.urlPath (fileUrl (tmpPath x.cwd)) = tmpPath x.cwd → x.pid ≠ y.pid → (∀ p g, w.handles p g = none) →
    w.bytesAt inX = some (enc s) → Gfm.render s = .ok html →
    Steps2 os x y w (run os x (.parse inX .pdf)) (run os y (.parse inY .pdf)) w' (.ret (.ok (.ok ()))) q' →
    w'.bytesAt (setExtension c!"pdf" inX) = some (os.pdf fullPage (enc html)) := by
  intro h
  have hc : Gfm.render c!"c" = .ok c!"<p>c</p>\n" := by decide +kernel
  have s1 := (start_run (os := sys True) (x := proc 1) (w := disk1) (f := .pdf) (input := [c!"d", c!"a.md"]) (s := c!"*b*") (by decide +kernel) (by decide +kernel) render_b).trans
    (orErr_steps _ (pdfStart_run (x := proc 1) (i := 2) (by decide +kernel) rfl (Nat.le_refl _) fun _ => rfl))
  have s2 := (start_run (os := sys True) (x := proc 2) (w := wrote disk1 1 2 (enc c!"<p><em>b</em></p>\n").length (enc c!"<p><em>b</em></p>\n"))
      (f := .pdf) (input := [c!"d", c!"b.md"]) (s := c!"c") (by decide +kernel) (by decide +kernel) hc).trans
    (orErr_steps _ (pdfStart_run (x := proc 2) (i := 2) (by decide +kernel) (by decide +kernel) (Nat.le_refl _) fun _ => rfl))
  let w2 := wrote (wrote disk1 1 2 (enc c!"<p><em>b</em></p>\n").length (enc c!"<p><em>b</em></p>\n")) 2 2 (enc c!"<p>c</p>\n").length (enc c!"<p>c</p>\n")
  let w3 := (w2.setTab 1 0 (some (w2.data 2))).setName (tmpPath [c!"d"]) none
  have s4 : Ends (sys True) (proc 1) w3 (writeBytes [c!"d", c!"a.pdf"] (37 :: w2.data 2)) (wrote w3 1 3 (37 :: w2.data 2).length (37 :: w2.data 2)) (.ok ()) :=
    write_run (x := proc 1) (i := 3) (by decide +kernel) (by decide +kernel) (Nat.le_refl _) fun _ => rfl
  have s5 : Ends (sys True) (proc 1) w2 (orErr (afterWrite [c!"d"]) fun b => orErr (writeBytes [c!"d", c!"a.pdf"] b) fun _ => .ret (.ok (.ok ()))) _ (.ok (.ok ())) :=
    orErr_run (pdfRest_run (os := sys True) (x := proc 1) (i := 2) (t := 0) (w := w2) (by decide +kernel) (by decide +kernel) rfl)
      (orErr_run s4 (Ends.ret _ _))
  have := h (sys True) (proc 1) (proc 2) disk1 _ [c!"d", c!"a.md"] [c!"d", c!"b.md"] c!"*b*" _ _ trivial (by decide +kernel) (by decide) (fun _ _ => rfl)
    (by decide +kernel) render_b ((Steps.left2 _ s1).trans ((Steps.right2 _ s2).trans (Steps.left2 _ s5)))
  exact absurd this (by decide +kernel)

/-- C50, the part that holds: two runs, to HTML or PDF, whose steps are interleaved in any way. If no file that the second
creates, writes or removes is one the first uses, under the same or another name, then a success of the first means that
its output is the one it would have produced alone from the input as it was at the start. Missing: runs in the same working
directory, which share the temporary file. -/
theorem C50_partial {inX inY : Path} {f g : Format} {q' : Prog End} (hfull : os.fullWrites)
    (hurl : f = .pdf → os.urlPath (fileUrl (tmpPath x.cwd)) = tmpPath x.cwd) (hpid : x.pid ≠ y.pid)
    (hx : ∀ h, w.handles x.pid h = none) (hy : ∀ h, w.handles y.pid h = none)
    (hsep : ∀ p ∈ [configPath x, inX, setExtension f.ending inX, tmpPath x.cwd], ∀ q ∈ [setExtension g.ending inY, tmpPath y.cwd],
      p ≠ q ∧ ¬ w.SameFile p q)
    (h : Steps2 os x y w (run os x (.parse inX f)) (run os y (.parse inY g)) w' (.ret (.ok (.ok ()))) q') :
    ∃ s html, w.bytesAt inX = some (enc s) ∧ Gfm.render s = .ok html ∧
      w'.bytesAt (setExtension f.ending inX) = some (match f with | .html => enc html | .pdf => os.pdf fullPage (enc html)) := by
  obtain ⟨w1, h1, h2⟩ := Holds.ends2 (P := (· ∈ [configPath x, inX, setExtension f.ending inX, tmpPath x.cwd]))
    (W := (· ∈ [setExtension g.ending inY, tmpPath y.cwd])) (P' := (· ∈ [configPath x, inX, setExtension f.ending inX, tmpPath x.cwd])) h hpid
    (fun p hp hq => (hsep p hp p hq).1 rfl) (fun _ h => h) (parse_only (by simp) fun _ => by simp) (parse_only (by simp) fun _ => by simp)
    ⟨fun p q i hp hq e e' => (hsep p hp q hq).2 ⟨i, e, e'⟩, fun a i o _ e => (by rw [hx] at e; cases e), fun a i o _ e => (by rw [hy] at e; cases e),
      fun a i o _ _ e => (by rw [hx] at e; cases e)⟩
    (parse_holds (os := os) (input := inX) (f := f) .beside (by simp) (by simp) (by simp) (fun _ => by simp) w) (.refl w)
  have h1 : ConvertEnd os x inX f w (.ok (.ok ())) w1 := h1
  obtain ⟨s, html, hs, hr, hh, hp⟩ := h1
  refine ⟨s, html, hs, hr, ?_⟩
  rw [h2.bytesAt (by simp)]
  cases f with
  | html =>
    obtain ⟨n, _, hn, hb⟩ := hh rfl
    rw [hn hfull, List.take_length] at hb
    exact hb
  | pdf => exact hp rfl (hurl rfl) hfull

/-- A second process, in the directory `/c`. -/
def proc2 : Ctx := ⟨2, [c!"c"], some [c!"c"], []⟩

example : (∃ w', Steps2 (sys True) (proc 1) proc2 disk1 (run (sys True) (proc 1) (.parse [c!"d", c!"a.md"] .pdf))
      (run (sys True) proc2 (.parse [c!"d", c!"b.md"] .pdf)) w' (.ret (.ok (.ok ())))
        (orErr (fromHtml c!"<p>c</p>\n") fun b => orErr (writeBytes [c!"d", c!"b.pdf"] b) fun _ => .ret (.ok (.ok ())))) ∧
    (∀ p ∈ [configPath (proc 1), [c!"d", c!"a.md"], [c!"d", c!"a.pdf"], tmpPath (proc 1).cwd], ∀ q ∈ [[c!"d", c!"b.pdf"], tmpPath proc2.cwd],
      p ≠ q ∧ (disk1.names p = none ∨ disk1.names p ≠ disk1.names q)) := by
  refine ⟨⟨_, (Steps.right2 _ (start_run (f := .pdf) (s := c!"c") (by decide +kernel) (by decide +kernel) (by decide +kernel))).trans
    (Steps.left2 _ (pdf_run (x := proc 1) (i := 2) (j := 3) (t := 0) (by decide +kernel) (by decide +kernel) (by decide +kernel) render_b (by decide +kernel)
    (by decide +kernel) (by decide +kernel) rfl rfl))⟩, by decide +kernel⟩

/-! ### C51 -/

/-- C51 is false: a panic exits with 101. -/
theorem C51_refuted : ¬ ∀ (os : Os) (x : Ctx) (w w' : World) (cmd : Command) (r : End), Ends os x w (run os x cmd) w' r →
    (r = .ok (.ok ()) → exitStatus r = some 0) ∧ (r ≠ .ok (.ok ()) → exitStatus r = some 1) := by
  intro h
  have hr : Gfm.render c!"# {#a} b" = .panic := by decide +kernel
  have e : Ends (sys True) (proc 1) (disk [([c!"d", c!"a.md"], c!"# {#a} b")] []) (run (sys True) (proc 1) (.parse [c!"d", c!"a.md"] .html))
      (disk [([c!"d", c!"a.md"], c!"# {#a} b")] []) .panic := by
    refine (config_run (by decide +kernel)).bind ((read_run (s := c!"# {#a} b") (by decide +kernel)).bind ?_)
    show Ends _ _ _ (withRender (Gfm.render c!"# {#a} b") _) _ _
    rw [hr]
    exact Ends.ret _ _
  exact absurd ((h _ _ _ _ _ _ e).2 nofun) (by decide)

/-- C51 is false before `run`, too: an input that does not exist exits with 2. -/
theorem C51_missing_input {canon : Str → Option Path} {home : Option Str} {arg : Str} (h : canon (tilde home arg) = none) (e : Path → End) :
    mainStatus canon home arg e = some 2 := by
  unfold mainStatus parseInput
  rw [h]

/-- C51, the part that holds: when the input can be resolved and rendering it, if it is rendered, ends without a panic, the
exit status is 0 if the run succeeded and 1 if it failed. Missing: panics, documents for which rendering never ends, and
arguments that are rejected. -/
theorem C51_partial {canon : Str → Option Path} {home : Option Str} {arg : Str} {input : Path} {f : Format} {r : End}
    (hc : canon (tilde home arg) = some input) (hr : ∀ s, w.bytesAt input = some (enc s) → Gfm.render s ≠ .panic ∧ Gfm.render s ≠ .hang)
    (h : Ends os x w (run os x (.parse input f)) w' r) :
    (r = .ok (.ok ()) ∧ mainStatus canon home arg (fun _ => r) = some 0) ∨
      ((∃ e, r = .ok (.error e)) ∧ mainStatus canon home arg (fun _ => r) = some 1) := by
  have hm : mainStatus canon home arg (fun _ => r) = exitStatus r := by
    unfold mainStatus parseInput
    rw [hc]
  rw [hm]
  have hce := (parse_holds (P := fun _ => True) (f := f) .alone trivial trivial trivial (fun _ => trivial) w).ends h
  unfold ConvertEnd at hce
  split at hce
  · exact .inl ⟨rfl, rfl⟩
  · exact .inr ⟨⟨_, rfl⟩, rfl⟩
  · exfalso
    obtain ⟨s, hs, h | h | h⟩ := hce
    · exact (hr s hs).1 h.2
    · exact (hr s hs).2 h.2
    · rcases Gfm.C10_only_two_failures s with ⟨_, h'⟩ | h' | h' <;> rw [h.2] at h' <;> cases h'

example : (fun _ => some [c!"d", c!"a.md"] : Str → Option Path) (tilde none c!"a.md") = some [c!"d", c!"a.md"] ∧
    ∀ s, disk1.bytesAt [c!"d", c!"a.md"] = some (enc s) → Gfm.render s ≠ .panic ∧ Gfm.render s ≠ .hang := by
  refine ⟨rfl, fun s hs => ?_⟩
  rw [show disk1.bytesAt [c!"d", c!"a.md"] = some (enc c!"*b*") by decide +kernel] at hs
  rw [← Gfm.Iter.enc_inj (Option.some.inj hs), render_b]
  exact ⟨nofun, nofun⟩

/-- C51 for `initialize`: always 0 or 1. -/
theorem C51_initialize {r : End} (h : Ends os x w (run os x .init) w' r) :
    (r = .ok (.ok ()) ∧ exitStatus r = some 0) ∨ ((∃ e, r = .ok (.error e)) ∧ exitStatus r = some 1) := by
  have : Holds os x Eq (fun r _ => (r = .ok (.ok ()) ∧ exitStatus r = some 0) ∨ ((∃ e, r = .ok (.error e)) ∧ exitStatus r = some 1))
      (run os x .init) w := by
    refine Holds.bind ((initConfig_holds w).mono ?_)
    intro r w1 _
    cases r with
    | ok u => exact .inl ⟨rfl, rfl⟩
    | error e => exact .inr ⟨⟨e, rfl⟩, rfl⟩
  exact this.ends h

/-! ### C52 -/

/-- C52: the log filter for every number of `-v` and every environment. -/
theorem C52_verbosity (env : Option Str) :
    rustLog 1 env = some c!"debug" ∧ (∀ n, 2 ≤ n → rustLog n env = some c!"trace") ∧
      (∀ v, env = some v → rustLog 0 env = some v) ∧ (env = none → rustLog 0 env = some c!"info") := by
  refine ⟨rfl, fun n hn => ?_, fun v hv => by rw [hv]; rfl, fun h => by rw [h]; rfl⟩
  unfold rustLog
  rw [if_neg (by omega), if_pos (by omega)]

example : rustLog 3 (some c!"warn") = some c!"trace" := (C52_verbosity _).2.1 3 (by decide)

/-! ### C55 -/

/-- C55: if the system writes everything it is asked to write, reading a file after writing a text to it yields the text or a
file system error, and decoding it yields what decoding the text yields or a file system error. -/
theorem C55_write_read {p : Path} {s : Str} {w'' : World} {r : Res Str} (hfull : os.fullWrites)
    (h : Ends os x w (writeToFile p s) w' (.ok ())) (h' : Ends os y w' (readToString p) w'' r) :
    w'' = w' ∧ (r = .ok s ∨ ∃ e, r = .error (.io e)) := by
  obtain ⟨c, _, hc, hcf⟩ := (C43_partial h).1 rfl
  have hr := (readToString_holds (P := fun _ => True) .alone trivial w').ends h'
  refine ⟨hr.1.symm, ?_⟩
  cases r with
  | error e => obtain ⟨e', rfl⟩ := hr.2.2 e rfl; exact .inr ⟨e', rfl⟩
  | ok t =>
    have := hr.2.1 t rfl
    rw [hc, hcf hfull] at this
    rw [Gfm.Iter.enc_inj (Option.some.inj this)]
    exact .inl rfl

theorem C55_decode {α : Type} {p : Path} {s : Str} {w'' : World} {d : Str → Res α} {r : Res α} (hfull : os.fullWrites)
    (h : Ends os x w (writeToFile p s) w' (.ok ())) (h' : Ends os y w' (decodeFromFile d p) w'' r) :
    w'' = w' ∧ (r = d s ∨ ∃ e, r = .error (.io e)) := by
  obtain ⟨c, _, hc, hcf⟩ := (C43_partial h).1 rfl
  have : Holds os y Eq (fun r w'' => w'' = w' ∧ (r = d s ∨ ∃ e, r = .error (.io e))) (decodeFromFile d p) w' := by
    refine Holds.andThen ((readToString_holds (P := fun _ => True) .alone trivial w').mono ?_)
    intro r w1 hr
    cases r with
    | error e => obtain ⟨e', rfl⟩ := hr.2.2 e rfl; exact ⟨hr.1.symm, .inr ⟨e', rfl⟩⟩
    | ok t =>
      have := hr.2.1 t rfl
      rw [hc, hcf hfull] at this
      rw [← Gfm.Iter.enc_inj (Option.some.inj this)]
      refine ⟨hr.1.symm, .inl ?_⟩
      cases d s <;> rfl
  exact this.ends h'

/-- C55 for objects: what cannot be encoded is reported with its own error; what has been encoded and written is what decoding the
file yields, or a file system error. -/
theorem C55_object {α : Type} {ser : α → Res Str} {d : Str → Res α} (hd : ∀ a s, ser a = .ok s → d s = .ok a) (a : α) {p : Path} (hfull : os.fullWrites) :
    (∀ e, encodeToString ser a = .error e → ser a = .error e) ∧
    ∀ s, encodeToString ser a = .ok s → ∀ w w' w'' r, Ends os x w (writeToFile p s) w' (.ok ()) → Ends os y w' (decodeFromFile d p) w'' r →
      r = .ok a ∨ ∃ e, r = .error (.io e) := by
  have e : encodeToString ser a = ser a := by
    unfold encodeToString
    cases ser a <;> rfl
  rw [e]
  refine ⟨fun _ h => h, fun s hs w w' w'' r h h' => ?_⟩
  have := (C55_decode hfull h h').2
  rwa [hd a s hs] at this

example : (∀ (a : Bool) s, (if a then .ok c!"t" else .error .configRead : Res Str) = .ok s → (if s = c!"t" then .ok true else .ok false : Res Bool) = .ok a) ∧
    encodeToString (fun a : Bool => (if a then .ok c!"t" else .error .configRead : Res Str)) true = .ok c!"t" := by
  refine ⟨fun a s h => ?_, rfl⟩
  cases a
  · cases h
  · cases h; rfl

example : ∃ w', Ends (sys True) (proc 1) disk1 (writeToFile [c!"d", c!"a.md"] c!"é") w' (.ok ()) ∧
    Ends (sys True) (proc 2) w' (readToString [c!"d", c!"a.md"]) w' (.ok c!"é") :=
  ⟨_, write_run (x := proc 1) (i := 0) (by decide +kernel) rfl (Nat.le_refl _) fun _ => rfl, read_run (by decide +kernel)⟩

/-! ### C61 -/

/-- C61 is false: a `#` in the name of the working directory ends the path. -/
theorem C61_refuted : ¬ ∀ cwd : Path, (∀ c ∈ cwd, c ≠ [] ∧ c ≠ c!"." ∧ c ≠ c!".." ∧ '/' ∉ c) → fileUrlPath (fileUrl (tmpPath cwd)) = tmpPath cwd := by
  intro h
  exact absurd (h [c!"c#"] (by decide)) (by decide +kernel)

/-- It can even be another file of the same name that is printed. -/
theorem C61_other_file : fileUrlPath (fileUrl (tmpPath [c!"a", c!"%2e."])) = [c!"tmp.html"] := by decide +kernel

/-- C61, the part that holds, which is exact: in a directory the browser opens the temporary file if and only if no name in the path
has a tab, line break, `?`, `#` or `\`, nor a `%` with two hexadecimal digits. Missing: the other directories. -/
theorem C61_partial {cwd : Path} (h : ∀ c ∈ cwd, c ≠ [] ∧ c ≠ c!"." ∧ c ≠ c!".." ∧ '/' ∉ c) :
    fileUrlPath (fileUrl (tmpPath cwd)) = tmpPath cwd ↔ ∀ c ∈ cwd, UrlPlain c := by
  refine ⟨fun hp c hc => fileUrlPath_only (by simp [tmpPath]) hp c (List.mem_append_left _ hc), fun hu => fileUrlPath_safe fun c hc => ?_⟩
  rcases List.mem_append.mp hc with hc | hc
  · exact ⟨h c hc, hu c hc⟩
  · rw [List.mem_singleton.mp hc]
    refine ⟨by decide, by decide, fun a b hi => ?_⟩
    exact absurd (hi.subset List.mem_cons_self) (by decide)

example : ∀ c ∈ [c!"home", c!"100% mine"], UrlPlain c := by
  intro c hc
  simp only [List.mem_cons, List.not_mem_nil, or_false] at hc
  rcases hc with rfl | rfl
  · exact ⟨by decide, fun a b hi => absurd (hi.subset List.mem_cons_self) (by decide)⟩
  · refine ⟨by decide, fun a b hi => ?_⟩
    simp only [List.infix_cons_iff, List.cons_prefix_cons] at hi
    simp at hi
    obtain ⟨rfl, rfl, _⟩ := hi
    exact .inl (by decide)

/-! ### C62 -/

/-- C62 is false: files that differ only in their extension have the same output. -/
theorem C62_refuted : ¬ ∀ (e : Str) (p q : Path), p ≠ q → setExtension e p ≠ setExtension e q := by
  intro h
  exact h c!"html" [c!"a.md"] [c!"a.markdown"] (by decide) (by decide)

/-- C62, the part that holds: files with the same extension have different outputs. Missing: other files. -/
theorem C62_partial {e ext : Str} {d d' : Path} {stem stem' : Str} (hs : stem ≠ []) (hs' : stem' ≠ []) (he : '.' ∉ ext) (hx : ext ≠ [])
    (h : d ++ [stem ++ '.' :: ext] ≠ d' ++ [stem' ++ '.' :: ext]) :
    setExtension e (d ++ [stem ++ '.' :: ext]) ≠ setExtension e (d' ++ [stem' ++ '.' :: ext]) := by
  have hd : ∀ s : Str, s ++ '.' :: ext ≠ c!".." := by
    intro s hs
    cases s with
    | nil => exact he (by rw [(List.cons.inj hs).2]; decide)
    | cons c s =>
      cases s with
      | nil =>
        have := (List.cons.inj (List.cons.inj hs).2).2
        exact hx this
      | cons c' s =>
        have := congrArg List.length hs
        simp at this
  rw [(C42_output_path e d stem).1 ext hs he (hd _), (C42_output_path e d' stem').1 ext hs' he (hd _)]
  intro heq
  apply h
  obtain ⟨e1, e2⟩ := List.append_inj' heq rfl
  have := List.append_cancel_right (List.cons.inj e2).1
  rw [e1, this]

/-- C62, exactly: two files have the same output if and only if they are in the same directory and have the same stem, which is the name
without the last dot and what follows it, and the whole name if there is no dot or only one in front. -/
theorem C62_exact (e : Str) (d d' : Path) {n n' s s' : Str} (hn : Stem n s) (hn' : Stem n' s') :
    setExtension e (d ++ [n]) = setExtension e (d' ++ [n']) ↔ d = d' ∧ s = s' := by
  rw [setExtension_append, setExtension_append, fileStem_iff.mpr hn, fileStem_iff.mpr hn']
  constructor
  · intro heq
    obtain ⟨e1, e2⟩ := List.append_inj' heq rfl
    exact ⟨e1, List.append_cancel_right (List.cons.inj e2).1⟩
  · rintro ⟨rfl, rfl⟩
    rfl

/-- Every name has one stem. -/
theorem C62_stem (n : Str) : ∃ s, Stem n s ∧ ∀ s', Stem n s' → s' = s :=
  ⟨fileStem n, fileStem_iff.mp rfl, fun s' h => (fileStem_iff.mpr h).symm⟩

example : Stem c!"a.b.md" c!"a.b" ∧ Stem c!".a" c!".a" ∧ Stem c!"a" c!"a" :=
  ⟨.ext c!"a.b" c!"md" (by decide) (by decide) (by decide), .hidden c!"a" (by decide), .plain c!"a" (by decide)⟩

example : setExtension c!"html" ([c!"d"] ++ [c!"a" ++ '.' :: c!"md"]) ≠ setExtension c!"html" ([c!"d"] ++ [c!"b" ++ '.' :: c!"md"]) :=
  C62_partial (by decide) (by decide) (by decide) (by decide) (by decide)

/-! ### C63 -/

/-- C63: only a `~` that is the whole argument or is followed by a slash is the home directory; every other argument is
taken as it is, and without a home directory every argument is. -/
theorem C63_tilde (h : Str) (s : Str) :
    tilde (some h) c!"~" = h ∧ (∀ t, tilde (some h) ('~' :: '/' :: t) = h ++ '/' :: t) ∧
      (s ≠ c!"~" → ¬ c!"~/" <+: s → tilde (some h) s = s) ∧ tilde none s = s := by
  refine ⟨rfl, fun _ => rfl, fun h1 h2 => ?_, ?_⟩
  · unfold tilde
    split
    · exact absurd rfl h1
    · exact absurd ⟨_, rfl⟩ h2
    · rfl
  · unfold tilde
    split <;> first | rfl | (next h => cases h)

example : tilde (some c!"/root") c!"a/~/b" = c!"a/~/b" := (C63_tilde _ _).2.2.1 (by decide) (by decide)

/-! ### C65 -/

/-- C65: after a successful `initialize`, loading yields the default configuration if no variable says otherwise, the system
writes everything it is asked to write, and it reads TOML. -/
theorem C65_initialize_load {w'' : World} {r : Res Config} (hfull : os.fullWrites) (htoml : ReadsToml os)
    (henv : ∀ v ∈ x.env, Names v.1 c!"on_parse_error" = false ∧ Names v.1 c!"keep_temp_files" = false)
    (h : Ends os x w (run os x .init) w' (.ok (.ok ()))) (h' : Ends os x w' (loadConfig os x) w'' r) :
    w'' = w' ∧ (r = .ok ⟨.serialize, false⟩ ∨ ∃ e, r = .error (.io e)) := by
  obtain ⟨_, c, _, hc, hcf⟩ := C46_partial h
  obtain ⟨i, hi, _⟩ := World.names_of_bytesAt hc
  obtain ⟨e, _, hl⟩ := C47_load h'
  refine ⟨e, ?_⟩
  rcases hl (by rw [hi]; nofun) with hl | ⟨s, hs, hr⟩
  · exact .inr hl
  · rw [hc, hcf hfull] at hs
    have := Gfm.Iter.enc_inj (Option.some.inj hs)
    subst this
    rw [hr]
    refine .inl ((C47_values _ _).mpr ⟨[(c!"parse.on_parse_error", .str c!"serialize"), (c!"parse.keep_temp_files", .bool false)],
      htoml _ _ (by decide +kernel), ⟨.str c!"serialize", ?_, _, _, rfl, by decide, .inl rfl⟩, _, ?_, .inl rfl⟩)
    · rw [setting_file fun v hv => (henv v hv).1]; decide
    · rw [setting_file fun v hv => (henv v hv).2]; decide

/-- Its hypotheses hold of the system of the examples. -/
example : (sys True).fullWrites ∧ ReadsToml (sys True) ∧
    ∀ v ∈ (proc 1).env, Names v.1 c!"on_parse_error" = false ∧ Names v.1 c!"keep_temp_files" = false :=
  ⟨trivial, fun _ _ h => h, fun _ h => nomatch h⟩

example : tomlOf c!"# a\n[parse]\nkeep_temp_files = true\n[b]\nc = 12\n" = some [(c!"parse.keep_temp_files", .bool true), (c!"b.c", .int 12)] ∧
    tomlOf c!"a = 1\na = 2\n" = none ∧ tomlOf c!"[a\n" = none := by decide +kernel

/-- C65: what is written for a configuration is read as that configuration. -/
theorem C65_round_trip (c : Config) (htoml : ReadsToml os)
    (henv : ∀ v ∈ x.env, Names v.1 c!"on_parse_error" = false ∧ Names v.1 c!"keep_temp_files" = false) :
    parseFromStr os x (toToml c) = .ok c := by
  refine (C47_values _ _).mpr ⟨[(c!"parse.on_parse_error", .str c.onParseError.name), (c!"parse.keep_temp_files", .bool c.keepTempFiles)],
    htoml _ _ ?_, ⟨.str c.onParseError.name, ?_, ?_⟩, _, ?_, .inl rfl⟩
  · rcases c with ⟨a, b⟩
    cases a <;> cases b <;> decide +kernel
  · rw [setting_file fun v hv => (henv v hv).1]
    rcases c with ⟨a, b⟩
    cases a <;> cases b <;> decide
  · rcases c with ⟨a, b⟩
    cases a <;> exact ⟨_, _, rfl, by simp [ParseErrorAction.name], .inl rfl⟩
  · rw [setting_file fun v hv => (henv v hv).2]
    rcases c with ⟨a, b⟩
    cases a <;> cases b <;> decide

example : parseFromStr (sys True) (proc 1) c!"[parse]\non_parse_error = \"abort\"\nkeep_temp_files = true\n" = .ok ⟨.abort, true⟩ :=
  C65_round_trip ⟨.abort, true⟩ (fun _ _ h => h) (fun _ h => nomatch h)

end Smd.App
