import Verif.Lemmas.Writers
import Verif.Props.App

/-! C49, C50, C104, C105 for any number of runs at the same time. -/

namespace Smd.App
open Smd.Core Smd.Spec

variable {ι : Type} [DecidableEq ι] {os : Os} {xs : ι → Ctx} {w w' : World}

theorem run_only (x : Ctx) (cmd : Command) : Only os x (footprint x cmd) (run os x cmd) := by
  cases cmd with
  | parse input f => exact parse_only (.inl rfl) fun hf => .inr ⟨hf, rfl⟩
  | init => exact Only.bind (f := fun r : Res Unit => (.ret (.ok r) : Prog End)) (fun _ => trivial) (initConfig_only (P := footprint x .init) fun q hq => hq)

/-- C49 for any number of runs at the same time: at any moment every name outside all footprints stands for what it stood
for, and every file outside, that is not the same file as one inside, has the same content. -/
theorem C49_footprint_many {cmds : ι → Command} {qs : ι → Prog End} (hpid : ∀ j k, j ≠ k → (xs j).pid ≠ (xs k).pid)
    (hh : ∀ j g, w.handles (xs j).pid g = none) (h : StepsN os xs w (fun j => run os (xs j) (cmds j)) w' qs)
    {q : Path} (hq : ∀ j, ¬ footprint (xs j) (cmds j) q) :
    w'.names q = w.names q ∧ ((∀ j p, footprint (xs j) (cmds j) p → ¬ w.SameFile p q) → w'.bytesAt q = w.bytesAt q) := by
  have hi : Nonempty ι ∨ w' = w := by
    cases h with
    | refl => exact .inr rfl
    | step i => exact .inl ⟨i⟩
  rcases hi with ⟨⟨i⟩⟩ | rfl
  case inr => exact ⟨rfl, fun _ => rfl⟩
  have hk := Keep.stepsN (w0 := w) (P := fun p => ∃ j, footprint (xs j) (cmds j) p) h hpid (fun j => Keep.refl (hh j))
    (fun j => Only.mono (fun p hp => ⟨j, hp⟩) (run_only (xs j) (cmds j))) i
  exact ⟨hk.names q fun ⟨j, hj⟩ => hq j hj, fun hs => hk.bytesAt (fun ⟨j, hj⟩ => hq j hj) fun p ⟨j, hj⟩ => hs j p hj⟩

/-- C50, the part that holds, for any number of runs of any commands, whose steps are interleaved in any way: if no file
that another run creates, writes or removes is one the conversion `i` uses, under the same or another name, then its
success means that its output is the one it would have produced alone from the input as it was at the start, also at any
later moment. Missing: runs in the same working directory, which share the temporary file. -/
theorem C50_partial_many {cmds : ι → Command} {qs : ι → Prog End} {i : ι} {input : Path} {f : Format} (hfull : os.fullWrites)
    (hurl : f = .pdf → os.urlPath (fileUrl (tmpPath (xs i).cwd)) = tmpPath (xs i).cwd)
    (hpid : ∀ j k, j ≠ k → (xs j).pid ≠ (xs k).pid) (hh : ∀ j g, w.handles (xs j).pid g = none) (hi : cmds i = .parse input f)
    (hsep : ∀ p, p ∈ [configPath (xs i), input] ∨ footprint (xs i) (cmds i) p → ∀ j q, j ≠ i → footprint (xs j) (cmds j) q →
      p ≠ q ∧ ¬ w.SameFile p q)
    (h : StepsN os xs w (fun j => run os (xs j) (cmds j)) w' qs) (hend : qs i = .ret (.ok (.ok ()))) :
    ∃ s html, w.bytesAt input = some (enc s) ∧ Gfm.render s = .ok html ∧
      w'.bytesAt (setExtension f.ending input) = some (match f with | .html => enc html | .pdf => os.pdf fullPage (enc html)) := by
  rw [hi] at hsep
  have hin : ∀ p, footprint (xs i) (.parse input f) p → p ∈ [configPath (xs i), input] ∨ footprint (xs i) (.parse input f) p := fun _ h => .inr h
  obtain ⟨w1, h1, h2⟩ := Holds.endsN (Q := ConvertEnd os (xs i) input f w)
    (P := fun p => p ∈ [configPath (xs i), input] ∨ footprint (xs i) (.parse input f) p)
    (W := fun q => ∃ j, j ≠ i ∧ footprint (xs j) (cmds j) q) i h hpid
    (fun p hp ⟨j, hj, hq⟩ => (hsep p hp j p hj hq).1 rfl)
    (by rw [hi]; exact Only.mono hin (run_only _ _))
    (fun j hj => Only.mono (fun q hq => ⟨j, hj, hq⟩) (run_only _ _))
    (fun j _ => ⟨fun p q n hp ⟨k, hk, hq⟩ e e' => (hsep p hp k q hk hq).2 ⟨n, e, e'⟩, fun a n o _ e => (by rw [hh] at e; cases e),
      fun a n o _ e => (by rw [hh] at e; cases e), fun a n o _ _ e => (by rw [hh] at e; cases e)⟩)
    (w0 := w) (by
      rw [hi]
      exact parse_holds (os := os) (input := input) (f := f) .beside (.inl (by simp)) (.inl (by simp)) (.inr (.inl rfl)) (fun e => .inr (.inr ⟨e, rfl⟩)) w)
    (.refl w)
  rw [hend] at h1
  have h1 : ConvertEnd os (xs i) input f w (.ok (.ok ())) w1 := h1
  obtain ⟨s, html, hs, hr, hh, hp⟩ := h1
  refine ⟨s, html, hs, hr, ?_⟩
  rw [h2.bytesAt (.inr (.inl rfl))]
  cases f with
  | html =>
    obtain ⟨n, _, hn, hb⟩ := hh rfl
    rw [hn hfull, List.take_length] at hb
    exact hb
  | pdf => exact hp rfl (hurl rfl) hfull

/-- Three processes, in `/d`, in `/c` and in `/e`. -/
def procs : Fin 3 → Ctx
  | 0 => proc 1
  | 1 => proc2
  | 2 => ⟨3, [c!"e"], some [c!"e"], []⟩

/-- Two conversions and an initialisation. -/
def three : Fin 3 → Command
  | 0 => .parse [c!"d", c!"a.md"] .pdf
  | 1 => .parse [c!"d", c!"b.md"] .pdf
  | 2 => .init

/-- `initialize` after it has seen that there is no configuration. -/
def looked (x : Ctx) : Prog End :=
  .call (.createDirs (configPath x).dropLast) fun r => Prog.bind (match r with
    | .error e => .ret (.error (.io e))
    | .ok _ => (writeToFile (configPath x) defaultToml).andThen fun _ => .ret (.ok ())) fun r => .ret (.ok r)

theorem init_looks {x : Ctx} (hn : w.names (configPath x) = none) : Steps os x w (run os x .init) w (looked x) :=
  .step _ _ _ _ _ _ (.call _ _ (.isThere _) _ false ⟨rfl, by rw [hn]; simp⟩) (.refl _ _)

theorem looked_run {x : Ctx} (hd : ∀ q, q <+: (configPath x).dropLast → w.names q = some .dir)
    (h : Ends os x w (writeBytes (configPath x) (enc defaultToml)) w' (.ok ())) : Ends os x w (looked x) w' (.ok (.ok ())) :=
  Ends.call (c := .createDirs _) (.ok ()) (w1 := w) ⟨⟨rfl, fun _ => .inl rfl⟩, hd⟩ (Ends.bind (Ends.bind h (Ends.ret _ _)) (Ends.ret _ _))

theorem disk1_same (p q : Path) (h : disk1.names p = none ∨ disk1.names p ≠ disk1.names q) : ¬ disk1.SameFile p q := by
  rintro ⟨i, h1, h2⟩
  rcases h with h | h
  · rw [h1] at h; cases h
  · exact h (h1.trans h2.symm)

example : ∃ w' qs, StepsN (sys True) procs disk1 (fun j => run (sys True) (procs j) (three j)) w' qs ∧ qs 0 = .ret (.ok (.ok ())) ∧
    (∀ j k, j ≠ k → (procs j).pid ≠ (procs k).pid) ∧
    (∀ p, p ∈ [configPath (procs 0), [c!"d", c!"a.md"]] ∨ footprint (procs 0) (three 0) p → ∀ j q, j ≠ 0 → footprint (procs j) (three j) q →
      p ≠ q ∧ ¬ disk1.SameFile p q) ∧ (∀ j, ¬ footprint (procs j) (three j) [c!"d", c!"a.md"]) := by
  refine ⟨_, _, (Steps.many (xs := procs) 1 (start_run (x := proc2) (f := .pdf) (input := [c!"d", c!"b.md"]) (s := c!"c") (html := c!"<p>c</p>\n") (by decide +kernel) (by decide +kernel) (by decide +kernel)) _ rfl).trans
    ((Steps.many (xs := procs) 2 (init_looks (os := sys True) (x := procs 2) (by decide +kernel)) _ rfl).trans
    (Steps.many (xs := procs) 0 (pdf_run (x := proc 1) (input := [c!"d", c!"a.md"]) (s := c!"*b*") (i := 2) (j := 3) (t := 0) (by decide +kernel) (by decide +kernel) (by decide +kernel) render_b (by decide +kernel)
    (by decide +kernel) (by decide +kernel) rfl rfl) _ rfl)), rfl, by decide, ?_, ?_⟩
  · intro p hp j q hj hq
    have hp : p ∈ [configPath (procs 0), [c!"d", c!"a.md"], [c!"d", c!"a.pdf"], [c!"d", c!"tmp.html"]] := by
      rcases hp with hp | rfl | ⟨_, rfl⟩
      · exact List.mem_append_left [[c!"d", c!"a.pdf"], [c!"d", c!"tmp.html"]] hp
      · decide +kernel
      · decide +kernel
    have hq : q ∈ [[c!"d", c!"b.pdf"], [c!"c", c!"tmp.html"], [], [c!"e"], [c!"e", c!"smd"], [c!"e", c!"smd", c!"config.toml"]] := by
      match j with
      | 0 => exact absurd rfl hj
      | 1 =>
        rcases hq with rfl | ⟨_, rfl⟩ <;> decide +kernel
      | 2 =>
        have e := List.prefix_iff_eq_take.mp hq
        have hl : q.length ≤ 3 := List.IsPrefix.length_le hq
        rw [e]
        generalize q.length = n at hl
        revert n
        decide +kernel
    have : ∀ p ∈ [configPath (procs 0), [c!"d", c!"a.md"], [c!"d", c!"a.pdf"], [c!"d", c!"tmp.html"]],
        ∀ q ∈ [[c!"d", c!"b.pdf"], [c!"c", c!"tmp.html"], [], [c!"e"], [c!"e", c!"smd"], [c!"e", c!"smd", c!"config.toml"]],
        p ≠ q ∧ (disk1.names p = none ∨ disk1.names p ≠ disk1.names q) := by decide +kernel
    exact ⟨(this p hp q hq).1, disk1_same p q (this p hp q hq).2⟩
  · intro j hq
    match j with
    | 0 => rcases hq with h | ⟨_, h⟩ <;> exact absurd h (by decide +kernel)
    | 1 => rcases hq with h | ⟨_, h⟩ <;> exact absurd h (by decide +kernel)
    | 2 =>
      have hq : [c!"d", c!"a.md"] <+: configPath (procs 2) := hq
      exact absurd hq (by decide +kernel)

/-! ### C104 -/

theorem init_writer {x : Ctx} {c : Path} (hx : configPath x = c) : Writer w (fun _ => False) c (enc defaultToml) (run os x .init) := by
  subst hx
  refine .isThere _ _ fun r => ?_
  cases r with
  | true => exact .ret _ (by intro h; cases h)
  | false =>
    refine .dirs _ _ (fun h => ?_) fun r => ?_
    · have := h.length_le
      simp [configPath] at this
    · cases r with
      | error e => exact .ret _ (by intro h; cases h)
      | ok u =>
        have e : (((writeToFile (configPath x) defaultToml).andThen fun _ => (.ret (.ok ()) : Prog (Res Unit))).bind fun r => (.ret (.ok r) : Prog End)) =
            lastProg (configPath x) (enc defaultToml) := by
          show Prog.call _ _ = Prog.call _ _
          congr 1
          funext r
          cases r with
          | error e => rfl
          | ok h =>
            show Prog.call _ _ = Prog.call _ _
            congr 1
            funext r
            cases r <;> rfl
        show Writer _ _ _ _ _
        refine cast (congrArg _ e.symm) ?_
        exact .last

/-- C104: while any number of runs of `initialize` go on at the same time, for the same configuration that did not exist,
the file is at every moment missing or holds a beginning of the default configuration, however their steps are interleaved
and whatever fails. -/
theorem C104_beginning {qs : ι → Prog End} {c : Path} (hpid : ∀ j k, j ≠ k → (xs j).pid ≠ (xs k).pid) (hc : ∀ j, configPath (xs j) = c)
    (hn : w.names c = none) (h : StepsN os xs w (fun j => run os (xs j) .init) w' qs) :
    w'.bytesAt c = none ∨ ∃ d, d <+: enc firstConfig ∧ w'.bytesAt c = some d := by
  rw [← show defaultToml = firstConfig by decide +kernel]
  have ht := (Together.start (os := os) (xs := xs) (w0 := w) (fun j => init_writer (os := os) (hc j)) (fun _ h => h.elim)).steps hpid (fun _ h => h.elim) h
  refine ht.now.imp (fun e => e.trans ?_) id
  unfold World.bytesAt
  rw [hn]

/-- C104: when all are over, one of them successfully and none with an error of the system, the file holds the whole
default configuration, if the system writes everything it is asked to write. -/
theorem C104_whole {rs : ι → End} {c : Path} {i : ι} (hfull : os.fullWrites) (hpid : ∀ j k, j ≠ k → (xs j).pid ≠ (xs k).pid)
    (hc : ∀ j, configPath (xs j) = c) (h : StepsN os xs w (fun j => run os (xs j) .init) w' fun j => .ret (rs j))
    (hi : rs i = .ok (.ok ())) (hno : ∀ j e, rs j ≠ .ok (.error (.io e))) : w'.bytesAt c = some (enc firstConfig) := by
  rw [← show defaultToml = firstConfig by decide +kernel]
  exact ((Together.start (os := os) (xs := xs) (w0 := w) (fun j => init_writer (os := os) (hc j)) (fun _ h => h.elim)).steps hpid (fun _ h => h.elim) h).end_
    hfull hi hno

/-- Two processes in the directory `/d`. -/
def pair (b : Bool) : Ctx := proc (if b then 1 else 2)

/-- Both see that there is no configuration, both write it, and both report success. -/
example : ∃ w', StepsN (sys True) pair disk1 (fun j => run (sys True) (pair j) .init) w' (fun _ => .ret (.ok (.ok ()))) ∧
    disk1.names (configPath (proc 1)) = none ∧ (∀ j, configPath (pair j) = configPath (proc 1)) := by
  have a1 := Steps.many (xs := pair) true (init_looks (os := sys True) (w := disk1) (x := proc 1) (by decide +kernel)) (fun j => run (sys True) (pair j) .init) rfl
  have a2 := Steps.many (xs := pair) false (init_looks (os := sys True) (w := disk1) (x := proc 2) (by decide +kernel)) _ rfl |> a1.trans
  have b1 := Steps.many (xs := pair) true (looked_run (os := sys True) (w := disk1) (x := proc 1) disk1_dirs
    (create_run (i := 9) (by decide +kernel) (by decide +kernel) (by decide +kernel) disk1_unused rfl (Nat.le_refl _) fun _ => rfl)) _ rfl |> a2.trans
  have b2 := Steps.many (xs := pair) false (looked_run (os := sys True) (x := proc 2) (fun q hq => by
      show (if q = configPath (proc 1) then _ else disk1.names q) = _
      rw [if_neg (fun e => by rw [e] at hq; exact absurd (List.IsPrefix.length_le hq) (by decide))]
      exact disk1_dirs q hq)
    (write_run (i := 9) (by decide +kernel) rfl (Nat.le_refl _) fun _ => rfl)) _ rfl |> b1.trans
  refine ⟨_, cast (congrArg _ ?_) b2, by decide +kernel, by decide⟩
  funext j
  cases j <;> rfl

/-! ### C105 -/

theorem html_writer {x : Ctx} {input : Path} {s html : Str} (hs : w.bytesAt input = some (enc s)) (hr : Gfm.render s = .ok html) :
    Writer w (· = input) (setExtension c!"html" input) (enc html) (run os x (.parse input .html)) := by
  have conv : Writer w (· = input) (setExtension c!"html" input) (enc html) (convert input .html) := by
    refine .read _ _ fun r h => ?_
    cases r with
    | error e => exact .ret _ (by intro h; cases h)
    | ok s' =>
      have := h s' rfl rfl
      rw [hs] at this
      have e : s' = s := (Gfm.Iter.enc_inj (by injection this)).symm
      subst e
      show Writer _ _ _ _ (withRender (Gfm.render s') _)
      rw [hr]
      have e : (orErr (writeToFile (setExtension c!"html" input) html) fun _ => .ret (.ok (.ok ()))) = lastProg (setExtension c!"html" input) (enc html) := by
        show Prog.call _ _ = Prog.call _ _
        congr 1
        funext r
        cases r with
        | error e => rfl
        | ok h =>
          show Prog.call _ _ = Prog.call _ _
          congr 1
          funext r
          cases r <;> rfl
      refine cast (congrArg _ e.symm) ?_
      exact .last
  refine .isThere _ _ fun r => ?_
  cases r with
  | false => exact conv
  | true =>
    refine .read _ _ fun r _ => ?_
    cases r with
    | error e => exact .ret _ (by intro h; cases h)
    | ok t =>
      show Writer _ _ _ _ (Prog.bind (.ret (parseFromStr os x t)) _)
      cases parseFromStr os x t with
      | error e => exact .ret _ (by intro h; cases h)
      | ok cf => exact conv

/-- C105: while any number of runs convert the same document to HTML at the same time, the output is at every moment what it
was at the start or a beginning of the HTML of the document, however their steps are interleaved and whatever fails. -/
theorem C105_beginning {qs : ι → Prog End} {input : Path} {s html : Str} (hpid : ∀ j k, j ≠ k → (xs j).pid ≠ (xs k).pid)
    (hs : w.bytesAt input = some (enc s)) (hr : Gfm.render s = .ok html) (hio : ¬ w.SameFile input (setExtension c!"html" input))
    (h : StepsN os xs w (fun j => run os (xs j) (.parse input .html)) w' qs) :
    w'.bytesAt (setExtension c!"html" input) = w.bytesAt (setExtension c!"html" input) ∨
      ∃ d, d <+: enc html ∧ w'.bytesAt (setExtension c!"html" input) = some d := by
  obtain ⟨n, hn, _⟩ := World.names_of_bytesAt hs
  exact ((Together.start (os := os) (xs := xs) (w0 := w) (fun j => html_writer hs hr) (fun p e => e ▸ hio)).steps hpid
    (fun p e e' => hio ⟨n, hn, by rw [← e', e]; exact hn⟩) h).now

/-- C105: when all are over, one of them successfully and none with an error of the system, the output is the whole HTML of
the document, if the system writes everything it is asked to write. -/
theorem C105_whole {rs : ι → End} {input : Path} {s html : Str} {i : ι} (hfull : os.fullWrites)
    (hpid : ∀ j k, j ≠ k → (xs j).pid ≠ (xs k).pid)
    (hs : w.bytesAt input = some (enc s)) (hr : Gfm.render s = .ok html) (hio : ¬ w.SameFile input (setExtension c!"html" input))
    (h : StepsN os xs w (fun j => run os (xs j) (.parse input .html)) w' fun j => .ret (rs j))
    (hi : rs i = .ok (.ok ())) (hno : ∀ j e, rs j ≠ .ok (.error (.io e))) :
    w'.bytesAt (setExtension c!"html" input) = some (enc html) := by
  obtain ⟨n, hn, _⟩ := World.names_of_bytesAt hs
  exact ((Together.start (os := os) (xs := xs) (w0 := w) (fun j => html_writer hs hr) (fun p e => e ▸ hio)).steps hpid
    (fun p e e' => hio ⟨n, hn, by rw [← e', e]; exact hn⟩) h).end_ hfull hi hno

/-- Both read the document before either writes. -/
example : ∃ w', StepsN (sys True) pair disk1 (fun j => run (sys True) (pair j) (.parse [c!"d", c!"a.md"] .html)) w' (fun _ => .ret (.ok (.ok ()))) ∧
    ¬ disk1.SameFile [c!"d", c!"a.md"] (setExtension c!"html" [c!"d", c!"a.md"]) := by
  have a1 := Steps.many (xs := pair) true (start_run (os := sys True) (x := proc 1) (w := disk1) (f := .html) (input := [c!"d", c!"a.md"]) (s := c!"*b*")
    (by decide +kernel) (by decide +kernel) render_b) (fun j => run (sys True) (pair j) (.parse [c!"d", c!"a.md"] .html)) rfl
  have a2 := Steps.many (xs := pair) false (start_run (os := sys True) (x := proc 2) (w := disk1) (f := .html) (input := [c!"d", c!"a.md"]) (s := c!"*b*")
    (by decide +kernel) (by decide +kernel) render_b) _ rfl |> a1.trans
  have b1 := Steps.many (xs := pair) true (orErr_run (os := sys True) (x := proc 1) (write_run (i := 1) (by decide +kernel) rfl (Nat.le_refl _) fun _ => rfl) (Ends.ret _ _)) _ rfl |> a2.trans
  have b2 := Steps.many (xs := pair) false (orErr_run (os := sys True) (x := proc 2) (write_run (i := 1) (by decide +kernel) rfl (Nat.le_refl _) fun _ => rfl) (Ends.ret _ _)) _ rfl |> b1.trans
  refine ⟨_, cast (congrArg _ ?_) b2, disk1_same _ _ (by decide +kernel)⟩
  funext j
  cases j <;> rfl

end Smd.App
