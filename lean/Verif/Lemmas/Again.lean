import Verif.Lemmas.Exec

/-! A conversion depends on the process by its number and working directory only; programs one after the other. -/

namespace Smd.Core

variable {α β : Type} {os os' : Os} {x y : Ctx}

/-- The execution of a program followed by another is one of each. -/
theorem Ends.bind_inv {f : α → Prog β} {b : β} : ∀ {p : Prog α} {w w' : World}, Ends os x w (p.bind f) w' b →
    ∃ w1 a, Ends os x w p w1 a ∧ Ends os x w1 (f a) w' b
  | .ret a, w, w', h => ⟨w, a, .ret w a, h⟩
  | .call c k, w, w', h => by
    cases h with
    | step _ w1 _ _ p1 _ h hs =>
      cases h with
      | call _ _ _ r hsem =>
        obtain ⟨w2, a, h1, h2⟩ := Ends.bind_inv (p := k r) hs
        exact ⟨w2, a, .call r hsem h1, h2⟩

/-- Systems that differ at most in how they read configurations. -/
structure SameSys (os os' : Os) : Prop where
  full : os.fullWrites ↔ os'.fullWrites
  pdf : os.pdf = os'.pdf
  url : os.urlPath = os'.urlPath

/-- Processes that differ at most in their environment variables and directory of configurations. -/
structure SameProc (x y : Ctx) : Prop where
  pid : x.pid = y.pid
  cwd : x.cwd = y.cwd

theorem SameSys.symm (h : SameSys os os') : SameSys os' os := ⟨h.full.symm, h.pdf.symm, h.url.symm⟩

theorem SameProc.symm (h : SameProc x y) : SameProc y x := ⟨h.pid.symm, h.cwd.symm⟩

theorem Sem.same (hs : SameSys os os') (hx : SameProc x y) {w w' : World} {c : Call} {r : c.Ret} (h : Sem os x w c r w') : Sem os' y w c r w' := by
  obtain ⟨full, pdf, toml, url⟩ := os
  obtain ⟨full', pdf', toml', url'⟩ := os'
  obtain ⟨h1, h2, h3⟩ := hs
  obtain ⟨pid, cwd, cd, env⟩ := x
  obtain ⟨pid', cwd', cd', env'⟩ := y
  obtain ⟨h4, h5⟩ := hx
  simp only at h1 h2 h3 h4 h5
  have h1 : full = full' := propext h1
  subst h1 h2 h3 h4 h5
  cases c with
  | create p => cases r <;> exact h
  | write g b => cases r <;> exact h
  | createDirs p => cases r <;> exact h
  | remove p => cases r <;> exact h
  | openTab u => cases r <;> exact h
  | _ => exact h

theorem Steps.same (hs : SameSys os os') (hx : SameProc x y) {w w' : World} {p p' : Prog α} (h : Steps os x w p w' p') : Steps os' y w p w' p' := by
  induction h with
  | refl => exact .refl _ _
  | step w w1 w2 p p1 p2 h _ ih =>
    cases h with
    | call _ _ _ _ h => exact .step _ _ _ _ _ _ (.call _ _ _ _ _ (h.same hs hx)) ih

end Smd.Core

namespace Smd.App
open Smd.Core

variable {os : Os} {x : Ctx} {w w' : World}

/-- A conversion is loading the configuration and then converting, whatever has been loaded. -/
theorem run_inv {input : Path} {f : Format} {r : End} (h : Ends os x w (run os x (.parse input f)) w' r) :
    (∃ w1 c, Ends os x w (loadConfig os x) w1 (.ok c) ∧ Ends os x w1 (convert input f) w' r) ∨
    ∃ e, Ends os x w (loadConfig os x) w' (.error e) ∧ r = .ok (.error e) := by
  obtain ⟨w1, a, h1, h2⟩ := Ends.bind_inv h
  cases a with
  | ok c => exact .inl ⟨w1, c, h1, h2⟩
  | error e =>
    cases h2 with
    | refl => exact .inr ⟨e, h1, rfl⟩
    | step _ _ _ _ _ _ h _ => cases h

/-- The result of a step with `?`, if it is a success. -/
theorem orErr_inv {α : Type} {p : Prog (Res α)} {f : α → Prog End} (h : Ends os x w (orErr p f) w' (.ok (.ok ()))) :
    ∃ w1 a, Ends os x w p w1 (.ok a) ∧ Ends os x w1 (f a) w' (.ok (.ok ())) := by
  obtain ⟨w1, a, h1, h2⟩ := Ends.bind_inv h
  cases a with
  | ok c => exact ⟨w1, c, h1, h2⟩
  | error e =>
    cases h2 with
    | step _ _ _ _ _ _ h _ => cases h

theorem ret_inv {α : Type} {a b : α} (h : Ends os x w (.ret a) w' b) : w' = w ∧ b = a := by
  cases h with
  | refl => exact ⟨rfl, rfl⟩
  | step _ _ _ _ _ _ h _ => cases h

theorem call_inv {α : Type} {c : Call} {k : c.Ret → Prog α} {b : α} (h : Ends os x w (.call c k) w' b) :
    ∃ w1 r, Sem os x w c r w1 ∧ Ends os x w1 (k r) w' b := by
  cases h with
  | step _ w1 _ _ p1 _ h hs =>
    cases h with
    | call _ _ _ r hsem => exact ⟨w1, r, hsem, hs⟩

/-- The result of a step with `?`. -/
theorem andThen_inv {α β : Type} {p : Prog (Res α)} {f : α → Prog (Res β)} {r : Res β} (h : Ends os x w (p.andThen f) w' r) :
    (∃ w1 a, Ends os x w p w1 (.ok a) ∧ Ends os x w1 (f a) w' r) ∨ ∃ e, Ends os x w p w' (.error e) ∧ r = .error e := by
  obtain ⟨w1, a, h1, h2⟩ := Ends.bind_inv h
  cases a with
  | ok c => exact .inl ⟨w1, c, h1, h2⟩
  | error e =>
    obtain ⟨rfl, rfl⟩ := ret_inv h2
    exact .inr ⟨e, h1, rfl⟩

theorem write_error {p : Path} {b : Bytes} {e : Error} (h : Ends os x w (writeBytes p b) w' (.error e)) : ∃ e', e = .io e' := by
  obtain ⟨w1, r, _, h⟩ := call_inv h
  cases r with
  | error e' => cases (ret_inv h).2; exact ⟨_, rfl⟩
  | ok g =>
    obtain ⟨w2, r, _, h⟩ := call_inv h
    obtain ⟨w3, _, _, h⟩ := call_inv h
    obtain ⟨_, hr⟩ := ret_inv h
    cases r with
    | error e' => cases hr; exact ⟨_, rfl⟩
    | ok n => cases hr

/-- Writing to a file that is there changes the content of this file. -/
theorem write_inv {p : Path} {b : Bytes} {i : Nat} (hfull : os.fullWrites) (hp : w.names p = some (.file i))
    (h : Ends os x w (writeBytes p b) w' (.ok ())) : w'.names = w.names ∧ w'.data = fun j => if j = i then b else w.data j := by
  obtain ⟨w1, r, hs, h⟩ := call_inv h
  cases r with
  | error e => cases (ret_inv h).2
  | ok g =>
    obtain ⟨_, ⟨i', e, rfl⟩ | ⟨i', e, _⟩⟩ := hs
    · cases hp.symm.trans e
      obtain ⟨w2, r, hs, h⟩ := call_inv h
      obtain ⟨w3, _, hc, h⟩ := call_inv h
      obtain ⟨rfl, hr⟩ := ret_inv h
      cases r with
      | error e => cases hr
      | ok n =>
        obtain ⟨_, hn, j, o, hj, rfl⟩ := hs
        have hj : (if x.pid = x.pid ∧ g = g then some (i, 0) else w.handles x.pid g) = some (j, o) := hj
        rw [if_pos ⟨rfl, rfl⟩] at hj
        cases hj
        have hc : w' = _ := hc
        subst hc
        refine ⟨rfl, ?_⟩
        funext j
        show (if j = i then overwrite (if i = i then [] else w.data i) 0 (b.take n) else if j = i then [] else w.data j) = _
        rw [hn hfull, List.take_length, if_pos rfl]
        split
        · simp [overwrite]
        · rfl
    · rw [hp] at e
      cases e

theorem write_names {p q : Path} {b : Bytes} {r : Res Unit} (hq : q ≠ p) (h : Ends os x w (writeBytes p b) w' r) : w'.names q = w.names q := by
  obtain ⟨w1, r, hs, h⟩ := call_inv h
  cases r with
  | error e => rw [(ret_inv h).1, show w1 = w from hs]
  | ok g =>
    have e1 : w1.names q = w.names q := by
      obtain ⟨_, ⟨i', e, rfl⟩ | ⟨i', e, _, _, _, rfl⟩⟩ := hs
      · rfl
      · show (if q = p then _ else _) = _
        rw [if_neg hq]
    obtain ⟨w2, r, hs, h⟩ := call_inv h
    obtain ⟨w3, _, hc, h⟩ := call_inv h
    have hc : w3 = _ := hc
    rw [(ret_inv h).1, hc, ← e1]
    cases r with
    | error e => rw [show w2 = w1 from hs]; rfl
    | ok n =>
      obtain ⟨_, _, _, _, _, rfl⟩ := hs
      rfl

/-- A successful conversion, step by step. -/
theorem success_inv {input : Path} {f : Format} (h : Ends os x w (run os x (.parse input f)) w' (.ok (.ok ()))) :
    ∃ s html, w.bytesAt input = some (enc s) ∧ Gfm.render s = .ok html ∧ match f with
      | .html => Ends os x w (writeToFile (setExtension Format.html.ending input) html) w' (.ok ())
      | .pdf => ∃ w1 b, Ends os x w (fromHtml html) w1 (.ok b) ∧ Ends os x w1 (writeBytes (setExtension Format.pdf.ending input) b) w' (.ok ()) := by
  obtain ⟨w1, c, h1, h3⟩ := orErr_inv h
  have e : w = w1 := ((loadConfig_holds (P := fun _ => True) .alone trivial w).ends h1).1
  subst e
  obtain ⟨w1, s, h1, h4⟩ := orErr_inv h3
  obtain ⟨w2, r, hs, h1⟩ := call_inv h1
  obtain ⟨rfl, hr⟩ := ret_inv h1
  obtain ⟨rfl, hs⟩ := hs
  have hs : w1.bytesAt input = some (enc s) := by
    cases r with
    | ok s' => cases hr; exact hs _ rfl
    | error e => cases hr
  cases hrd : Gfm.render s with
  | ok html =>
    refine ⟨s, html, hs, hrd, ?_⟩
    rw [hrd] at h4
    cases f with
    | html =>
      obtain ⟨w2, _, h1, h⟩ := orErr_inv h4
      cases (ret_inv h).1
      exact h1
    | pdf =>
      obtain ⟨w2, b, h1, h⟩ := orErr_inv h4
      obtain ⟨w3, _, h2, h⟩ := orErr_inv h
      cases (ret_inv h).1
      exact ⟨w2, b, h1, h2⟩
  | panic => rw [hrd] at h4; cases (ret_inv h4).2
  | hang => rw [hrd] at h4; cases (ret_inv h4).2
  | fuelOut => rw [hrd] at h4; cases (ret_inv h4).2

theorem convert_read_fails (input : Path) (f : Format) (w : World) (e : IoErr) :
    Ends os x w (convert input f) w (.ok (.error (.io e))) :=
  .call (.error e) ⟨rfl, nofun⟩ (.ret w _)

end Smd.App
