import Verif.Lemmas.App

/-! Executions: how runs can go. -/

namespace Smd.Core

variable {α β : Type} {os : Os} {x y : Ctx}

theorem Ends.ret (w : World) (a : α) : Ends os x w (.ret a) w a := Steps.refl w _

theorem Ends.call {w w1 w' : World} {c : Call} {k : c.Ret → Prog α} {a : α} (r : c.Ret) (h : Sem os x w c r w1) (he : Ends os x w1 (k r) w' a) :
    Ends os x w (.call c k) w' a := .step _ _ _ _ _ _ (.call _ _ _ _ r h) he

theorem Steps.trans {w w1 w2 : World} {p p1 p2 : Prog α} (h : Steps os x w p w1 p1) (h' : Steps os x w1 p1 w2 p2) : Steps os x w p w2 p2 := by
  induction h with
  | refl => exact h'
  | step w w1 w2 p p1 p2 hs _ ih => exact .step _ _ _ _ _ _ hs (ih h')

theorem Steps.bind {w w' : World} {p p' : Prog α} (h : Steps os x w p w' p') (f : α → Prog β) : Steps os x w (p.bind f) w' (p'.bind f) := by
  induction h with
  | refl => exact .refl _ _
  | step w w1 w2 p p1 p2 hs _ ih =>
    cases hs with
    | call _ _ k r hs => exact .step _ _ _ _ _ _ (.call _ _ _ _ r hs) ih

theorem Ends.bind {w w1 w' : World} {p : Prog α} {f : α → Prog β} {a : α} {b : β} (h : Ends os x w p w1 a) (h' : Ends os x w1 (f a) w' b) :
    Ends os x w (p.bind f) w' b := Steps.trans (Steps.bind h f) h'

theorem Steps.left2 {w w' : World} {p p' : Prog α} (q : Prog β) (h : Steps os x w p w' p') : Steps2 os x y w p q w' p' q := by
  induction h with
  | refl => exact .refl _ _ _
  | step w w1 w2 p p1 p2 hs _ ih => exact .left _ _ _ _ _ _ _ _ hs ih

theorem Steps.right2 {w w' : World} {q q' : Prog β} (p : Prog α) (h : Steps os y w q w' q') : Steps2 os x y w p q w' p q' := by
  induction h with
  | refl => exact .refl _ _ _
  | step w w1 w2 q q1 q2 hs _ ih => exact .right _ _ _ _ _ _ _ _ hs ih

theorem Steps2.trans {w w1 w2 : World} {p p1 p2 : Prog α} {q q1 q2 : Prog β} (h : Steps2 os x y w p q w1 p1 q1)
    (h' : Steps2 os x y w1 p1 q1 w2 p2 q2) : Steps2 os x y w p q w2 p2 q2 := by
  induction h with
  | refl => exact h'
  | left w w1 w2 p p1 p2 q q2 hs _ ih => exact .left _ _ _ _ _ _ _ _ hs (ih h')
  | right w w1 w2 p p2 q q1 q2 hs _ ih => exact .right _ _ _ _ _ _ _ _ hs (ih h')

/-- The world after `n` of the bytes have been written to a file that existed. -/
def wrote (w : World) (pid i n : Nat) (b : Bytes) : World :=
  (((w.setData i []).setHandle pid 0 (some (i, 0))).setData i (overwrite [] 0 (b.take n))).setHandle pid 0 none

theorem setHandle_setHandle (w : World) (pid h : Nat) (u v : Option (Nat × Nat)) :
    (w.setHandle pid h u).setHandle pid h v = w.setHandle pid h v := by
  unfold World.setHandle
  congr 1
  funext p g
  by_cases hp : p = pid ∧ g = h
  · simp only [if_pos hp]
  · simp only [if_neg hp]

theorem wrote_names (w : World) (pid i n : Nat) (b : Bytes) : (wrote w pid i n b).names = w.names := rfl

theorem wrote_tabs (w : World) (pid i n : Nat) (b : Bytes) : (wrote w pid i n b).tabs = w.tabs := rfl

theorem wrote_data (w : World) (pid i n : Nat) (b : Bytes) : (wrote w pid i n b).data i = b.take n := by
  show (if i = i then overwrite [] 0 (b.take n) else _) = _
  rw [if_pos rfl, overwrite_start _ _ rfl]

theorem wrote_other (w : World) (pid i n : Nat) (b : Bytes) {j : Nat} (h : j ≠ i) : (wrote w pid i n b).data j = w.data j := by
  show (if j = i then _ else if j = i then _ else w.data j) = _
  rw [if_neg h, if_neg h]

theorem wrote_handles (w : World) (pid i n : Nat) (b : Bytes) : (wrote w pid i n b).handles pid 0 = none := by
  show (if pid = pid ∧ 0 = 0 then _ else _) = _
  rw [if_pos ⟨rfl, rfl⟩]

theorem wrote_other_handles (w : World) (pid i n : Nat) (b : Bytes) {q : Nat} (h : q ≠ pid) (g : Nat) :
    (wrote w pid i n b).handles q g = w.handles q g := by
  show (if q = pid ∧ g = 0 then _ else if q = pid ∧ g = 0 then _ else w.handles q g) = _
  rw [if_neg (fun e => h e.1), if_neg (fun e => h e.1)]

/-- Writing to a file that exists. -/
theorem write_run {w : World} {p : Path} {b : Bytes} {i n : Nat} (hp : w.names p = some (.file i)) (hh : w.handles x.pid 0 = none)
    (hn : n ≤ b.length) (hf : os.fullWrites → n = b.length) : Ends os x w (writeBytes p b) (wrote w x.pid i n b) (.ok ()) := by
  refine Ends.call (c := .create p) (.ok 0) (w1 := (w.setData i []).setHandle x.pid 0 (some (i, 0))) ⟨hh, .inl ⟨i, hp, rfl⟩⟩ ?_
  refine Ends.call (c := .write 0 b) (.ok n) (w1 := (((w.setData i []).setHandle x.pid 0 (some (i, 0))).setData i (overwrite [] 0 (b.take n))).setHandle x.pid 0 (some (i, 0 + n)))
    ⟨hn, hf, i, 0, ?_, ?_⟩ ?_
  · show (if x.pid = x.pid ∧ 0 = 0 then _ else _) = _
    rw [if_pos ⟨rfl, rfl⟩]
  · have : ((w.setData i []).setHandle x.pid 0 (some (i, 0))).data i = [] := by
      show (if i = i then _ else _) = _
      rw [if_pos rfl]
    rw [this]
  · refine Ends.call (c := .close 0) () (w1 := wrote w x.pid i n b) ?_ (Ends.ret _ _)
    show wrote w x.pid i n b = _
    rw [setHandle_setHandle]
    rfl

/-- Writing to a file that did not exist. -/
theorem create_run {w : World} {p : Path} {b : Bytes} {i n : Nat} (hp : w.names p = none) (hd : p ≠ []) (hd' : w.names p.dropLast = some .dir)
    (hu : w.Unused i) (hh : w.handles x.pid 0 = none) (hn : n ≤ b.length) (hf : os.fullWrites → n = b.length) :
    Ends os x w (writeBytes p b) (wrote (w.setName p (some (.file i))) x.pid i n b) (.ok ()) := by
  refine Ends.call (c := .create p) (.ok 0) (w1 := ((w.setName p (some (.file i))).setData i []).setHandle x.pid 0 (some (i, 0)))
    ⟨hh, .inr ⟨i, hp, hd, hd', hu, rfl⟩⟩ ?_
  refine Ends.call (c := .write 0 b) (.ok n) (w1 := ((((w.setName p (some (.file i))).setData i []).setHandle x.pid 0 (some (i, 0))).setData i
    (overwrite [] 0 (b.take n))).setHandle x.pid 0 (some (i, 0 + n))) ⟨hn, hf, i, 0, ?_, ?_⟩ ?_
  · show (if x.pid = x.pid ∧ 0 = 0 then _ else _) = _
    rw [if_pos ⟨rfl, rfl⟩]
  · have : (((w.setName p (some (.file i))).setData i []).setHandle x.pid 0 (some (i, 0))).data i = [] := by
      show (if i = i then _ else _) = _
      rw [if_pos rfl]
    rw [this]
  · refine Ends.call (c := .close 0) () (w1 := wrote (w.setName p (some (.file i))) x.pid i n b) ?_ (Ends.ret _ _)
    show wrote (w.setName p (some (.file i))) x.pid i n b = _
    rw [setHandle_setHandle]
    rfl

/-- A write that fails leaves the file empty. -/
theorem write_fails {w : World} {p : Path} {b : Bytes} {i e : Nat} (hp : w.names p = some (.file i)) (hh : w.handles x.pid 0 = none) :
    Ends os x w (writeBytes p b) ((w.setData i []).setHandle x.pid 0 none) (.error (.io e)) := by
  refine Ends.call (c := .create p) (.ok 0) (w1 := (w.setData i []).setHandle x.pid 0 (some (i, 0))) ⟨hh, .inl ⟨i, hp, rfl⟩⟩ ?_
  refine Ends.call (c := .write 0 b) (.error e) (w1 := (w.setData i []).setHandle x.pid 0 (some (i, 0))) rfl ?_
  refine Ends.call (c := .close 0) () (w1 := (w.setData i []).setHandle x.pid 0 none) ?_ (Ends.ret _ _)
  show _ = _
  rw [setHandle_setHandle]

theorem read_run {w : World} {p : Path} {s : Str} (h : w.bytesAt p = some (enc s)) : Ends os x w (readToString p) w (.ok s) := by
  refine Ends.call (c := .read p) (.ok s) (w1 := w) ⟨rfl, fun t ht => ?_⟩ (Ends.ret _ _)
  cases ht
  exact h

theorem config_run {w : World} (h : w.names (configPath x) = none) : Ends os x w (loadConfig os x) w (.ok .default) := by
  refine Ends.call (c := .isThere _) false (w1 := w) ⟨rfl, ?_⟩ (Ends.ret _ _)
  rw [h]
  simp

/-- The rest of a PDF conversion when the temporary file has been written. -/
def afterWrite (dir : Path) : Prog (Res Bytes) :=
  (openFile (tmpPath dir)).andThen fun tab => (removeFile (tmpPath dir)).andThen fun _ => printToPdf tab pdfOptions

theorem pdfStart_run {w : World} {html : Str} {i n : Nat} (hp : w.names (tmpPath x.cwd) = some (.file i)) (hh : w.handles x.pid 0 = none)
    (hn : n ≤ (enc html).length) (hf : os.fullWrites → n = (enc html).length) :
    Steps os x w (fromHtml html) (wrote w x.pid i n (enc html)) (afterWrite x.cwd) := by
  refine .step _ _ _ _ _ _ (.call _ w .startBrowser _ (.ok ()) rfl) ?_
  refine .step _ _ _ _ _ _ (.call _ w .cwd _ (.ok x.cwd) ⟨rfl, fun p hp => by cases hp; rfl⟩) ?_
  exact Steps.bind (write_run (os := os) hp hh hn hf) _

theorem pdfRest_run {w : World} {i t : Nat} (hu : os.urlPath (fileUrl (tmpPath x.cwd)) = tmpPath x.cwd)
    (hp : w.names (tmpPath x.cwd) = some (.file i)) (ht : w.tabs x.pid t = none) :
    Ends os x w (afterWrite x.cwd) ((w.setTab x.pid t (some (w.data i))).setName (tmpPath x.cwd) none) (.ok (os.pdf pdfOptions (w.data i))) := by
  refine Ends.call (c := .cwd) (.ok x.cwd) (w1 := w) ⟨rfl, fun p hp => by cases hp; rfl⟩ ?_
  refine Ends.call (c := .openTab _) (.ok t) (w1 := w.setTab x.pid t (some (w.data i))) ⟨ht, w.data i, .inl ?_, rfl⟩ ?_
  · rw [hu]; exact bytesAt_file hp
  refine Ends.call (c := .remove _) (.ok ()) (w1 := (w.setTab x.pid t (some (w.data i))).setName (tmpPath x.cwd) none) ⟨⟨i, hp⟩, rfl⟩ ?_
  refine Ends.call (c := .print t pdfOptions) (.ok (os.pdf pdfOptions (w.data i))) (w1 := (w.setTab x.pid t (some (w.data i))).setName (tmpPath x.cwd) none) ⟨rfl, ?_⟩ (Ends.ret _ _)
  intro b hb
  cases hb
  refine ⟨w.data i, ?_, rfl⟩
  show (if x.pid = x.pid ∧ t = t then _ else _) = _
  rw [if_pos ⟨rfl, rfl⟩]

/-- The browser cannot open the file. -/
theorem pdfRest_fails {w : World} : Ends os x w (afterWrite x.cwd) w (.error (.browser c!"Failed to open new tab.")) := by
  refine Ends.call (c := .cwd) (.ok x.cwd) (w1 := w) ⟨rfl, fun p hp => by cases hp; rfl⟩ ?_
  exact Ends.call (c := .openTab _) (.error .newTab) (w1 := w) rfl (Ends.ret _ _)

end Smd.Core

namespace Smd.App
open Smd.Core

variable {os : Os} {x : Ctx}

theorem orErr_steps {α : Type} {w w' : World} {p p' : Prog (Res α)} (f : α → Prog End) (h : Steps os x w p w' p') :
    Steps os x w (orErr p f) w' (orErr p' f) := Steps.bind h _

theorem orErr_run {α : Type} {w w1 w' : World} {p : Prog (Res α)} {f : α → Prog End} {a : α} {r : End} (h : Ends os x w p w1 (.ok a))
    (h' : Ends os x w1 (f a) w' r) : Ends os x w (orErr p f) w' r := Ends.bind h h'

/-- A run up to the writing of the output. -/
theorem start_run {w : World} {input : Path} {s html : Str} {f : Format} (hc : w.names (configPath x) = none)
    (hi : w.bytesAt input = some (enc s)) (hr : Gfm.render s = .ok html) :
    Steps os x w (run os x (.parse input f)) w (match f with
      | .html => orErr (writeToFile (setExtension Format.html.ending input) html) fun _ => .ret (.ok (.ok ()))
      | .pdf => orErr (fromHtml html) fun converted => orErr (writeBytes (setExtension Format.pdf.ending input) converted) fun _ => .ret (.ok (.ok ()))) := by
  refine (Steps.bind (config_run hc) _).trans ?_
  refine (Steps.bind (read_run hi) _).trans ?_
  show Steps os x w (withRender (Gfm.render s) _) w _
  rw [hr]
  exact .refl _ _

theorem html_run {w : World} {input : Path} {s html : Str} {i n : Nat} (hc : w.names (configPath x) = none)
    (hi : w.bytesAt input = some (enc s)) (hr : Gfm.render s = .ok html) (ho : w.names (setExtension Format.html.ending input) = some (.file i))
    (hh : w.handles x.pid 0 = none) (hn : n ≤ (enc html).length) (hf : os.fullWrites → n = (enc html).length) :
    Ends os x w (run os x (.parse input .html)) (wrote w x.pid i n (enc html)) (.ok (.ok ())) :=
  (start_run hc hi hr).trans ((write_run ho hh hn hf).bind (Ends.ret _ _))

/-- The world after a PDF conversion. -/
def printed (x : Ctx) (w : World) (i t : Nat) (html : Str) : World :=
  ((wrote w x.pid i (enc html).length (enc html)).setTab x.pid t (some (enc html))).setName (tmpPath x.cwd) none

theorem fromHtml_run {w : World} {html : Str} {i t : Nat} (hu : os.urlPath (fileUrl (tmpPath x.cwd)) = tmpPath x.cwd)
    (hp : w.names (tmpPath x.cwd) = some (.file i)) (hh : w.handles x.pid 0 = none) (ht : w.tabs x.pid t = none) :
    Ends os x w (fromHtml html) (printed x w i t html) (.ok (os.pdf pdfOptions (enc html))) := by
  have h := (pdfStart_run (os := os) hp hh (Nat.le_refl (enc html).length) fun _ => rfl).trans
    (pdfRest_run (os := os) (t := t) hu (by exact hp) (by exact ht))
  rw [wrote_data, List.take_length] at h
  exact h

theorem pdf_run {w : World} {input : Path} {s html : Str} {i j t : Nat} (hc : w.names (configPath x) = none)
    (hu : os.urlPath (fileUrl (tmpPath x.cwd)) = tmpPath x.cwd)
    (hi : w.bytesAt input = some (enc s)) (hr : Gfm.render s = .ok html) (hp : w.names (tmpPath x.cwd) = some (.file i))
    (ho : w.names (setExtension Format.pdf.ending input) = some (.file j)) (hne : setExtension Format.pdf.ending input ≠ tmpPath x.cwd)
    (hh : w.handles x.pid 0 = none) (ht : w.tabs x.pid t = none) :
    Ends os x w (run os x (.parse input .pdf))
      (wrote (printed x w i t html) x.pid j (os.pdf pdfOptions (enc html)).length (os.pdf pdfOptions (enc html))) (.ok (.ok ())) := by
  refine (start_run hc hi hr).trans ((fromHtml_run hu hp hh ht).bind ?_)
  refine (write_run (os := os) ?_ ?_ (Nat.le_refl _) fun _ => rfl).bind (Ends.ret _ _)
  · show (if _ then _ else _) = _
    rw [if_neg hne]
    exact ho
  · exact wrote_handles _ _ _ _ _

theorem html_run_fails {w : World} {input : Path} {s html : Str} {i e : Nat} (hc : w.names (configPath x) = none)
    (hi : w.bytesAt input = some (enc s)) (hr : Gfm.render s = .ok html) (ho : w.names (setExtension Format.html.ending input) = some (.file i))
    (hh : w.handles x.pid 0 = none) :
    Ends os x w (run os x (.parse input .html)) ((w.setData i []).setHandle x.pid 0 none) (.ok (.error (.io e))) :=
  (start_run hc hi hr).trans ((write_fails ho hh).bind (Ends.ret _ _))

end Smd.App
