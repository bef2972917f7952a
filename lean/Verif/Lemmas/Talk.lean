import Verif.App.Talk
import Verif.Lemmas.App
import Verif.Lemmas.Exec
import Verif.Spec.Lines

/-! Programs that log, with and without their log calls. -/

namespace Smd.Core
open Smd.App Smd.Spec

variable {α β : Type} {os : Os} {x : Ctx}

/-- `gfm` uses `warn!` and `debug!` only. -/
theorem Texts.quiet (g : Texts) (s : Str) : ∀ l ∈ g.render s, l.level = .warn ∨ l.level = .debug := by
  intro l hl
  obtain ⟨n, _, rfl⟩ := List.mem_map.mp hl
  unfold noteLine
  cases n.warn
  · exact .inr rfl
  · exact .inl rfl

/-! ### Without the log calls -/

theorem erase_bind (f : α → LProg β) : ∀ p : LProg α, (p.bind f).erase = p.erase.bind fun a => (f a).erase
  | .ret a => rfl
  | .say l k => erase_bind f k
  | .call c k => by
    simp only [LProg.bind, LProg.erase, Prog.bind]
    congr
    funext r
    exact erase_bind f (k r)

theorem erase_sayAll (k : LProg α) : ∀ ls : List Line, (LProg.sayAll ls k).erase = k.erase
  | [] => rfl
  | _ :: ls => erase_sayAll k ls

theorem erase_andThen (p : LProg (Res α)) (f : α → LProg (Res β)) : (p.andThen f).erase = p.erase.andThen fun a => (f a).erase := by
  unfold LProg.andThen Prog.andThen
  rw [erase_bind]
  congr
  funext r
  cases r <;> rfl

theorem erase_orErr (p : LProg (Res α)) (f : α → LProg End) : (orErrL p f).erase = orErr p.erase fun a => (f a).erase := by
  unfold orErrL orErr
  rw [erase_bind]
  congr
  funext r
  cases r <;> rfl

theorem bind_ret : ∀ p : Prog α, (p.bind fun a => .ret a) = p
  | .ret a => rfl
  | .call c k => by
    simp only [Prog.bind]
    congr
    funext r
    exact bind_ret (k r)

theorem erase_readToStringL (p : Path) : (readToStringL p).erase = readToString p := by
  simp only [readToStringL, LProg.erase, readToString]
  congr
  funext r
  cases r <;> rfl

theorem erase_writeL (p : Path) (b : Bytes) (m : Nat → Str) : (writeL p b m).erase = writeBytes p b := by
  simp only [writeL, LProg.erase, writeBytes]
  congr
  funext r
  cases r with
  | error e => rfl
  | ok h =>
    simp only [LProg.erase]
    congr
    funext r
    cases r <;> rfl

theorem erase_writeToFileL (p : Path) (s : Str) : (writeToFileL p s).erase = writeToFile p s := erase_writeL _ _ _

theorem erase_writeBytesL (p : Path) (b : Bytes) : (writeBytesL p b).erase = writeBytes p b := erase_writeL _ _ _

theorem erase_loadConfigL : (loadConfigL os x).erase = loadConfig os x := by
  simp only [loadConfigL, LProg.erase, loadConfig]
  congr
  funext r
  cases r with
  | false => rfl
  | true => simp only [erase_andThen, erase_readToStringL, LProg.erase]

theorem erase_initConfigL : (initConfigL x).erase = initConfig x := by
  simp only [initConfigL, LProg.erase, initConfig]
  congr
  funext r
  cases r with
  | true => rfl
  | false =>
    simp only [LProg.erase]
    congr
    funext r
    cases r with
    | error e => rfl
    | ok u => simp only [erase_andThen, erase_writeToFileL, LProg.erase]

theorem erase_browserInitL : browserInitL.erase = browserInit := by
  simp only [browserInitL, LProg.erase, browserInit]
  congr
  funext r
  cases r <;> rfl

theorem erase_openFileL (p : Path) : (openFileL p).erase = openFile p := by
  simp only [openFileL, LProg.erase, openFile]
  congr
  funext r
  cases r with
  | error e => rfl
  | ok d =>
    simp only [LProg.erase]
    congr
    funext r
    cases r <;> rfl

theorem erase_printToPdfL (t : Nat) (o : PrintOptions) : (printToPdfL t o).erase = printToPdf t o := by
  simp only [printToPdfL, LProg.erase, printToPdf]
  congr
  funext r
  cases r <;> rfl

theorem erase_fromHtmlL (html : Str) : (fromHtmlL html).erase = fromHtml html := by
  simp only [fromHtmlL, fromHtml, erase_andThen, erase_browserInitL, erase_writeToFileL, erase_openFileL, erase_printToPdfL,
    removeFileL, removeFile, LProg.erase]

theorem erase_convertL (g : Texts) (input : Path) (f : Format) : (convertL g input f).erase = convert input f := by
  simp only [convertL, convert, erase_orErr, erase_readToStringL, LProg.erase, erase_sayAll]
  congr
  funext s
  cases Gfm.render s with
  | ok html =>
    simp only [withRenderL, withRender]
    cases f <;> simp only [erase_orErr, erase_writeToFileL, erase_fromHtmlL, erase_writeBytesL, LProg.erase]
  | panic => rfl
  | hang => rfl
  | fuelOut => rfl

/-- Without its log calls, the program that logs is the program. -/
theorem erase_mainL (g : Texts) (cmd : Command) : (mainL g os x cmd).erase = run os x cmd := by
  have h : (runL g os x cmd).erase = run os x cmd := by
    cases cmd with
    | init => simp only [runL, run, erase_bind, erase_initConfigL, LProg.erase]
    | parse input f => simp only [runL, run, erase_orErr, erase_loadConfigL, erase_convertL]
  unfold mainL
  rw [erase_bind, h]
  refine Eq.trans ?_ (bind_ret (run os x cmd))
  congr
  funext r
  cases r with
  | ok r => cases r <;> rfl
  | panic => rfl
  | hang => rfl
  | fuelOut => rfl

theorem LSteps.erase {w w' : World} {o o' : List Line} {p p' : LProg α} (h : LSteps os x w o p w' o' p') :
    Steps os x w p.erase w' p'.erase := by
  induction h with
  | refl => exact .refl _ _
  | step w w1 w2 o o1 o2 p p1 p2 h _ ih =>
    cases h with
    | say => exact ih
    | call _ _ c k r h => exact .step _ _ _ _ _ _ (.call _ _ c _ r h) ih

theorem LSteps.trans {w w1 w2 : World} {o o1 o2 : List Line} {p p1 p2 : LProg α} (h : LSteps os x w o p w1 o1 p1)
    (g : LSteps os x w1 o1 p1 w2 o2 p2) : LSteps os x w o p w2 o2 p2 := by
  induction h with
  | refl => exact g
  | step _ _ _ _ _ _ _ _ _ h _ ih => exact .step _ _ _ _ _ _ _ _ _ h (ih g)

/-- Every execution of the program is one of the program that logs. -/
theorem lsteps_of_ends : ∀ (p : LProg α) {w w' : World} {a : α} (o : List Line), Ends os x w p.erase w' a →
    ∃ o', LSteps os x w o p w' o' (.ret a)
  | .ret b, w, w', a, o, h => by
    unfold Ends LProg.erase at h
    cases h with
    | refl => exact ⟨o, .refl _ _ _⟩
    | step _ _ _ _ _ _ h => cases h
  | .say l k, w, w', a, o, h => by
    obtain ⟨o', h'⟩ := lsteps_of_ends k (o ++ [l]) h
    exact ⟨o', .step _ _ _ _ _ _ _ _ _ (.say _ _ _ _) h'⟩
  | .call c k, w, w', a, o, h => by
    unfold Ends LProg.erase at h
    cases h with
    | step _ w1 _ _ _ _ h hs =>
      cases h with
      | call _ _ _ r h =>
        obtain ⟨o', h'⟩ := lsteps_of_ends (k r) o hs
        exact ⟨o', .step _ _ _ _ _ _ _ _ _ (.call _ _ _ _ _ _ h) h'⟩

/-! ### What is said -/

/-- Whatever the system answers, the program ends with a result, in a state, and having said lines that satisfy `Q`. -/
def LHolds (os : Os) (x : Ctx) (Q : α → World → List Line → Prop) : LProg α → World → Prop
  | .ret a, w => Q a w []
  | .say l k, w => LHolds os x (fun a w o => Q a w (l :: o)) k w
  | .call c k, w => ∀ r w', Sem os x w c r w' → LHolds os x Q (k r) w'

theorem LHolds.mono : ∀ {p : LProg α} {Q Q' : α → World → List Line → Prop} {w : World}, (∀ a w o, Q a w o → Q' a w o) →
    LHolds os x Q p w → LHolds os x Q' p w
  | .ret a, _, _, w, hq, h => hq a w [] h
  | .say l k, _, _, _, hq, h => LHolds.mono (p := k) (fun a w o => hq a w (l :: o)) h
  | .call _ k, _, _, _, hq, h => fun r w' hs => LHolds.mono (p := k r) hq (h r w' hs)

theorem LHolds.bind : ∀ {p : LProg α} {f : α → LProg β} {Q : β → World → List Line → Prop} {w : World},
    LHolds os x (fun a w o => LHolds os x (fun b w o' => Q b w (o ++ o')) (f a) w) p w → LHolds os x Q (p.bind f) w
  | .ret _, _, _, _, h => h
  | .say _ k, _, _, _, h => LHolds.bind (p := k) h
  | .call _ k, _, _, _, h => fun r w' hs => LHolds.bind (p := k r) (h r w' hs)

theorem LHolds.sayAll {k : LProg α} : ∀ {ls : List Line} {Q : α → World → List Line → Prop} {w : World},
    LHolds os x (fun a w o => Q a w (ls ++ o)) k w → LHolds os x Q (LProg.sayAll ls k) w
  | [], _, _, h => h
  | l :: ls, Q, _, h => LHolds.sayAll (ls := ls) (Q := fun a w o => Q a w (l :: o)) h

theorem LHolds.andThen {p : LProg (Res α)} {f : α → LProg (Res β)} {Q : Res β → World → List Line → Prop} {w : World}
    (h : LHolds os x (fun r w o => match r with
      | .ok a => LHolds os x (fun b w o' => Q b w (o ++ o')) (f a) w
      | .error e => Q (.error e) w o) p w) : LHolds os x Q (p.andThen f) w := by
  refine LHolds.bind (LHolds.mono ?_ h)
  intro r w o h
  cases r with
  | ok a => exact h
  | error e =>
    show Q _ _ (o ++ [])
    rw [List.append_nil]
    exact h

theorem LHolds.orErr {p : LProg (Res α)} {f : α → LProg End} {Q : End → World → List Line → Prop} {w : World}
    (h : LHolds os x (fun r w o => match r with
      | .ok a => LHolds os x (fun b w o' => Q b w (o ++ o')) (f a) w
      | .error e => Q (.ok (.error e)) w o) p w) : LHolds os x Q (orErrL p f) w := by
  refine LHolds.bind (LHolds.mono ?_ h)
  intro r w o h
  cases r with
  | ok a => exact h
  | error e =>
    show Q _ _ (o ++ [])
    rw [List.append_nil]
    exact h

theorem LHolds.steps {p p' : LProg α} {w w' : World} {o o' : List Line} (hs : LSteps os x w o p w' o' p') :
    ∀ {Q : α → World → List Line → Prop}, LHolds os x (fun a w u => Q a w (o ++ u)) p w → LHolds os x (fun a w u => Q a w (o' ++ u)) p' w' := by
  induction hs with
  | refl => exact fun h => h
  | step w w1 w2 o o1 o2 p p1 p2 h _ ih =>
    intro Q hh
    refine ih (Q := Q) ?_
    cases h with
    | say _ l k =>
      have : LHolds os x (fun a w u => Q a w (o ++ l :: u)) p1 w := hh
      simpa using this
    | call _ _ c k r h => exact hh r w1 h

theorem LHolds.ends {p : LProg α} {w w' : World} {o : List Line} {a : α} {Q : α → World → List Line → Prop} (h : LHolds os x Q p w)
    (he : LEnds os x w p w' o a) : Q a w' o := by
  have := LHolds.steps he (Q := Q) (by simpa using h)
  simpa [LHolds] using this

/-! ### The lines of each part -/

/-- The lines of reading a file. -/
def readLines (p : Path) (ok : Bool) : List Line :=
  [fsLine .debug (c!"Attempting to read file: " ++ pathStr p),
    if ok then fsLine .info (c!"Successfully read file: " ++ pathStr p) else fsLine .error (c!"Failed to read file: " ++ pathStr p)]

theorem readToStringL_holds (p : Path) (w : World) :
    LHolds os x (fun r w' o => w' = w ∧ match r with
      | .ok s => w.bytesAt p = some (enc s) ∧ o = readLines p true
      | .error e => (∃ e', e = .io e') ∧ o = readLines p false) (readToStringL p) w := by
  intro r w' ⟨h1, h2⟩
  subst h1
  cases r with
  | ok s => exact ⟨rfl, h2 s rfl, rfl⟩
  | error e => exact ⟨rfl, ⟨e, rfl⟩, rfl⟩

/-- The line in front of a write. -/
def writeLine (p : Path) : Line := fsLine .debug (c!"Attempting to write file: " ++ pathStr p)

/-- What has happened to an open file when it has been written. -/
def OpenEndL (os : Os) (p : Path) (b : Bytes) (m : Nat → Str) (r : Res Unit) (w' : World) (o : List Line) : Prop :=
  match r with
  | .ok _ => ∃ n, n ≤ b.length ∧ (os.fullWrites → n = b.length) ∧ w'.bytesAt p = some (b.take n) ∧ o = [fsLine .info (m n)]
  | .error e => (∃ e', e = .io e') ∧ w'.bytesAt p = some [] ∧ o = [fsLine .error (c!"Failed to write file: " ++ pathStr p)]

/-- What has happened when a file has been written. -/
def WriteEndL (os : Os) (p : Path) (b : Bytes) (m : Nat → Str) (w : World) (r : Res Unit) (w' : World) (o : List Line) : Prop :=
  match r with
  | .ok _ => ∃ n, n ≤ b.length ∧ (os.fullWrites → n = b.length) ∧ w'.bytesAt p = some (b.take n) ∧ o = [writeLine p, fsLine .info (m n)]
  | .error e => (∃ e', e = .io e') ∧ ((w' = w ∧ o = [writeLine p]) ∨
      (w'.bytesAt p = some [] ∧ o = [writeLine p, fsLine .error (c!"Failed to write file: " ++ pathStr p)]))

theorem writeL_open (p : Path) (b : Bytes) (m : Nat → Str) (w1 : World) (h i : Nat) (hn : w1.names p = some (.file i))
    (hd : w1.data i = []) (hh : w1.handles x.pid h = some (i, 0)) :
    LHolds os x (OpenEndL os p b m) (.call (.write h b) fun
        | .ok n => .say (fsLine .info (m n)) (.call (.close h) fun _ => .ret (.ok ()))
        | .error e => .say (fsLine .error (c!"Failed to write file: " ++ pathStr p)) (.call (.close h) fun _ => .ret (.error (.io e)))) w1 := by
  intro r w2 hs
  cases r with
  | error e =>
    have e2 : w2 = w1 := hs
    subst e2
    intro _ w3 e3
    have e3 : w3 = w2.setHandle x.pid h none := e3
    subst e3
    refine ⟨⟨e, rfl⟩, ?_, rfl⟩
    show w2.bytesAt p = _
    rw [bytesAt_file hn, hd]
  | ok n =>
    obtain ⟨hle, hfull, j, o, ej, rfl⟩ := hs
    rw [hh] at ej
    cases ej
    intro _ w3 e3
    have e3 : w3 = _ := e3
    subst e3
    refine ⟨n, hle, hfull, ?_, rfl⟩
    rw [bytesAt_file (i := i) (by exact hn)]
    show some (if i = i then overwrite (w1.data i) 0 (b.take n) else _) = _
    rw [if_pos rfl, overwrite_start _ _ hd]

theorem writeL_holds (p : Path) (b : Bytes) (m : Nat → Str) (w : World) :
    LHolds os x (WriteEndL os p b m w) (writeL p b m) w := by
  intro r w1 hs
  cases r with
  | error e =>
    have e1 : w1 = w := hs
    subst e1
    exact ⟨⟨e, rfl⟩, .inl ⟨rfl, rfl⟩⟩
  | ok h =>
    have key : ∀ i, w1.names p = some (.file i) → w1.data i = [] → w1.handles x.pid h = some (i, 0) → LHolds os x (fun r w' o => WriteEndL os p b m w r w' (writeLine p :: o)) _ w1 :=
      fun i h1 h2 h3 => (writeL_open (os := os) p b m w1 h i h1 h2 h3).mono fun r w' o hq => by
        cases r with
        | ok u =>
          obtain ⟨n, a1, a2, a3, rfl⟩ := hq
          exact ⟨n, a1, a2, a3, rfl⟩
        | error e =>
          obtain ⟨a1, a2, rfl⟩ := hq
          exact ⟨a1, .inr ⟨a2, rfl⟩⟩
    obtain ⟨_, ⟨i, e, rfl⟩ | ⟨i, e, _, _, _, rfl⟩⟩ := hs
    · refine key i ?_ ?_ ?_
      · exact e
      · show (if i = i then [] else _) = _
        rw [if_pos rfl]
      · show (if x.pid = x.pid ∧ h = h then _ else _) = _
        rw [if_pos ⟨rfl, rfl⟩]
    · refine key i ?_ ?_ ?_
      · show (if p = p then _ else _) = _
        rw [if_pos rfl]
      · show (if i = i then [] else _) = _
        rw [if_pos rfl]
      · show (if x.pid = x.pid ∧ h = h then _ else _) = _
        rw [if_pos ⟨rfl, rfl⟩]

/-- The lines of loading the configuration. -/
def configLines (x : Ctx) (w : World) : List Line := if w.names (configPath x) = none then [] else readLines (configPath x) true

theorem loadConfigL_holds (w : World) :
    LHolds os x (fun r w' o => w' = w ∧ match r with
      | .ok _ => o = configLines x w
      | .error e => w.names (configPath x) ≠ none ∧ ((e = .configRead ∧ o = readLines (configPath x) true) ∨
          ((∃ e', e = .io e') ∧ o = readLines (configPath x) false))) (loadConfigL os x) w := by
  intro r w' ⟨h1, h2⟩
  subst h1
  cases r with
  | false =>
    refine ⟨rfl, ?_⟩
    have : w'.names (configPath x) = none := by
      by_cases h : w'.names (configPath x) = none
      · exact h
      · exact absurd (h2.mpr h) (by simp)
    show [] = configLines x w'
    rw [configLines, if_pos this]
  | true =>
    have hn : w'.names (configPath x) ≠ none := h2.mp rfl
    refine LHolds.andThen ((readToStringL_holds _ _).mono ?_)
    intro r w1 o ⟨e1, hr⟩
    subst e1
    cases r with
    | error e => exact ⟨rfl, hn, .inr hr⟩
    | ok s =>
      refine ⟨rfl, ?_⟩
      rw [List.append_nil, hr.2]
      cases hp : parseFromStr os x s with
      | ok c => simp only [configLines, if_neg hn]
      | error e =>
        refine ⟨hn, .inl ⟨?_, rfl⟩⟩
        unfold parseFromStr at hp
        split at hp
        · exact (Except.error.inj hp).symm
        · simp only at hp
          split at hp
          · cases hp
          · exact (Except.error.inj hp).symm

/-! ### Errors are said when there are some -/

/-- No line is an error. -/
def NoErr (o : List Line) : Prop := ∀ l ∈ o, l.level ≠ .error

theorem NoErr.nil : NoErr [] := nofun

theorem NoErr.cons {l : Line} {o : List Line} (h : l.level ≠ .error) (g : NoErr o) : NoErr (l :: o) :=
  List.forall_mem_cons.mpr ⟨h, g⟩

theorem NoErr.append {o o' : List Line} (h : NoErr o) (g : NoErr o') : NoErr (o ++ o') :=
  List.forall_mem_append.mpr ⟨h, g⟩

/-- If the program ends well, it has not said that there is an error. -/
def Calm (os : Os) (x : Ctx) (p : LProg (Res α)) : Prop := ∀ w, LHolds os x (fun r _ o => ∀ a, r = .ok a → NoErr o) p w

def CalmEnd (os : Os) (x : Ctx) (p : LProg End) : Prop := ∀ w, LHolds os x (fun r _ o => (∀ e, r ≠ .ok (.error e)) → NoErr o) p w

theorem Calm.ret (r : Res α) : Calm os x (.ret r) := fun _ _ _ => .nil

theorem Calm.call {c : Call} {k : c.Ret → LProg (Res α)} (h : ∀ r, Calm os x (k r)) : Calm os x (.call c k) := fun _ r w' _ => h r w'

theorem Calm.andThen {p : LProg (Res α)} {f : α → LProg (Res β)} (h : Calm os x p) (hf : ∀ a, Calm os x (f a)) : Calm os x (p.andThen f) := by
  intro w
  refine LHolds.andThen ((h w).mono ?_)
  intro r w' o hr
  cases r with
  | ok a => exact (hf a w').mono fun r w' o' h' b hb => (hr a rfl).append (h' b hb)
  | error e => exact nofun

theorem Calm.orErr {p : LProg (Res α)} {f : α → LProg End} (h : Calm os x p) (hf : ∀ a, CalmEnd os x (f a)) : CalmEnd os x (orErrL p f) := by
  intro w
  refine LHolds.orErr ((h w).mono ?_)
  intro r w' o hr
  cases r with
  | ok a => exact (hf a w').mono fun r w' o' h' hb => (hr a rfl).append (h' hb)
  | error e => exact fun h => absurd rfl (h e)

theorem calm_read (p : Path) : Calm os x (readToStringL p) := fun w => (readToStringL_holds p w).mono fun r w' o ⟨_, h⟩ a ha => by
  subst ha
  rw [h.2]
  exact .cons (by simp [fsLine]) (.cons (by simp [fsLine]) .nil)

theorem calm_write (p : Path) (b : Bytes) (m : Nat → Str) : Calm os x (writeL p b m) := fun w => (writeL_holds p b m w).mono fun r w' o h a ha => by
  subst ha
  obtain ⟨n, _, _, _, rfl⟩ := h
  exact .cons (by simp [fsLine, writeLine]) (.cons (by simp [fsLine]) .nil)

theorem calm_fromHtml (html : Str) : Calm os x (fromHtmlL html) := by
  refine .andThen (.call fun r => ?_) fun _ => .andThen (.call fun r => .ret _) fun dir => .andThen (calm_write _ _ _) fun _ =>
    .andThen (.call fun r => ?_) fun tab => .andThen (.call fun r => .ret _) fun _ => .call fun r => ?_
  · cases r <;> exact .ret _
  · cases r with
    | error e => exact .ret _
    | ok d =>
      refine .call fun r => ?_
      cases r <;> exact .ret _
  · cases r <;> exact .ret _

theorem calm_run (g : Texts) (cmd : Command) : CalmEnd os x (runL g os x cmd) := by
  cases cmd with
  | init =>
    have h : Calm os x (initConfigL x) := by
      refine .call fun r => ?_
      cases r with
      | true => exact .ret _
      | false =>
        refine .call fun r => ?_
        cases r with
        | error e => exact .ret _
        | ok u => exact .andThen (calm_write _ _ _) fun _ => .ret _
    intro w
    refine LHolds.bind ((h w).mono ?_)
    intro r w' o hr he
    show NoErr (o ++ [])
    rw [List.append_nil]
    cases r with
    | ok a => exact hr a rfl
    | error e => exact absurd rfl (he e)
  | parse input f =>
    have hc : Calm os x (loadConfigL os x) := by
      refine .call fun r => ?_
      cases r with
      | false => exact .ret _
      | true => exact .andThen (calm_read _) fun _ => .ret _
    refine Calm.orErr hc fun _ => Calm.orErr (calm_read _) fun s w => ?_
    have hl : NoErr (⟨.info, c!"smd", c!"Transpiling markdown"⟩ :: g.render s) :=
      .cons (by simp) fun l hl => by rcases g.quiet s l hl with h | h <;> rw [h] <;> simp
    have hk : CalmEnd os x (withRenderL (Gfm.render s) fun result =>
        match f with
        | .html => orErrL (writeToFileL (setExtension Format.html.ending input) result) fun _ => .ret (.ok (.ok ()))
        | .pdf => orErrL (fromHtmlL result) fun converted =>
            orErrL (writeBytesL (setExtension Format.pdf.ending input) converted) fun _ => .ret (.ok (.ok ()))) := by
      have hret : ∀ r, CalmEnd os x (.ret r) := fun _ _ _ => .nil
      cases Gfm.render s with
      | ok html =>
        cases f with
        | html => exact Calm.orErr (calm_write _ _ _) fun _ => hret _
        | pdf => exact Calm.orErr (calm_fromHtml _) fun _ => Calm.orErr (calm_write _ _ _) fun _ => hret _
      | panic => exact hret _
      | hang => exact hret _
      | fuelOut => exact hret _
    refine LHolds.sayAll (Q := fun r _ o => (∀ e, r ≠ .ok (.error e)) → NoErr (⟨.info, c!"smd", c!"Transpiling markdown"⟩ :: o)) ((hk w).mono ?_)
    intro r w' o hr he
    exact NoErr.append hl (hr he)

/-- What `main` adds. -/
theorem mainL_holds {g : Texts} {cmd : Command} {Q : End → World → List Line → Prop} {w : World} (h : LHolds os x Q (runL g os x cmd) w) :
    LHolds os x (fun r w' o => ∃ o', Q r w' o' ∧ o = o' ++ match r with
      | .ok (.error e) => [⟨.error, c!"smd", e.text g⟩]
      | _ => []) (mainL g os x cmd) w := by
  refine LHolds.bind (h.mono ?_)
  intro r w' o hq
  cases r with
  | ok r => cases r <;> exact ⟨o, hq, rfl⟩
  | panic => exact ⟨o, hq, rfl⟩
  | hang => exact ⟨o, hq, rfl⟩
  | fuelOut => exact ⟨o, hq, rfl⟩

/-! ### Lines of a text -/

theorem linesOf_count {s : Str} {n : Nat} (h : LinesOf s n) : n = lineCount s := by
  induction h with
  | none => rfl
  | last t h hn =>
    unfold lineCount
    rw [List.count_eq_zero.mpr hn, List.getLast?_eq_some_getLast h]
    have : t.getLast h ≠ '\n' := fun e => hn (e ▸ List.getLast_mem h)
    simp [this]
  | line t s n hn hs ih =>
    rw [ih]
    unfold lineCount
    rw [List.count_append, List.count_eq_zero.mpr hn, List.count_cons_self]
    cases s with
    | nil => simp
    | cons c cs =>
      rw [List.getLast?_append, List.getLast?_cons_cons, List.getLast?_cons]
      simp only [Option.some_or, Option.getD_some, Nat.zero_add]
      by_cases hc : (cs.getLast?.getD c) = '\n'
      · simp [hc]
      · simp [hc]

theorem linesOf_some (s : Str) : ∃ n, LinesOf s n := by
  by_cases h : '\n' ∈ s
  · obtain ⟨t, u, e, hn⟩ := List.eq_append_cons_of_mem h
    have : u.length < s.length := by simp [e]; omega
    obtain ⟨n, hu⟩ := linesOf_some u
    exact ⟨n + 1, e ▸ .line t u n hn hu⟩
  · by_cases hs : s = []
    · exact ⟨0, hs ▸ .none⟩
    · exact ⟨1, .last s hs h⟩
termination_by s.length

theorem linesOf_iff {s : Str} {n : Nat} : LinesOf s n ↔ n = lineCount s := by
  refine ⟨linesOf_count, fun h => ?_⟩
  obtain ⟨m, hm⟩ := linesOf_some s
  rw [h, ← linesOf_count hm]
  exact hm

/-! ### Conversion to HTML -/

/-- The message of a written text. -/
def wroteText (p : Path) (s : Str) (n : Nat) : Str :=
  c!"\"" ++ pathStr p ++ c!"\" " ++ Rs.dec (lineCount s) ++ c!"L, " ++ Rs.dec n ++ c!"B written"

/-- The lines up to the result of rendering. -/
def startLines (g : Texts) (x : Ctx) (w : World) (input : Path) (s : Str) : List Line :=
  configLines x w ++ (readLines input true ++ (⟨.info, c!"smd", c!"Transpiling markdown"⟩ :: g.render s))

/-- What a conversion to HTML has done and said when it ends. -/
def HtmlEndL (g : Texts) (os : Os) (x : Ctx) (input : Path) (w : World) (r : End) (w' : World) (o : List Line) : Prop :=
  match r with
  | .ok (.ok _) => ∃ s html, w.bytesAt input = some (enc s) ∧ Gfm.render s = .ok html ∧ ∃ n, n ≤ (enc html).length ∧
      (os.fullWrites → n = (enc html).length) ∧ w'.bytesAt (setExtension c!"html" input) = some ((enc html).take n) ∧
      o = startLines g x w input s ++ [writeLine (setExtension c!"html" input), fsLine .info (wroteText (setExtension c!"html" input) html n)]
  | .ok (.error e) => e = .configRead ∨ ((∃ e', e = .io e') ∧
      ((∃ l ∈ o, l.level = .error ∧ ∃ p ∈ [configPath x, input, setExtension c!"html" input], pathStr p <:+: l.msg) ∨
        (w' = w ∧ ∃ pre, o = pre ++ [writeLine (setExtension c!"html" input)] ∧ NoErr pre)))
  | _ => w' = w

theorem readLines_names (p : Path) : fsLine .error (c!"Failed to read file: " ++ pathStr p) ∈ readLines p false := by
  simp [readLines]

theorem names_path (l : Level) (a : Str) (p : Path) : pathStr p <:+: (fsLine l (a ++ pathStr p)).msg := ⟨a, [], by simp [fsLine]⟩

theorem noErr_config (w : World) : NoErr (configLines x w) := by
  unfold configLines
  split
  · exact .nil
  · exact .cons (by simp [fsLine]) (.cons (by simp [fsLine]) .nil)

theorem html_holds (g : Texts) (input : Path) (w : World) :
    LHolds os x (HtmlEndL g os x input w) (runL g os x (.parse input .html)) w := by
  refine LHolds.orErr ((loadConfigL_holds w).mono ?_)
  intro r w1 o ⟨e1, hr⟩
  subst e1
  cases r with
  | error e =>
    rcases hr with ⟨_, ⟨h1, _⟩ | ⟨h1, rfl⟩⟩
    · exact .inl h1
    · exact .inr ⟨h1, .inl ⟨_, readLines_names _, rfl, configPath x, by simp, names_path _ _ _⟩⟩
  | ok c =>
    have ho : o = configLines x w1 := hr
    subst ho
    refine LHolds.orErr ((readToStringL_holds input w1).mono ?_)
    intro r w2 o ⟨e2, hr⟩
    subst e2
    cases r with
    | error e =>
      obtain ⟨h1, rfl⟩ := hr
      exact .inr ⟨h1, .inl ⟨_, List.mem_append_right _ (readLines_names _), rfl, input, by simp, names_path _ _ _⟩⟩
    | ok s =>
      obtain ⟨hs, rfl⟩ := hr
      refine LHolds.sayAll (Q := fun r w' o => HtmlEndL g os x input w2 r w' (configLines x w2 ++ (readLines input true ++ (_ :: o)))) ?_
      cases hx : Gfm.render s with
      | ok html =>
        refine LHolds.orErr ((writeL_holds _ _ _ w2).mono ?_)
        intro r w' o hr
        cases r with
        | ok u =>
          obtain ⟨n, h1, h2, h3, rfl⟩ := hr
          refine ⟨s, html, hs, hx, n, h1, h2, h3, ?_⟩
          simp [startLines, wroteText, Format.ending]
        | error e =>
          obtain ⟨h1, ⟨rfl, rfl⟩ | ⟨_, rfl⟩⟩ := hr
          · refine .inr ⟨h1, .inr ⟨rfl, startLines g x w' input s, ?_, ?_⟩⟩
            · simp [startLines, Format.ending]
            · refine .append (noErr_config _) (.append (.cons (by simp [fsLine]) (.cons (by simp [fsLine]) .nil)) (.cons (by simp) ?_))
              intro l hl
              rcases g.quiet s l hl with h | h <;> rw [h] <;> simp
          · refine .inr ⟨h1, .inl ⟨fsLine .error (c!"Failed to write file: " ++ pathStr (setExtension c!"html" input)), ?_, rfl, setExtension c!"html" input, by simp, names_path _ _ _⟩⟩
            simp [Format.ending]
      | panic => exact rfl
      | hang => exact rfl
      | fuelOut => exact rfl

/-! ### Conversion to PDF -/

theorem LHolds.any : ∀ (p : LProg α) (w : World), LHolds os x (fun _ _ _ => True) p w
  | .ret _, _ => trivial
  | .say _ k, w => LHolds.any k w
  | .call _ k, _ => fun r w' _ => LHolds.any (k r) w'

/-- What is said of the output. -/
def wroteBytes (p : Path) (n : Nat) : Line := fsLine .info (c!"\"" ++ pathStr p ++ c!"\", " ++ Rs.dec n ++ c!"B written")

theorem fromHtmlL_holds (html : Str) (w : World) :
    LHolds os x (fun r _ o => ∀ b, r = .ok b → ∃ n, n ≤ (enc html).length ∧ (os.fullWrites → n = (enc html).length) ∧
      o = [writeLine (tmpPath x.cwd), fsLine .info (wroteText (tmpPath x.cwd) html n)]) (fromHtmlL html) w := by
  refine LHolds.andThen ?_
  intro r w1 _
  cases r with
  | error e => exact nofun
  | ok u =>
    refine LHolds.andThen ?_
    intro r w2 hs
    cases r with
    | error e => exact nofun
    | ok dir =>
      obtain rfl : dir = x.cwd := hs.2 dir rfl
      refine LHolds.andThen ((writeL_holds _ _ _ w2).mono fun r w3 o h => ?_)
      cases r with
      | error e => exact nofun
      | ok u =>
        obtain ⟨n, h1, h2, _, rfl⟩ := h
        refine LHolds.mono (Q := fun _ _ o => o = []) (fun r w' o ho b _ => ⟨n, h1, h2, ?_⟩) ?_
        · rw [ho]
          rfl
        · refine LHolds.andThen ?_
          intro r w4 _
          cases r with
          | error e => rfl
          | ok u =>
            intro r w5 _
            cases r with
            | error e => rfl
            | ok t =>
              refine LHolds.andThen ?_
              intro r w6 _
              cases r with
              | error e => rfl
              | ok u =>
                intro r w7 _
                cases r <;> rfl

/-- What a successful conversion to PDF has done and said. -/
def PdfEndL (g : Texts) (os : Os) (x : Ctx) (input : Path) (w : World) (r : End) (w' : World) (o : List Line) : Prop :=
  r = .ok (.ok ()) → ∃ s html n bytes, w.bytesAt input = some (enc s) ∧ Gfm.render s = .ok html ∧ n ≤ (enc html).length ∧
    (os.fullWrites → n = (enc html).length) ∧ w'.bytesAt (setExtension c!"pdf" input) = some bytes ∧
    o = startLines g x w input s ++ [writeLine (tmpPath x.cwd), fsLine .info (wroteText (tmpPath x.cwd) html n),
      writeLine (setExtension c!"pdf" input), wroteBytes (setExtension c!"pdf" input) bytes.length]

theorem pdf_holds (g : Texts) (input : Path) (w : World) : LHolds os x (PdfEndL g os x input w) (runL g os x (.parse input .pdf)) w := by
  refine LHolds.orErr ((loadConfigL_holds w).mono ?_)
  intro r w1 o ⟨e1, hr⟩
  subst e1
  cases r with
  | error e => exact nofun
  | ok c =>
    have ho : o = configLines x w1 := hr
    subst ho
    refine LHolds.orErr ((readToStringL_holds input w1).mono ?_)
    intro r w2 o ⟨e2, hr⟩
    subst e2
    cases r with
    | error e => exact nofun
    | ok s =>
      obtain ⟨hs, rfl⟩ := hr
      refine LHolds.sayAll (Q := fun r w' o => PdfEndL g os x input w2 r w' (configLines x w2 ++ (readLines input true ++ (_ :: o)))) ?_
      cases hx : Gfm.render s with
      | panic => exact nofun
      | hang => exact nofun
      | fuelOut => exact nofun
      | ok html =>
        refine LHolds.orErr ((fromHtmlL_holds html w2).mono fun r w3 o h => ?_)
        cases r with
        | error e => exact nofun
        | ok b =>
          obtain ⟨n, h1, h2, rfl⟩ := h b rfl
          refine LHolds.orErr ((writeL_holds _ _ _ w3).mono fun r w4 o h => ?_)
          cases r with
          | error e => exact nofun
          | ok u =>
            obtain ⟨m, h3, _, h4, rfl⟩ := h
            intro _
            refine ⟨s, html, n, b.take m, hs, hx, h1, h2, h4, ?_⟩
            rw [List.length_take, Nat.min_eq_left h3]
            simp [startLines, wroteBytes, Format.ending]

/-! ### Initialisation -/

theorem init_holds (g : Texts) (w : World) : LHolds os x (fun r w' o => r = .ok (.ok ()) → ∃ n, n ≤ (enc defaultToml).length ∧
    (os.fullWrites → n = (enc defaultToml).length) ∧ w'.bytesAt (configPath x) = some ((enc defaultToml).take n) ∧
    o = [writeLine (configPath x), fsLine .info (wroteText (configPath x) defaultToml n)]) (runL g os x .init) w := by
  refine LHolds.bind ?_
  intro r w1 _
  cases r with
  | true => exact nofun
  | false =>
    intro r w2 _
    cases r with
    | error e => exact nofun
    | ok u =>
      refine LHolds.andThen ((writeL_holds _ _ _ w2).mono fun r w3 o h => ?_)
      cases r with
      | error e => exact nofun
      | ok u =>
        obtain ⟨n, h1, h2, h3, rfl⟩ := h
        exact fun _ => ⟨n, h1, h2, h3, rfl⟩

/-! ### Which lines are shown -/

theorem shown_info (fl : Filters) (o : List Line) : shown fl 0 none o = o.filter fun l => decide (l.level.num ≤ 3) := by
  show o.filter (fl.shows Level.info.name) = _
  exact congrArg (o.filter ·) (funext (fl.level .info))

theorem shown_debug (fl : Filters) (env : Option Str) (o : List Line) : shown fl 1 env o = o.filter fun l => decide (l.level.num ≤ 4) := by
  show o.filter (fl.shows Level.debug.name) = _
  exact congrArg (o.filter ·) (funext (fl.level .debug))

theorem shown_trace (fl : Filters) {v : Nat} (hv : 2 ≤ v) (env : Option Str) (o : List Line) : shown fl v env o = o := by
  have h : rustLog v env = some Level.trace.name := by
    unfold rustLog
    rw [if_neg (by omega), if_pos (by omega)]
    rfl
  unfold shown
  rw [h]
  show o.filter (fl.shows Level.trace.name) = _
  rw [funext (fl.level .trace)]
  refine List.filter_eq_self.mpr fun l _ => ?_
  cases l.level <;> rfl

/-- If the variable is not set or there is a `-v`, the lines of some levels are shown, errors among them. -/
theorem shown_some (fl : Filters) {v : Nat} {env : Option Str} (hv : 1 ≤ v ∨ env = none) (o : List Line) :
    ∃ n, 1 ≤ n ∧ shown fl v env o = o.filter fun l => decide (l.level.num ≤ n) := by
  match v with
  | 0 =>
    obtain rfl : env = none := hv.resolve_left (by omega)
    exact ⟨3, by omega, shown_info fl o⟩
  | 1 => exact ⟨4, by omega, shown_debug fl env o⟩
  | v + 2 =>
    refine ⟨5, by omega, ?_⟩
    rw [shown_trace fl (by omega)]
    refine (List.filter_eq_self.mpr fun l _ => ?_).symm
    cases l.level <;> rfl

/-! ### Executions of programs that log -/

theorem LSteps.call {w w1 w' : World} {o o' : List Line} {c : Call} {k : c.Ret → LProg α} {p : LProg α} (r : c.Ret) (h : Sem os x w c r w1)
    (hs : LSteps os x w1 o (k r) w' o' p) : LSteps os x w o (.call c k) w' o' p := .step _ _ _ _ _ _ _ _ _ (.call _ _ _ _ _ r h) hs

theorem LSteps.say {w w' : World} {o o' : List Line} {l : Line} {k p : LProg α} (hs : LSteps os x w (o ++ [l]) k w' o' p) :
    LSteps os x w o (.say l k) w' o' p := .step _ _ _ _ _ _ _ _ _ (.say _ _ _ _) hs

theorem LSteps.bind {w w' : World} {o o' : List Line} {p p' : LProg α} (h : LSteps os x w o p w' o' p') (f : α → LProg β) :
    LSteps os x w o (p.bind f) w' o' (p'.bind f) := by
  induction h with
  | refl => exact .refl _ _ _
  | step _ _ _ _ _ _ _ _ _ h _ ih =>
    cases h with
    | say => exact .say ih
    | call _ _ _ _ r h => exact .call r h ih

theorem LSteps.sayAll {w w' : World} {k p : LProg α} {o' : List Line} : ∀ {ls o : List Line}, LSteps os x w (o ++ ls) k w' o' p →
    LSteps os x w o (LProg.sayAll ls k) w' o' p
  | [], o, h => by rw [List.append_nil] at h; exact h
  | l :: ls, o, h => .say (LSteps.sayAll (ls := ls) (by simpa using h))

/-- A conversion up to the rendering, without a configuration. -/
theorem start_runL {g : Texts} {w : World} {input : Path} {s html : Str} (hc : w.names (configPath x) = none)
    (hi : w.bytesAt input = some (enc s)) (hr : Gfm.render s = .ok html) :
    LSteps os x w [] (runL g os x (.parse input .html)) w (readLines input true ++ [⟨.info, c!"smd", c!"Transpiling markdown"⟩] ++ g.render s)
      (orErrL (writeToFileL (setExtension Format.html.ending input) html) fun _ => .ret (.ok (.ok ()))) := by
  refine LSteps.call (c := .isThere (configPath x)) false ⟨rfl, by simp [hc]⟩ ?_
  refine LSteps.say (LSteps.call (c := .read input) (.ok s) ⟨rfl, fun s' h => by cases h; exact hi⟩ ?_)
  refine LSteps.say (LSteps.say ?_)
  show LSteps os x w _ (LProg.sayAll (g.render s) (withRenderL (Gfm.render s) _)) w _ _
  rw [hr]
  exact LSteps.sayAll (.refl _ _ _)

/-- The output of the conversion cannot be created. -/
theorem create_failsL {g : Texts} {w : World} {input : Path} {s html : Str} (e : IoErr) (hc : w.names (configPath x) = none)
    (hi : w.bytesAt input = some (enc s)) (hr : Gfm.render s = .ok html) :
    LEnds os x w (mainL g os x (.parse input .html)) w (readLines input true ++ [⟨.info, c!"smd", c!"Transpiling markdown"⟩] ++ g.render s ++
      [writeLine (setExtension c!"html" input), ⟨.error, c!"smd", (Error.io e).text g⟩])
      (.ok (.error (.io e))) := by
  refine ((start_runL hc hi hr).bind _).trans ?_
  refine LSteps.say (LSteps.call (c := .create (setExtension c!"html" input)) (.error e) rfl (LSteps.say ?_))
  rw [List.append_assoc _ [_] [_]]
  exact .refl _ _ _

end Smd.Core
