import Verif.Lemmas.Sys

/-! What the programs of `smd-core` and `smd` do, with other processes changing other files at the same time. -/

namespace Smd.Core

variable {α β : Type} {os : Os} {x : Ctx} {R : World → World → Prop} {P : Path → Prop}

/-- Changes by others that leave the files at `P` and the state of the process alone. -/
structure Env (P : Path → Prop) (pid : Nat) (R : World → World → Prop) : Prop where
  refl : ∀ w, R w w
  trans : ∀ w w1 w2, R w w1 → R w1 w2 → R w w2
  rely : ∀ w w', R w w' → Rely P pid w w'

theorem Env.alone {P : Path → Prop} {pid : Nat} : Env P pid Eq :=
  ⟨fun _ => rfl, fun _ _ _ h h' => h.trans h', fun w _ h => h ▸ .refl w⟩

theorem Env.beside {P : Path → Prop} {pid : Nat} : Env P pid (Rely P pid) :=
  ⟨.refl, fun _ _ _ h h' => h.trans h', fun _ _ h => h⟩

theorem readToString_holds (he : Env P x.pid R) {p : Path} (hp : P p) (w : World) :
    Holds os x R (fun r w' => R w w' ∧ (∀ s, r = .ok s → w.bytesAt p = some (enc s)) ∧ ∀ e, r = .error e → ∃ e', e = .io e') (readToString p) w := by
  intro w1 h1 r w2 ⟨e, hs⟩
  subst e
  refine ⟨h1, fun s hr => ?_, fun e hr => ?_⟩
  · rw [← (he.rely _ _ h1).bytesAt hp]
    cases r with
    | ok t => cases hr; exact hs _ rfl
    | error e => cases hr
  · cases r with
    | ok t => cases hr
    | error e => cases hr; exact ⟨_, rfl⟩

theorem loadConfig_holds (he : Env P x.pid R) (hp : P (configPath x)) (w : World) :
    Holds os x R (fun r w' => R w w' ∧ (w.names (configPath x) = none → r = .ok .default) ∧
      (w.names (configPath x) ≠ none → (∃ e, r = .error (.io e)) ∨
        ∃ s, w.bytesAt (configPath x) = some (enc s) ∧ r = parseFromStr os x s)) (loadConfig os x) w := by
  intro w1 h1 r w2 ⟨e, hs⟩
  subst e
  have en := (he.rely _ _ h1).names _ hp
  cases r with
  | false =>
    have h0 : w.names (configPath x) = none := by
      rw [en] at hs
      exact Classical.byContradiction fun h => absurd (hs.mpr h) Bool.false_ne_true
    exact ⟨h1, fun _ => rfl, fun h => absurd h0 h⟩
  | true =>
    have h0 : w.names (configPath x) ≠ none := by
      rw [en] at hs
      exact hs.mp rfl
    refine Holds.andThen ((readToString_holds he hp w2).mono ?_)
    intro r w3 ⟨h3, hr, hr'⟩
    cases r with
    | ok s =>
      refine ⟨he.trans _ _ _ h1 h3, fun h => absurd h h0, fun _ => .inr ⟨s, ?_, rfl⟩⟩
      rw [← (he.rely _ _ h1).bytesAt hp]
      exact hr s rfl
    | error e =>
      obtain ⟨e', rfl⟩ := hr' e rfl
      exact ⟨he.trans _ _ _ h1 h3, fun h => absurd h h0, fun _ => .inl ⟨e', rfl⟩⟩

theorem _root_.Smd.Core.World.names_of_bytesAt {w : World} {p : Path} {b : Bytes} (h : w.bytesAt p = some b) :
    ∃ i, w.names p = some (.file i) ∧ w.data i = b := by
  unfold World.bytesAt at h
  split at h
  · next i e => cases h; exact ⟨i, e, rfl⟩
  · cases h

theorem bytesAt_file {w : World} {p : Path} {i : Nat} (h : w.names p = some (.file i)) : w.bytesAt p = some (w.data i) := by
  unfold World.bytesAt
  rw [h]

/-- What `write_bytes` has done when it ends. -/
def WriteEnd (os : Os) (x : Ctx) (p : Path) (b : Bytes) (w : World) (r : Res Unit) (w' : World) : Prop :=
  w'.tabs x.pid = w.tabs x.pid ∧
    match r with
    | .ok _ => (∃ i, w'.names p = some (.file i)) ∧ ∃ n, n ≤ b.length ∧ (os.fullWrites → n = b.length) ∧ w'.bytesAt p = some (b.take n)
    | .error e => (∃ e', e = .io e') ∧ (w'.bytesAt p = w.bytesAt p ∨ w'.bytesAt p = some [])

theorem overwrite_start (b c : Bytes) (h : c = []) : overwrite c 0 b = b := by
  subst h
  simp [overwrite]

/-- What is left to do for an open file that is empty. -/
theorem writeOpen_holds (he : Env P x.pid R) {p : Path} (hp : P p) (b : Bytes) (w w1 : World) (h i : Nat) (hn : w1.names p = some (.file i))
    (hd : w1.data i = []) (hh : w1.handles x.pid h = some (i, 0)) (ht : w1.tabs x.pid = w.tabs x.pid) :
    Holds os x R (WriteEnd os x p b w) (.call (.write h b) fun r => .call (.close h) fun _ =>
      .ret (match r with
        | .ok _ => .ok ()
        | .error e => .error (.io e))) w1 := by
  intro w2 h2 r w3 hs w4 h4 _ w5 hs'
  have e5 : w5 = w4.setHandle x.pid h none := hs'
  have hr2 := he.rely _ _ h2
  have hr4 := he.rely _ _ h4
  have hn2 : w2.names p = some (.file i) := by rw [hr2.names p hp, hn]
  have hd2 : w2.data i = [] := by rw [hr2.data p i hp hn, hd]
  have hh2 : w2.handles x.pid h = some (i, 0) := by rw [hr2.handles, hh]
  subst e5
  cases r with
  | error e =>
    have e3 : w3 = w2 := hs
    subst e3
    refine ⟨?_, ⟨e, rfl⟩, .inr ?_⟩
    · show w4.tabs x.pid = _
      rw [hr4.tabs, hr2.tabs, ht]
    · show w4.bytesAt p = _
      rw [hr4.bytesAt hp, bytesAt_file hn2, hd2]
  | ok n =>
    obtain ⟨hle, hfull, j, o, ej, rfl⟩ := hs
    rw [hh2] at ej
    cases ej
    refine ⟨?_, ⟨i, ?_⟩, n, hle, hfull, ?_⟩
    · show w4.tabs x.pid = _
      rw [hr4.tabs]
      show w2.tabs x.pid = _
      rw [hr2.tabs, ht]
    · show w4.names p = _
      rw [hr4.names p hp]
      exact hn2
    · show w4.bytesAt p = _
      rw [hr4.bytesAt hp]
      rw [bytesAt_file (i := i) (by exact hn2)]
      show some (if i = i then overwrite (w2.data i) 0 (b.take n) else _) = _
      rw [if_pos rfl, overwrite_start _ _ hd2]

theorem writeBytes_holds (he : Env P x.pid R) {p : Path} (hp : P p) (b : Bytes) (w : World) :
    Holds os x R (WriteEnd os x p b w) (writeBytes p b) w := by
  intro w1 h1 r w2 hs
  have hr := he.rely _ _ h1
  cases r with
  | error e =>
    have e2 : w2 = w1 := hs
    subst e2
    exact ⟨hr.tabs, ⟨e, rfl⟩, .inl (hr.bytesAt hp)⟩
  | ok h =>
    obtain ⟨_, ⟨i, e, rfl⟩ | ⟨i, e, _, _, _, rfl⟩⟩ := hs
    · refine writeOpen_holds he hp b w _ h i ?_ ?_ ?_ ?_
      · exact e
      · show (if i = i then [] else _) = _
        rw [if_pos rfl]
      · show (if x.pid = x.pid ∧ h = h then _ else _) = _
        rw [if_pos ⟨rfl, rfl⟩]
      · exact hr.tabs
    · refine writeOpen_holds he hp b w _ h i ?_ ?_ ?_ ?_
      · show (if p = p then _ else _) = _
        rw [if_pos rfl]
      · show (if i = i then [] else _) = _
        rw [if_pos rfl]
      · show (if x.pid = x.pid ∧ h = h then _ else _) = _
        rw [if_pos ⟨rfl, rfl⟩]
      · exact hr.tabs

/-- `initialize` alone. -/
theorem initConfig_holds (w : World) :
    Holds os x Eq (fun r w' => (w.names (configPath x) ≠ none → w' = w ∧ r = .error (.configExists (configPath x))) ∧
      (r = .ok () → (∃ i, w'.names (configPath x) = some (.file i)) ∧ ∃ n, n ≤ (enc defaultToml).length ∧
        (os.fullWrites → n = (enc defaultToml).length) ∧ w'.bytesAt (configPath x) = some ((enc defaultToml).take n))) (initConfig x) w := by
  intro w1 e r w2 ⟨e2, hs⟩
  subst e
  subst e2
  cases r with
  | true => exact ⟨fun _ => ⟨rfl, rfl⟩, nofun⟩
  | false =>
    have hn : w2.names (configPath x) = none := Classical.byContradiction fun h => absurd (hs.mpr h) Bool.false_ne_true
    intro w3 e r w4 hs
    cases r with
    | error e => exact ⟨fun h => absurd hn h, nofun⟩
    | ok u =>
      refine Holds.andThen ((writeBytes_holds (P := fun _ => True) .alone trivial (enc defaultToml) w4).mono ?_)
      intro r w5 ⟨_, hw⟩
      cases r with
      | error e => exact ⟨fun h => absurd hn h, nofun⟩
      | ok u => exact ⟨fun h => absurd hn h, fun _ => hw⟩

/-- What a PDF conversion has done when it ends. -/
def PdfEnd (os : Os) (x : Ctx) (html : Str) (r : Res Bytes) (w' : World) : Prop :=
  match r with
  | .ok b => w'.names (tmpPath x.cwd) = none ∧ (os.urlPath (fileUrl (tmpPath x.cwd)) = tmpPath x.cwd →
      ∃ n, n ≤ (enc html).length ∧ (os.fullWrites → n = (enc html).length) ∧ b = os.pdf pdfOptions ((enc html).take n))
  | .error e => (∃ m, e = .browser m) ∨ ∃ e', e = .io e'

theorem printToPdf_holds (he : Env P x.pid R) {p : Path} (hp : P p) {t : Nat} {c : Bytes} (w : World) (hn : w.names p = none)
    (ht : w.tabs x.pid t = some c) :
    Holds os x R (fun r w' => match r with | .ok b => w'.names p = none ∧ b = os.pdf pdfOptions c | .error e => ∃ m, e = .browser m) (printToPdf t pdfOptions) w := by
  intro w1 h1 r w2 ⟨e, hs⟩
  subst e
  have hr := he.rely _ _ h1
  cases r with
  | error e => exact ⟨_, rfl⟩
  | ok b =>
    obtain ⟨c', hc, hb⟩ := hs b rfl
    rw [hr.tabs, ht] at hc
    cases hc
    exact ⟨by rw [hr.names p hp]; exact hn, hb⟩

theorem fromHtml_holds (he : Env P x.pid R) (hp : P (tmpPath x.cwd)) (html : Str) (w : World) :
    Holds os x R (PdfEnd os x html) (fromHtml html) w := by
  refine Holds.andThen ?_
  intro w1 _ r w1' hs
  cases r with
  | error e => exact .inl ⟨_, rfl⟩
  | ok u =>
    refine Holds.andThen ?_
    intro w2 _ r w2' ⟨e2, hs⟩
    cases r with
    | error e => exact .inr ⟨_, rfl⟩
    | ok dir =>
      have ed : dir = x.cwd := hs _ rfl
      subst ed
      refine Holds.andThen ((writeBytes_holds he hp (enc html) w2').mono ?_)
      intro r w3 ⟨_, hw⟩
      cases r with
      | error e => exact .inr hw.1
      | ok u =>
        obtain ⟨⟨i, hi⟩, n, hle, hfull, hb⟩ := hw
        refine Holds.andThen ?_
        intro w4 h4 r w4' ⟨e4, _⟩
        subst e4
        cases r with
        | error e => exact .inr ⟨_, rfl⟩
        | ok d =>
          intro w5 h5 r w6 hs6
          have h35 := he.rely _ _ (he.trans _ _ _ h4 h5)
          cases r with
          | error e => exact .inl ⟨_, rfl⟩
          | ok t =>
            obtain ⟨_, c, hc, rfl⟩ := hs6
            refine Holds.andThen ?_
            intro w7 h7 r w8 hs8
            have h7 := he.rely _ _ h7
            have ht : w7.tabs x.pid t = some c := by
              rw [h7.tabs]
              show (if x.pid = x.pid ∧ t = t then _ else _) = _
              rw [if_pos ⟨rfl, rfl⟩]
            cases r with
            | error e => exact .inr ⟨_, rfl⟩
            | ok u =>
              obtain ⟨_, rfl⟩ := hs8
              refine (printToPdf_holds he hp (c := c) _ ?_ ?_).mono ?_
              · show (if tmpPath x.cwd = tmpPath x.cwd then _ else _) = _
                rw [if_pos rfl]
              · exact ht
              · intro r w9 h9
                cases r with
                | error e => exact .inl h9
                | ok b =>
                  refine ⟨h9.1, fun hu => ⟨n, hle, hfull, ?_⟩⟩
                  rw [hu] at hc
                  rcases hc with hc | hc
                  · rw [h35.bytesAt hp, hb] at hc
                    cases hc
                    exact h9.2
                  · rw [h35.names _ hp, hi] at hc
                    cases hc

end Smd.Core

namespace Smd.App
open Smd.Core

variable {os : Os} {x : Ctx} {R : World → World → Prop} {P : Path → Prop}

/-- Where the output goes. -/
abbrev outPath (input : Path) (f : Format) : Path := setExtension f.ending input

/-- How a conversion ends. -/
def ConvertEnd (os : Os) (x : Ctx) (input : Path) (f : Format) (w : World) (r : End) (w' : World) : Prop :=
  match r with
  | .ok (.ok _) => ∃ s html, w.bytesAt input = some (enc s) ∧ Gfm.render s = .ok html ∧
      (f = .html → ∃ n, n ≤ (enc html).length ∧ (os.fullWrites → n = (enc html).length) ∧ w'.bytesAt (outPath input f) = some ((enc html).take n)) ∧
      (f = .pdf → os.urlPath (fileUrl (tmpPath x.cwd)) = tmpPath x.cwd → os.fullWrites →
        w'.bytesAt (outPath input f) = some (os.pdf pdfOptions (enc html)))
  | .ok (.error e) => (∃ e', e = .io e') ∨ (f = .pdf ∧ ∃ m, e = .browser m) ∨ e = .configRead
  | o => ∃ s, w.bytesAt input = some (enc s) ∧ ((o = .panic ∧ Gfm.render s = .panic) ∨ (o = .hang ∧ Gfm.render s = .hang) ∨
      (o = .fuelOut ∧ Gfm.render s = .fuelOut))

theorem convert_holds (he : Env P x.pid R) {input : Path} {f : Format} (hi : P input) (ho : P (outPath input f))
    (ht : f = .pdf → P (tmpPath x.cwd)) (w : World) : Holds os x R (ConvertEnd os x input f w) (convert input f) w := by
  refine Holds.orErr ((readToString_holds he hi w).mono ?_)
  intro r w1 ⟨_, hr, hr'⟩
  cases r with
  | error e => exact .inl (hr' e rfl)
  | ok s =>
    have hs := hr s rfl
    show Holds os x R (ConvertEnd os x input f w) (withRender (Gfm.render s) _) w1
    cases hren : Gfm.render s with
    | panic => exact ⟨s, hs, .inl ⟨rfl, hren⟩⟩
    | hang => exact ⟨s, hs, .inr (.inl ⟨rfl, hren⟩)⟩
    | fuelOut => exact ⟨s, hs, .inr (.inr ⟨rfl, hren⟩)⟩
    | ok html =>
      cases f with
      | html =>
        refine Holds.orErr ((writeBytes_holds he ho (enc html) w1).mono ?_)
        intro r w2 ⟨_, hw⟩
        cases r with
        | error e => exact .inl hw.1
        | ok u =>
          obtain ⟨_, n, hn⟩ := hw
          exact ⟨s, html, hs, hren, fun _ => ⟨n, hn⟩, nofun⟩
      | pdf =>
        refine Holds.orErr ((fromHtml_holds he (ht rfl) html w1).mono ?_)
        intro r w2 hw
        cases r with
        | error e =>
          rcases hw with h | h
          · exact .inr (.inl ⟨rfl, h⟩)
          · exact .inl h
        | ok b =>
          refine Holds.orErr ((writeBytes_holds he ho b w2).mono ?_)
          intro r w3 ⟨_, hw3⟩
          cases r with
          | error e => exact .inl hw3.1
          | ok u =>
            refine ⟨s, html, hs, hren, nofun, fun _ hu hf => ?_⟩
            obtain ⟨n, _, hn, hb⟩ := hw.2 hu
            obtain ⟨_, m, _, hm, hb'⟩ := hw3
            rw [hb', hm hf, List.take_length, hb, hn hf, List.take_length]

theorem parse_holds (he : Env P x.pid R) {input : Path} {f : Format} (hc : P (configPath x)) (hi : P input) (ho : P (outPath input f))
    (ht : f = .pdf → P (tmpPath x.cwd)) (w : World) : Holds os x R (ConvertEnd os x input f w) (run os x (.parse input f)) w := by
  refine Holds.orErr ((loadConfig_holds he hc w).mono ?_)
  intro r w1 ⟨h1, h2, h3⟩
  cases r with
  | error e =>
    cases hn : w.names (configPath x) with
    | none => have := h2 hn; cases this
    | some n =>
      rcases h3 (by rw [hn]; intro h; cases h) with ⟨e', h⟩ | ⟨s, _, h⟩
      · cases h; exact .inl ⟨e', rfl⟩
      · refine .inr (.inr ?_)
        unfold parseFromStr at h
        split at h
        · cases h; rfl
        · dsimp only at h
          split at h <;> cases h
          rfl
  | ok c =>
    refine (convert_holds he hi ho ht w1).mono ?_
    intro r w' hr
    have hr1 := he.rely _ _ h1
    unfold ConvertEnd at hr ⊢
    rw [hr1.bytesAt hi] at hr
    exact hr

/-! ### Failures -/

/-- Nothing happens without a readable input that can be rendered and a good configuration. -/
theorem parse_noop {input : Path} {f : Format} (w : World)
    (h : (∀ s html, w.bytesAt input = some (enc s) → Gfm.render s ≠ .ok html) ∨
      (w.names (configPath x) ≠ none ∧ ∀ s c, w.bytesAt (configPath x) = some (enc s) → parseFromStr os x s ≠ .ok c)) :
    Holds os x Eq (fun r w' => w' = w ∧ r ≠ .ok (.ok ())) (run os x (.parse input f)) w := by
  refine Holds.orErr ((loadConfig_holds (P := fun _ => True) .alone trivial w).mono ?_)
  intro r w1 ⟨e, h2, h3⟩
  subst e
  cases r with
  | error e => exact ⟨rfl, nofun⟩
  | ok c =>
    rcases h with h | ⟨hn, h⟩
    · refine Holds.orErr ((readToString_holds (P := fun _ => True) .alone trivial w).mono ?_)
      intro r w1 ⟨e, hr, _⟩
      subst e
      cases r with
      | error e => exact ⟨rfl, nofun⟩
      | ok s =>
        show Holds os x Eq _ (withRender (Gfm.render s) _) w
        cases hren : Gfm.render s with
        | panic => exact ⟨rfl, nofun⟩
        | hang => exact ⟨rfl, nofun⟩
        | fuelOut => exact ⟨rfl, nofun⟩
        | ok html => exact absurd hren (h s html (hr s rfl))
    · rcases h3 hn with ⟨e, h'⟩ | ⟨s, hs, h'⟩
      · cases h'
      · exact absurd h'.symm (h s c hs)

/-- The output of a run that fails. -/
def FailEnd (out : Path) (w : World) (r : End) (w' : World) : Prop :=
  match r with
  | .ok (.ok _) => True
  | .ok (.error (.io _)) => w'.bytesAt out = w.bytesAt out ∨ w'.bytesAt out = some []
  | _ => w'.bytesAt out = w.bytesAt out

theorem fail_write {out : Path} {b : Bytes} {w w1 : World} (h : w1.bytesAt out = w.bytesAt out) :
    Holds os x Eq (FailEnd out w) (orErr (writeBytes out b) fun _ => .ret (.ok (.ok ()))) w1 := by
  refine Holds.orErr ((writeBytes_holds (P := fun _ => True) .alone trivial b w1).mono ?_)
  intro r w2 ⟨_, hw⟩
  cases r with
  | ok u => trivial
  | error e =>
    obtain ⟨⟨e', rfl⟩, hw⟩ := hw
    rw [h] at hw
    exact hw

theorem fail_same {out : Path} {w w' : World} (h : w'.bytesAt out = w.bytesAt out) (r : End) : FailEnd out w r w' := by
  unfold FailEnd
  split
  · trivial
  · exact .inl h
  · exact h

/-! ### What is written -/

theorem readToString_only (p : Path) : Only os x P (readToString p) := ⟨trivial, fun _ _ _ _ => trivial⟩

theorem loadConfig_only : Only os x P (loadConfig os x) := by
  refine ⟨trivial, fun _ r _ _ => ?_⟩
  cases r with
  | true => exact Only.andThen (readToString_only _) fun _ => trivial
  | false => trivial

theorem writeBytes_only {p : Path} (hp : P p) (b : Bytes) : Only os x P (writeBytes p b) := by
  refine ⟨hp, fun _ r _ _ => ?_⟩
  cases r with
  | error e => trivial
  | ok h => exact ⟨trivial, fun _ _ _ _ => ⟨trivial, fun _ _ _ _ => trivial⟩⟩

theorem fromHtml_only (hp : P (tmpPath x.cwd)) (html : Str) : Only os x P (fromHtml html) := by
  have h1 : Only os x P browserInit := ⟨trivial, fun _ r _ _ => by cases r <;> trivial⟩
  refine Only.andThen h1 fun _ => ?_
  show Only os x P (.call .cwd _)
  refine ⟨trivial, fun _ r _ hs => ?_⟩
  cases r with
  | error e => trivial
  | ok dir =>
    have ed : dir = x.cwd := hs.2 _ rfl
    subst ed
    show Only os x P ((writeToFile (tmpPath x.cwd) html).andThen _)
    refine Only.andThen (writeBytes_only hp _) fun _ => Only.andThen ?_ fun t => Only.andThen ?_ fun _ => ?_
    · refine ⟨trivial, fun _ r _ _ => ?_⟩
      cases r with
      | error e => trivial
      | ok d => exact ⟨trivial, fun _ r _ _ => by cases r <;> trivial⟩
    · exact ⟨hp, fun _ _ _ _ => trivial⟩
    · exact ⟨trivial, fun _ r _ _ => by cases r <;> trivial⟩

theorem parse_only {input : Path} {f : Format} (ho : P (outPath input f)) (ht : f = .pdf → P (tmpPath x.cwd)) :
    Only os x P (run os x (.parse input f)) := by
  refine Only.orErr loadConfig_only fun _ => Only.orErr (readToString_only _) fun s => ?_
  cases hren : Gfm.render s with
  | panic => trivial
  | hang => trivial
  | fuelOut => trivial
  | ok html =>
    cases f with
    | html => exact Only.orErr (writeBytes_only ho _) fun _ => trivial
    | pdf => exact Only.orErr (fromHtml_only (ht rfl) html) fun b => Only.orErr (writeBytes_only ho b) fun _ => trivial

/-- The output is never the temporary file. -/
theorem pdf_ne_tmp (input cwd : Path) : setExtension Format.pdf.ending input ≠ tmpPath cwd := by
  intro h
  unfold setExtension tmpPath at h
  split at h
  · next e =>
    rw [List.getLast?_eq_none_iff] at e
    simp [e] at h
  · have := List.append_inj_right' h rfl
    have := congrArg (fun l : List Str => l.map List.getLast?) this
    simp [Format.ending] at this

theorem parse_fail {input : Path} {f : Format} (w : World) (hh : ∀ g, w.handles x.pid g = none)
    (ht : f = .pdf → outPath input f ≠ tmpPath x.cwd ∧ ¬ w.SameFile (tmpPath x.cwd) (outPath input f)) :
    Holds os x Eq (FailEnd (outPath input f) w) (run os x (.parse input f)) w := by
  refine Holds.orErr ((loadConfig_holds (P := fun _ => True) .alone trivial w).mono ?_)
  intro r w1 ⟨e, _, _⟩
  subst e
  cases r with
  | error e => exact fail_same rfl _
  | ok c =>
    refine Holds.orErr ((readToString_holds (P := fun _ => True) .alone trivial w).mono ?_)
    intro r w1 ⟨e, hr, _⟩
    subst e
    cases r with
    | error e => exact fail_same rfl _
    | ok s =>
      show Holds os x Eq _ (withRender (Gfm.render s) _) w
      cases hren : Gfm.render s with
      | panic => exact fail_same rfl _
      | hang => exact fail_same rfl _
      | fuelOut => exact fail_same rfl _
      | ok html =>
        cases f with
        | html => exact fail_write rfl
        | pdf =>
          obtain ⟨h1, h2⟩ := ht rfl
          refine Holds.orErr ((Only.holds (P := fun p => p = tmpPath x.cwd) (fromHtml_only (P := fun p => p = tmpPath x.cwd) rfl html) (Keep.refl hh)).mono ?_)
          intro r w2 hk
          have hb := hk.bytesAt (q := outPath input .pdf) h1 (fun p hp => by subst hp; exact h2)
          cases r with
          | error e => exact fail_same hb _
          | ok b => exact fail_write hb

theorem initConfig_only (hp : ∀ q, q <+: configPath x → P q) : Only os x P (initConfig x) := by
  refine ⟨trivial, fun _ r _ _ => ?_⟩
  cases r with
  | true => trivial
  | false =>
    refine ⟨fun q hq => hp q (hq.trans (List.dropLast_prefix _)), fun _ r _ _ => ?_⟩
    cases r with
    | error e => trivial
    | ok u => exact Only.andThen (writeBytes_only (hp _ (List.prefix_refl _)) _) fun _ => trivial

end Smd.App
