import Verif.Lemmas.Talk
import Verif.Props.App
import Verif.Spec.Cause

/-! Failures have causes. -/

namespace Smd.Core
open Smd.App Smd.Spec

variable {α β : Type} {os : Os} {x : Ctx}

/-- Whenever the program ends with an error (seen with `err`), one of the calls it made was answered so that `Q`, or `K` holds of the error. -/
def Blames (os : Os) (x : Ctx) (err : α → Option Error) (Q : (c : Call) → c.Ret → Error → Prop) (K : Error → Prop) : LProg α → Prop
  | .ret a => ∀ e, err a = some e → K e
  | .say _ k => Blames os x err Q K k
  | .call c k => ∀ r, (∃ w w', Sem os x w c r w') → Blames os x err Q (fun e => K e ∨ Q c r e) (k r)

theorem Blames.mono {err : α → Option Error} {Q : (c : Call) → c.Ret → Error → Prop} : ∀ {p : LProg α} {K K' : Error → Prop}, (∀ e, K e → K' e) →
    Blames os x err Q K p → Blames os x err Q K' p
  | .ret _, _, _, h, hp => fun e he => h e (hp e he)
  | .say _ k, _, _, h, hp => Blames.mono (p := k) h hp
  | .call _ k, _, _, h, hp => fun r hr => Blames.mono (p := k r) (fun e he => he.imp (h e) id) (hp r hr)

theorem Blames.bind {err : α → Option Error} {err' : β → Option Error} {Q : (c : Call) → c.Ret → Error → Prop} {f : α → LProg β} :
    ∀ {p : LProg α} {K : Error → Prop}, Blames os x err Q K p →
    (∀ a (K' : Error → Prop), (∀ e, K e → K' e) → (∀ e, err a = some e → K' e) → Blames os x err' Q K' (f a)) → Blames os x err' Q K (p.bind f)
  | .ret a, _, hp, hf => hf a _ (fun _ h => h) hp
  | .say _ k, _, hp, hf => Blames.bind (p := k) hp hf
  | .call _ k, _, hp, hf => fun r hr => Blames.bind (p := k r) (hp r hr) fun a K' h => hf a K' fun e he => h e (.inl he)

theorem Blames.sayAll {err : α → Option Error} {Q : (c : Call) → c.Ret → Error → Prop} {K : Error → Prop} {k : LProg α} (h : Blames os x err Q K k) :
    ∀ ls : List Line, Blames os x err Q K (.sayAll ls k)
  | [] => h
  | _ :: ls => Blames.sayAll h ls

/-- The error of a result. -/
def errOfRes : Res α → Option Error
  | .ok _ => none
  | .error e => some e

/-- The error of a run. -/
def errOfEnd : End → Option Error
  | .ok (.error e) => some e
  | _ => none

theorem Blames.andThen {Q : (c : Call) → c.Ret → Error → Prop} {K : Error → Prop} {p : LProg (Res α)} {f : α → LProg (Res β)} (hp : Blames os x errOfRes Q K p)
    (hf : ∀ a, Blames os x errOfRes Q K (f a)) : Blames os x errOfRes Q K (p.andThen f) := by
  refine hp.bind fun a K' h he => ?_
  cases a with
  | ok a => exact (hf a).mono h
  | error e => exact he

theorem Blames.orErr {Q : (c : Call) → c.Ret → Error → Prop} {K : Error → Prop} {p : LProg (Res α)} {f : α → LProg End} (hp : Blames os x errOfRes Q K p)
    (hf : ∀ a, Blames os x errOfEnd Q K (f a)) : Blames os x errOfEnd Q K (orErrL p f) := by
  refine hp.bind fun a K' h he => ?_
  cases a with
  | ok a => exact (hf a).mono h
  | error e => exact he

/-- The call with that answer is in the run. -/
theorem Blames.found {err : α → Option Error} {Q : (c : Call) → c.Ret → Error → Prop} {w w' : World} {o o' : List Line} {p p' : LProg α}
    (hs : LSteps os x w o p w' o' p') : ∀ {K : Error → Prop} {a : α} {e : Error}, p' = .ret a → Blames os x err Q K p → err a = some e →
    K e ∨ ∃ w1 w2 o1 c k r, LSteps os x w o p w1 o1 (.call c k) ∧ Sem os x w1 c r w2 ∧ LSteps os x w2 o1 (k r) w' o' p' ∧ Q c r e := by
  induction hs with
  | refl w o p =>
    rintro K a e rfl h he
    exact .inl (h e he)
  | step w w1 w2 o o1 o2 p p1 p2 h hs ih =>
    intro K a e hp hb he
    cases h with
    | say l k =>
      rcases ih hp hb he with h | ⟨v, v', q, c, k', r, h1, h2⟩
      · exact .inl h
      · exact .inr ⟨v, v', q, c, k', r, .step _ _ _ _ _ _ _ _ _ (.say ..) h1, h2⟩
    | call _ _ c k r hsem =>
      rcases ih hp (hb r ⟨_, _, hsem⟩) he with (h | h) | ⟨v, v', q, c, k', r', h1, h2⟩
      · exact .inl h
      · exact .inr ⟨_, _, _, c, k, r, .refl .., hsem, hs, h⟩
      · exact .inr ⟨v, v', q, c, k', r', .step _ _ _ _ _ _ _ _ _ (.call _ _ _ _ _ _ hsem) h1, h2⟩

/-! ### The program -/

variable (g : Texts) {K : Error → Prop}

/-- What is to be blamed for a failure of a command. -/
abbrev Blame (g : Texts) (os : Os) (x : Ctx) (cmd : Command) : (c : Call) → c.Ret → Error → Prop := fun c r e => Cause g os x cmd c r (e.text g)

theorem blames_write {cmd : Command} {p : Path} (h : Writes x cmd p) (b : Bytes) (m : Nat → Str) : Blames os x errOfRes (Blame g os x cmd) K (writeL p b m) := by
  intro r _
  cases r with
  | error e =>
    rintro _ ⟨⟩
    exact .inr (.create _ _ h e)
  | ok n =>
    intro r _
    cases r with
    | ok m =>
      intro _ _ _ he
      cases he
    | error e =>
      rintro _ _ _ ⟨⟩
      exact .inl (.inr (.write _ _ _ e))

theorem blames_read (input : Path) (f : Format) : Blames os x errOfRes (Blame g os x (.parse input f)) K (readToStringL input) := by
  intro r _
  cases r with
  | error e =>
    rintro _ ⟨⟩
    exact .inr (.readInput input f e)
  | ok s =>
    intro _ he
    cases he

theorem blames_config (input : Path) (f : Format) : Blames os x errOfRes (Blame g os x (.parse input f)) K (loadConfigL os x) := by
  intro r _
  cases r with
  | false => exact nofun
  | true =>
    intro r _
    cases r with
    | error e =>
      rintro _ ⟨⟩
      exact .inr (configFile_eq x ▸ .readConfig input f e)
    | ok s =>
      intro e he
      have he' : parseFromStr os x s = .error e := by
        change errOfRes (parseFromStr os x s) = some e at he
        cases h : parseFromStr os x s with
        | ok c => rw [h] at he; cases he
        | error e' => rw [h] at he; cases he; rfl
      have : e = .configRead := by
        unfold parseFromStr at he'
        split at he'
        · cases he'; rfl
        · dsimp only at he'
          split at he' <;> cases he'
          rfl
      subst this
      refine .inr (configFile_eq x ▸ .config input f s ?_)
      rintro file hf ⟨⟨v, a, hv, ha⟩, u, b, hu, hb⟩
      have := (parseFromStr_iff os x s ⟨a, b⟩).mpr ⟨file, hf, ⟨v, hv, ha⟩, u, hu, hb⟩
      rw [he'] at this
      cases this

theorem blames_init : Blames os x errOfRes (Blame g os x .init) K (initConfigL x) := by
  intro r _
  cases r with
  | true =>
    rintro _ ⟨⟩
    refine .inr ?_
    have := Cause.exists_ (g := g) (os := os) (x := x)
    rw [configFile_eq] at this
    exact this
  | false =>
    intro r _
    cases r with
    | error e =>
      rintro _ ⟨⟩
      exact .inr (configFile_eq x ▸ .dirs e)
    | ok u => exact (blames_write g (configFile_eq x ▸ .config) _ _).andThen fun _ => nofun

theorem blames_pdf (input : Path) (html : Str) : Blames os x errOfRes (Blame g os x (.parse input .pdf)) K (fromHtmlL html) := by
  refine Blames.andThen ?_ fun _ => ?_
  · intro r _
    cases r with
    | ok u => exact nofun
    | error u =>
      rintro _ ⟨⟩
      exact .inr (.start input)
  intro r hr
  cases r with
  | error e =>
    rintro _ ⟨⟩
    exact .inr (.cwd input e)
  | ok dir =>
    obtain ⟨w, w', hw⟩ := hr
    obtain rfl : dir = x.cwd := hw.2 dir rfl
    change Blames os x errOfRes _ _ (LProg.andThen (writeToFileL (tmpPath x.cwd) html) _)
    refine Blames.andThen (blames_write g (.temporary input) _ _) fun _ => Blames.andThen ?_ fun t => Blames.andThen ?_ fun _ => ?_
    · intro r _
      cases r with
      | error e =>
        rintro _ ⟨⟩
        exact .inr (.cwd input e)
      | ok d =>
        intro r _
        cases r with
        | ok t => exact nofun
        | error e =>
          rintro _ ⟨⟩
          cases e
          · exact .inr (.newTab input)
          · exact .inr (.navigate input)
          · exact .inr (.wait input)
    · intro r _
      cases r with
      | ok u => exact nofun
      | error e =>
        rintro _ ⟨⟩
        exact .inr (.remove input e)
    · intro r _
      cases r with
      | ok b => exact nofun
      | error e =>
        rintro _ ⟨⟩
        cases e
        · exact .inr (.lock input t)
        · refine .inr ?_
          have e : (Error.browser (printErrText t .missing)).text g = c!"Headless-chrome error: `No tab found with TargetID: " ++ Rs.dec t ++ c!"`" := by
            simp [Error.text, printErrText]
          change Cause g os x (.parse input .pdf) (.print t fullPage) (.error .missing) ((Error.browser (printErrText t .missing)).text g)
          rw [e]
          exact .missing input t
        · exact .inr (.print input t)

theorem blames_main (cmd : Command) : Blames os x errOfEnd (Blame g os x cmd) K (mainL g os x cmd) := by
  have hrun : Blames os x errOfEnd (Blame g os x cmd) K (runL g os x cmd) := by
    cases cmd with
    | init => exact (blames_init g).bind fun a K' _ he e h => he e (by cases a <;> simp_all [errOfEnd, errOfRes])
    | parse input f =>
      refine (blames_config g input f).orErr fun _ => (blames_read g input f).orErr fun s => Blames.sayAll ?_ (g.render s)
      cases Gfm.render s with
      | panic => exact nofun
      | hang => exact nofun
      | fuelOut => exact nofun
      | ok html =>
        cases f with
        | html => exact (blames_write g (.html input) _ _).orErr fun _ => nofun
        | pdf => exact (blames_pdf g input html).orErr fun b => (blames_write g (.pdf input) _ _).orErr fun _ => nofun
  refine hrun.bind fun a K' _ he => ?_
  match a with
  | .ok (.error e) => exact he
  | .ok (.ok _) => exact nofun
  | .panic => exact nofun
  | .hang => exact nofun
  | .fuelOut => exact nofun

/-- The step that a message is about. -/
def stepOf (msg : Str) : Option BrowserStep :=
  match msg.drop 24 with
  | 'N' :: _ => some .find
  | 'F' :: t =>
    match t.drop 9 with
    | 'i' :: _ => some .start
    | 'o' :: _ => if t.drop 14 = c!"new tab.`" then some .tab else some .load
    | 'w' :: _ => some .wait
    | 'l' :: _ => some .lock
    | _ => some .print
  | _ => none

theorem cause_step {g : Texts} {cmd : Command} {c : Call} {r : c.Ret} {msg : Str} (h : Cause g os x cmd c r msg) :
    failedStep c r = if msg.head? = some 'H' then stepOf msg else none := by
  cases h
  case missing => rfl
  all_goals first
    | rfl
    | (simp [failedStep]; done)
    | decide

end Smd.Core
