import Verif.App.Run
import Verif.Spec.Failing

/-! Programs that stop at the first failure. -/

namespace Smd.Core
open Smd.Spec Smd.App

variable {α β : Type} {os : Os} {x : Ctx}

/-- The program is over, with `a`, but for closing the file that a call has used. -/
def Over (c : Call) (a : α) (p : Prog α) : Prop :=
  p = .ret a ∨ ∃ h b, c = .write h b ∧ p = .call (.close h) fun _ => .ret a

/-- Every failure ends the program with what `err` makes of it. -/
def Strict (err : Error → α) : Prog α → Prop
  | .ret _ => True
  | .call c k => ∀ r, Strict err (k r) ∧ ∀ f, failure c r = some f → Over c (err f.error) (k r)

/-- Without a failure, every result is one of `A`. -/
def Honest (A : α → Prop) : Prog α → Prop
  | .ret a => A a
  | .call c k => ∀ r, failure c r = none → Honest A (k r)

theorem Over.bind {c : Call} {a : α} {p : Prog α} {f : α → Prog β} {b : β} (h : Over c a p) (hf : f a = .ret b) : Over c b (p.bind f) := by
  rcases h with rfl | ⟨n, x, rfl, rfl⟩
  · exact .inl hf
  · exact .inr ⟨n, x, rfl, by simp [Prog.bind, hf]⟩

theorem Strict.bind {err : Error → α} {err' : Error → β} {f : α → Prog β} (hf : ∀ e, f (err e) = .ret (err' e)) (hs : ∀ a, Strict err' (f a)) :
    ∀ {p : Prog α}, Strict err p → Strict err' (p.bind f)
  | .ret a, _ => hs a
  | .call _ k, h => fun r => ⟨Strict.bind hf hs (p := k r) (h r).1, fun e he => ((h r).2 e he).bind (hf _)⟩

theorem Strict.andThen {p : Prog (Res α)} {f : α → Prog (Res β)} (h : Strict Except.error p) (hf : ∀ a, Strict Except.error (f a)) :
    Strict Except.error (p.andThen f) := by
  unfold Prog.andThen
  refine Strict.bind ?_ (fun a => ?_) h
  · exact fun _ => rfl
  cases a with
  | ok a => exact hf a
  | error e => exact trivial

/-- How `run` returns an error. -/
def endErr (e : Error) : End := .ok (.error e)

theorem Strict.orErr {p : Prog (Res α)} {f : α → Prog End} (h : Strict Except.error p) (hf : ∀ a, Strict endErr (f a)) : Strict endErr (orErr p f) := by
  unfold App.orErr
  refine Strict.bind ?_ (fun a => ?_) h
  · exact fun _ => rfl
  cases a with
  | ok a => exact hf a
  | error e => exact trivial

theorem Honest.bind {A : α → Prop} {B : β → Prop} {f : α → Prog β} (hf : ∀ a, A a → Honest B (f a)) : ∀ {p : Prog α}, Honest A p → Honest B (p.bind f)
  | .ret a, h => hf a h
  | .call _ k, h => fun r hr => Honest.bind hf (p := k r) (h r hr)

theorem Strict.steps {err : Error → α} {w w' : World} {p p' : Prog α} (hs : Steps os x w p w' p') : Strict err p → Strict err p' := by
  induction hs with
  | refl => exact id
  | step w w1 w2 p p1 p2 h _ ih =>
    intro hp
    cases h with
    | call _ c k r h => exact ih (hp r).1

/-- A run that ends with something else has had a failure. -/
theorem Honest.cause {A : α → Prop} {a : α} {w w' : World} {p q : Prog α} (hs : Steps os x w p w' q) : q = .ret a → Honest A p → ¬ A a →
    ∃ w1 w2 c k r f, Steps os x w p w1 (.call c k) ∧ Sem os x w1 c r w2 ∧ failure c r = some f ∧ Steps os x w2 (k r) w' (.ret a) := by
  induction hs with
  | refl w p =>
    rintro rfl h hn
    exact absurd h hn
  | step w w1 w2 p p1 p2 h hs ih =>
    rintro rfl hp hn
    cases h with
    | call _ c k r h =>
      cases hf : failure c r with
      | some f => exact ⟨w, w1, c, k, r, f, .refl _ _, h, hf, hs⟩
      | none =>
        obtain ⟨u1, u2, c', k', r', f', h1, h2, h3, h4⟩ := ih rfl (hp r hf) hn
        exact ⟨u1, u2, c', k', r', f', .step _ _ _ _ _ _ (.call _ _ _ _ _ h) h1, h2, h3, h4⟩

/-! ### The parts of the program -/

theorem readToString_strict (p : Path) : Strict Except.error (readToString p) := by
  intro r
  refine ⟨trivial, ?_⟩
  intro f hf
  cases r with
  | ok s => cases hf
  | error e => cases hf; exact .inl rfl

theorem readToString_honest (p : Path) : Honest (fun r => ∃ s, r = .ok s) (readToString p) := by
  intro r hr
  cases r with
  | ok s => exact ⟨s, rfl⟩
  | error e => cases hr

theorem writeBytes_strict (p : Path) (b : Bytes) : Strict Except.error (writeBytes p b) := by
  intro r
  cases r with
  | error e => exact ⟨trivial, fun f hf => by cases hf; exact .inl rfl⟩
  | ok h =>
    refine ⟨?_, fun f hf => by cases hf⟩
    intro r
    cases r with
    | error e =>
      refine ⟨fun r => ⟨trivial, fun f hf => by cases hf⟩, fun f hf => ?_⟩
      cases hf
      exact .inr ⟨h, b, rfl, rfl⟩
    | ok n => exact ⟨fun r => ⟨trivial, fun f hf => by cases hf⟩, fun f hf => by cases hf⟩

theorem writeBytes_honest (p : Path) (b : Bytes) : Honest (fun r => r = .ok ()) (writeBytes p b) := by
  intro r hr
  cases r with
  | error e => cases hr
  | ok h =>
    intro r hr
    cases r with
    | error e => cases hr
    | ok n => exact fun _ _ => rfl

theorem loadConfig_strict : Strict Except.error (loadConfig os x) := by
  intro r
  cases r with
  | true => exact ⟨(readToString_strict _).andThen fun _ => trivial, fun f hf => by cases hf⟩
  | false => exact ⟨trivial, fun f hf => by cases hf⟩

theorem loadConfig_honest : Honest (fun r => (∃ c, r = .ok c) ∨ r = .error .configRead) (loadConfig os x) := by
  intro r _
  cases r with
  | true =>
    refine (readToString_honest _).bind ?_
    rintro _ ⟨s, rfl⟩
    show Honest _ (Prog.ret (parseFromStr os x s))
    show (∃ c, parseFromStr os x s = .ok c) ∨ parseFromStr os x s = .error .configRead
    unfold parseFromStr
    split
    · exact .inr rfl
    · dsimp only
      split
      · exact .inl ⟨_, rfl⟩
      · exact .inr rfl
  | false => exact .inl ⟨_, rfl⟩

theorem initConfig_strict : Strict Except.error (initConfig x) := by
  intro r
  cases r with
  | true => exact ⟨trivial, fun f hf => by cases hf⟩
  | false =>
    refine ⟨?_, fun f hf => by cases hf⟩
    intro r
    cases r with
    | error e => exact ⟨trivial, fun f hf => by cases hf; exact .inl rfl⟩
    | ok u => exact ⟨(writeBytes_strict _ _).andThen fun _ => trivial, fun f hf => by cases hf⟩

theorem initConfig_honest : Honest (fun r => r = .ok () ∨ r = .error (.configExists (configPath x))) (initConfig x) := by
  intro r _
  cases r with
  | true => exact .inr rfl
  | false =>
    intro r hr
    cases r with
    | error e => cases hr
    | ok u =>
      refine (writeBytes_honest _ _).bind ?_
      rintro _ rfl
      exact .inl rfl

theorem browserInit_strict : Strict Except.error browserInit := by
  intro r
  cases r with
  | ok u => exact ⟨trivial, fun f hf => by cases hf⟩
  | error e => exact ⟨trivial, fun f hf => by cases hf; exact .inl rfl⟩

theorem openFile_strict (p : Path) : Strict Except.error (openFile p) := by
  intro r
  cases r with
  | error e => exact ⟨trivial, fun f hf => by cases hf; exact .inl rfl⟩
  | ok d =>
    refine ⟨?_, fun f hf => by cases hf⟩
    intro r
    cases r with
    | ok t => exact ⟨trivial, fun f hf => by cases hf⟩
    | error e => cases e <;> exact ⟨trivial, fun f hf => by cases hf; exact .inl rfl⟩

theorem printToPdf_strict (t : Nat) (o : PrintOptions) : Strict Except.error (printToPdf t o) := by
  intro r
  cases r with
  | ok t => exact ⟨trivial, fun f hf => by cases hf⟩
  | error e => cases e <;> exact ⟨trivial, fun f hf => by cases hf; exact .inl rfl⟩

theorem fromHtml_strict (html : Str) : Strict Except.error (fromHtml html) := by
  refine browserInit_strict.andThen fun _ => Strict.andThen ?_ fun dir => (writeBytes_strict _ _).andThen fun _ =>
    (openFile_strict _).andThen fun tab => Strict.andThen ?_ fun _ => printToPdf_strict _ _
  · intro r
    cases r with
    | ok u => exact ⟨trivial, fun f hf => by cases hf⟩
    | error e => exact ⟨trivial, fun f hf => by cases hf; exact .inl rfl⟩
  · intro r
    cases r with
    | ok u => exact ⟨trivial, fun f hf => by cases hf⟩
    | error e => exact ⟨trivial, fun f hf => by cases hf; exact .inl rfl⟩

theorem fromHtml_honest (html : Str) : Honest (fun r => ∃ b, r = .ok b) (fromHtml html) := by
  refine Honest.bind (A := fun r => ∃ u, r = .ok u) ?_ ?_
  rotate_left
  · intro r hr
    cases r with
    | ok u => exact ⟨(), rfl⟩
    | error e => cases hr
  rintro _ ⟨_, rfl⟩
  refine Honest.bind (A := fun r => ∃ u, r = .ok u) ?_ ?_
  rotate_left
  · intro r hr
    cases r with
    | ok u => exact ⟨u, rfl⟩
    | error e => cases hr
  rintro _ ⟨dir, rfl⟩
  refine (writeBytes_honest _ _).bind ?_
  rintro _ rfl
  refine Honest.bind (A := fun r => ∃ u, r = .ok u) ?_ ?_
  rotate_left
  · intro r hr
    cases r with
    | error e => cases hr
    | ok d =>
      intro r hr
      cases r with
      | ok u => exact ⟨u, rfl⟩
      | error e => cases e <;> cases hr
  rintro _ ⟨tab, rfl⟩
  refine Honest.bind (A := fun r => ∃ u, r = .ok u) ?_ ?_
  rotate_left
  · intro r hr
    cases r with
    | ok u => exact ⟨u, rfl⟩
    | error e => cases hr
  rintro _ ⟨_, rfl⟩
  intro r hr
  cases r with
  | ok b => exact ⟨b, rfl⟩
  | error e => cases e <;> cases hr

theorem run_strict (cmd : Command) : Strict endErr (run os x cmd) := by
  cases cmd with
  | init =>
    refine Strict.bind (f := fun r => Prog.ret (Outcome.ok r)) ?_ ?_ initConfig_strict
    · exact fun _ => rfl
    · exact fun _ => trivial
  | parse input output =>
    refine loadConfig_strict.orErr fun _ => (readToString_strict _).orErr fun content => ?_
    unfold withRender
    split
    · cases output with
      | html => exact (writeBytes_strict _ _).orErr fun _ => trivial
      | pdf => exact (fromHtml_strict _).orErr fun _ => (writeBytes_strict _ _).orErr fun _ => trivial
    · trivial
    · trivial
    · trivial

theorem run_honest (cmd : Command) : Honest (fun r => (∀ e, r ≠ endErr e) ∨ ((∃ i f, cmd = .parse i f) ∧ r = endErr .configRead) ∨
    (cmd = .init ∧ r = endErr (.configExists (configPath x)))) (run os x cmd) := by
  cases cmd with
  | init =>
    refine initConfig_honest.bind ?_
    rintro _ (rfl | rfl)
    · exact .inl fun e h => by cases h
    · exact .inr (.inr ⟨rfl, rfl⟩)
  | parse input output =>
    refine loadConfig_honest.bind ?_
    rintro _ (⟨c, rfl⟩ | rfl)
    rotate_left
    · exact .inr (.inl ⟨⟨_, _, rfl⟩, rfl⟩)
    refine (readToString_honest _).bind ?_
    rintro _ ⟨content, rfl⟩
    show Honest _ (withRender _ _)
    unfold withRender
    split
    · cases output with
      | html =>
        refine (writeBytes_honest _ _).bind ?_
        rintro _ rfl
        exact .inl fun e h => by cases h
      | pdf =>
        refine (fromHtml_honest _).bind ?_
        rintro _ ⟨b, rfl⟩
        refine (writeBytes_honest _ _).bind ?_
        rintro _ rfl
        exact .inl fun e h => by cases h
    · exact .inl fun e h => by cases h
    · exact .inl fun e h => by cases h
    · exact .inl fun e h => by cases h

end Smd.Core
