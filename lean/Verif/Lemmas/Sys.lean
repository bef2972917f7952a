import Verif.App.Run
import Verif.Lemmas.Iter

/-! Reasoning about programs: conditions on the end of all executions, with other processes running at the same time, and
limits on what a program can change. -/

namespace Smd.Core

variable {α β : Type} {os : Os} {x y : Ctx}

/-- Whatever the system answers, and whatever changes within `R` happen in front of each call, the program ends in a state
that satisfies `Q`. -/
def Holds (os : Os) (x : Ctx) (R : World → World → Prop) (Q : α → World → Prop) : Prog α → World → Prop
  | .ret a, w => Q a w
  | .call c k, w => ∀ w1, R w w1 → ∀ r w2, Sem os x w1 c r w2 → Holds os x R Q (k r) w2

variable {R : World → World → Prop}

theorem Holds.bind {Q : β → World → Prop} {f : α → Prog β} : ∀ {p : Prog α} {w : World},
    Holds os x R (fun a w => Holds os x R Q (f a) w) p w → Holds os x R Q (p.bind f) w
  | .ret _, _, h => h
  | .call _ k, _, h => fun w1 h1 r w2 h2 => Holds.bind (p := k r) (h w1 h1 r w2 h2)

theorem Holds.mono {Q Q' : α → World → Prop} (hq : ∀ a w, Q a w → Q' a w) : ∀ {p : Prog α} {w : World},
    Holds os x R Q p w → Holds os x R Q' p w
  | .ret a, w, h => hq a w h
  | .call _ k, _, h => fun w1 h1 r w2 h2 => Holds.mono hq (p := k r) (h w1 h1 r w2 h2)

theorem Holds.and {Q Q' : α → World → Prop} : ∀ {p : Prog α} {w : World},
    Holds os x R Q p w → Holds os x R Q' p w → Holds os x R (fun a w => Q a w ∧ Q' a w) p w
  | .ret _, _, h, h' => ⟨h, h'⟩
  | .call _ k, _, h, h' => fun w1 h1 r w2 h2 => Holds.and (p := k r) (h w1 h1 r w2 h2) (h' w1 h1 r w2 h2)

theorem Holds.andThen {Q : Res β → World → Prop} {p : Prog (Res α)} {f : α → Prog (Res β)} {w : World}
    (h : Holds os x R (fun r w => match r with | .ok a => Holds os x R Q (f a) w | .error e => Q (.error e) w) p w) :
    Holds os x R Q (p.andThen f) w := by
  refine Holds.bind (Holds.mono ?_ h)
  intro r w hr
  cases r <;> exact hr

theorem Holds.orErr {Q : App.End → World → Prop} {p : Prog (Res α)} {f : α → Prog App.End} {w : World}
    (h : Holds os x R (fun r w => match r with | .ok a => Holds os x R Q (f a) w | .error e => Q (.ok (.error e)) w) p w) :
    Holds os x R Q (App.orErr p f) w := by
  refine Holds.bind (Holds.mono ?_ h)
  intro r w hr
  cases r <;> exact hr

theorem Holds.step {Q : α → World → Prop} {p p' : Prog α} {w w' : World} (h : Holds os x Eq Q p w) (hs : Step os x w p w' p') :
    Holds os x Eq Q p' w' := by
  cases hs with
  | call _ _ k r hs => exact h w rfl r w' hs

theorem Holds.steps {Q : α → World → Prop} {p p' : Prog α} {w w' : World} (h : Holds os x Eq Q p w) (hs : Steps os x w p w' p') :
    Holds os x Eq Q p' w' := by
  induction hs with
  | refl => exact h
  | step w w1 w2 p p1 p2 h1 _ ih => exact ih (h.step h1)

/-- A program alone. -/
theorem Holds.ends {Q : α → World → Prop} {p : Prog α} {w w' : World} {a : α} (h : Holds os x Eq Q p w) (he : Ends os x w p w' a) :
    Q a w' := h.steps he

/-! ### What a program may change -/

/-- What a call creates or removes is at a path in `P`. -/
def Call.Within (P : Path → Prop) : Call → Prop
  | .create p => P p
  | .remove p => P p
  | .createDirs p => ∀ q, q <+: p → P q
  | _ => True

/-- Whatever the system answers, every file or directory the program creates, writes or removes is at a path in `P`. -/
def Only (os : Os) (x : Ctx) (P : Path → Prop) : Prog α → Prop
  | .ret _ => True
  | .call c k => c.Within P ∧ ∀ w r w', Sem os x w c r w' → Only os x P (k r)

theorem Only.bind {P : Path → Prop} {f : α → Prog β} (hf : ∀ a, Only os x P (f a)) : ∀ {p : Prog α}, Only os x P p → Only os x P (p.bind f)
  | .ret a, _ => hf a
  | .call _ k, h => ⟨h.1, fun w r w' hs => Only.bind hf (p := k r) (h.2 w r w' hs)⟩

theorem Only.andThen {P : Path → Prop} {p : Prog (Res α)} {f : α → Prog (Res β)} (h : Only os x P p) (hf : ∀ a, Only os x P (f a)) :
    Only os x P (p.andThen f) := by
  refine Only.bind (fun r => ?_) h
  cases r with
  | ok a => exact hf a
  | error e => trivial

theorem Only.orErr {P : Path → Prop} {p : Prog (Res α)} {f : α → Prog App.End} (h : Only os x P p) (hf : ∀ a, Only os x P (f a)) :
    Only os x P (App.orErr p f) := by
  refine Only.bind (fun r => ?_) h
  cases r with
  | ok a => exact hf a
  | error e => trivial

theorem Only.mono {P P' : Path → Prop} (h : ∀ p, P p → P' p) : ∀ {p : Prog α}, Only os x P p → Only os x P' p
  | .ret _, _ => trivial
  | .call c k, hp => ⟨by
      have := hp.1
      cases c <;> first | trivial | exact h _ this | exact fun q hq => h q (this q hq),
      fun w r w' hs => Only.mono h (p := k r) (hp.2 w r w' hs)⟩

/-- An inode that is at one of the paths, or at no other path. -/
def Mine (w : World) (P : Path → Prop) (i : Nat) : Prop :=
  (∃ p, P p ∧ w.names p = some (.file i)) ∨ ∀ q, ¬ P q → w.names q ≠ some (.file i)

/-- Nothing but the files at the paths in `P` has changed since `w0`. -/
structure Keep (w0 : World) (P : Path → Prop) (pid : Nat) (w : World) : Prop where
  names : ∀ q, ¬ P q → w.names q = w0.names q
  data : ∀ i, ¬ Mine w0 P i → w.data i = w0.data i
  mine : ∀ p i, P p → w.names p = some (.file i) → Mine w0 P i
  handles : ∀ h i o, w.handles pid h = some (i, o) → Mine w0 P i

theorem Keep.refl {w : World} {P : Path → Prop} {pid : Nat} (h : ∀ g, w.handles pid g = none) : Keep w P pid w :=
  ⟨fun _ _ => rfl, fun _ _ => rfl, fun p i hp e => .inl ⟨p, hp, e⟩, fun g i o e => by rw [h] at e; cases e⟩

theorem Keep.bytesAt {w0 w : World} {P : Path → Prop} {pid : Nat} (h : Keep w0 P pid w) {q : Path} (hq : ¬ P q)
    (hs : ∀ p, P p → ¬ w0.SameFile p q) : w.bytesAt q = w0.bytesAt q := by
  unfold World.bytesAt
  rw [h.names q hq]
  split
  · next i e =>
    rw [h.data i]
    rintro (⟨p, hp, e'⟩ | hn)
    · exact hs p hp ⟨i, e', e⟩
    · exact hn q hq e
  · rfl

theorem Keep.unused {w0 w : World} {P : Path → Prop} {pid : Nat} (h : Keep w0 P pid w) {i : Nat} (hu : w.Unused i) : Mine w0 P i := by
  refine .inr fun q hq => ?_
  rw [← h.names q hq]
  exact hu.1 q

theorem Keep.call {w0 w w' : World} {P : Path → Prop} {c : Call} {k : c.Ret → Prog α} {r : c.Ret} (hk : Keep w0 P x.pid w)
    (ho : Only os x P (.call c k)) (hs : Sem os x w c r w') : Keep w0 P x.pid w' := by
  obtain ⟨ho, _⟩ := ho
  have same : ∀ {w'}, w' = w → Keep w0 P x.pid w' := fun e => by rw [e]; exact hk
  cases c with
  | read p => exact same hs.1
  | isThere p => exact same hs.1
  | cwd => exact same hs.1
  | startBrowser => exact same hs
  | print t => exact same hs.1
  | create p =>
    cases r with
    | error e => exact same hs
    | ok h =>
      obtain ⟨_, ⟨i, e, rfl⟩ | ⟨i, e, _, _, hu, rfl⟩⟩ := hs
      · have hm : Mine w0 P i := hk.mine p i ho e
        refine ⟨hk.names, fun j hj => ?_, hk.mine, fun g j o hg => ?_⟩
        · show (if j = i then [] else w.data j) = _
          rw [if_neg (fun e => hj (by rw [e]; exact hm)), hk.data j hj]
        · have hg : (if x.pid = x.pid ∧ g = h then some (i, 0) else w.handles x.pid g) = some (j, o) := hg
          split at hg
          · cases hg; exact hm
          · exact hk.handles g j o hg
      · have hm : Mine w0 P i := hk.unused hu
        refine ⟨fun q hq => ?_, fun j hj => ?_, fun q j hq hj => ?_, fun g j o hg => ?_⟩
        · show (if q = p then some (.file i) else w.names q) = _
          rw [if_neg (fun e => hq (by rw [e]; exact ho)), hk.names q hq]
        · show (if j = i then [] else w.data j) = _
          rw [if_neg (fun e => hj (by rw [e]; exact hm)), hk.data j hj]
        · have hj : (if q = p then some (.file i) else w.names q) = some (.file j) := hj
          split at hj
          · cases hj; exact hm
          · exact hk.mine q j hq hj
        · have hg : (if x.pid = x.pid ∧ g = h then some (i, 0) else w.handles x.pid g) = some (j, o) := hg
          split at hg
          · cases hg; exact hm
          · exact hk.handles g j o hg
  | write h b =>
    cases r with
    | error e => exact same hs
    | ok n =>
      obtain ⟨_, _, i, o, e, rfl⟩ := hs
      have hm : Mine w0 P i := hk.handles h i o e
      refine ⟨hk.names, fun j hj => ?_, hk.mine, fun g j o' hg => ?_⟩
      · show (if j = i then _ else w.data j) = _
        rw [if_neg (fun e => hj (by rw [e]; exact hm)), hk.data j hj]
      · have hg : (if x.pid = x.pid ∧ g = h then some (i, o + n) else w.handles x.pid g) = some (j, o') := hg
        split at hg
        · cases hg; exact hm
        · exact hk.handles g j o' hg
  | close h =>
    have e : w' = w.setHandle x.pid h none := hs
    subst e
    refine ⟨hk.names, hk.data, hk.mine, fun g j o hg => ?_⟩
    have hg : (if x.pid = x.pid ∧ g = h then none else w.handles x.pid g) = some (j, o) := hg
    split at hg
    · cases hg
    · exact hk.handles g j o hg
  | createDirs p =>
    have ha : AddsDirs (fun q => q <+: p) w w' := by
      cases r with
      | error e => exact hs
      | ok u => exact hs.1
    obtain ⟨e, hn⟩ := ha
    have ed : w'.data = w.data := by rw [e]
    have eh : w'.handles = w.handles := by rw [e]
    refine ⟨fun q hq => ?_, fun j hj => by rw [ed, hk.data j hj], fun q j hq hj => ?_, fun g j o hg => ?_⟩
    · rcases hn q with h | ⟨_, _, h⟩
      · rw [h, hk.names q hq]
      · exact absurd (ho q h) hq
    · rcases hn q with h | ⟨_, h, _⟩
      · exact hk.mine q j hq (h ▸ hj)
      · rw [h] at hj; cases hj
    · rw [eh] at hg; exact hk.handles g j o hg
  | remove p =>
    cases r with
    | error e => exact same hs
    | ok u =>
      obtain ⟨_, rfl⟩ := hs
      refine ⟨fun q hq => ?_, hk.data, fun q j hq hj => ?_, hk.handles⟩
      · show (if q = p then none else w.names q) = _
        rw [if_neg (fun e => hq (by rw [e]; exact ho)), hk.names q hq]
      · have hj : (if q = p then none else w.names q) = some (.file j) := hj
        split at hj
        · cases hj
        · exact hk.mine q j hq hj
  | openTab u =>
    cases r with
    | error e => exact same hs
    | ok t =>
      obtain ⟨_, b, _, rfl⟩ := hs
      exact ⟨hk.names, hk.data, hk.mine, hk.handles⟩

theorem Keep.steps {w0 w w' : World} {P : Path → Prop} {p p' : Prog α} (hs : Steps os x w p w' p') (hk : Keep w0 P x.pid w) (ho : Only os x P p) :
    Keep w0 P x.pid w' := by
  induction hs with
  | refl => exact hk
  | step w w1 w2 p p1 p2 h _ ih =>
    cases h with
    | call _ _ k r h => exact ih (hk.call ho h) (ho.2 _ r _ h)

theorem Only.holds {w0 : World} {P : Path → Prop} : ∀ {p : Prog α} {w : World}, Only os x P p → Keep w0 P x.pid w →
    Holds os x Eq (fun _ w' => Keep w0 P x.pid w') p w
  | .ret _, _, _, hk => hk
  | .call c k, w, ho, hk => by
    intro w1 e r w2 hs
    subst e
    exact Only.holds (ho.2 _ r _ hs) (hk.call ho hs)

/-! ### Two processes -/

/-- The files at `P` and at `Q` are different, and so are the files the processes have open. -/
structure Apart (P Q : Path → Prop) (a b : Nat) (w : World) : Prop where
  names : ∀ p q i, P p → Q q → w.names p = some (.file i) → w.names q ≠ some (.file i)
  left : ∀ h i o q, w.handles a h = some (i, o) → Q q → w.names q ≠ some (.file i)
  right : ∀ h i o p, w.handles b h = some (i, o) → P p → w.names p ≠ some (.file i)
  open_ : ∀ h i o g o', w.handles a h = some (i, o) → w.handles b g ≠ some (i, o')

theorem Apart.symm {P Q : Path → Prop} {a b : Nat} {w : World} (h : Apart P Q a b w) : Apart Q P b a w :=
  ⟨fun q p i hq hp e e' => h.names p q i hp hq e' e, h.right, h.left, fun g i o h' o' e e' => h.open_ h' i o' g o e' e⟩

/-- What a process that uses the files at `P` can rely on. -/
structure Rely (P : Path → Prop) (a : Nat) (w w' : World) : Prop where
  names : ∀ p, P p → w'.names p = w.names p
  data : ∀ p i, P p → w.names p = some (.file i) → w'.data i = w.data i
  openData : ∀ h i o, w.handles a h = some (i, o) → w'.data i = w.data i
  handles : w'.handles a = w.handles a
  tabs : w'.tabs a = w.tabs a

theorem Rely.refl {P : Path → Prop} {a : Nat} (w : World) : Rely P a w w :=
  ⟨fun _ _ => rfl, fun _ _ _ _ => rfl, fun _ _ _ _ => rfl, rfl, rfl⟩

theorem Rely.trans {P : Path → Prop} {a : Nat} {w w1 w2 : World} (h : Rely P a w w1) (h' : Rely P a w1 w2) : Rely P a w w2 :=
  ⟨fun p hp => (h'.names p hp).trans (h.names p hp),
    fun p i hp e => (h'.data p i hp (by rw [h.names p hp]; exact e)).trans (h.data p i hp e),
    fun g i o e => (h'.openData g i o (by rw [h.handles]; exact e)).trans (h.openData g i o e),
    h'.handles.trans h.handles, h'.tabs.trans h.tabs⟩

theorem Rely.bytesAt {P : Path → Prop} {a : Nat} {w w' : World} (h : Rely P a w w') {p : Path} (hp : P p) : w'.bytesAt p = w.bytesAt p := by
  unfold World.bytesAt
  rw [h.names p hp]
  split
  · next i e => rw [h.data p i hp e]
  · rfl

/-- A step of the other process, which creates, writes and removes only files at `Q`. -/
theorem Apart.other {P Q : Path → Prop} {a : Nat} {w w' : World} {c : Call} {k : c.Ret → Prog α} {r : c.Ret} (hne : a ≠ x.pid)
    (hd : ∀ p, P p → ¬ Q p) (hi : Apart P Q a x.pid w) (ho : Only os x Q (.call c k)) (hs : Sem os x w c r w') :
    Apart P Q a x.pid w' ∧ Rely P a w w' := by
  obtain ⟨ho, _⟩ := ho
  have same : ∀ {w'}, w' = w → Apart P Q a x.pid w' ∧ Rely P a w w' := fun e => by rw [e]; exact ⟨hi, .refl w⟩
  cases c with
  | read p => exact same hs.1
  | isThere p => exact same hs.1
  | cwd => exact same hs.1
  | startBrowser => exact same hs
  | print t => exact same hs.1
  | create p =>
    cases r with
    | error e => exact same hs
    | ok h =>
      obtain ⟨_, ⟨i, e, rfl⟩ | ⟨i, e, _, _, hu, rfl⟩⟩ := hs
      · have h1 : ∀ p', P p' → w.names p' ≠ some (.file i) := fun p' hp e' => hi.names p' p i hp ho e' e
        have h2 : ∀ g o, w.handles a g ≠ some (i, o) := fun g o e' => hi.left g i o p e' ho e
        have eh : ∀ g, ((w.setData i []).setHandle x.pid h (some (i, 0))).handles a g = w.handles a g := by
          intro g
          show (if a = x.pid ∧ g = h then some (i, 0) else w.handles a g) = _
          rw [if_neg (fun h => hne h.1)]
        have eb : ∀ g j o, ((w.setData i []).setHandle x.pid h (some (i, 0))).handles x.pid g = some (j, o) →
            j = i ∨ w.handles x.pid g = some (j, o) := by
          intro g j o hg
          have hg : (if x.pid = x.pid ∧ g = h then some (i, 0) else w.handles x.pid g) = some (j, o) := hg
          split at hg
          · cases hg; exact .inl rfl
          · exact .inr hg
        refine ⟨⟨hi.names, fun g j o q hg hq => hi.left g j o q (eh g ▸ hg) hq, fun g j o p' hg hp => ?_, fun g j o g' o' hg hg' => ?_⟩,
          fun _ _ => rfl, fun p' j hp e' => ?_, fun g j o e' => ?_, funext eh, rfl⟩
        · rcases eb g j o hg with rfl | hg
          · exact h1 p' hp
          · exact hi.right g j o p' hg hp
        · rw [eh] at hg
          rcases eb g' j o' hg' with rfl | hg'
          · exact h2 g o hg
          · exact hi.open_ g j o g' o' hg hg'
        · show (if j = i then [] else w.data j) = _
          rw [if_neg]
          rintro rfl
          exact h1 p' hp e'
        · show (if j = i then [] else w.data j) = _
          rw [if_neg]
          rintro rfl
          exact h2 g o e'
      · have h2 : ∀ g o, w.handles a g ≠ some (i, o) := fun g o e' => hu.2 a g o e'
        have en : ∀ p', P p' → (((w.setName p (some (.file i))).setData i []).setHandle x.pid h (some (i, 0))).names p' = w.names p' := by
          intro p' hp
          show (if p' = p then some (.file i) else w.names p') = _
          rw [if_neg]
          rintro rfl
          exact hd p' hp ho
        have eh : ∀ g, (((w.setName p (some (.file i))).setData i []).setHandle x.pid h (some (i, 0))).handles a g = w.handles a g := by
          intro g
          show (if a = x.pid ∧ g = h then some (i, 0) else w.handles a g) = _
          rw [if_neg (fun h => hne h.1)]
        have eb : ∀ g j o, (((w.setName p (some (.file i))).setData i []).setHandle x.pid h (some (i, 0))).handles x.pid g = some (j, o) →
            j = i ∨ w.handles x.pid g = some (j, o) := by
          intro g j o hg
          have hg : (if x.pid = x.pid ∧ g = h then some (i, 0) else w.handles x.pid g) = some (j, o) := hg
          split at hg
          · cases hg; exact .inl rfl
          · exact .inr hg
        have eq : ∀ q j, (((w.setName p (some (.file i))).setData i []).setHandle x.pid h (some (i, 0))).names q = some (.file j) →
            j = i ∨ w.names q = some (.file j) := by
          intro q j hq
          have hq : (if q = p then some (.file i) else w.names q) = some (.file j) := hq
          split at hq
          · cases hq; exact .inl rfl
          · exact .inr hq
        refine ⟨⟨fun p' q j hp hq e1 e2 => ?_, fun g j o q hg hq e2 => ?_, fun g j o p' hg hp => ?_, fun g j o g' o' hg hg' => ?_⟩,
          en, fun p' j hp e' => ?_, fun g j o e' => ?_, funext eh, rfl⟩
        · rw [en p' hp] at e1
          rcases eq q j e2 with rfl | e2
          · exact hu.1 p' e1
          · exact hi.names p' q j hp hq e1 e2
        · rw [eh] at hg
          rcases eq q j e2 with rfl | e2
          · exact h2 g o hg
          · exact hi.left g j o q hg hq e2
        · rw [en p' hp]
          rcases eb g j o hg with rfl | hg
          · exact hu.1 p'
          · exact hi.right g j o p' hg hp
        · rw [eh] at hg
          rcases eb g' j o' hg' with rfl | hg'
          · exact h2 g o hg
          · exact hi.open_ g j o g' o' hg hg'
        · show (if j = i then [] else w.data j) = _
          rw [if_neg]
          rintro rfl
          exact hu.1 p' e'
        · show (if j = i then [] else w.data j) = _
          rw [if_neg]
          rintro rfl
          exact h2 g o e'
  | write h b =>
    cases r with
    | error e => exact same hs
    | ok n =>
      obtain ⟨_, _, i, o, e, rfl⟩ := hs
      have eh : ∀ g, ((w.setData i (overwrite (w.data i) o (b.take n))).setHandle x.pid h (some (i, o + n))).handles a g = w.handles a g := by
        intro g
        show (if a = x.pid ∧ g = h then some (i, o + n) else w.handles a g) = _
        rw [if_neg (fun h => hne h.1)]
      have eb : ∀ g j o', ((w.setData i (overwrite (w.data i) o (b.take n))).setHandle x.pid h (some (i, o + n))).handles x.pid g = some (j, o') →
          ∃ o'', w.handles x.pid g = some (j, o'') := by
        intro g j o' hg
        have hg : (if x.pid = x.pid ∧ g = h then some (i, o + n) else w.handles x.pid g) = some (j, o') := hg
        split at hg
        · next hh => cases hg; exact ⟨o, hh.2 ▸ e⟩
        · exact ⟨o', hg⟩
      refine ⟨⟨hi.names, fun g j o' q hg hq => hi.left g j o' q (eh g ▸ hg) hq, fun g j o' p' hg hp => ?_, fun g j o' g' o'' hg hg' => ?_⟩,
        fun _ _ => rfl, fun p' j hp e' => ?_, fun g j o' e' => ?_, funext eh, rfl⟩
      · obtain ⟨o'', hg⟩ := eb g j o' hg
        exact hi.right g j o'' p' hg hp
      · rw [eh] at hg
        obtain ⟨o''', hg'⟩ := eb g' j o'' hg'
        exact hi.open_ g j o' g' o''' hg hg'
      · show (if j = i then _ else w.data j) = _
        rw [if_neg]
        rintro rfl
        exact hi.right h j o p' e hp e'
      · show (if j = i then _ else w.data j) = _
        rw [if_neg]
        rintro rfl
        exact hi.open_ g j o' h o e' e
  | close h =>
    have e : w' = w.setHandle x.pid h none := hs
    subst e
    have eh : ∀ g, (w.setHandle x.pid h none).handles a g = w.handles a g := by
      intro g
      show (if a = x.pid ∧ g = h then none else w.handles a g) = _
      rw [if_neg (fun h => hne h.1)]
    have eb : ∀ g j o', (w.setHandle x.pid h none).handles x.pid g = some (j, o') → w.handles x.pid g = some (j, o') := by
      intro g j o' hg
      have hg : (if x.pid = x.pid ∧ g = h then none else w.handles x.pid g) = some (j, o') := hg
      split at hg
      · cases hg
      · exact hg
    exact ⟨⟨hi.names, fun g j o q hg hq => hi.left g j o q (eh g ▸ hg) hq, fun g j o p' hg hp => hi.right g j o p' (eb g j o hg) hp,
      fun g j o g' o' hg hg' => hi.open_ g j o g' o' (eh g ▸ hg) (eb g' j o' hg')⟩,
      fun _ _ => rfl, fun _ _ _ _ => rfl, fun _ _ _ _ => rfl, funext eh, rfl⟩
  | createDirs p =>
    have ha : AddsDirs (fun q => q <+: p) w w' := by
      cases r with
      | error e => exact hs
      | ok u => exact hs.1
    obtain ⟨e, hn⟩ := ha
    have ed : w'.data = w.data := by rw [e]
    have eh : w'.handles = w.handles := by rw [e]
    have et : w'.tabs = w.tabs := by rw [e]
    have en : ∀ p', P p' → w'.names p' = w.names p' := by
      intro p' hp
      rcases hn p' with h | ⟨_, _, h⟩
      · exact h
      · exact absurd (ho p' h) (hd p' hp)
    have eq : ∀ q j, w'.names q = some (.file j) → w.names q = some (.file j) := by
      intro q j hq
      rcases hn q with h | ⟨_, h, _⟩
      · exact h ▸ hq
      · rw [h] at hq; cases hq
    exact ⟨⟨fun p' q i hp hq e1 e2 => hi.names p' q i hp hq (eq _ _ e1) (eq _ _ e2),
      fun g j o q hg hq e2 => hi.left g j o q (eh ▸ hg) hq (eq _ _ e2), fun g j o p' hg hp e2 => hi.right g j o p' (eh ▸ hg) hp (eq _ _ e2),
      fun g j o g' o' hg hg' => hi.open_ g j o g' o' (eh ▸ hg) (eh ▸ hg')⟩,
      en, fun _ _ _ _ => by rw [ed], fun _ _ _ _ => by rw [ed], by rw [eh], by rw [et]⟩
  | remove p =>
    cases r with
    | error e => exact same hs
    | ok u =>
      obtain ⟨_, rfl⟩ := hs
      have eq : ∀ q j, (w.setName p none).names q = some (.file j) → w.names q = some (.file j) := by
        intro q j hq
        have hq : (if q = p then none else w.names q) = some (.file j) := hq
        split at hq
        · cases hq
        · exact hq
      refine ⟨⟨fun p' q i hp hq e1 e2 => hi.names p' q i hp hq (eq _ _ e1) (eq _ _ e2),
        fun g j o q hg hq e2 => hi.left g j o q hg hq (eq _ _ e2), fun g j o p' hg hp e2 => hi.right g j o p' hg hp (eq _ _ e2), hi.open_⟩,
        fun p' hp => ?_, fun _ _ _ _ => rfl, fun _ _ _ _ => rfl, rfl, rfl⟩
      show (if p' = p then none else w.names p') = _
      rw [if_neg]
      rintro rfl
      exact hd p' hp ho
  | openTab u =>
    cases r with
    | error e => exact same hs
    | ok t =>
      obtain ⟨_, b, _, rfl⟩ := hs
      refine ⟨⟨hi.names, hi.left, hi.right, hi.open_⟩, fun _ _ => rfl, fun _ _ _ _ => rfl, fun _ _ _ _ => rfl, rfl, ?_⟩
      funext g
      show (if a = x.pid ∧ g = t then some b else w.tabs a g) = _
      rw [if_neg (fun h => hne h.1)]

/-- A program that relies on the files at `P`, beside one that changes only files at `Q`. -/
theorem Holds.ends2 {Q : α → World → Prop} {P W : Path → Prop} {p p' : Prog α} {q q' : Prog β} {w w' : World}
    (hs : Steps2 os x y w p q w' p' q') (hne : x.pid ≠ y.pid) (hd : ∀ p, P p → ¬ W p) {P' : Path → Prop} (hsub : ∀ p, P' p → P p)
    (hp : Only os x P' p) (hq : Only os y W q) (hi : Apart P W x.pid y.pid w) {w0 : World} (h : Holds os x (Rely P x.pid) Q p w0) (hr : Rely P x.pid w0 w) :
    ∃ w1, Holds os x (Rely P x.pid) Q p' w1 ∧ Rely P x.pid w1 w' := by
  induction hs generalizing w0 with
  | refl => exact ⟨w0, h, hr⟩
  | left w w1 w2 p p1 p2 q q2 hstep _ ih =>
    cases hstep with
    | call _ _ k r hsem =>
      have h1 := h w hr r w1 hsem
      have hi1 := (Apart.other (x := x) (P := W) (Q := P) (Ne.symm hne) (fun p hw hp => hd p hp hw) hi.symm (Only.mono hsub hp) hsem).1.symm
      exact ih (hp.2 _ r _ hsem) hq hi1 h1 (.refl w1)
  | right w w1 w2 p p2 q q1 q2 hstep _ ih =>
    cases hstep with
    | call _ _ k r hsem =>
      obtain ⟨hi1, hr1⟩ := Apart.other (x := y) (P := P) (Q := W) hne hd hi hq hsem
      exact ih hp (hq.2 _ r _ hsem) hi1 h (hr.trans hr1)

end Smd.Core
