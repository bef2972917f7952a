import Verif.Lemmas.Exec

/-! Any number of processes. -/

namespace Smd.Core

variable {ι α : Type} [DecidableEq ι] {os : Os} {x : Ctx} {xs : ι → Ctx}

/-- A call does not touch what other processes have open. -/
theorem Sem.handles {w w' : World} {c : Call} {r : c.Ret} (hs : Sem os x w c r w') {b : Nat} (hb : b ≠ x.pid) : w'.handles b = w.handles b := by
  have set : ∀ (w : World) h v, (w.setHandle x.pid h v).handles b = w.handles b := by
    intro w h v
    funext g
    show (if b = x.pid ∧ g = h then v else w.handles b g) = _
    rw [if_neg (fun e => hb e.1)]
  cases c with
  | read p => rw [hs.1]
  | isThere p => rw [hs.1]
  | create p =>
    cases r with
    | error e => rw [show w' = w from hs]
    | ok h =>
      obtain ⟨_, ⟨i, _, rfl⟩ | ⟨i, _, _, _, _, rfl⟩⟩ := hs
      · rw [set]; rfl
      · rw [set]; rfl
  | write h b' =>
    cases r with
    | error e => rw [show w' = w from hs]
    | ok n =>
      obtain ⟨_, _, i, o, _, rfl⟩ := hs
      rw [set]; rfl
  | close h => rw [show w' = _ from hs, set]
  | createDirs p =>
    cases r with
    | error e => rw [hs.1]
    | ok u => rw [hs.1.1]
  | remove p =>
    cases r with
    | error e => rw [show w' = w from hs]
    | ok u => rw [hs.2]; rfl
  | cwd => rw [hs.1]
  | startBrowser => rw [show w' = w from hs]
  | openTab u =>
    cases r with
    | error e => rw [show w' = w from hs]
    | ok t => obtain ⟨_, _, _, rfl⟩ := hs; rfl
  | print t => rw [hs.1]

/-- A step of a third process. -/
theorem Apart.third {P W : Path → Prop} {a b c : Nat} {w w' : World} (h : Apart P W a b w) (h' : Apart P W a c w') (hr : Rely P a w w')
    (hb : w'.handles b = w.handles b) : Apart P W a b w' where
  names := h'.names
  left := h'.left
  right g i o p e hp := by
    rw [hb] at e
    rw [hr.names p hp]
    exact h.right g i o p e hp
  open_ g i o g' o' e := by
    rw [hr.handles] at e
    rw [hb]
    exact h.open_ g i o g' o' e

/-- A program that relies on the files at `P`, beside any number that change only files at `W`. -/
theorem Holds.endsN {Q : α → World → Prop} {P W : Path → Prop} {ps qs : ι → Prog α} {w w' : World} (i : ι)
    (hs : StepsN os xs w ps w' qs) (hne : ∀ j k, j ≠ k → (xs j).pid ≠ (xs k).pid) (hd : ∀ p, P p → ¬ W p)
    (hp : Only os (xs i) P (ps i)) (hq : ∀ j, j ≠ i → Only os (xs j) W (ps j)) (hi : ∀ j, j ≠ i → Apart P W (xs i).pid (xs j).pid w)
    {w0 : World} (h : Holds os (xs i) (Rely P (xs i).pid) Q (ps i) w0) (hr : Rely P (xs i).pid w0 w) :
    ∃ w1, Holds os (xs i) (Rely P (xs i).pid) Q (qs i) w1 ∧ Rely P (xs i).pid w1 w' := by
  induction hs generalizing w0 with
  | refl => exact ⟨w0, h, hr⟩
  | step k w w1 w2 ps qs p1 hstep _ ih =>
    by_cases hk : k = i
    · subst hk
      generalize hpk : ps k = pk at hstep hp h
      cases hstep with
      | call _ _ f r hsem =>
        have h1 := h w hr r w1 hsem
        refine ih ?_ ?_ ?_ (w0 := w1) ?_ (.refl w1)
        · simp only [if_true]
          exact hp.2 _ r _ hsem
        · intro j hj
          simp only [if_neg hj]
          exact hq j hj
        · exact fun j hj => (Apart.other (x := xs k) (P := W) (Q := P) (hne j k hj) (fun p hw hp => hd p hp hw) (hi j hj).symm hp hsem).1.symm
        · simp only [if_true]
          exact h1
    · have ho := hq k hk
      generalize hpk : ps k = pk at hstep ho
      cases hstep with
      | call _ _ f r hsem =>
        obtain ⟨hi1, hr1⟩ := Apart.other (x := xs k) (P := P) (Q := W) (hne i k (Ne.symm hk)) hd (hi k hk) ho hsem
        refine ih ?_ ?_ ?_ (w0 := w0) ?_ (hr.trans hr1)
        · simp only [if_neg (Ne.symm hk)]
          exact hp
        · intro j hj
          by_cases hjk : j = k
          · subst hjk
            simp only [if_true]
            exact ho.2 _ r _ hsem
          · simp only [if_neg hjk]
            exact hq j hj
        · intro j hj
          by_cases hjk : j = k
          · subst hjk
            exact hi1
          · exact (hi j hj).third hi1 hr1 (Sem.handles hsem (hne j k hjk))
        · simp only [if_neg (Ne.symm hk)]
          exact h

/-- Nothing but the files at `P` changes, if all programs keep to them. -/
theorem Keep.stepsN {P : Path → Prop} {ps qs : ι → Prog α} {w0 w w' : World} (hs : StepsN os xs w ps w' qs)
    (hne : ∀ j k, j ≠ k → (xs j).pid ≠ (xs k).pid) (hk : ∀ j, Keep w0 P (xs j).pid w) (ho : ∀ j, Only os (xs j) P (ps j)) :
    ∀ j, Keep w0 P (xs j).pid w' := by
  induction hs with
  | refl => exact hk
  | step k w w1 w2 ps qs p1 hstep _ ih =>
    have hok := ho k
    generalize hpk : ps k = pk at hstep hok
    cases hstep with
    | call _ _ f r hsem =>
      have h1 := (hk k).call hok hsem
      refine ih (fun j => ?_) fun j => ?_
      · by_cases hj : j = k
        · exact hj ▸ h1
        · exact ⟨h1.names, h1.data, h1.mine, fun g i o e => (hk j).handles g i o (Sem.handles hsem (hne j k hj) ▸ e)⟩
      · by_cases hj : j = k
        · subst hj
          simp only [if_true]
          exact hok.2 _ r _ hsem
        · simp only [if_neg hj]
          exact ho j

theorem StepsN.trans {w w1 w2 : World} {ps qs rs : ι → Prog α} (h : StepsN os xs w ps w1 qs) (h' : StepsN os xs w1 qs w2 rs) :
    StepsN os xs w ps w2 rs := by
  induction h with
  | refl => exact h'
  | step i w w1 w2 ps qs p1 hs _ ih => exact .step i _ _ _ _ _ _ hs (ih h')

/-- Some steps of one of the processes. -/
theorem Steps.many (i : ι) {w w' : World} {p p' : Prog α} (h : Steps os (xs i) w p w' p') (ps : ι → Prog α) (hp : ps i = p) :
    StepsN os xs w ps w' (fun j => if j = i then p' else ps j) := by
  induction h generalizing ps with
  | refl w p =>
    have : (fun j => if j = i then p else ps j) = ps := by
      funext j
      by_cases hj : j = i
      · rw [if_pos hj, hj, hp]
      · rw [if_neg hj]
    rw [this]
    exact .refl _ _
  | step w w1 w2 p p1 p2 hs _ ih =>
    refine .step i w w1 w2 ps _ p1 (hp ▸ hs) ?_
    have := ih (fun j => if j = i then p1 else ps j) (if_pos rfl)
    have e : (fun j => if j = i then p2 else if j = i then p1 else ps j) = fun j => if j = i then p2 else ps j := by
      funext j
      by_cases hj : j = i
      · rw [if_pos hj, if_pos hj]
      · rw [if_neg hj, if_neg hj, if_neg hj]
    rw [e] at this
    exact this

end Smd.Core
