import Verif.Lemmas.Run

/-! The renderer only ever appends to what it has written. -/

namespace Smd.Gfm
open Smd.Rs Smd.Spec

/-- `y` has at least the output of `x`. -/
def Ext (x y : PState) : Prop := x.html <+: y.html

theorem Ext.refl (x : PState) : Ext x x := List.prefix_rfl

theorem Ext.trans {x y z : PState} (h : Ext x y) (g : Ext y z) : Ext x z := List.IsPrefix.trans h g

theorem Ext.push {x y : PState} (h : Ext x y) (s : Str) : Ext x (y.push s) := List.IsPrefix.trans h (List.prefix_append _ _)

theorem Ext.of {x y z : PState} (h : Ext x y) (e : z.html = y.html) : Ext x z := by
  unfold Ext at *
  rw [e]
  exact h

theorem Ext.ite {x y z : PState} {p : Prop} [Decidable p] (h : Ext x y) (g : Ext x z) : Ext x (if p then y else z) := by
  split <;> assumption

theorem Ext.para {x y : PState} (h : Ext x y) : Ext x y.ensurePara := .ite (.push (.of h rfl) _) h

theorem step1_ext (t : Token) (st : PState) : Ext st (step1 t st) := by
  have h := Ext.refl st
  unfold step1
  exact .ite h <| .ite h <| .ite h <| .ite h <| .ite (.push (.push (.of h rfl) _) _) <| .ite (.para (.push (.of h rfl) _)) <|
    .ite (.para (.push (.of h rfl) _)) <| .ite (.para (.push (.of h rfl) _)) <| .ite (.push (.of h rfl) _) <| .ite h <|
    .ite (.push (.of h rfl) _) h

theorem quoteStep_ext {r : Rec} {l : Nat} {t : Str} {x st st' : PState} (h : Ext x st) (e : quoteStep r l t st = .ok st') :
    Ext x st' := by
  have h1 : Ext x (if st.inPara then { st with inPara := false }.push c!"</p>" else st) := .ite (.push (.of h rfl) _) h
  unfold quoteStep at e
  revert e h1
  generalize (if st.inPara then { st with inPara := false }.push c!"</p>" else st) = s2
  intro e h1
  have h2 : Ext x ({ s2 with quoteLevel := l }.push (quoteTags l s2.quoteLevel)) := .push (.of h1 rfl) _
  dsimp only at e
  split at e
  · (cases e; exact h2)
  · obtain ⟨a, _, e⟩ := Outcome.bind_ok' e
    (cases e; exact .push h2 _)

theorem step2_ext {r : Rec} {t : Token} {x st st' : PState} (h : Ext x st) (e : step2 r t st = .ok st') : Ext x st' := by
  cases t with
  | blockQuote l t => exact quoteStep_ext h (by simpa only [step2] using e)
  | unorderedListEntry toks =>
    obtain ⟨a, _, e⟩ := Outcome.bind_ok' e
    cases e
    have h1 : Ext x (if !st.inUl then { st with inUl := true }.push c!"<ul>\n" else st) := by
      split
      · exact .push (.of h rfl) _
      · exact h
    refine .push (.push ?_ _) _
    split
    · exact .push (.push h1 _) _
    · exact .push h1 _
  | plaintext t =>
    simp only [step2] at e
    split at e
    · (cases e; exact h)
    · (cases e; exact .push h _)
  | orderedListEntry t =>
    cases e
    refine .push ?_ _
    split
    · exact .push (.of h rfl) _
    · exact h
  | taskListItem c t =>
    cases e
    refine .push ?_ _
    split
    · exact .push (.of h rfl) _
    · exact h
  | footnote i t => (cases e; exact .of h rfl)
  | _ => first | (cases e; exact h) | (cases e; exact .push h _)

theorem parseTok_ext {r : Rec} {t : Token} {st st' : PState} (e : parseTok r t st = .ok st') : Ext st st' := by
  have h := step1_ext t st
  cases t with
  | detail s i =>
    rw [parseTok] at e
    obtain ⟨a, _, e⟩ := Outcome.bind_ok e
    cases e
    refine .push ?_ _
    split
    · exact .push (.of h rfl) _
    · exact h
  | table hs rows =>
    cases rows with
    | nil => simp [parseTok] at e
    | cons r0 rs =>
      simp only [parseTok] at e
      split at e
      · (cases e; exact h)
      · obtain ⟨a, _, e⟩ := Outcome.bind_ok e
        obtain ⟨b, _, e⟩ := Outcome.bind_ok e
        (cases e; exact .push h _)
  | _ =>
    rw [parseTok] at e
    · exact step2_ext h e
    all_goals simp

theorem parseToks_ext {r : Rec} : ∀ {ts : List Token} {st st' : PState}, parseToks r ts st = .ok st' → Ext st st'
  | [], st, st', e => Outcome.ok.inj e ▸ .refl st
  | t :: ts, st, st', e => by
    rw [parseToks] at e
    obtain ⟨a, h, e⟩ := Outcome.bind_ok e
    exact (parseTok_ext h).trans (parseToks_ext e)

theorem endNl_prefix (h : Str) : h <+: endNl h := by
  unfold endNl
  split
  · exact List.prefix_append _ _
  · exact List.prefix_rfl

theorem finish_prefix (st : PState) : st.html <+: finish st := by
  have i : ∀ {x y z : Str} (b : Bool), x <+: y → x <+: z → x <+: (if b = true then y else z) := by
    intro x y z b h g
    cases b <;> simpa
  have a : ∀ {x y : Str} (z : Str), x <+: y → x <+: y ++ z := fun z h => h.trans (List.prefix_append _ _)
  have n : ∀ {x y : Str}, x <+: y → x <+: endNl y := fun h => h.trans (endNl_prefix _)
  have q : ∀ b c : Bool, ∀ {x y z : Str}, x <+: y → x <+: z → x <+: (if (b || c) = true then y else z) :=
    fun b c => i (b || c)
  unfold finish
  have h1 := i st.inPara (a c!"</p>\n" (List.prefix_rfl (l := st.html))) List.prefix_rfl
  have h2 := a (rep st.quoteLevel c!"</blockquote>\n") h1
  have h3 := q st.inTask st.inUl (a c!"</ul>" h2) h2
  have h4 := n (i st.inOl (a c!"</ol>" h3) h3)
  have h5 := i st.inCode (a c!"</code></pre>" (n h4)) h4
  simp only
  split
  · exact a _ (a _ (a _ (a _ (a _ h5))))
  · exact h5

/-- What has been written after some of the tokens stays at the front of the rendering. -/
theorem parseDoc_prefix {r : Rec} {a b : List Token} {st : PState} {html : Str} (h1 : parseToks r a {} = .ok st)
    (h2 : parseDoc r (a ++ b) = .ok html) : st.html <+: html := by
  unfold parseDoc at h2
  rw [parseToks_append, h1] at h2
  obtain ⟨s, h3, h4⟩ := Outcome.bind_ok h2
  exact Outcome.ok.inj h4 ▸ List.IsPrefix.trans (parseToks_ext h3) (finish_prefix s)

end Smd.Gfm
