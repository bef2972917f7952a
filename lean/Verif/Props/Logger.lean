import Verif.App.Logger
import Verif.Lemmas.Iter

/-! C53: the target column of the log. -/

namespace Smd.App
open Smd.Gfm.Iter

/-! ### Helpers -/

theorem length_le_byteLen : ∀ s : Str, s.length ≤ byteLen s
  | [] => Nat.le_refl _
  | c :: s => by
    have ih := length_le_byteLen s
    unfold byteLen at *
    rw [enc_cons, List.length_append]
    have : 1 ≤ (String.utf8EncodeChar c).length := by
      obtain ⟨b, tl, h, _⟩ := encChar_shape c
      rw [h]
      simp
    rw [List.length_cons]
    omega

/-- What is true of each thread at any time. -/
def ThreadOk : Thread → Prop
  | .ready t n _ => byteLen t ≤ n
  | _ => True

theorem logSteps_ok {s s' : Shared} {ts ts' : List Thread} (h : LogSteps s ts s' ts') (ht : ∀ t ∈ ts, ThreadOk t)
    (hl : ∀ e ∈ s.lines, byteLen e.1 ≤ e.2) : ∀ e ∈ s'.lines, byteLen e.1 ≤ e.2 := by
  induction h with
  | refl => exact hl
  | step s s1 s2 a b t t1 ts h _ ih =>
    have hrest : ∀ u, ThreadOk u → ∀ v ∈ a ++ u :: b, ThreadOk v := by
      intro u hu v hv
      rcases List.mem_append.mp hv with hv | hv
      · exact ht v (List.mem_append_left _ hv)
      · rcases List.mem_cons.mp hv with rfl | hv
        · exact hu
        · exact ht v (List.mem_append_right _ (List.mem_cons_of_mem _ hv))
    cases h with
    | load => exact ih (hrest _ trivial) hl
    | store _ m _ h => exact ih (hrest _ (Nat.le_refl _)) hl
    | keep _ m _ h => exact ih (hrest _ (Nat.le_of_not_lt h)) hl
    | print t n _ =>
      refine ih (hrest _ trivial) fun e he => ?_
      rcases List.mem_append.mp he with he | he
      · exact hl e he
      · rw [List.mem_singleton.mp he]
        exact ht (.ready t n _) (List.mem_append_right _ List.mem_cons_self)

/-- The state of a single thread: what it is going to write is as wide as what has been written. -/
def OneOk (s : Shared) : Thread → Prop
  | .idle _ => ∀ e ∈ s.lines, e.2 ≤ s.maxWidth
  | .loaded _ m _ => m = s.maxWidth ∧ ∀ e ∈ s.lines, e.2 ≤ s.maxWidth
  | .ready _ n _ => n = s.maxWidth ∧ ∀ e ∈ s.lines, e.2 ≤ s.maxWidth

theorem one_thread {s s' : Shared} {ts ts' : List Thread} (h : LogSteps s ts s' ts') : ∀ {t : Thread}, ts = [t] → OneOk s t →
    s.lines.Pairwise (fun a b => a.2 ≤ b.2) → s'.lines.Pairwise fun a b => a.2 ≤ b.2 := by
  induction h with
  | refl => intro _ _ _ hp; exact hp
  | step s s1 s2 a b t t1 ts h _ ih =>
    intro u hu ho hp
    have ha : a = [] ∧ t = u ∧ b = [] := by
      cases a with
      | nil => exact ⟨rfl, (List.cons.inj hu).1, (List.cons.inj hu).2⟩
      | cons c a => simp at hu
    obtain ⟨rfl, rfl, rfl⟩ := ha
    cases h with
    | load => exact ih rfl ⟨rfl, ho⟩ hp
    | store t m _ h =>
      refine ih rfl ⟨rfl, fun e he => ?_⟩ hp
      have := ho.2 e he
      rw [← ho.1] at this
      exact Nat.le_trans this (Nat.le_of_lt h)
    | keep => exact ih rfl ho hp
    | print =>
      refine ih rfl (fun e he => ?_) ?_
      · rcases List.mem_append.mp he with he | he
        · exact ho.2 e he
        · rw [List.mem_singleton.mp he, ho.1]
          exact Nat.le_refl _
      · rw [List.pairwise_append]
        refine ⟨hp, List.pairwise_singleton _ _, fun x hx y hy => ?_⟩
        rw [List.mem_singleton.mp hy]
        show x.2 ≤ _
        rw [ho.1]
        exact ho.2 x hx

/-! ### C53 -/

/-- C53: whatever the threads do, the column of every line is at least as wide as its target, so the text of the column has
exactly the chosen width. -/
theorem C53_own_target {ts ts' : List Thread} {s : Shared} (h : LogSteps ⟨0, []⟩ ts s ts') (hi : ∀ t ∈ ts, ∃ todo, t = .idle todo) :
    ∀ e ∈ s.lines, byteLen e.1 ≤ e.2 ∧ (padded e.1 e.2).length = e.2 := by
  have := logSteps_ok h (fun t ht => by obtain ⟨todo, rfl⟩ := hi t ht; trivial) nofun
  intro e he
  have h1 := this e he
  refine ⟨h1, ?_⟩
  have h2 := length_le_byteLen e.1
  unfold padded
  rw [List.length_append, List.length_replicate]
  omega

/-- C53 is false: a thread may store a smaller width over a larger one. -/
theorem C53_refuted : ¬ ∀ (ts ts' : List Thread) (s : Shared), LogSteps ⟨0, []⟩ ts s ts' → (∀ t ∈ ts, ∃ todo, t = .idle todo) →
    s.lines.Pairwise fun a b => a.2 ≤ b.2 := by
  intro h
  have e : LogSteps ⟨0, []⟩ [.idle [c!"a"], .idle [c!"bcd"]] ⟨1, [(c!"bcd", 3), (c!"a", 1)]⟩ [.idle [], .idle []] := by
    refine .step _ _ _ [] _ _ _ _ (.load _ _ _) (.step _ _ _ [_] [] _ _ _ (.load _ _ _) (.step _ _ _ [_] [] _ _ _ (.store _ _ _ _ (by decide +kernel))
      (.step _ _ _ [_] [] _ _ _ (.print _ _ _ _) (.step _ _ _ [] _ _ _ _ (.store _ _ _ _ (by decide +kernel)) (.step _ _ _ [] _ _ _ _ (.print _ _ _ _) ?_)))))
    exact .refl _ _
  have := h _ _ _ e (by
    intro t ht
    simp only [List.mem_cons, List.not_mem_nil, or_false] at ht
    rcases ht with rfl | rfl <;> exact ⟨_, rfl⟩)
  exact absurd this (by decide)

/-- C53, the part that holds: while only one thread logs, no column is narrower than one before it. Missing: several threads. -/
theorem C53_partial {todo : List Str} {ts' : List Thread} {s : Shared} (h : LogSteps ⟨0, []⟩ [.idle todo] s ts') :
    s.lines.Pairwise fun a b => a.2 ≤ b.2 :=
  one_thread h rfl (fun _ h => nomatch h) List.Pairwise.nil

example : LogSteps ⟨0, []⟩ [.idle [c!"bcd", c!"a"]] ⟨3, [(c!"bcd", 3), (c!"a", 3)]⟩ [.idle []] := by
  refine .step _ _ _ [] [] _ _ _ (.load _ _ _) (.step _ _ _ [] [] _ _ _ (.store _ _ _ _ (by decide +kernel)) (.step _ _ _ [] [] _ _ _ (.print _ _ _ _)
    (.step _ _ _ [] [] _ _ _ (.load _ _ _) (.step _ _ _ [] [] _ _ _ (.keep _ _ _ _ (by decide +kernel)) (.step _ _ _ [] [] _ _ _ (.print _ _ _ _) ?_)))))
  exact .refl _ _

/-- C53: all levels take the same space, so the message of a line starts at a column that depends on the width only. -/
theorem C53_line (l : Level) (target msg : Str) (width : Nat) (h : byteLen target ≤ width) :
    ∃ head, head.length = width + 7 ∧ logLine l target width msg = head ++ c!" > " ++ msg ++ c!"\n" := by
  refine ⟨' ' :: levelText l ++ ' ' :: padded target width, ?_, rfl⟩
  have h2 := length_le_byteLen target
  have h3 : (padded target width).length = width := by
    unfold padded
    rw [List.length_append, List.length_replicate]
    omega
  rw [List.length_append, List.length_cons, List.length_cons, h3]
  cases l <;> simp [levelText] <;> omega

example : logLine .warn c!"smd" 5 c!"x" = c!" WARN  smd   > x\n" := by decide +kernel

end Smd.App
