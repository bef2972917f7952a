import Verif.Lemmas.Many

/-! Any number of processes that write the same bytes to the same file. -/

namespace Smd.Core
open Smd.App

variable {ι : Type} [DecidableEq ι] {os : Os} {x : Ctx} {xs : ι → Ctx} {c : Path} {b : Bytes} {S : Path → Prop} {w0 w w' : World}

/-- Closing the file, after the write was answered with `r`. -/
def closeProg (h : Nat) (r : Except IoErr Nat) : Prog End :=
  .call (.close h) fun _ => .ret (.ok (match r with
    | .ok _ => .ok ()
    | .error e => .error (.io e)))

/-- Writing to the open file. -/
def openProg (b : Bytes) (h : Nat) : Prog End := .call (.write h b) fun r => closeProg h r

/-- Writing `b` to `c`, as the end of a run. -/
def lastProg (c : Path) (b : Bytes) : Prog End :=
  .call (.create c) fun
    | .error e => .ret (.ok (.error (.io e)))
    | .ok h => openProg b h

/-- A program that may look at files, then writes `b` to `c`, or fails before. What it reads at `S` is what was there in `w0`. -/
inductive Writer (w0 : World) (S : Path → Prop) (c : Path) (b : Bytes) : Prog End → Prop
  | ret (r : End) (h : r ≠ .ok (.ok ())) : Writer w0 S c b (.ret r)
  | read (p : Path) (k : Except IoErr Str → Prog End) (h : ∀ r, (∀ s, r = .ok s → S p → w0.bytesAt p = some (enc s)) → Writer w0 S c b (k r)) :
      Writer w0 S c b (.call (.read p) k)
  | isThere (p : Path) (k : Bool → Prog End) (h : ∀ r, Writer w0 S c b (k r)) : Writer w0 S c b (.call (.isThere p) k)
  | dirs (p : Path) (k : Except IoErr Unit → Prog End) (hp : ¬ c <+: p) (h : ∀ r, Writer w0 S c b (k r)) : Writer w0 S c b (.call (.createDirs p) k)
  | last : Writer w0 S c b (lastProg c b)

/-- Where such a program may be. -/
inductive Phase (w0 : World) (S : Path → Prop) (c : Path) (b : Bytes) : Prog End → Prop
  | before (p : Prog End) (h : Writer w0 S c b p) : Phase w0 S c b p
  | writing (h : Nat) : Phase w0 S c b (openProg b h)
  | closing (h : Nat) (r : Except IoErr Nat) : Phase w0 S c b (closeProg h r)
  | done : Phase w0 S c b (.ret (.ok (.ok ())))

/-- It has emptied the file and has not written, or has failed to. -/
def Pending (b : Bytes) (p : Prog End) : Prop :=
  (∃ h, p = openProg b h) ∨ (∃ h e, p = closeProg h (.error e)) ∨ ∃ e, p = .ret (.ok (.error (.io e)))

/-- What is always true. -/
structure Together (os : Os) (xs : ι → Ctx) (w0 : World) (S : Path → Prop) (c : Path) (b : Bytes) (w : World) (ps : ι → Prog End) : Prop where
  phase : ∀ i, Phase w0 S c b (ps i)
  handle : ∀ i h, ps i = openProg b h → ∃ n, w.names c = some (.file n) ∧ w.handles (xs i).pid h = some (n, 0)
  stable : ∀ p, S p → w.bytesAt p = w0.bytesAt p ∧ ∀ n, w.names p = some (.file n) → w.names c ≠ some (.file n)
  state : (w.names c = w0.names c ∧ w.bytesAt c = w0.bytesAt c ∧ ∀ i, Writer w0 S c b (ps i)) ∨
    ∃ n, w.names c = some (.file n) ∧ w.data n <+: b ∧ (os.fullWrites → w.data n = b ∨ (w.data n = [] ∧ ∃ i, Pending b (ps i)))

theorem not_writer_open {h : Nat} (hw : Writer w0 S c b (openProg b h)) : False := by
  unfold openProg at hw
  cases hw

theorem not_writer_close {h : Nat} {r : Except IoErr Nat} (hw : Writer w0 S c b (closeProg h r)) : False := by
  unfold closeProg at hw
  cases hw

/-- Writing a part of `b` over a part of `b`. -/
theorem overwrite_prefix {old b : Bytes} (h : old <+: b) (n : Nat) (hn : n ≤ b.length) :
    overwrite old 0 (b.take n) <+: b ∧ (n = b.length → overwrite old 0 (b.take n) = b) := by
  have e : overwrite old 0 (b.take n) = b.take n ++ old.drop n := by
    unfold overwrite
    simp only [List.take_zero, List.nil_append, List.length_take, Nat.zero_add, Nat.min_eq_left hn]
  rw [e]
  have ho : old = b.take old.length := List.prefix_iff_eq_take.mp h
  refine ⟨?_, fun hl => ?_⟩
  · by_cases hl : old.length ≤ n
    · rw [List.drop_eq_nil_of_le hl, List.append_nil]
      exact List.take_prefix _ _
    · have : b.take n = old.take n := by
        conv => rhs; rw [ho]
        rw [List.take_take, Nat.min_eq_left (by omega)]
      rw [this, List.take_append_drop]
      exact h
  · subst hl
    rw [List.take_length, List.drop_eq_nil_of_le h.length_le, List.append_nil]

/-- A step that does not change the world's file at `c` nor the files at `S`, by a program that stays before its last part. -/
theorem Together.look {ps : ι → Prog End} (h : Together os xs w0 S c b w ps) (i : ι) {p1 : Prog End} (hw : Writer w0 S c b p1)
    (hnp : ¬ Pending b (ps i)) (hn : w'.names c = w.names c) (hd : w'.data = w.data) (hh : w'.handles = w.handles)
    (hf : ∀ p n, w'.names p = some (.file n) ↔ w.names p = some (.file n)) :
    Together os xs w0 S c b w' (fun j => if j = i then p1 else ps j) where
  phase j := by
    by_cases hj : j = i
    · simp only [if_pos hj]; exact .before _ hw
    · simp only [if_neg hj]; exact h.phase j
  handle j g e := by
    by_cases hj : j = i
    · simp only [if_pos hj] at e
      rw [e] at hw
      exact (not_writer_open hw).elim
    · simp only [if_neg hj] at e
      rw [hn, hh]
      exact h.handle j g e
  stable p hp := by
    obtain ⟨h1, h2⟩ := h.stable p hp
    refine ⟨?_, fun n e => ?_⟩
    · rw [← h1]
      unfold World.bytesAt
      cases e : w.names p with
      | none =>
        cases e' : w'.names p with
        | none => rfl
        | some v =>
          cases v with
          | dir => rfl
          | file n => rw [(hf p n).mp e'] at e; cases e
      | some v =>
        cases v with
        | file n => rw [(hf p n).mpr e, hd]
        | dir =>
          cases e' : w'.names p with
          | none => rfl
          | some v =>
            cases v with
            | dir => rfl
            | file n => rw [(hf p n).mp e'] at e; cases e
    · rw [hn]
      exact h2 n ((hf p n).mp e)
  state := by
    rcases h.state with ⟨h1, h2, h3⟩ | ⟨n, h1, h2, h3⟩
    · refine .inl ⟨hn.trans h1, ?_, fun j => ?_⟩
      · rw [← h2]
        unfold World.bytesAt
        rw [hn, hd]
      · by_cases hj : j = i
        · simp only [if_pos hj]; exact hw
        · simp only [if_neg hj]; exact h3 j
    · refine .inr ⟨n, hn.trans h1, hd ▸ h2, fun hfull => ?_⟩
      rw [hd]
      refine (h3 hfull).imp id fun ⟨e, j, hj⟩ => ⟨e, j, ?_⟩
      by_cases hji : j = i
      · exact absurd (hji ▸ hj) hnp
      · simp only [if_neg hji]; exact hj

theorem Together.step {ps : ι → Prog End} (hne : ∀ j k, j ≠ k → (xs j).pid ≠ (xs k).pid) (hc : ∀ p, S p → p ≠ c)
    (h : Together os xs w0 S c b w ps) (i : ι) {p1 : Prog End} (hs : Step os (xs i) w (ps i) w' p1) :
    Together os xs w0 S c b w' (fun j => if j = i then p1 else ps j) := by
  have hph := h.phase i
  generalize hpi : ps i = p at hs hph
  have look : ∀ {p1}, Writer w0 S c b p1 → ¬ Pending b p → w' = w → Together os xs w0 S c b w' (fun j => if j = i then p1 else ps j) := by
    intro p1 hw hp e
    subst e
    exact h.look i hw (hpi ▸ hp) rfl rfl rfl fun _ _ => Iff.rfl
  cases hs with
  | call _ cl k r hsem =>
    cases hph with
    | before _ hw =>
      cases hw with
      | read q k hk =>
        obtain ⟨e, hr⟩ := hsem
        refine look (hk r fun s hs hS => ?_) (by rintro (⟨_, h⟩ | ⟨_, _, h⟩ | ⟨_, h⟩) <;> cases h) e
        rw [← (h.stable q hS).1]
        exact hr s hs
      | isThere q k hk => exact look (hk r) (by rintro (⟨_, h⟩ | ⟨_, _, h⟩ | ⟨_, h⟩) <;> cases h) hsem.1
      | dirs q k hq hk =>
        have ha : AddsDirs (fun p => p <+: q) w w' := by
          cases r with
          | error e => exact hsem
          | ok u => exact hsem.1
        obtain ⟨e, hn⟩ := ha
        refine h.look i (hk r) (by rw [hpi]; rintro (⟨_, h⟩ | ⟨_, _, h⟩ | ⟨_, h⟩) <;> cases h) ?_ (by rw [e]) (by rw [e]) fun p n => ?_
        · rcases hn c with h | ⟨_, _, h⟩
          · exact h
          · exact absurd h hq
        · rcases hn p with h | ⟨h, h', _⟩
          · rw [h]
          · rw [h, h']; constructor <;> intro h <;> cases h
      | last =>
        cases r with
        | error e =>
          have hsem : w' = w := hsem
          subst hsem
          refine h.look i (.ret _ ?_) ?_ rfl rfl rfl fun _ _ => Iff.rfl
          · intro h; cases h
          · rw [hpi]; rintro (⟨_, h⟩ | ⟨_, _, h⟩ | ⟨_, h⟩) <;> cases h
        | ok g =>
          obtain ⟨hg, hcase⟩ := hsem
          have key : ∃ n, w'.names c = some (.file n) ∧ w'.data = (fun m => if m = n then [] else w.data m) ∧
              (∀ p, p ≠ c → w'.names p = w.names p) ∧ (w.names c = some (.file n) ∨ (w.names c = none ∧ ∀ q, w.names q ≠ some (.file n))) ∧
              w'.handles (xs i).pid g = some (n, 0) ∧ ∀ j, j ≠ i → w'.handles (xs j).pid = w.handles (xs j).pid := by
            rcases hcase with ⟨n, hn, rfl⟩ | ⟨n, hn, _, _, hu, rfl⟩
            · refine ⟨n, hn, rfl, fun _ _ => rfl, .inl hn, ?_, fun j hj => ?_⟩
              · show (if (xs i).pid = (xs i).pid ∧ g = g then _ else _) = _
                rw [if_pos ⟨rfl, rfl⟩]
              · funext g'
                show (if (xs j).pid = (xs i).pid ∧ g' = g then _ else _) = _
                rw [if_neg fun h => hne j i hj h.1]
                rfl
            · refine ⟨n, ?_, rfl, fun p hp => ?_, .inr ⟨hn, hu.1⟩, ?_, fun j hj => ?_⟩
              · show (if c = c then _ else _) = _
                rw [if_pos rfl]
              · show (if p = c then _ else w.names p) = _
                rw [if_neg hp]
              · show (if (xs i).pid = (xs i).pid ∧ g = g then _ else _) = _
                rw [if_pos ⟨rfl, rfl⟩]
              · funext g'
                show (if (xs j).pid = (xs i).pid ∧ g' = g then _ else _) = _
                rw [if_neg fun h => hne j i hj h.1]
                rfl
          obtain ⟨n, k1, k2, k3, k4, k5, k6⟩ := key
          refine ⟨fun j => ?_, fun j g' e => ?_, fun p hp => ?_, ?_⟩
          · by_cases hj : j = i
            · simp only [if_pos hj]; exact .writing g
            · simp only [if_neg hj]; exact h.phase j
          · by_cases hj : j = i
            · simp only [if_pos hj] at e
              have : g = g' := by
                have e : openProg b g = openProg b g' := e
                unfold openProg at e
                injection e with e _
                injection e
              subst this
              exact ⟨n, k1, hj ▸ k5⟩
            · simp only [if_neg hj] at e
              obtain ⟨m, h1, h2⟩ := h.handle j g' e
              rcases k4 with k4 | ⟨k4, _⟩
              · rw [k4] at h1
                cases h1
                exact ⟨n, k1, by rw [k6 j hj]; exact h2⟩
              · rw [k4] at h1; cases h1
          · obtain ⟨h1, h2⟩ := h.stable p hp
            have hn : ∀ m, w.names p = some (.file m) → m ≠ n := by
              intro m hm e
              subst e
              rcases k4 with k4 | ⟨_, k4⟩
              · exact h2 m hm k4
              · exact k4 p hm
            refine ⟨?_, fun m hm => ?_⟩
            · rw [← h1]
              unfold World.bytesAt
              rw [k3 p (hc p hp)]
              split
              · next m hm => rw [k2]; simp only [if_neg (hn m hm)]
              · rfl
            · rw [k3 p (hc p hp)] at hm
              rw [k1]
              intro e
              exact hn m hm (by injection e with e; injection e with e; exact e.symm)
          · refine .inr ⟨n, k1, ?_, fun _ => .inr ⟨?_, i, ?_⟩⟩
            · rw [k2]; simp
            · rw [k2]; simp
            · simp only [if_true]
              exact .inl ⟨g, rfl⟩
    | writing g =>
      obtain ⟨n, hn, hg⟩ := h.handle i g hpi
      have hst : ∃ n, w.names c = some (.file n) ∧ w.data n <+: b ∧ (os.fullWrites → w.data n = b ∨ (w.data n = [] ∧ ∃ i, Pending b (ps i))) := by
        rcases h.state with ⟨_, _, h3⟩ | h
        · have := h3 i
          rw [hpi] at this
          exact (not_writer_open this).elim
        · exact h
      obtain ⟨n', hn', hd, hfull⟩ := hst
      rw [hn] at hn'
      cases hn'
      have phase : ∀ j, Phase w0 S c b (if j = i then closeProg g r else ps j) := by
        intro j
        by_cases hj : j = i
        · simp only [if_pos hj]; exact .closing g r
        · simp only [if_neg hj]; exact h.phase j
      have noOpen : ∀ g', closeProg g r ≠ openProg b g' := by
        intro g' e
        unfold closeProg openProg at e
        injection e with e _
        cases e
      cases r with
      | error e =>
        have hsem : w' = w := hsem
        subst hsem
        refine ⟨phase, fun j g' e' => ?_, h.stable, .inr ⟨n, hn, hd, fun hf => (hfull hf).imp id fun ⟨e1, j, hj⟩ => ⟨e1, j, ?_⟩⟩⟩
        · by_cases hj : j = i
          · simp only [if_pos hj] at e'
            exact absurd e' (noOpen g')
          · simp only [if_neg hj] at e'
            exact h.handle j g' e'
        · by_cases hji : j = i
          · simp only [if_pos hji]
            exact .inr (.inl ⟨g, e, rfl⟩)
          · simp only [if_neg hji]; exact hj
      | ok m =>
        obtain ⟨hm, hmf, n', o, hg', rfl⟩ := hsem
        rw [hg] at hg'
        cases hg'
        have hov := overwrite_prefix hd m hm
        have ed : ((w.setData n (overwrite (w.data n) 0 (b.take m))).setHandle (xs i).pid g (some (n, 0 + m))).data n = overwrite (w.data n) 0 (b.take m) := by
          show (if n = n then _ else _) = _
          rw [if_pos rfl]
        refine ⟨phase, fun j g' e' => ?_, fun p hp => ⟨?_, (h.stable p hp).2⟩, .inr ⟨n, hn, by rw [ed]; exact hov.1, fun hf => .inl ?_⟩⟩
        · by_cases hj : j = i
          · simp only [if_pos hj] at e'
            exact absurd e' (noOpen g')
          · simp only [if_neg hj] at e'
            obtain ⟨n2, h1, h2⟩ := h.handle j g' e'
            refine ⟨n2, h1, ?_⟩
            show (if (xs j).pid = (xs i).pid ∧ g' = g then _ else _) = _
            rw [if_neg fun h => hne j i hj h.1]
            exact h2
        · rw [← (h.stable p hp).1]
          unfold World.bytesAt
          show (match w.names p with | some (.file k) => some (if k = n then _ else w.data k) | _ => none) = _
          cases e : w.names p with
          | none => rfl
          | some v =>
            cases v with
            | dir => rfl
            | file k =>
              have : k ≠ n := by
                rintro rfl
                exact (h.stable p hp).2 k e hn
              simp only [if_neg this]
        · rw [ed]
          exact hov.2 (hmf hf)
    | closing g r' =>
      have hsem : w' = w.setHandle (xs i).pid g none := hsem
      subst hsem
      refine ⟨fun j => ?_, fun j g' e' => ?_, h.stable, ?_⟩
      · by_cases hj : j = i
        · simp only [if_pos hj]
          cases r' with
          | error e => exact .before _ (.ret _ (by intro h; cases h))
          | ok m => exact .done
        · simp only [if_neg hj]; exact h.phase j
      · by_cases hj : j = i
        · simp only [if_pos hj] at e'
          unfold openProg at e'
          cases e'
        · simp only [if_neg hj] at e'
          obtain ⟨n2, h1, h2⟩ := h.handle j g' e'
          refine ⟨n2, h1, ?_⟩
          show (if (xs j).pid = (xs i).pid ∧ g' = g then _ else _) = _
          rw [if_neg fun h => hne j i hj h.1]
          exact h2
      · rcases h.state with ⟨_, _, h3⟩ | ⟨n, h1, h2, h3⟩
        · have := h3 i
          rw [hpi] at this
          exact (not_writer_close this).elim
        · refine .inr ⟨n, h1, h2, fun hf => (h3 hf).imp id fun ⟨e1, j, hj⟩ => ⟨e1, j, ?_⟩⟩
          by_cases hji : j = i
          · simp only [if_pos hji]
            rw [hji, hpi] at hj
            rcases hj with ⟨g', e⟩ | ⟨g', e, he⟩ | ⟨_, e⟩
            · unfold openProg at e
              injection e with e _
              cases e
            · right; right
              refine ⟨e, ?_⟩
              unfold closeProg at he
              injection he with h4 h5
              exact congrFun h5 ()
            · cases e
          · simp only [if_neg hji]; exact hj

theorem Together.steps {ps qs : ι → Prog End} (hne : ∀ j k, j ≠ k → (xs j).pid ≠ (xs k).pid) (hc : ∀ p, S p → p ≠ c)
    (h : Together os xs w0 S c b w ps) (hs : StepsN os xs w ps w' qs) : Together os xs w0 S c b w' qs := by
  induction hs with
  | refl => exact h
  | step i w w1 w2 ps qs p1 hstep _ ih => exact ih (h.step hne hc i hstep)

omit [DecidableEq ι] in
/-- At the start. -/
theorem Together.start {ps : ι → Prog End} (hw : ∀ i, Writer w0 S c b (ps i)) (hS : ∀ p, S p → ¬ w0.SameFile p c) :
    Together os xs w0 S c b w0 ps where
  phase i := .before _ (hw i)
  handle i _ e := (not_writer_open (e ▸ hw i)).elim
  stable p hp := ⟨rfl, fun n e e' => hS p hp ⟨n, e, e'⟩⟩
  state := .inl ⟨rfl, rfl, hw⟩

omit [DecidableEq ι] in
/-- At any moment the file is as it was, or a beginning of `b`. -/
theorem Together.now {ps : ι → Prog End} (h : Together os xs w0 S c b w ps) : w.bytesAt c = w0.bytesAt c ∨ ∃ d, d <+: b ∧ w.bytesAt c = some d := by
  rcases h.state with ⟨_, h, _⟩ | ⟨n, h1, h2, _⟩
  · exact .inl h
  · refine .inr ⟨_, h2, ?_⟩
    unfold World.bytesAt
    rw [h1]

omit [DecidableEq ι] in
/-- At the end, if one succeeded and none failed to write. -/
theorem Together.end_ {rs : ι → End} (h : Together os xs w0 S c b w fun i => .ret (rs i)) (hf : os.fullWrites) {i : ι}
    (hi : rs i = .ok (.ok ())) (hno : ∀ j e, rs j ≠ .ok (.error (.io e))) : w.bytesAt c = some b := by
  rcases h.state with ⟨_, _, h3⟩ | ⟨n, h1, h2, h3⟩
  · have := h3 i
    rw [hi] at this
    cases this with
    | ret _ h => exact absurd rfl h
  · unfold World.bytesAt
    rw [h1]
    rcases h3 hf with h | ⟨_, j, ⟨g, e⟩ | ⟨g, e', e⟩ | ⟨e', e⟩⟩
    · exact congrArg some h
    · unfold openProg at e; cases e
    · unfold closeProg at e; cases e
    · injection e with e
      exact absurd e (hno j e')

end Smd.Core
