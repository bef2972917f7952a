import Verif.App.Bins
import Verif.Lemmas.Exec

/-! Writing a file completely: what is in it at every moment. -/

namespace Smd.App
open Smd.Core

variable {α β : Type} {os : Os} {x : Ctx}

/-- `I` is true at every moment, and `Q` at the end. -/
def Track (os : Os) (x : Ctx) (I : World → Prop) (Q : α → World → Prop) : Prog α → World → Prop
  | .ret a, w => I w ∧ Q a w
  | .call c k, w => I w ∧ ∀ r w2, Sem os x w c r w2 → Track os x I Q (k r) w2

variable {I J : World → Prop}

theorem Track.now {Q : α → World → Prop} : ∀ {p : Prog α} {w : World}, Track os x I Q p w → I w
  | .ret _, _, h => h.1
  | .call _ _, _, h => h.1

theorem Track.bind {Q : β → World → Prop} {f : α → Prog β} : ∀ {p : Prog α} {w : World},
    Track os x I (fun a w => Track os x I Q (f a) w) p w → Track os x I Q (p.bind f) w
  | .ret _, _, h => h.2
  | .call _ k, _, h => ⟨h.1, fun r w2 h2 => Track.bind (p := k r) (h.2 r w2 h2)⟩

theorem Track.mono {Q Q' : α → World → Prop} (hi : ∀ w, I w → J w) (hq : ∀ a w, Q a w → Q' a w) : ∀ {p : Prog α} {w : World},
    Track os x I Q p w → Track os x J Q' p w
  | .ret a, w, h => ⟨hi w h.1, hq a w h.2⟩
  | .call _ k, w, h => ⟨hi w h.1, fun r w2 h2 => Track.mono hi hq (p := k r) (h.2 r w2 h2)⟩

theorem Track.and {Q Q' : α → World → Prop} : ∀ {p : Prog α} {w : World},
    Track os x I Q p w → Track os x J Q' p w → Track os x (fun w => I w ∧ J w) (fun a w => Q a w ∧ Q' a w) p w
  | .ret _, _, h, h' => ⟨⟨h.1, h'.1⟩, h.2, h'.2⟩
  | .call _ k, _, h, h' => ⟨⟨h.1, h'.1⟩, fun r w2 h2 => Track.and (p := k r) (h.2 r w2 h2) (h'.2 r w2 h2)⟩

theorem Track.both {Q : α → World → Prop} : ∀ {p : Prog α} {w : World}, Track os x I Q p w → Track os x I (fun a w => I w ∧ Q a w) p w
  | .ret _, _, h => ⟨h.1, h⟩
  | .call _ k, _, h => ⟨h.1, fun r w2 h2 => Track.both (p := k r) (h.2 r w2 h2)⟩

theorem Track.steps {Q : α → World → Prop} {p p' : Prog α} {w w' : World} (h : Track os x I Q p w) (hs : Steps os x w p w' p') :
    Track os x I Q p' w' := by
  induction hs with
  | refl => exact h
  | step w w1 w2 p p1 p2 h1 _ ih =>
    cases h1 with
    | call _ _ k r h1 => exact ih (h.2 r _ h1)

theorem Track.ends {Q : α → World → Prop} {p : Prog α} {w w' : World} {a : α} (h : Track os x I Q p w) (he : Ends os x w p w' a) :
    Q a w' := (h.steps he).2

theorem Only.track {w0 : World} {P : Path → Prop} : ∀ {p : Prog α} {w : World}, Only os x P p → Keep w0 P x.pid w →
    Track os x (Keep w0 P x.pid) (fun _ w' => Keep w0 P x.pid w') p w
  | .ret _, _, _, hk => ⟨hk, hk⟩
  | .call _ _, _, ho, hk => ⟨hk, fun r _ hs => Only.track (ho.2 _ r _ hs) (hk.call ho hs)⟩

theorem Track.anything : ∀ (p : Prog α) (w : World), Track os x (fun _ => True) (fun _ _ => True) p w
  | .ret _, _ => ⟨trivial, trivial⟩
  | .call _ k, _ => ⟨trivial, fun r w2 _ => Track.anything (k r) w2⟩

theorem overwrite_end (old b : Bytes) : overwrite old old.length b = old ++ b := by
  simp [overwrite]

/-- An open file to which `b` has been written so far. -/
structure Open (pid : Nat) (p : Path) (h : Nat) (hs : Nat → Option (Nat × Nat)) (b : Bytes) (w : World) : Prop where
  file : ∃ i, w.names p = some (.file i) ∧ w.data i = b ∧ w.handles pid h = some (i, b.length)
  others : ∀ g, g ≠ h → w.handles pid g = hs g

theorem Open.bytesAt {pid h : Nat} {p : Path} {hs : Nat → Option (Nat × Nat)} {b : Bytes} {w : World} (ho : Open pid p h hs b w) :
    w.bytesAt p = some b := by
  obtain ⟨i, e, rfl, _⟩ := ho.file
  exact bytesAt_file e

theorem Open.write {pid h : Nat} {p : Path} {hs : Nat → Option (Nat × Nat)} {b c : Bytes} {w w' : World} {n : Nat} (hp : x.pid = pid)
    (ho : Open pid p h hs b w) (hw : Sem os x w (.write h c) (.ok n) w') : Open pid p h hs (b ++ c.take n) w' ∧ n ≤ c.length := by
  subst hp
  obtain ⟨hn, _, i, o, ei, rfl⟩ := hw
  obtain ⟨j, e, ed, eh⟩ := ho.file
  rw [eh] at ei
  cases ei
  refine ⟨⟨⟨i, e, ?_, ?_⟩, fun g hg => ?_⟩, hn⟩
  · show (if i = i then overwrite (w.data i) b.length (c.take n) else _) = _
    rw [if_pos rfl, ed, overwrite_end]
  · show (if x.pid = x.pid ∧ h = h then some (i, b.length + n) else _) = _
    rw [if_pos ⟨rfl, rfl⟩, List.length_append, List.length_take, Nat.min_eq_left hn]
  · show (if x.pid = x.pid ∧ g = h then _ else w.handles x.pid g) = _
    rw [if_neg (fun e => hg e.2), ho.others g hg]

/-- The file holds a beginning of `b`. -/
def Begun (p : Path) (b : Bytes) (w : World) : Prop := ∃ c, c <+: b ∧ w.bytesAt p = some c

theorem writeAll_track {p : Path} {h : Nat} {hs : Nat → Option (Nat × Nat)} (done b : Bytes) (w : World) (ho : Open x.pid p h hs done w) :
    Track os x (Begun p (done ++ b)) (fun r w' => ∃ c, Open x.pid p h hs c w' ∧ c <+: done ++ b ∧ (r = .ok () → c = done ++ b)) (writeAll h b) w := by
  match b with
  | [] =>
    rw [writeAll, List.append_nil]
    exact ⟨⟨done, List.prefix_refl _, ho.bytesAt⟩, done, ho, List.prefix_refl _, fun _ => rfl⟩
  | a :: b =>
    rw [writeAll]
    refine ⟨⟨done, List.prefix_append _ _, ho.bytesAt⟩, fun r w2 hw => ?_⟩
    have stay : ∀ (e : Error), w2 = w → Track os x (Begun p (done ++ a :: b)) (fun (r : Res Unit) w' => ∃ c, Open x.pid p h hs c w' ∧ c <+: done ++ a :: b ∧
        (r = .ok () → c = done ++ a :: b)) (.ret (.error e) : Prog (Res Unit)) w2 := by
      rintro e rfl
      exact ⟨⟨done, List.prefix_append _ _, ho.bytesAt⟩, done, ho, List.prefix_append _ _, nofun⟩
    match r with
    | .error e => exact stay _ hw
    | .ok 0 =>
      have := (ho.write rfl hw).1
      rw [List.take_zero, List.append_nil] at this
      exact ⟨⟨done, List.prefix_append _ _, this.bytesAt⟩, done, this, List.prefix_append _ _, nofun⟩
    | .ok (n + 1) =>
      have := (ho.write rfl hw).1
      have e : done ++ a :: b = (done ++ (a :: b).take (n + 1)) ++ b.drop n := by
        rw [List.append_assoc, List.take_succ_cons, List.cons_append, List.take_append_drop]
      rw [e]
      exact writeAll_track _ (b.drop n) w2 this
termination_by b.length
decreasing_by simp only [List.length_drop, List.length_cons]; omega

theorem writePieces_track {p : Path} {h : Nat} {hs : Nat → Option (Nat × Nat)} (bs : List Bytes) : ∀ (done : Bytes) (w : World), Open x.pid p h hs done w →
    Track os x (Begun p (done ++ bs.flatten))
      (fun r w' => ∃ c, Open x.pid p h hs c w' ∧ c <+: done ++ bs.flatten ∧ (r = .ok () → c = done ++ bs.flatten)) (writePieces h bs) w := by
  induction bs with
  | nil =>
    intro done w ho
    rw [List.flatten_nil, List.append_nil]
    exact ⟨⟨done, List.prefix_refl _, ho.bytesAt⟩, done, ho, List.prefix_refl _, fun _ => rfl⟩
  | cons b bs ih =>
    intro done w ho
    rw [List.flatten_cons, ← List.append_assoc]
    have more : done ++ b <+: done ++ b ++ bs.flatten := List.prefix_append _ _
    refine Track.bind ((writeAll_track done b w ho).mono (fun w ⟨c, hc, e⟩ => ⟨c, hc.trans more, e⟩) ?_)
    rintro r w1 ⟨c, hc, hp, hr⟩
    cases r with
    | error e => exact ⟨⟨c, hp.trans more, hc.bytesAt⟩, c, hc, hp.trans more, nofun⟩
    | ok u =>
      have e := hr rfl
      subst e
      exact ih _ w1 hc

/-- How a file that is created and written may look at the end. -/
structure Written (pid : Nat) (p : Path) (b : Bytes) (w : World) (r : End) (w' : World) : Prop where
  handles : w'.handles pid = w.handles pid
  ok : r = .ok (.ok ()) → w'.bytesAt p = some b

theorem createWith_track {failed : Error → End} (hf : ∀ e, failed e ≠ .ok (.ok ())) (p : Path) (bs : List Bytes) (w : World) :
    Track os x (fun w' => w'.bytesAt p = w.bytesAt p ∨ Begun p bs.flatten w') (Written x.pid p bs.flatten w) (createWith failed p bs) w := by
  refine ⟨.inl rfl, fun r w1 hw => ?_⟩
  cases r with
  | error e =>
    have e1 : w1 = w := hw
    subst e1
    exact ⟨.inl rfl, rfl, nofun⟩
  | ok h =>
    have hfree : w.handles x.pid h = none := hw.1
    have ho : Open x.pid p h (w.handles x.pid) [] w1 := by
      obtain ⟨_, ⟨i, e, rfl⟩ | ⟨i, e, _, _, _, rfl⟩⟩ := hw
      · refine ⟨⟨i, e, ?_, ?_⟩, fun g hg => ?_⟩
        · show (if i = i then [] else _) = _
          rw [if_pos rfl]
        · show (if x.pid = x.pid ∧ h = h then _ else _) = _
          rw [if_pos ⟨rfl, rfl⟩]
          rfl
        · show (if x.pid = x.pid ∧ g = h then _ else w.handles x.pid g) = _
          rw [if_neg (fun e => hg e.2)]
      · refine ⟨⟨i, ?_, ?_, ?_⟩, fun g hg => ?_⟩
        · show (if p = p then _ else _) = _
          rw [if_pos rfl]
        · show (if i = i then [] else _) = _
          rw [if_pos rfl]
        · show (if x.pid = x.pid ∧ h = h then _ else _) = _
          rw [if_pos ⟨rfl, rfl⟩]
          rfl
        · show (if x.pid = x.pid ∧ g = h then _ else w.handles x.pid g) = _
          rw [if_neg (fun e => hg e.2)]
    refine Track.bind ((writePieces_track bs [] w1 ho).mono (fun _ h => .inr h) ?_)
    rintro r w2 ⟨c, hc, hp, hr⟩
    refine ⟨.inr ⟨c, hp, hc.bytesAt⟩, fun _ w3 hw => ?_⟩
    have e3 : w3 = w2.setHandle x.pid h none := hw
    subst e3
    have hb : (w2.setHandle x.pid h none).bytesAt p = some c := hc.bytesAt
    refine ⟨.inr ⟨c, hp, hb⟩, ?_, fun e => ?_⟩
    · funext g
      show (if x.pid = x.pid ∧ g = h then none else w2.handles x.pid g) = _
      by_cases hg : g = h
      · rw [if_pos ⟨rfl, hg⟩, hg, hfree]
      · rw [if_neg (fun e => hg e.2), hc.others g hg]
    · cases r with
      | ok u => rw [hb, hr rfl]; rfl
      | error e' => exact absurd e (hf e')

theorem writeAll_only {P : Path → Prop} (h : Nat) (b : Bytes) : Only os x P (writeAll h b) := by
  match b with
  | [] => rw [writeAll]; trivial
  | a :: b =>
    rw [writeAll]
    refine ⟨trivial, fun w r w' _ => ?_⟩
    match r with
    | .error e => trivial
    | .ok 0 => trivial
    | .ok (n + 1) => exact writeAll_only h (b.drop n)
termination_by b.length
decreasing_by simp only [List.length_drop, List.length_cons]; omega

theorem writePieces_only {P : Path → Prop} (h : Nat) : ∀ bs : List Bytes, Only os x P (writePieces h bs)
  | [] => trivial
  | b :: bs => Only.andThen (writeAll_only h b) fun _ => writePieces_only h bs

theorem createWith_only {failed : Error → End} {P : Path → Prop} {p : Path} (hp : P p) (bs : List Bytes) : Only os x P (createWith failed p bs) := by
  refine ⟨hp, fun w r w' _ => ?_⟩
  cases r with
  | error e => trivial
  | ok h =>
    refine Only.bind (fun r => ?_) (writePieces_only h bs)
    exact ⟨trivial, fun _ _ _ _ => trivial⟩

theorem generateAll_only {P : Path → Prop} (dir : Path) (scripts : Shell → List Bytes) : ∀ ss : List Shell, (∀ s ∈ ss, P (dir ++ [s.fileName])) →
    Only os x P (generateAll dir scripts ss)
  | [], _ => trivial
  | s :: ss, h => by
    refine Only.bind (fun r => ?_) (createWith_only (h s List.mem_cons_self) (scripts s))
    match r with
    | .ok (.ok _) => exact generateAll_only dir scripts ss fun t ht => h t (List.mem_cons_of_mem _ ht)
    | .ok (.error _) => trivial
    | .panic => trivial
    | .hang => trivial
    | .fuelOut => trivial

theorem writeAll_io (h : Nat) (b : Bytes) (w : World) :
    Track os x (fun _ => True) (fun r _ => r = .ok () ∨ ∃ e, r = .error (.io e)) (writeAll h b) w := by
  match b with
  | [] => rw [writeAll]; exact ⟨trivial, .inl rfl⟩
  | a :: b =>
    rw [writeAll]
    refine ⟨trivial, fun r w' _ => ?_⟩
    match r with
    | .error e => exact ⟨trivial, .inr ⟨e, rfl⟩⟩
    | .ok 0 => exact ⟨trivial, .inr ⟨0, rfl⟩⟩
    | .ok (n + 1) => exact writeAll_io h (b.drop n) w'
termination_by b.length
decreasing_by simp only [List.length_drop, List.length_cons]; omega

theorem writePieces_io (h : Nat) : ∀ (bs : List Bytes) (w : World),
    Track os x (fun _ => True) (fun r _ => r = .ok () ∨ ∃ e, r = .error (.io e)) (writePieces h bs) w
  | [], _ => ⟨trivial, .inl rfl⟩
  | b :: bs, w => by
    refine Track.bind ((writeAll_io h b w).mono (fun _ _ => trivial) ?_)
    rintro r w1 (rfl | ⟨e, rfl⟩)
    · exact writePieces_io h bs w1
    · exact ⟨trivial, .inr ⟨e, rfl⟩⟩

/-- How a program ends is one of the given ways. -/
theorem createWith_result {failed : Error → End} (p : Path) (bs : List Bytes) (w : World) :
    Track os x (fun _ => True) (fun r _ => r = .ok (.ok ()) ∨ (∃ e, r = .ok (.error (.io e))) ∨ ∃ e, r = failed e) (createWith failed p bs) w := by
  refine ⟨trivial, fun r w1 _ => ?_⟩
  cases r with
  | error e => exact ⟨trivial, .inr (.inl ⟨e, rfl⟩)⟩
  | ok h =>
    refine Track.bind (Track.mono (Q := fun _ _ => True) (fun _ _ => trivial) ?_ (Track.anything _ w1))
    intro r w2 _
    refine ⟨trivial, fun _ w3 _ => ⟨trivial, ?_⟩⟩
    cases r with
    | ok u => exact .inl rfl
    | error e => exact .inr (.inr ⟨e, rfl⟩)

theorem fsWrite_result (p : Path) (b : Bytes) (w : World) :
    Track os x (fun _ => True) (fun r _ => r = .ok (.ok ()) ∨ ∃ e, r = .ok (.error (.io e))) (fsWrite p b) w := by
  refine ⟨trivial, fun r w1 _ => ?_⟩
  cases r with
  | error e => exact ⟨trivial, .inr ⟨e, rfl⟩⟩
  | ok h =>
    refine Track.bind ((writePieces_io h [b] w1).mono (fun _ _ => trivial) ?_)
    intro r w2 hr
    refine ⟨trivial, fun _ w3 _ => ⟨trivial, ?_⟩⟩
    rcases hr with rfl | ⟨e, rfl⟩
    · exact .inl rfl
    · exact .inr ⟨e, rfl⟩

theorem _root_.Smd.Core.Keep.sameFile {w w' : World} {p q q' : Path} {pid : Nat} (hk : Keep w (fun r => r = p) pid w') (hq : q ≠ p) (hq' : q' ≠ p)
    (h : ¬ w.SameFile q q') : ¬ w'.SameFile q q' := by
  rintro ⟨i, e, e'⟩
  rw [hk.names q hq] at e
  rw [hk.names q' hq'] at e'
  exact h ⟨i, e, e'⟩

theorem _root_.Smd.Core.Keep.sameFile_left {w w' : World} {p q : Path} {pid : Nat} (hk : Keep w (fun r => r = p) pid w') (hq : q ≠ p)
    (h : ¬ w.SameFile p q) : ¬ w'.SameFile p q := by
  rintro ⟨i, e, e'⟩
  rw [hk.names q hq] at e'
  rcases hk.mine p i rfl e with ⟨r, hr, er⟩ | hm
  · exact h ⟨i, hr ▸ er, e'⟩
  · exact hm q hq e'

theorem SameFile.symm {w : World} {p q : Path} (h : w.SameFile p q) : w.SameFile q p := by
  obtain ⟨i, e, e'⟩ := h
  exact ⟨i, e', e⟩

theorem fileName_injective {s t : Shell} (h : s.fileName = t.fileName) : s = t := by
  cases s <;> cases t <;> first | rfl | exact absurd h (by decide)

theorem script_path_ne {dir : Path} {s t : Shell} (h : s ≠ t) : dir ++ [s.fileName] ≠ dir ++ [t.fileName] := by
  intro e
  have := List.append_cancel_left e
  exact h (fileName_injective (List.cons.inj this).1)

/-- The scripts of the first shells are complete, the one of the next shell may be in work, and the others are as they were. -/
def Progress (dir : Path) (scripts : Shell → List Bytes) (ss : List Shell) (w w' : World) : Prop :=
  ∃ done rest, ss = done ++ rest ∧ (∀ s ∈ done, w'.bytesAt (dir ++ [s.fileName]) = some (scripts s).flatten) ∧
    (∀ s ∈ rest.head?, w'.bytesAt (dir ++ [s.fileName]) = w.bytesAt (dir ++ [s.fileName]) ∨ Begun (dir ++ [s.fileName]) (scripts s).flatten w') ∧
    ∀ s ∈ rest.tail, w'.bytesAt (dir ++ [s.fileName]) = w.bytesAt (dir ++ [s.fileName])

theorem generateAll_track {dir : Path} {scripts : Shell → List Bytes} : ∀ (ss : List Shell) (w : World), ss.Nodup → (∀ g, w.handles x.pid g = none) →
    (∀ s ∈ ss, ∀ t ∈ ss, s ≠ t → ¬ w.SameFile (dir ++ [s.fileName]) (dir ++ [t.fileName])) →
    Track os x (Progress dir scripts ss w)
      (fun r w' => r = .ok (.ok ()) → ∀ s ∈ ss, w'.bytesAt (dir ++ [s.fileName]) = some (scripts s).flatten) (generateAll dir scripts ss) w
  | [], w, _, _, _ => ⟨⟨[], [], rfl, nofun, nofun, nofun⟩, fun _ => nofun⟩
  | s :: ss, w, hn, hh, hs => by
    obtain ⟨hns, hn⟩ := List.nodup_cons.mp hn
    have other : ∀ t ∈ ss, t ≠ s := fun t ht e => hns (e ▸ ht)
    have hsep : ∀ t ∈ ss, ¬ w.SameFile (dir ++ [s.fileName]) (dir ++ [t.fileName]) :=
      fun t ht => hs s List.mem_cons_self t (List.mem_cons_of_mem _ ht) (other t ht).symm
    have ho : Only os x (fun p => p = dir ++ [s.fileName]) (createWith (fun _ => .panic) (dir ++ [s.fileName]) (scripts s)) :=
      createWith_only (P := fun p => p = dir ++ [s.fileName]) rfl (scripts s)
    have keep : ∀ {w'}, Keep w (fun p => p = dir ++ [s.fileName]) x.pid w' → ∀ t ∈ ss, w'.bytesAt (dir ++ [t.fileName]) = w.bytesAt (dir ++ [t.fileName]) :=
      fun hk t ht => hk.bytesAt (script_path_ne (other t ht)) fun p hp => by subst hp; exact hsep t ht
    have now : ∀ {w'}, (w'.bytesAt (dir ++ [s.fileName]) = w.bytesAt (dir ++ [s.fileName]) ∨ Begun (dir ++ [s.fileName]) (scripts s).flatten w') ∧
        Keep w (fun p => p = dir ++ [s.fileName]) x.pid w' → Progress dir scripts (s :: ss) w w' :=
      fun ⟨h1, h2⟩ => ⟨[], s :: ss, rfl, nofun, fun t ht => by cases ht; exact h1, fun t ht => keep h2 t ht⟩
    refine Track.bind (((createWith_track (failed := fun _ => .panic) nofun (dir ++ [s.fileName]) (scripts s) w).and (Only.track ho (Keep.refl hh))).both.mono
      (fun _ => now) ?_)
    rintro r w1 ⟨hi, h1, h2⟩
    match r, h1 with
    | .ok (.ok _), h1 =>
      have hh1 : ∀ g, w1.handles x.pid g = none := fun g => by rw [h1.handles, hh]
      have hdone := h1.ok rfl
      have ih := generateAll_track (dir := dir) (scripts := scripts) ss w1 hn hh1 fun t ht u hu hne =>
        h2.sameFile (script_path_ne (other t ht)) (script_path_ne (other u hu)) (hs t (List.mem_cons_of_mem _ ht) u (List.mem_cons_of_mem _ hu) hne)
      have hk := Only.track (os := os) (w0 := w1) (P := fun p => ∃ t ∈ ss, p = dir ++ [t.fileName])
        (generateAll_only dir scripts ss fun t ht => ⟨t, ht, rfl⟩) (Keep.refl hh1)
      have hkeep : ∀ {w'}, Keep w1 (fun p => ∃ t ∈ ss, p = dir ++ [t.fileName]) x.pid w' → w'.bytesAt (dir ++ [s.fileName]) = some (scripts s).flatten := by
        intro w' hk
        rw [hk.bytesAt, hdone]
        · rintro ⟨t, ht, e⟩
          exact script_path_ne (other t ht).symm e
        · rintro p ⟨t, ht, rfl⟩ hsame
          exact h2.sameFile_left (script_path_ne (other t ht)) (hsep t ht) (SameFile.symm hsame)
      refine (ih.and hk).mono ?_ ?_
      · rintro w' ⟨⟨done, rest, e, hd, hr, hl⟩, hk⟩
        have hsub : ∀ t ∈ rest, t ∈ ss := fun t ht => by rw [e]; exact List.mem_append_right _ ht
        refine ⟨s :: done, rest, by rw [e]; rfl, ?_, fun t ht => ?_, fun t ht => ?_⟩
        · intro t ht
          rcases List.mem_cons.mp ht with rfl | ht
          · exact hkeep hk
          · exact hd t ht
        · rw [← keep h2 t (hsub t (List.mem_of_mem_head? ht))]
          exact hr t ht
        · rw [← keep h2 t (hsub t (List.mem_of_mem_tail ht))]
          exact hl t ht
      · rintro r w' ⟨hr, hk⟩ e t ht
        rcases List.mem_cons.mp ht with rfl | ht
        · exact hkeep hk
        · exact hr e t ht
    | .ok (.error _), _ => exact ⟨now hi, nofun⟩
    | .panic, _ => exact ⟨now hi, nofun⟩
    | .hang, _ => exact ⟨now hi, nofun⟩
    | .fuelOut, _ => exact ⟨now hi, nofun⟩

theorem generateAll_result (dir : Path) (scripts : Shell → List Bytes) : ∀ (ss : List Shell) (w : World),
    Track os x (fun _ => True) (fun r _ => r = .ok (.ok ()) ∨ (∃ e, r = .ok (.error (.io e))) ∨ r = .panic) (generateAll dir scripts ss) w
  | [], _ => ⟨trivial, .inl rfl⟩
  | s :: ss, w => by
    refine Track.bind ((createWith_result (failed := fun _ => .panic) (dir ++ [s.fileName]) (scripts s) w).mono (fun _ _ => trivial) ?_)
    rintro r w1 (rfl | ⟨e, rfl⟩ | ⟨_, rfl⟩)
    · exact generateAll_result dir scripts ss w1
    · exact ⟨trivial, .inr (.inl ⟨e, rfl⟩)⟩
    · exact ⟨trivial, .inr (.inr rfl)⟩

end Smd.App
