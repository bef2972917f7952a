import Verif.Lemmas.Cliff
import Mathlib.Data.List.Forall2

/-! Properties of the changelog: C191 to C195 and C197. -/

namespace Smd.Props
open Smd.Rs Smd.Release Smd.Spec

/-- A history with two releases and commits behind the second. -/
def sampleOld : History :=
  [(⟨c!"init(rust): init with rust", c!"4f2ac97aa", false⟩, none), (⟨c!"feat(lexer)!: lex pipes", c!"e7f47a2bb", false⟩, some c!"v0.1.0"),
    (⟨c!"update readme", c!"0000000cc", false⟩, none), (⟨c!"fix(ci): attempt", c!"1100a7cdd", false⟩, some c!"v0.1.1")]

def sampleNew : History :=
  [(⟨c!"docs: write", c!"2220000ee", false⟩, none), (⟨c!"fix typo", c!"3330000ff", false⟩, none), (⟨c!"fix: last", c!"4440000aa", true⟩, some c!"draft"),
    (⟨c!"fixture(a): b", c!"5550000bb", false⟩, none)]

private theorem sample_tags : ∀ x ∈ sampleOld ++ sampleNew, ∀ t, x.2 = some t → ']' ∉ t ∧ versionTitle t ≠ versionTitle c!"v0.2.0" := by
  intro x hx t ht
  exact (by decide : ∀ x ∈ sampleOld ++ sampleNew, ∀ t ∈ x.2, ']' ∉ t ∧ versionTitle t ≠ versionTitle c!"v0.2.0") x hx t ht

private theorem sample_old : sampleOld = [] ∨ ∃ o c t, sampleOld = o ++ [(c, some t)] ∧ VersionTag t :=
  Or.inr ⟨sampleOld.take 3, ⟨c!"fix(ci): attempt", c!"1100a7cdd", false⟩, c!"v0.1.1", rfl, [], '0', c!".1.1", rfl, rfl⟩

private theorem sample_new : ∀ x ∈ sampleNew, ∀ t, x.2 = some t → ¬ VersionTag t := by
  intro x hx t ht
  rw [← tagPattern_iff]
  exact (by decide : ∀ x ∈ sampleNew, ∀ t ∈ x.2, ¬ tagPattern t = true) x hx t ht

/-! ### C191: links in the changelog lead to the project -/

/-- No entry of any changelog links to the page of a commit of a repository `smd`. -/
theorem C191_refuted (date : Str → Str) (last : Option Str) (h : History) (hids : ∀ x ∈ h, '/' ∉ x.1.id) (l : Str)
    (hl : l ∈ entries (changelog date last h)) (id : Str) (hid : '/' ∉ id) : ¬ c!"/smd/commit/" ++ id ++ c!"))" <:+ l := by
  obtain ⟨x, hx, k, hk, rfl⟩ := changelog_entry hl
  rintro ⟨a, ha⟩
  have hc : k.id = x.1.id := by obtain ⟨v, _, rfl⟩ := seen_true hk; rfl
  obtain ⟨b, hb⟩ := printCommit_end k
  rw [hb] at ha
  have ha' : ((a ++ c!"/sm" ++ c!"d") ++ c!"/commit") ++ '/' :: (id ++ c!"))") = ((b ++ c!"l") ++ c!"/commit") ++ '/' :: (k.id ++ c!"))") := by
    rw [← ha]; simp
  have h1 := last_slash (by simpa using hid) (by rw [hc]; simpa using hids x hx) ha'
  have h2 := List.append_cancel_right h1
  have h3 := congrArg List.getLast? h2
  simp at h3

/-- Every entry shows the first seven digits of the identifier of a commit, and its link is to a page `/commit/` with all of them. -/
theorem C191_partial (date : Str → Str) (last : Option Str) (h : History) (l : Str) (hl : l ∈ entries (changelog date last h)) :
    ∃ x ∈ h, ∃ kind scope bang d url, Conventional x.1.subject kind scope bang d ∧ c!"https://github.com/" <+: url ∧
      EntryLine scope (bang || x.1.footer) d x.1.id url l := by
  obtain ⟨x, hx, k, hk, rfl⟩ := changelog_entry hl
  obtain ⟨v, hv, rfl⟩ := seen_true hk
  exact ⟨x, hx, v.kind, v.scope, v.bang, v.description, remoteUrl, of_conventional hv, ⟨c!"Flokkq" ++ c!"/" ++ c!"https://github.com/orhun/git-cliff/blob/main/cliff.toml", by simp [remoteUrl]⟩, printCommit_line _⟩

example : (entries (changelog (fun _ => c!"2025-01-05") (some c!"v0.2.0") (sampleOld ++ sampleNew))).length = 6 ∧
    (∀ x ∈ sampleOld ++ sampleNew, '/' ∉ x.1.id) := by decide +kernel

/-! ### C192: every commit of a release is in its changelog -/

/-- A commit whose message has another form leaves no trace in the section of its release, whatever it is. -/
theorem C192_refuted_always (date : Str → Str) (tag : Str) (old a b : History) (c : Commit) (htag : ']' ∉ tag)
    (hold : old = [] ∨ ∃ o c t, old = o ++ [(c, some t)] ∧ VersionTag t) (hnew : ∀ x ∈ a ++ b, ∀ t, x.2 = some t → ¬ VersionTag t)
    (htags : ∀ x ∈ old ++ (a ++ b), ∀ t, x.2 = some t → ']' ∉ t ∧ versionTitle t ≠ versionTitle tag)
    (hc : ∀ kind scope bang d, ¬ Conventional c.subject kind scope bang d) :
    sectionLines (versionTitle tag) (changelog date (some tag) (old ++ (a ++ (c, none) :: b))) =
    sectionLines (versionTitle tag) (changelog date (some tag) (old ++ (a ++ b))) := by
  have h1 : ∀ x ∈ old ++ (a ++ (c, none) :: b), x = (c, none) ∨ x ∈ old ++ (a ++ b) := by
    intro x hx
    simp only [List.mem_append, List.mem_cons] at hx ⊢
    rcases hx with h | h | h | h <;> simp [h]
  have h2 : ∀ x ∈ a ++ (c, none) :: b, x = (c, none) ∨ x ∈ a ++ b := by
    intro x hx
    simp only [List.mem_append, List.mem_cons] at hx ⊢
    rcases hx with h | h | h <;> simp [h]
  rw [section_current htag htags, section_current htag, pending_release hold hnew, pending_release hold]
  · unfold sectionBody
    simp [seen_none hc]
  · intro x hx t ht
    rcases h2 x hx with rfl | hx
    · simp at ht
    · exact hnew x hx t ht
  · intro x hx t ht
    rcases h1 x hx with rfl | hx
    · simp at ht
    · exact htags x hx t ht

/-- `update readme` is in no changelog. -/
theorem C192_refuted :
    entries (sectionLines c!"0.2.0" (changelog (fun _ => c!"2025-01-05") (some c!"v0.2.0") [(⟨c!"update readme", c!"0000000cc", false⟩, none)])) = [] := by
  decide +kernel

/-- The section of a release has one entry for every commit of the form `type(scope)!: description` since the last version, and no others; `p` tells which
commits have this form. -/
theorem C192_partial (date : Str → Str) (tag : Str) (old new : History) (htag : ']' ∉ tag)
    (hold : old = [] ∨ ∃ o c t, old = o ++ [(c, some t)] ∧ VersionTag t) (hnew : ∀ x ∈ new, ∀ t, x.2 = some t → ¬ VersionTag t)
    (htags : ∀ x ∈ old ++ new, ∀ t, x.2 = some t → ']' ∉ t ∧ versionTitle t ≠ versionTitle tag)
    (p : Commit → Bool) (hp : ∀ c, p c = true ↔ ∃ kind scope bang d, Conventional c.subject kind scope bang d) :
    ∃ ls, (entries (sectionLines (versionTitle tag) (changelog date (some tag) (old ++ new)))).Perm ls ∧
      List.Forall₂ (fun c l => ∃ kind scope bang d url, Conventional c.subject kind scope bang d ∧ EntryLine scope (bang || c.footer) d c.id url l)
        ((new.map (·.1)).filter p) ls := by
  rw [section_current htag htags, pending_release hold hnew]
  refine ⟨_, sectionBody_perm _, ?_⟩
  generalize new.map (·.1) = cs
  induction cs with
  | nil => exact List.Forall₂.nil
  | cons c cs ih =>
    by_cases hc : p c = true
    · obtain ⟨kind, scope, bang, d, h⟩ := (hp c).1 hc
      rw [List.filter_cons_of_pos hc, List.filterMap_cons, seen_of h, List.map_cons]
      exact List.Forall₂.cons ⟨kind, scope, bang, d, remoteUrl, h, printCommit_line _⟩ ih
    · have h : seen true c = none := seen_none (fun k s b d h => hc ((hp c).2 ⟨k, s, b, d, h⟩))
      rw [List.filter_cons_of_neg hc, List.filterMap_cons, h]
      exact ih

example : entries (sectionLines c!"0.2.0" (changelog (fun _ => c!"2025-01-05") (some c!"v0.2.0") (sampleOld ++ sampleNew))) =
    [c!"- Write - ([2220000](" ++ remoteUrl ++ c!"/commit/2220000ee))", c!"- *(a)* B - ([5550000](" ++ remoteUrl ++ c!"/commit/5550000bb))",
      c!"- [**breaking**] Last - ([4440000](" ++ remoteUrl ++ c!"/commit/4440000aa))"] := by decide +kernel

example : ∃ ls, (entries (sectionLines c!"0.2.0" (changelog (fun _ => c!"2025-01-05") (some c!"v0.2.0") (sampleOld ++ sampleNew)))).Perm ls ∧
    List.Forall₂ (fun c l => ∃ kind scope bang d url, Conventional c.subject kind scope bang d ∧ EntryLine scope (bang || c.footer) d c.id url l)
      ((sampleNew.map (·.1)).filter (fun c => (conventional c.subject).isSome)) ls :=
  C192_partial _ c!"v0.2.0" sampleOld sampleNew (by decide) sample_old sample_new sample_tags (fun c => (conventional c.subject).isSome) (fun c =>
    ⟨fun h => by obtain ⟨v, hv⟩ := Option.isSome_iff_exists.1 h; exact ⟨_, _, _, _, of_conventional hv⟩,
      fun ⟨_, _, _, _, h⟩ => by rw [conventional_of h]; rfl⟩)

/-! ### C193: what the changelog says of a release stays -/

/-- The section of a release gets another entry with the next release: that of the commit that `release.sh` makes for the release itself. -/
theorem C193_refuted (date date' : Str → Str) (tag next id : Str) (h more : History) (hv : VersionTag tag) (htag : ']' ∉ tag)
    (hnext : ']' ∉ next ∧ versionTitle next ≠ versionTitle tag)
    (htags : ∀ x ∈ h ++ more, ∀ t, x.2 = some t → ']' ∉ t ∧ versionTitle t ≠ versionTitle tag) :
    let r := releaseHistory date tag id h
    (entries (sectionLines (versionTitle tag) (changelog date' (some next) (r.2 ++ more)))).length =
      (entries (sectionLines (versionTitle tag) r.1)).length + 1 := by
  intro r
  have h1 : sectionLines (versionTitle tag) r.1 = sectionBody (pending [] h) :=
    section_current htag (fun x hx => htags x (List.mem_append_left _ hx))
  have h2 : releases (some next) [] (r.2 ++ more) = closedReleases [] h ++ (some tag, pending [] h ++ [prepare tag id]) :: releases (some next) [] more := by
    change releases (some next) [] ((h ++ [(prepare tag id, some tag)]) ++ more) = _
    rw [List.append_assoc, releases_append]
    simp [releases, (tagPattern_iff tag).2 hv]
  have h3 : sectionLines (versionTitle tag) (changelog date' (some next) (r.2 ++ more)) = sectionBody (pending [] h ++ [prepare tag id]) := by
    unfold changelog
    rw [h2]
    have hold : ∀ q ∈ closedReleases [] h, ∃ t, q.1 = some t ∧ ']' ∉ t ∧ versionTitle t ≠ versionTitle tag := by
      intro q hq
      obtain ⟨t, c, e1, e2, _⟩ := closedReleases_version hq
      exact ⟨t, e1, htags _ (List.mem_append_left _ e2) t rfl⟩
    have hmore : ∀ q ∈ releases (some next) [] more, ∃ t, q.1 = some t ∧ ']' ∉ t ∧ versionTitle t ≠ versionTitle tag := by
      intro q hq
      rcases releases_version hq with e | ⟨t, c, e1, e2, _⟩
      · exact ⟨next, e, hnext⟩
      · exact ⟨t, e1, htags _ (List.mem_append_right _ e2) t rfl⟩
    apply changelog_section (title_no_bracket htag)
    · intro q hq
      rcases List.mem_append.1 hq with hq | hq
      · obtain ⟨t, e1, e2, _⟩ := hold q hq
        exact ⟨t, e1, e2⟩
      · rcases List.mem_cons.1 hq with rfl | hq
        · exact ⟨tag, rfl, htag⟩
        · obtain ⟨t, e1, e2, _⟩ := hmore q hq
          exact ⟨t, e1, e2⟩
    · intro v ds hq ht
      rcases List.mem_append.1 hq with hq | hq
      · obtain ⟨t, e1, _, e3⟩ := hold _ hq
        obtain rfl := Option.some.inj e1
        exact absurd ht e3
      · rcases List.mem_cons.1 hq with hq | hq
        · exact (Prod.mk.inj hq).2
        · obtain ⟨t, e1, _, e3⟩ := hmore _ hq
          obtain rfl := Option.some.inj e1
          exact absurd ht e3
    · exact Or.inr ⟨tag, by simp, rfl⟩
  rw [h1, h3, sectionBody_count, sectionBody_count, List.filterMap_append, List.length_append, List.filterMap_cons, seen_of (prepare_conventional tag id)]
  rfl

/-- If the tag has no `v` in front of a digit, the next changelog has no section for the release. -/
theorem C193_refuted_pattern (date date' : Str → Str) (tag next id : Str) (h more : History) (hv : ¬ VersionTag tag) (htag : ']' ∉ tag)
    (hnext : ']' ∉ next ∧ versionTitle next ≠ versionTitle tag)
    (htags : ∀ x ∈ h ++ more, ∀ t, x.2 = some t → ']' ∉ t ∧ versionTitle t ≠ versionTitle tag) :
    sectionLines (versionTitle tag) (changelog date' (some next) ((releaseHistory date tag id h).2 ++ more)) = [] := by
  have hall : ∀ q ∈ releases (some next) [] ((releaseHistory date tag id h).2 ++ more), ∃ t, q.1 = some t ∧ ']' ∉ t ∧ versionTitle t ≠ versionTitle tag := by
    intro q hq
    rcases releases_version hq with e | ⟨t, c, e1, e2, e3⟩
    · exact ⟨next, e, hnext⟩
    · refine ⟨t, e1, ?_⟩
      change (c, some t) ∈ (h ++ [(prepare tag id, some tag)]) ++ more at e2
      simp only [List.mem_append, List.mem_singleton, Prod.mk.injEq, Option.some.injEq] at e2
      rcases e2 with (e2 | ⟨_, rfl⟩) | e2
      · exact htags _ (List.mem_append_left _ e2) t rfl
      · exact absurd ((tagPattern_iff _).1 e3) hv
      · exact htags _ (List.mem_append_right _ e2) t rfl
  have : sectionBody [] = [] := rfl
  unfold changelog
  rw [changelog_section (title_no_bracket htag) (cs := []), this]
  · intro q hq
    obtain ⟨t, e1, e2, _⟩ := hall q hq
    exact ⟨t, e1, e2⟩
  · intro v ds hq ht
    obtain ⟨t, e1, _, e3⟩ := hall _ hq
    obtain rfl := Option.some.inj e1
    exact absurd ht e3
  · exact Or.inl rfl

/-- The sections of the versions before stay as they are. -/
theorem C193_partial (date date' : Str → Str) (tag next id v : Str) (h more : History)
    (hb : ∀ x ∈ h ++ (prepare tag id, some tag) :: more, ∀ t, x.2 = some t → ']' ∉ t) (hnext : ']' ∉ next ∧ versionTitle next ≠ versionTitle v)
    (hone : ∃ a c b, h = a ++ (c, some v) :: b ∧ VersionTag v ∧
      ∀ x ∈ a ++ b ++ (prepare tag id, some tag) :: more, ∀ t, x.2 = some t → versionTitle t ≠ versionTitle v) :
    let r := releaseHistory date tag id h
    sectionLines (versionTitle v) (changelog date' (some next) (r.2 ++ more)) = sectionLines (versionTitle v) r.1 := by
  obtain ⟨a, c, b, rfl, hv, hu⟩ := hone
  intro r
  have hvb : ']' ∉ v := hb (c, some v) (by simp) v rfl
  have key : ∀ (last : Str) (tl : History) (dt : Str → Str), (']' ∉ last ∧ versionTitle last ≠ versionTitle v) →
      (∀ x ∈ tl, ∀ t, x.2 = some t → ']' ∉ t ∧ versionTitle t ≠ versionTitle v) →
      sectionLines (versionTitle v) (changelog dt (some last) (a ++ (c, some v) :: tl)) = sectionBody (pending [] a ++ [c]) := by
    intro last tl dt hlast htl
    have h2 : releases (some last) [] (a ++ (c, some v) :: tl) = closedReleases [] a ++ (some v, pending [] a ++ [c]) :: releases (some last) [] tl := by
      rw [releases_append]
      simp [releases, (tagPattern_iff v).2 hv]
    have hold : ∀ q ∈ closedReleases [] a, ∃ t, q.1 = some t ∧ ']' ∉ t ∧ versionTitle t ≠ versionTitle v := by
      intro q hq
      obtain ⟨t, c', e1, e2, _⟩ := closedReleases_version hq
      exact ⟨t, e1, hb (c', some t) (by simp [e2]) t rfl, hu (c', some t) (by simp [e2]) t rfl⟩
    have hmore : ∀ q ∈ releases (some last) [] tl, ∃ t, q.1 = some t ∧ ']' ∉ t ∧ versionTitle t ≠ versionTitle v := by
      intro q hq
      rcases releases_version hq with e | ⟨t, c', e1, e2, _⟩
      · exact ⟨last, e, hlast⟩
      · exact ⟨t, e1, htl _ e2 t rfl⟩
    unfold changelog
    rw [h2]
    apply changelog_section (title_no_bracket hvb)
    · intro q hq
      rcases List.mem_append.1 hq with hq | hq
      · obtain ⟨t, e1, e2, _⟩ := hold q hq
        exact ⟨t, e1, e2⟩
      · rcases List.mem_cons.1 hq with rfl | hq
        · exact ⟨v, rfl, hvb⟩
        · obtain ⟨t, e1, e2, _⟩ := hmore q hq
          exact ⟨t, e1, e2⟩
    · intro w ds hq ht
      rcases List.mem_append.1 hq with hq | hq
      · obtain ⟨t, e1, _, e3⟩ := hold _ hq
        obtain rfl := Option.some.inj e1
        exact absurd ht e3
      · rcases List.mem_cons.1 hq with hq | hq
        · exact (Prod.mk.inj hq).2
        · obtain ⟨t, e1, _, e3⟩ := hmore _ hq
          obtain rfl := Option.some.inj e1
          exact absurd ht e3
    · exact Or.inr ⟨v, by simp, rfl⟩
  have e1 : r.2 ++ more = a ++ (c, some v) :: (b ++ (prepare tag id, some tag) :: more) := by
    change ((a ++ (c, some v) :: b) ++ [(prepare tag id, some tag)]) ++ more = _
    simp
  have e2 : r.1 = changelog date (some tag) (a ++ (c, some v) :: b) := rfl
  rw [e1, e2, key next _ date' hnext, key tag b date]
  · exact ⟨hb (prepare tag id, some tag) (by simp) tag rfl, hu (prepare tag id, some tag) (by simp) tag rfl⟩
  · intro x hx t ht
    exact ⟨hb x (by simp [hx]) t ht, hu x (by simp [hx]) t ht⟩
  · intro x hx t ht
    refine ⟨hb x ?_ t ht, hu x ?_ t ht⟩ <;>
    · simp only [List.mem_append, List.mem_cons] at hx ⊢
      rcases hx with h | h | h <;> simp [h]

/-- After the release v0.2.0 its section has three entries, at the next one four. -/
example :
    let r := releaseHistory (fun _ => c!"2025-01-05") c!"v0.2.0" c!"6660000cc" (sampleOld ++ sampleNew)
    (entries (sectionLines c!"0.2.0" r.1)).length = 3 ∧
    (entries (sectionLines c!"0.2.0" (changelog (fun _ => c!"2025-01-06") (some c!"v0.3.0") (r.2 ++ [(⟨c!"feat: x", c!"7", false⟩, none)])))).length = 4 ∧
    sectionLines c!"0.1.1" r.1 ≠ [] := by decide +kernel

/-! ### C194: the message of a tag says what the changelog says -/

/-- The message of a tag has more entries than the section of the release: the commit of the release itself is among them. -/
theorem C194_refuted_always (date : Str → Str) (tag id : Str) (h : History) (htag : ']' ∉ tag)
    (htags : ∀ x ∈ h, ∀ t, x.2 = some t → VersionTag t ∧ ']' ∉ t ∧ versionTitle t ≠ versionTitle tag) :
    (entries (sectionLines (versionTitle tag) (changelog date (some tag) h))).length < (entries (tagMessage tag id h)).length := by
  rw [section_current htag (fun x hx t ht => (htags x hx t ht).2), sectionBody_count, (tagMessage_entries tag id h).length_eq, List.length_map]
  rw [unreleased_eq (by
    intro x hx t ht
    rcases List.mem_append.1 hx with hx | hx
    · exact (htags x hx t ht).1
    · simp at hx; subst hx; simp at ht), pending_append]
  have e : pending (pending [] h) [(prepare tag id, none)] = pending [] h ++ [prepare tag id] := rfl
  rw [e, List.filterMap_append, List.length_append, List.filterMap_cons, seen_of (prepare_conventional tag id)]
  have hle : ∀ cs : List Commit, (cs.filterMap (seen true)).length ≤ (cs.filterMap (seen false)).length := by
    intro cs
    induction cs with
    | nil => simp
    | cons c cs ih =>
      rw [List.filterMap_cons, List.filterMap_cons]
      cases ht : seen true c with
      | none =>
        cases seen false c with
        | none => exact ih
        | some k => exact Nat.le_succ_of_le ih
      | some k =>
        obtain ⟨v, hv, _⟩ := seen_true ht
        rw [seen_of (of_conventional hv)]
        exact Nat.succ_le_succ ih
  have := hle (pending [] h)
  simp only [List.filterMap_nil, List.length_cons, List.length_nil]
  omega

/-- Commits that are not of the form may be in the message and are not in the changelog. -/
theorem C194_refuted :
    c!"- Fix typo (3330000)" ∈ tagMessage c!"v0.2.0" c!"6660000cc" [(⟨c!"fix typo", c!"3330000ff", false⟩, none)] ∧
    entries (changelog (fun _ => c!"2025-01-05") (some c!"v0.2.0") [(⟨c!"fix typo", c!"3330000ff", false⟩, none)]) = [] := by decide +kernel

/-- Every entry of the section of the release is in the message, with the same description, the same mark of a breaking change and the first seven digits of
the same identifier. -/
theorem C194_partial (date : Str → Str) (tag id : Str) (h : History) (htag : ']' ∉ tag)
    (htags : ∀ x ∈ h, ∀ t, x.2 = some t → VersionTag t ∧ ']' ∉ t ∧ versionTitle t ≠ versionTitle tag) (l : Str)
    (hl : l ∈ entries (sectionLines (versionTitle tag) (changelog date (some tag) h))) :
    ∃ scope breaking d cid url, EntryLine scope breaking d cid url l ∧
      c!"- " ++ (if breaking then c!"(breaking) " else []) ++ capital d ++ c!" (" ++ cid.take 7 ++ c!")" ∈ entries (tagMessage tag id h) := by
  rw [section_current htag (fun x hx t ht => (htags x hx t ht).2)] at hl
  obtain ⟨k, hk, rfl⟩ := List.mem_map.1 ((sectionBody_perm _).mem_iff.1 hl)
  obtain ⟨c, hc, hs⟩ := List.mem_filterMap.1 hk
  refine ⟨k.scope, k.breaking, k.message, k.id, remoteUrl, printCommit_line k, ?_⟩
  rw [(tagMessage_entries tag id h).mem_iff, ← upperFirst_eq]
  refine List.mem_map.2 ⟨k, List.mem_filterMap.2 ⟨c, ?_, ?_⟩, rfl⟩
  · rw [unreleased_eq (by
      intro x hx t ht
      rcases List.mem_append.1 hx with hx | hx
      · exact (htags x hx t ht).1
      · simp at hx; subst hx; simp at ht), pending_append]
    exact List.mem_append_left _ hc
  · obtain ⟨v, hv, rfl⟩ := seen_true hs
    exact seen_of (of_conventional hv)

example : entries (tagMessage c!"v0.2.0" c!"6660000cc" sampleOld) = [c!"- Prepare for v0.2.0 (6660000)"] ∧
    tagMessage c!"v0.2.0" c!"6660000cc" (sampleOld ++ sampleNew.take 2) =
      [c!"Release v0.2.0", c!"Docs", c!"- Write (2220000)", c!"🐛 Bug Fixes", c!"- Fix typo (3330000)", c!"🔧Chores", c!"- Prepare for v0.2.0 (6660000)"] ∧
    (∀ x ∈ sampleOld, ∀ t ∈ x.2, tagPattern t = true ∧ ']' ∉ t ∧ versionTitle t ≠ versionTitle c!"v0.2.0") := by decide +kernel

/-! ### C195: commits are listed under their type -/

/-- The types that have a heading of their own. -/
def ownHeadings : List (Str × Str) :=
  [(c!"feat", c!"✨ Features"), (c!"fix", c!"🐛 Bug Fixes"), (c!"refactor", c!"🚜 Refactoring"), (c!"init", c!"🎉 Initial Commit"),
    (c!"style", c!"🎨 Styling"), (c!"revert", c!"↩️ Reverts"), (c!"chore", c!"🔧Chores")]

private theorem listed_under {date : Str → Str} {tag : Str} {old new : History} (htag : ']' ∉ tag)
    (hold : old = [] ∨ ∃ o c t, old = o ++ [(c, some t)] ∧ VersionTag t) (hnew : ∀ x ∈ new, ∀ t, x.2 = some t → ¬ VersionTag t)
    (htags : ∀ x ∈ old ++ new, ∀ t, x.2 = some t → ']' ∉ t ∧ versionTitle t ≠ versionTitle tag)
    {w T : Str} (hw : (w, T) ∈ ownHeadings) :
    groupEntries T (sectionLines (versionTitle tag) (changelog date (some tag) (old ++ new))) =
      ((((new.map (·.1)).filterMap (seen true)).reverse).filter (fun l => l.group = T)).map printCommit := by
  rw [section_current htag htags, pending_release hold hnew, groupEntries_body (List.mem_map_of_mem (f := (·.2)) hw)]

private theorem listed_group {c : Commit} {kind w T x : Str} {scope : Option Str} {bang : Bool} {d : Str} (hw : (w, T) ∈ ownHeadings)
    (hk : kind = w ++ x) (h : Conventional c.subject kind scope bang d) :
    seen true c = some { group := T, scope := scope, breaking := bang || c.footer, message := d, id := c.id } := by
  rw [seen_of h]
  obtain ⟨_, _, _, _, v, _, hs⟩ := h
  have : ∃ y, c.subject = w ++ y := ⟨_, by rw [hs, hk]; simp only [List.append_assoc]; rfl⟩
  obtain ⟨y, hy⟩ := this
  rw [hy, parserGroup_word (show (w, T) ∈ parsers from hw)]
  rfl

/-- Types that only begin like one of these are under the heading of another type. -/
theorem C195_refuted_always (date : Str → Str) (tag : Str) (old new : History) (htag : ']' ∉ tag)
    (hold : old = [] ∨ ∃ o c t, old = o ++ [(c, some t)] ∧ VersionTag t) (hnew : ∀ x ∈ new, ∀ t, x.2 = some t → ¬ VersionTag t)
    (htags : ∀ x ∈ old ++ new, ∀ t, x.2 = some t → ']' ∉ t ∧ versionTitle t ≠ versionTitle tag)
    (w T x : Str) (hw : (w, T) ∈ ownHeadings) (c : Commit) (tags : Option Str) (hc : (c, tags) ∈ new) (scope : Option Str) (bang : Bool) (d : Str)
    (h : Conventional c.subject (w ++ x) scope bang d) :
    ∃ l ∈ groupEntries T (sectionLines (versionTitle tag) (changelog date (some tag) (old ++ new))), ∃ url, EntryLine scope (bang || c.footer) d c.id url l := by
  rw [listed_under htag hold hnew htags hw]
  refine ⟨_, List.mem_map.2 ⟨{ group := T, scope := scope, breaking := bang || c.footer, message := d, id := c.id }, List.mem_filter.2 ⟨?_, by simp⟩, rfl⟩, remoteUrl, printCommit_line _⟩
  exact List.mem_reverse.2 (List.mem_filterMap.2 ⟨c, List.mem_map.2 ⟨_, hc, rfl⟩, listed_group hw rfl h⟩)

/-- `fixture(a): b` is a bug fix. -/
theorem C195_refuted : groupEntries c!"🐛 Bug Fixes" (sectionLines c!"0.2.0" (changelog (fun _ => c!"2025-01-05") (some c!"v0.2.0") [(⟨c!"fixture(a): b", c!"5550000bb", false⟩, none)])) ≠ [] := by
  decide +kernel

/-- Commits of these types are under their headings, the newer ones first. -/
theorem C195_partial (date : Str → Str) (tag : Str) (old a b e : History) (htag : ']' ∉ tag)
    (hold : old = [] ∨ ∃ o c t, old = o ++ [(c, some t)] ∧ VersionTag t) (c₁ c₂ : Commit)
    (hnew : ∀ x ∈ a ++ (c₁, none) :: (b ++ (c₂, none) :: e), ∀ t, x.2 = some t → ¬ VersionTag t)
    (htags : ∀ x ∈ old ++ (a ++ (c₁, none) :: (b ++ (c₂, none) :: e)), ∀ t, x.2 = some t → ']' ∉ t ∧ versionTitle t ≠ versionTitle tag)
    (w T : Str) (hw : (w, T) ∈ ownHeadings) (scope₁ scope₂ : Option Str) (bang₁ bang₂ : Bool) (d₁ d₂ : Str)
    (h₁ : Conventional c₁.subject w scope₁ bang₁ d₁) (h₂ : Conventional c₂.subject w scope₂ bang₂ d₂) :
    ∃ x y z l₁ l₂ url,
      groupEntries T (sectionLines (versionTitle tag) (changelog date (some tag) (old ++ (a ++ (c₁, none) :: (b ++ (c₂, none) :: e))))) =
        x ++ l₂ :: y ++ l₁ :: z ∧ EntryLine scope₁ (bang₁ || c₁.footer) d₁ c₁.id url l₁ ∧ EntryLine scope₂ (bang₂ || c₂.footer) d₂ c₂.id url l₂ := by
  rw [listed_under htag hold hnew htags hw]
  have s1 := listed_group (x := []) hw (by simp) h₁
  have s2 := listed_group (x := []) hw (by simp) h₂
  let f : History → List Listed := fun q => (((q.map (·.1)).filterMap (seen true)).reverse).filter (fun l => l.group = T)
  have key : (((((a ++ (c₁, none) :: (b ++ (c₂, none) :: e)).map (·.1)).filterMap (seen true)).reverse).filter (fun l => l.group = T)) =
      f e ++ { group := T, scope := scope₂, breaking := bang₂ || c₂.footer, message := d₂, id := c₂.id } ::
        (f b ++ { group := T, scope := scope₁, breaking := bang₁ || c₁.footer, message := d₁, id := c₁.id } :: f a) := by
    simp [f, s1, s2]
  rw [key]
  refine ⟨(f e).map printCommit, (f b).map printCommit, (f a).map printCommit,
    printCommit { group := T, scope := scope₁, breaking := bang₁ || c₁.footer, message := d₁, id := c₁.id },
    printCommit { group := T, scope := scope₂, breaking := bang₂ || c₂.footer, message := d₂, id := c₂.id }, remoteUrl, ?_, ?_, ?_⟩
  · simp only [List.map_append, List.map_cons, List.append_assoc, List.cons_append]
  · exact printCommit_line { group := T, scope := scope₁, breaking := bang₁ || c₁.footer, message := d₁, id := c₁.id }
  · exact printCommit_line { group := T, scope := scope₂, breaking := bang₂ || c₂.footer, message := d₂, id := c₂.id }

example : (c!"fix", c!"🐛 Bug Fixes") ∈ ownHeadings ∧
    groupEntries c!"🐛 Bug Fixes" (sectionLines c!"0.2.0" (changelog (fun _ => c!"2025-01-05") (some c!"v0.2.0") (sampleOld ++ sampleNew))) =
    [c!"- *(a)* B - ([5550000](" ++ remoteUrl ++ c!"/commit/5550000bb))",
      c!"- [**breaking**] Last - ([4440000](" ++ remoteUrl ++ c!"/commit/4440000aa))"] := by decide +kernel

/-! ### C197: the changelog has a section for every version, the newest first -/

private theorem tags_filter {p : Str → Bool} (hp : ∀ t, p t = true ↔ VersionTag t) : p = tagPattern := by
  funext t
  rw [Bool.eq_iff_iff, hp, tagPattern_iff]

/-- A release without commits of the form `type(scope)!: description` has no section. -/
theorem C197_refuted_always (date : Str → Str) (tag : Str) (old new : History) (htag : ']' ∉ tag)
    (hold : old = [] ∨ ∃ o c t, old = o ++ [(c, some t)] ∧ VersionTag t) (hnew : ∀ x ∈ new, ∀ t, x.2 = some t → ¬ VersionTag t)
    (htags : ∀ x ∈ old ++ new, ∀ t, x.2 = some t → ']' ∉ t ∧ versionTitle t ≠ versionTitle tag)
    (hall : ∀ x ∈ new, ∀ kind scope bang d, ¬ Conventional x.1.subject kind scope bang d) :
    ∀ l ∈ changelog date (some tag) (old ++ new), startsWith l (c!"## [" ++ versionTitle tag ++ c!"]") = false := by
  intro l hl
  by_cases hh : startsWith l c!"## [" = true
  · have hm : l ∈ versionHeadings (changelog date (some tag) (old ++ new)) := List.mem_filter.2 ⟨hl, hh⟩
    have hempty : sectionBody (pending [] (old ++ new)) = [] := by
      rw [pending_release hold hnew]
      exact sectionBody_empty fun c hc => by
        obtain ⟨x, hx, rfl⟩ := List.mem_map.1 hc
        exact hall x hx
    rw [versionHeadings_changelog, releases_eq, sections_append] at hm
    have hs : ∀ q, sections date q (if pending [] (old ++ new) = [] then [] else [(some tag, pending [] (old ++ new))]) = [] := by
      intro q
      split
      · rfl
      · simp [sections, hempty]
    rw [hs, List.append_nil] at hm
    obtain ⟨e, he, rfl⟩ := List.mem_map.1 (List.mem_reverse.1 hm)
    obtain ⟨⟨dt, p, body, h1, -⟩, cs, h2, -⟩ := sections_mem date none _ e he
    obtain ⟨t, c, h3, h4, -⟩ := closedReleases_version h2
    obtain ⟨h5, h6⟩ := htags _ h4 t rfl
    have h7 : e.2.headD [] = heading dt p (some t) := by rw [h1, ← h3]; rfl
    rw [h7, heading_starts dt p h5 (title_no_bracket htag)]
    simpa using h6
  · rw [List.append_assoc]
    exact startsWith_less (by simpa using hh)

/-- The changelog of a release with one commit `update readme` has no section at all. -/
theorem C197_refuted : changelog (fun _ => c!"2025-01-05") (some c!"v0.2.0") [(⟨c!"update readme", c!"0000000cc", false⟩, none)] =
    [c!"# Changelog", c!"<!-- generated by git-cliff -->"] := by
  decide +kernel

/-- The headings of sections are those of the tags of versions and of the release that is made, from the newest to the oldest, each with the changes since the
tag of a version before it, but some may be missing. `p` tells which tags are of versions. -/
theorem C197_partial (date : Str → Str) (tag : Str) (h : History) (p : Str → Bool) (hp : ∀ t, p t = true ↔ VersionTag t) :
    ∃ url, c!"https://github.com/" <+: url ∧
      (versionHeadings (changelog date (some tag) h)).Sublist
        (((ranges none ((h.filterMap (·.2)).filter p ++ [tag])).map (versionHeading url date)).reverse) := by
  refine ⟨remoteUrl, ⟨c!"Flokkq" ++ c!"/" ++ c!"https://github.com/orhun/git-cliff/blob/main/cliff.toml", by simp [remoteUrl]⟩, ?_⟩
  rw [versionHeadings_changelog, List.reverse_sublist, tags_filter hp, ← closedReleases_tags [] h, releases_eq]
  have hsome : ∀ r ∈ closedReleases [] h, r.1.isSome = true := by
    intro r hr
    obtain ⟨t, _, e, _⟩ := closedReleases_version hr
    rw [e]; rfl
  by_cases hq : pending [] h = []
  · rw [if_pos hq, List.append_nil]
    refine (sections_heads date none _ hsome).trans (List.Sublist.map _ ?_)
    have : ∀ (q : Option Str) (vs : List Str), (ranges q vs).Sublist (ranges q (vs ++ [tag])) := by
      intro q vs
      induction vs generalizing q with
      | nil => simp [ranges]
      | cons v vs ih => exact (ih (some v)).cons_cons _
    exact this _ _
  · rw [if_neg hq]
    have := sections_heads date none (closedReleases [] h ++ [(some tag, pending [] h)]) (by
      intro r hr
      rcases List.mem_append.1 hr with hr | hr
      · exact hsome r hr
      · simp at hr; subst hr; rfl)
    simpa using this

/-- None is missing if the commits with the tags of versions have the form, as those of `release.sh` do, and one of the commits since the last. -/
theorem C197_complete_partial (date : Str → Str) (tag : Str) (old new : History) (p : Str → Bool) (hp : ∀ t, p t = true ↔ VersionTag t)
    (hold : old = [] ∨ ∃ o c t, old = o ++ [(c, some t)] ∧ VersionTag t) (hnew : ∀ x ∈ new, ∀ t, x.2 = some t → ¬ VersionTag t)
    (hform : ∀ x ∈ old, ∀ t, x.2 = some t → VersionTag t → ∃ kind scope bang d, Conventional x.1.subject kind scope bang d)
    (hone : ∃ x ∈ new, ∃ kind scope bang d, Conventional x.1.subject kind scope bang d) :
    ∃ url, c!"https://github.com/" <+: url ∧
      versionHeadings (changelog date (some tag) (old ++ new)) =
        ((ranges none ((old.filterMap (·.2)).filter p ++ [tag])).map (versionHeading url date)).reverse := by
  refine ⟨remoteUrl, ⟨c!"Flokkq" ++ c!"/" ++ c!"https://github.com/orhun/git-cliff/blob/main/cliff.toml", by simp [remoteUrl]⟩, ?_⟩
  obtain ⟨x, hx, kind, scope, bang, d, hc⟩ := hone
  have hpend := pending_release hold hnew
  have hmem : x.1 ∈ pending [] (old ++ new) := by rw [hpend]; exact List.mem_map_of_mem hx
  have htag : ((old ++ new).filterMap (·.2)).filter tagPattern = (old.filterMap (·.2)).filter tagPattern := by
    have : (new.filterMap (·.2)).filter tagPattern = [] := by
      refine List.filter_eq_nil_iff.2 fun t ht => ?_
      obtain ⟨y, hy, e⟩ := List.mem_filterMap.1 ht
      rw [tagPattern_iff]
      exact hnew y hy t e
    rw [List.filterMap_append, List.filter_append, this, List.append_nil]
  rw [versionHeadings_changelog, tags_filter hp, ← htag, ← closedReleases_tags [] (old ++ new), releases_eq, if_neg (List.ne_nil_of_mem hmem)]
  rw [sections_heads_all]
  · simp
  · intro r hr
    rcases List.mem_append.1 hr with hr | hr
    · obtain ⟨t, _, e, _⟩ := closedReleases_version hr
      rw [e]; rfl
    · simp at hr; subst hr; rfl
  · intro r hr
    rcases List.mem_append.1 hr with hr | hr
    · obtain ⟨c, t, h1, h2, h3⟩ := closedReleases_last hr
      have h4 := (tagPattern_iff t).1 h2
      rcases List.mem_append.1 h1 with h1 | h1
      · obtain ⟨_, _, _, _, hf⟩ := hform _ h1 t rfl h4
        exact sectionBody_ne h3 hf
      · exact absurd h4 (hnew _ h1 t rfl)
    · simp at hr; subst hr; exact sectionBody_ne hmem hc

example : versionHeadings (changelog (fun _ => c!"2025-01-05") (some c!"v0.2.0") (sampleOld ++ sampleNew)) =
    ((ranges none ((sampleOld.filterMap (·.2)).filter tagPattern ++ [c!"v0.2.0"])).map (versionHeading remoteUrl fun _ => c!"2025-01-05")).reverse ∧
    (versionHeadings (changelog (fun _ => c!"2025-01-05") (some c!"v0.2.0") (sampleOld ++ sampleNew))).length = 3 ∧
    (∀ x ∈ sampleOld, ∀ t ∈ x.2, tagPattern t = true → (conventional x.1.subject).isSome = true) ∧
    (∃ x ∈ sampleNew, (conventional x.1.subject).isSome = true) := by decide +kernel

end Smd.Props
