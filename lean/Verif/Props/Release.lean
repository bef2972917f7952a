import Verif.Lemmas.Release
import Verif.Release.Workflow
import Verif.Npm.Args

/-! Properties of releases: C173 to C176. -/

namespace Smd.Props
open Smd.Rs Smd.Release Smd.Spec

/-! ### C173: a release sets all versions -/

/-- The crates `smd-core` and `gfm` keep their version whatever is released, so that they have not the version that `smd` requires of them. -/
theorem C173_refuted (v tag : Str) (hv : VersionText v) (ht : tag = 'v' :: v ∨ (tag = v ∧ v.head? ≠ some 'v')) (hne : v ≠ c!"0.1.3-pre") :
    let m := releaseSh tag repository
    tomlValue c!"[package]" c!"version" [] m.core ≠ some v ∧ tomlValue c!"[package]" c!"version" [] m.gfm ≠ some v ∧
    tomlValue c!"[package]" c!"version" [] m.core ≠ tomlValue c!"[dependencies.smd-core]" c!"version" [] m.smd ∧
    tomlValue c!"[package]" c!"version" [] m.gfm ≠ tomlValue c!"[dependencies.gfm]" c!"version" [] m.smd := by
  intro m
  have hm : m = _ := release_eq hv ht
  rw [hm]
  have h1 : tomlValue c!"[package]" c!"version" [] coreToml = some c!"0.1.3-pre" := by decide
  have h2 : tomlValue c!"[package]" c!"version" [] gfmToml = some c!"0.1.3-pre" := by decide
  simp only [h1, h2, smdWith_core hv, smdWith_gfm hv]
  simp [Ne.symm hne]

/-- The version of `smd`, what it requires of the other crates, the version of the npm package and what it requires of the packages with the executables are
all the version of the tag. -/
theorem C173_partial (v tag : Str) (hv : VersionText v) (ht : tag = 'v' :: v ∨ (tag = v ∧ v.head? ≠ some 'v')) :
    let m := releaseSh tag repository
    tomlValue c!"[package]" c!"version" [] m.smd = some v ∧ tomlValue c!"[dependencies.smd-core]" c!"version" [] m.smd = some v ∧
    tomlValue c!"[dependencies.gfm]" c!"version" [] m.smd = some v ∧ jsonValue c!"version" m.npm = some v ∧
    ∀ n ∈ [c!"darwin-arm64", c!"darwin-x64", c!"linux-arm64", c!"linux-x64", c!"windows-arm64", c!"windows-x64"],
      jsonValue (c!"smd-" ++ n) m.npm = some v := by
  intro m
  have hm : m = _ := release_eq hv ht
  rw [hm]
  exact ⟨smdWith_package hv, smdWith_core hv, smdWith_gfm hv, pkgWith_version hv, fun n hn => pkgWith_dep hv hn⟩

/-- A second release makes of the manifests what it would have made of them without the first. -/
theorem C173_again_partial (v w tag tag' : Str) (hv : VersionText v) (hw : VersionText w) (ht : tag = 'v' :: v ∨ (tag = v ∧ v.head? ≠ some 'v'))
    (ht' : tag' = 'v' :: w ∨ (tag' = w ∧ w.head? ≠ some 'v')) :
    releaseSh tag' (releaseSh tag repository) = releaseSh tag' repository := by
  rw [release_eq hv ht, release_eq hw ht']
  have hne : tag' ≠ [] := by
    rcases ht' with rfl | ⟨rfl, _⟩
    · simp
    · exact hw.1
  have hs : stripV tag' = w := by
    rcases ht' with rfl | ⟨rfl, h⟩
    · rfl
    · unfold stripV
      split
      · next t => exact absurd rfl h
      · rfl
  unfold releaseSh
  rw [if_neg hne, hs]
  simp only [pkgWith_sed hv hw, core_same, gfm_same]
  congr 1
  simp only [smdWith, List.map_map]
  exact List.map_congr_left fun l _ => sedToml_again w v l

/-- In all manifests, of whatever contents, lines that do not begin with `version = ` or are without the mark of the script, or in `package.json` without a version of the package or a name of a package
with `smd-`, are left as they are. -/
theorem C173_rest_partial (tag : Str) (m : Manifests) (i : Nat) :
    (∀ l, m.smd[i]? = some l → ¬ (c!"version = " <+: l ∧ c!" # managed by release" <:+: l) → (releaseSh tag m).smd[i]? = some l) ∧
    (∀ l, m.core[i]? = some l → ¬ (c!"version = " <+: l ∧ c!" # managed by release" <:+: l) → (releaseSh tag m).core[i]? = some l) ∧
    (∀ l, m.gfm[i]? = some l → ¬ (c!"version = " <+: l ∧ c!" # managed by release" <:+: l) → (releaseSh tag m).gfm[i]? = some l) ∧
    (∀ l, m.npm[i]? = some l → ¬ c!"\"version\": \"" <:+: l → ¬ c!"\"smd-" <:+: l → (releaseSh tag m).npm[i]? = some l) := by
  have hm : ∀ v l, ¬ (c!"version = " <+: l ∧ c!" # managed by release" <:+: l) → sedToml v l = l := by
    intro v l hl
    unfold sedToml
    rw [if_neg]
    intro h
    simp only [managed, isMark, Bool.and_eq_true, decide_eq_true_eq, beq_iff_eq] at h
    obtain ⟨⟨⟨h0, h1⟩, h2⟩, ⟨-, h3⟩, -⟩ := h
    refine hl ⟨List.isPrefixOf_iff_prefix.mp h1, ?_⟩
    obtain ⟨u, hu⟩ := List.isPrefixOf_iff_prefix.mp h3
    have e : l.drop (l.length - 24) = ' ' :: l.drop (l.length - 23) := by
      have e1 : l.drop (l.length - 23) = (l.drop (l.length - 24)).tail := by
        rw [List.tail_drop]
        congr 1
        omega
      rw [e1]
      cases hd : l.drop (l.length - 24) with
      | nil => rw [hd] at h2; cases h2
      | cons c cs => rw [hd] at h2; injection h2 with h2; rw [h2]; rfl
    exact (show c!" # managed by release" <+: l.drop (l.length - 24) from ⟨u, by rw [e, ← hu]; rfl⟩).isInfix.trans (List.drop_suffix _ _).isInfix
  have hd : ∀ v l, ¬ c!"\"smd-" <:+: l → sedDep v l = l := by
    intro v l hl
    refine sedDep_same v l fun r hr => absurd ?_ hl
    exact (List.prefix_append _ _).isInfix.trans hr.isInfix
  unfold releaseSh
  split
  · exact ⟨fun l h _ => h, fun l h _ => h, fun l h _ => h, fun l h _ _ => h⟩
  · refine ⟨fun l h hl => ?_, fun l h hl => ?_, fun l h hl => ?_, fun l h hl hl' => ?_⟩
    · simp [h, hm _ l hl]
    · simp [h, hm _ l hl]
    · simp [h, hm _ l hl]
    · simp [h, sedVersion_same _ l hl, hd _ l hl']

/-- The mark in a line of another key or in a comment that begins otherwise, or without a space before it. -/
example : ∀ l ∈ [c!"versions = \"1\" # managed by release.sh", c!"# version = \"1\" # managed by release.sh", c!"version = \"1\"# managed by release.sh"],
    (releaseSh c!"v2.0.0" { smd := [l], core := [], gfm := [], npm := [] }).smd = [l] := by
  intro l hl
  have := (C173_rest_partial c!"v2.0.0" { smd := [l], core := [], gfm := [], npm := [] } 0).1 l rfl (by
    revert l
    decide)
  have e : (releaseSh c!"v2.0.0" { smd := [l], core := [], gfm := [], npm := [] }).smd.length = 1 := by simp [releaseSh]
  match h : (releaseSh c!"v2.0.0" { smd := [l], core := [], gfm := [], npm := [] }).smd, e with
  | [x], _ => rw [h] at this; simpa using this

example : VersionText c!"1.2.0-rc.1" ∧ (c!"v1.2.0-rc.1" : Str) = 'v' :: c!"1.2.0-rc.1" ∧ c!"1.2.0-rc.1" ≠ c!"0.1.3-pre" ∧
    (releaseSh c!"v1.2.0-rc.1" repository).smd[2]? = some c!"version = \"1.2.0-rc.1\" # managed by release.sh" ∧
    (releaseSh c!"v1.2.0-rc.1" repository).core[2]? = some c!"version = \"0.1.3-pre\"" ∧
    (releaseSh c!"v1.2.0-rc.1" repository).npm[66]? = some c!"        \"smd-darwin-arm64\": \"1.2.0-rc.1\"," := by decide +kernel

/-! ### C174: the packages published for npm are those that the wrapper requires -/

/-- The packages that the builds publish for npm are the `smd-` packages that the npm package requires, each once, in the version that it requires after the
release of the tag; the executable is in `bin`, and the package is for the system and the processor of its name, in the words of node. -/
theorem C174_published (v : Str) (hv : VersionText v) :
    ((npmPublished ('v' :: v)).map fun p => jsonValue c!"name" p.1).Perm
      ((Smd.Npm.dependencies.filter fun d => c!"smd-".isPrefixOf d).map some) ∧
    ∀ p ∈ npmPublished ('v' :: v), ∃ os cpu, jsonItem c!"os" p.1 = some os ∧ jsonItem c!"cpu" p.1 = some cpu ∧
      jsonValue c!"name" p.1 = some (c!"smd-" ++ (if os = c!"win32" then c!"windows" else os) ++ c!"-" ++ cpu) ∧
      p.2 = c!"smd" ++ (if os = c!"win32" then c!".exe" else []) ∧
      jsonValue c!"version" p.1 = some v ∧
      jsonValue (c!"smd-" ++ (if os = c!"win32" then c!"windows" else os) ++ c!"-" ++ cpu) (releaseSh ('v' :: v) repository).npm = jsonValue c!"version" p.1 := by
  constructor
  · have h : (npmPublished ('v' :: v)).map (fun p => jsonValue c!"name" p.1) =
        [c!"smd-linux-x64", c!"smd-linux-arm64", c!"smd-windows-x64", c!"smd-windows-arm64", c!"smd-darwin-x64", c!"smd-darwin-arm64"].map some := rfl
    rw [h]
    decide
  · intro p hp
    obtain ⟨b, hb, rfl⟩ := List.mem_map.mp hp
    have hm : b.name ∈ [c!"linux-x64-glibc", c!"linux-arm64-glibc", c!"win32-x64-msvc", c!"win32-arm64-msvc", c!"darwin-x64", c!"darwin-arm64"] := by
      have : ∀ b ∈ matrix.filter (·.npm), b.name ∈ [c!"linux-x64-glibc", c!"linux-arm64-glibc", c!"win32-x64-msvc", c!"win32-arm64-msvc", c!"darwin-x64", c!"darwin-arm64"] := by
        decide
      exact this b hb
    have hr : (releaseSh ('v' :: v) repository).npm = pkgWith v := by rw [release_eq hv (.inl rfl)]
    rw [hr]
    have hver : jsonValue c!"version" (nodeManifest b ('v' :: v)) = some v := by
      have : jsonValue c!"version" (nodeManifest b ('v' :: v)) = some ((v ++ '"' :: c!",").takeWhile (· != '"')) := rfl
      rw [this, takeWhile_quote hv]
    refine ⟨cut1 b.name, cut2 b.name, ?_⟩
    simp only [hver]
    have hb' : b ∈ matrix.filter (·.npm) := hb
    simp only [matrix, List.filter, List.mem_cons, List.not_mem_nil, or_false] at hb'
    rcases hb' with rfl | rfl | rfl | rfl | rfl | rfl
    · exact ⟨rfl, rfl, rfl, rfl, trivial, pkgWith_dep (n := c!"linux-x64") hv (by decide)⟩
    · exact ⟨rfl, rfl, rfl, rfl, trivial, pkgWith_dep (n := c!"linux-arm64") hv (by decide)⟩
    · exact ⟨rfl, rfl, rfl, rfl, trivial, pkgWith_dep (n := c!"windows-x64") hv (by decide)⟩
    · exact ⟨rfl, rfl, rfl, rfl, trivial, pkgWith_dep (n := c!"windows-arm64") hv (by decide)⟩
    · exact ⟨rfl, rfl, rfl, rfl, trivial, pkgWith_dep (n := c!"darwin-x64") hv (by decide)⟩
    · exact ⟨rfl, rfl, rfl, rfl, trivial, pkgWith_dep (n := c!"darwin-arm64") hv (by decide)⟩

example : (npmPublished c!"v0.2.0").length = 6 ∧ jsonValue c!"name" ((npmPublished c!"v0.2.0")[2]!).1 = some c!"smd-windows-x64" ∧
    jsonItem c!"os" ((npmPublished c!"v0.2.0")[2]!).1 = some c!"win32" ∧ jsonValue c!"version" ((npmPublished c!"v0.2.0")[2]!).1 = some c!"0.2.0" := by decide +kernel

/-! ### C175: pushing a tag runs all the jobs -/

private theorem okJobs_mem (works : Str → Step → Bool) : ∀ (js : List Job) (ok : List Str) (n : Str), n ∈ okJobs works ok js →
    n ∈ ok ∨ ∃ j ∈ js, j.name = n ∧ jobOk (works j.name) j = true ∧ ∀ d ∈ j.needs, d ∈ okJobs works ok js
  | [], ok, n, h => .inl h
  | j :: js, ok, n, h => by
    have mono : ∀ (js : List Job) (ok : List Str), ∀ d ∈ ok, d ∈ okJobs works ok js := by
      intro js
      induction js with
      | nil => exact fun ok d h => h
      | cons j js ih =>
        intro ok d h
        rw [okJobs]
        split
        · exact ih _ d (List.mem_append_left _ h)
        · exact ih _ d h
    rw [okJobs] at h ⊢
    split at h
    · next hc =>
      rw [if_pos hc]
      simp only [Bool.and_eq_true, List.all_eq_true, List.contains_eq_mem, decide_eq_true_eq] at hc
      rcases okJobs_mem works js _ n h with h | ⟨j', hj', h'⟩
      · rcases List.mem_append.mp h with h | h
        · exact .inl h
        · refine .inr ⟨j, by simp, (List.mem_singleton.mp h).symm, hc.2, fun d hd => mono _ _ _ (List.mem_append_left _ (hc.1 d hd))⟩
      · exact .inr ⟨j', by simp [hj'], h'⟩
    · next hc =>
      rw [if_neg hc]
      rcases okJobs_mem works js _ n h with h | ⟨j', hj', h'⟩
      · exact .inl h
      · exact .inr ⟨j', by simp [hj'], h'⟩

private theorem binaries_fail (works : Step → Bool) (tag : Str) (b : Build) : (doneSteps works checkout (binarySteps tag b)).length ≤ 1 := by
  have hm : ∀ x : Str, c!"LREADME.md" ≠ exeOf b x := by
    intro x h
    simp [exeOf] at h
  unfold binarySteps
  rw [List.cons_append, List.cons_append, doneSteps]
  split
  · rw [List.cons_append, List.cons_append, doneSteps, if_neg]
    · simp
    · simp only [Bool.and_eq_true, List.all_eq_true, not_and]
      intro _ h
      have h1 := h c!"LREADME.md" (by simp)
      simp only [List.contains_eq_mem, decide_eq_true_eq, List.mem_append, List.mem_cons, List.not_mem_nil, or_false] at h1
      rcases h1 with h1 | h1 | h1 | h1
      · exact absurd h1 (by decide)
      · exact hm _ h1
      · exact hm _ h1
      · exact hm _ h1
  · simp

private theorem binaries_job (tag : Str) (w : Step → Bool) :
    jobOk w ⟨c!"publish-binaries", [c!"generate-changelog"], matrix.map (binarySteps tag)⟩ = false := by
  unfold jobOk
  rw [List.all_eq_false]
  refine ⟨binarySteps tag ⟨c!"darwin-arm64", c!"macos-14", c!"aarch64-apple-darwin", true, true⟩, List.mem_map_of_mem (by simp [matrix]), ?_⟩
  have := binaries_fail w tag ⟨c!"darwin-arm64", c!"macos-14", c!"aarch64-apple-darwin", true, true⟩
  simp only [beq_iff_eq]
  intro h
  rw [h] at this
  simp [binarySteps] at this

/-- However the services behave: for every tag no build of `publish-binaries` gets to publish anything, that job fails, and the jobs that publish the npm package
and the Python package do not run. -/
theorem C175_refuted (works : Str → Step → Bool) (tag : Str) :
    (∀ b ∈ matrix, ∀ s ∈ doneSteps (works c!"publish-binaries") checkout (binarySteps tag b), s.name = c!"Build") ∧
    c!"publish-binaries" ∉ succeeded works tag ∧ c!"publish-npm" ∉ succeeded works tag ∧ c!"publish-pypi" ∉ succeeded works tag := by
  refine ⟨fun b _ s hs => ?_, ?_⟩
  · have hl := binaries_fail (works c!"publish-binaries") tag b
    have hd : ∃ r, binarySteps tag b = ⟨c!"Build", [c!"Cargo.toml"], [exeOf b c!"smd", exeOf b c!"smd-completions", exeOf b c!"smd-mangen"]⟩ :: r := ⟨_, rfl⟩
    obtain ⟨r, hr⟩ := hd
    rw [hr, doneSteps] at hs hl
    split at hs
    · next hc =>
      rw [if_pos hc] at hl
      simp only [List.length_cons] at hl
      have := List.length_eq_zero_iff.mp (Nat.le_zero.mp (Nat.le_of_succ_le_succ hl))
      rw [this] at hs
      simp at hs
      rw [hs]
    · simp at hs
  · have hj := binaries_job tag
    have h1 : c!"publish-binaries" ∉ succeeded works tag := by
      intro h
      rcases okJobs_mem works (jobs tag) [] _ h with h | ⟨j, hjm, hn, hok, _⟩
      · simp at h
      · simp only [jobs, List.mem_cons, List.not_mem_nil, or_false] at hjm
        rcases hjm with rfl | rfl | rfl | rfl | rfl | rfl
        · exact absurd hn (by simp)
        · rw [hj] at hok
          cases hok
        all_goals exact absurd hn (by simp)
    refine ⟨h1, ?_, ?_⟩ <;>
    · intro h
      rcases okJobs_mem works (jobs tag) [] _ h with h | ⟨j, hjm, hn, _, hneed⟩
      · simp at h
      · simp only [jobs, List.mem_cons, List.not_mem_nil, or_false] at hjm
        rcases hjm with rfl | rfl | rfl | rfl | rfl | rfl
        all_goals first
          | (simp at hn; done)
          | exact h1 (hneed _ (by simp))

/-- A pre-release has no Debian package: the file with another name than the one that was made is not there. -/
theorem C175_deb (works : Str → Step → Bool) (tag : Str) (h : '-' ∈ tag) : c!"publish-deb" ∉ succeeded works tag := by
  intro hs
  rcases okJobs_mem works (jobs tag) [] _ hs with h' | ⟨j, hjm, hn, hok, _⟩
  · simp at h'
  · simp only [jobs, List.mem_cons, List.not_mem_nil, or_false] at hjm
    rcases hjm with rfl | rfl | rfl | rfl | rfl | rfl
    all_goals first
      | (simp at hn; done)
      | skip
    have hp : preRelease tag = true := by simp [preRelease, gitRef, h]
    have hne : c!"smdcliff-" ++ releaseVersion tag ++ c!".deb" ≠ c!"smd-" ++ releaseVersion tag ++ c!".deb" := by simp
    have hc : c!"smdcliff-" ++ releaseVersion tag ++ c!".deb" ∉ checkout := by simp [checkout]
    simp only [jobOk, debSteps, hp, if_true, List.all_cons, List.all_nil, Bool.and_true, beq_iff_eq, List.length_cons, List.length_nil] at hok
    have hc' : (checkout ++ [c!"smd-" ++ releaseVersion tag ++ c!".deb"] ++ []).contains (c!"smdcliff-" ++ releaseVersion tag ++ c!".deb") = false := by
      simp only [List.contains_eq_mem, decide_eq_false_iff_not, List.mem_append, List.mem_cons, List.not_mem_nil, or_false, not_or]
      exact ⟨hc, hne⟩
    simp only [doneSteps, List.all_cons, List.all_nil, hc', Bool.and_true, Bool.and_false] at hok
    split at hok
    · simp only [List.length_cons] at hok
      split at hok <;> simp at hok
    · simp at hok

/-- If everything works that has its files, the changelog, the RPM package and, unless it is a pre-release, the Debian package are published. -/
theorem C175_partial (tag : Str) :
    c!"generate-changelog" ∈ succeeded (fun _ _ => true) tag ∧ c!"publish-rpm" ∈ succeeded (fun _ _ => true) tag ∧
    ('-' ∉ tag → c!"publish-deb" ∈ succeeded (fun _ _ => true) tag) := by
  have h1 : ∀ w : Step → Bool, jobOk w ⟨c!"publish-binaries", [c!"generate-changelog"], matrix.map (binarySteps tag)⟩ = false := binaries_job tag
  have h2 : jobOk (fun _ => true) ⟨c!"publish-rpm", [c!"generate-changelog"], [rpmSteps tag]⟩ = true := by
    simp only [jobOk, rpmSteps, List.all_cons, List.all_nil, Bool.and_true]
    cases preRelease tag <;> simp [doneSteps, checkout]
  have h3 : '-' ∉ tag → jobOk (fun _ => true) ⟨c!"publish-deb", [c!"generate-changelog"], [debSteps tag]⟩ = true := by
    intro h
    have hp : preRelease tag = false := by simp [preRelease, gitRef, h]
    simp [jobOk, debSteps, hp, doneSteps, checkout]
  have h4 : succeeded (fun _ _ => true) tag = okJobs (fun _ _ => true) [c!"generate-changelog"]
      [⟨c!"publish-deb", [c!"generate-changelog"], [debSteps tag]⟩, ⟨c!"publish-rpm", [c!"generate-changelog"], [rpmSteps tag]⟩] := by
    unfold succeeded jobs
    rw [okJobs, if_pos (by decide), okJobs, if_neg (by rw [h1]; simp), okJobs, if_neg (by simp), okJobs, if_neg (by simp)]
    rfl
  rw [h4]
  cases h5 : jobOk (fun _ => true) ⟨c!"publish-deb", [c!"generate-changelog"], [debSteps tag]⟩
  · rw [okJobs, if_neg (by simp [h5]), okJobs, if_pos (by simp [h2]), okJobs]
    refine ⟨by simp, by simp, fun h => ?_⟩
    rw [h3 h] at h5
    cases h5
  · rw [okJobs, if_pos (by simp [h5]), okJobs, if_pos (by simp [h2]), okJobs]
    simp

example : succeeded (fun _ _ => true) c!"v1.0.0" = [c!"generate-changelog", c!"publish-deb", c!"publish-rpm"] ∧
    succeeded (fun _ _ => true) c!"v1.0.0-rc1" = [c!"generate-changelog", c!"publish-rpm"] := by decide +kernel

/-! ### C176: `smd` is published on crates.io -/

private theorem path_none (p : Str) (h : p = c!"gi/t-/smd-core" ∨ p = c!"gi/t-/gfm") : ¬ ∃ name, name ≠ [] ∧ p = indexPath name := by
  rintro ⟨n, hn, hp⟩
  match n, hn, hp with
  | [_], _, hp => rcases h with rfl | rfl <;> simp [indexPath] at hp
  | [_, _], _, hp => rcases h with rfl | rfl <;> simp [indexPath] at hp
  | [_, _, _], _, hp => rcases h with rfl | rfl <;> simp [indexPath] at hp
  | a :: b :: c :: d :: r, _, hp =>
    rcases h with rfl | rfl
    · simp [indexPath] at hp
      obtain ⟨rfl, _, _, _, h, _⟩ := hp
      exact absurd h (by decide)
    · simp [indexPath] at hp

/-- Whatever is published at whatever times and however long one waits: the step that publishes the executable does not begin, because the files of the index that the
step before waits for cannot exist. -/
theorem C176_refuted (index : Nat → Str → Option Str) (h : ∀ t, IndexOk (index t)) (version : Str) (start t : Nat) :
    ¬ binaryStarts index version start t := by
  rintro ⟨s, ⟨_, file, hf, _⟩, _⟩
  exact path_none _ (.inl rfl) (h s _ (by rw [hf]; rfl))

/-- The index would have had to have the files elsewhere. -/
theorem C176_paths : indexPath c!"smd-core" = c!"sm/d-/smd-core" ∧ indexPath c!"gfm" = c!"3/g/gfm" := by decide

/-- crates.io does not take `smd-core` after any release, for want of a description and a license. -/
theorem C176_metadata (tag : Str) : ¬ Publishable (releaseSh tag repository).core := by
  have h : (releaseSh tag repository).core = coreToml := by
    unfold releaseSh
    split
    · rfl
    · exact core_same _
  rw [h]
  decide

set_option maxRecDepth 20000 in
/-- The crates are published after those of the repository that they depend on. -/
theorem C176_partial (tag : Str) (i : Nat) (crate : Str × List Str) (h : (publishOrder (releaseSh tag repository))[i]? = some crate) (d : Str)
    (hd : d ∈ pathDeps [] crate.2) : ∃ j < i, ((publishOrder (releaseSh tag repository))[j]?).map (·.1) = some d := by
  have hc : pathDeps [] (releaseSh tag repository).core = [] := by
    unfold releaseSh
    split
    · decide
    · exact rfl
  have hg : pathDeps [] (releaseSh tag repository).gfm = [] := by
    unfold releaseSh
    split
    · decide
    · exact rfl
  have hs : pathDeps [] (releaseSh tag repository).smd = [c!"smd-core", c!"gfm"] := by
    unfold releaseSh
    split
    · exact rfl
    · exact rfl
  match i, h with
  | 0, h =>
    simp [publishOrder] at h
    rw [← h] at hd
    simp [hc] at hd
  | 1, h =>
    simp [publishOrder] at h
    rw [← h] at hd
    simp [hg] at hd
  | 2, h =>
    simp [publishOrder] at h
    rw [← h] at hd
    simp only [hs, List.mem_cons, List.not_mem_nil, or_false] at hd
    rcases hd with rfl | rfl
    · exact ⟨0, by decide, rfl⟩
    · exact ⟨1, by decide, rfl⟩
  | n + 3, h => simp [publishOrder] at h

example : ∃ crate, (publishOrder (releaseSh c!"v1.0.0" repository))[2]? = some crate ∧ c!"gfm" ∈ pathDeps [] crate.2 := by decide +kernel

/-- An index with both crates where they belong. -/
example : IndexOk (fun p => if p = c!"sm/d-/smd-core" ∨ p = c!"3/g/gfm" then some c!"{\"vers\":\"1.0.0\"}" else none) ∧
    hasVersion c!"1.0.0" c!"{\"vers\":\"1.0.0\"}" = true := by
  refine ⟨fun p h => ?_, by decide⟩
  by_cases hp : p = c!"sm/d-/smd-core" ∨ p = c!"3/g/gfm"
  · rcases hp with rfl | rfl
    · exact ⟨c!"smd-core", by decide, by decide⟩
    · exact ⟨c!"gfm", by decide, by decide⟩
  · simp [hp] at h

end Smd.Props
