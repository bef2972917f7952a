import Verif.Lemmas.Packages
import Verif.Spec.Manifest
import Verif.Spec.Platform
import Verif.Spec.Assets
import Verif.Lemmas.Release

/-! What is in the packages of a release, and under which names npm offers them: C202 to C206. -/

namespace Smd.Props
open Smd.Rs Smd.Release Smd.Spec

/-! ### C202: a package has the executable for its platform -/

/-- Every package for npm has an executable that was built for the system and the processor that its manifest names. -/
theorem C202_executable (tag : Str) : ∀ p ∈ npmFilled tag, ∃ target, targetOs target = jsonItem c!"os" p.1 ∧ targetCpu target = jsonItem c!"cpu" p.1 ∧
    (targetOs target).isSome = true ∧ (targetCpu target).isSome = true ∧
    p.2 = c!"../target/" ++ target ++ c!"/release/smd" ++ (if targetOs target = some c!"win32" then c!".exe" else []) := by
  intro p hp
  obtain ⟨b, hb, rfl⟩ := List.mem_map.mp hp
  refine ⟨b.target, ?_⟩
  simp only [matrix, List.filter, List.mem_cons, List.not_mem_nil, or_false] at hb
  rcases hb with rfl | rfl | rfl | rfl | rfl | rfl
  · exact ⟨(by decide : targetOs c!"x86_64-unknown-linux-gnu" = some c!"linux"), (by decide : targetCpu c!"x86_64-unknown-linux-gnu" = some c!"x64"), by decide, by decide, by show nodeExe _ = _; decide⟩
  · exact ⟨(by decide : targetOs c!"aarch64-unknown-linux-gnu" = some c!"linux"), (by decide : targetCpu c!"aarch64-unknown-linux-gnu" = some c!"arm64"), by decide, by decide, by show nodeExe _ = _; decide⟩
  · exact ⟨(by decide : targetOs c!"x86_64-pc-windows-msvc" = some c!"win32"), (by decide : targetCpu c!"x86_64-pc-windows-msvc" = some c!"x64"), by decide, by decide, by show nodeExe _ = _; decide⟩
  · exact ⟨(by decide : targetOs c!"aarch64-pc-windows-msvc" = some c!"win32"), (by decide : targetCpu c!"aarch64-pc-windows-msvc" = some c!"arm64"), by decide, by decide, by show nodeExe _ = _; decide⟩
  · exact ⟨(by decide : targetOs c!"x86_64-apple-darwin" = some c!"darwin"), (by decide : targetCpu c!"x86_64-apple-darwin" = some c!"x64"), by decide, by decide, by show nodeExe _ = _; decide⟩
  · exact ⟨(by decide : targetOs c!"aarch64-apple-darwin" = some c!"darwin"), (by decide : targetCpu c!"aarch64-apple-darwin" = some c!"arm64"), by decide, by decide, by show nodeExe _ = _; decide⟩

/-- Every build, published or not, is run on a machine of the system that it builds for, and its name begins with the system. -/
theorem C202_builds : ∀ b ∈ matrix, ∃ os, targetOs b.target = some os ∧ os <+: b.name ∧ (targetCpu b.target).isSome = true ∧
    (if os = c!"linux" then c!"ubuntu" else if os = c!"win32" then c!"windows" else c!"macos") <+: b.os := by
  intro b hb
  simp only [matrix, List.mem_cons, List.not_mem_nil, or_false] at hb
  rcases hb with rfl | rfl | rfl | rfl | rfl | rfl | rfl | rfl | rfl | rfl | rfl | rfl
  all_goals first
    | exact ⟨c!"linux", by decide, by decide, by decide, by decide⟩
    | exact ⟨c!"win32", by decide, by decide, by decide, by decide⟩
    | exact ⟨c!"darwin", by decide, by decide, by decide, by decide⟩

example : (npmFilled c!"v0.2.0").length = 6 ∧ ((npmFilled c!"v0.2.0")[3]!).2 = c!"../target/aarch64-pc-windows-msvc/release/smd.exe" ∧
    jsonItem c!"cpu" ((npmFilled c!"v0.2.0")[3]!).1 = some c!"arm64" := by decide +kernel

/-! ### C203: wheels -/

/-- No build makes its wheels with the option for musl, whatever it builds, as long as it runs on the machines of the matrix. -/
theorem C203_refuted_always (b : Build) (h : b.os ∈ [c!"ubuntu-22.04", c!"windows-2022", c!"macos-14"]) : ∀ s ∈ wheelSteps b, s.2 ≠ some c!"musllinux_1_2" := by
  have hm : c!"musl".isSuffixOf b.os = false := by
    simp only [List.mem_cons, List.not_mem_nil, or_false] at h
    rcases h with h | h | h <;> rw [h] <;> decide
  intro s hs
  simp only [wheelSteps, hm, Bool.and_false, Bool.false_eq_true, ↓reduceIte, List.append_nil, List.mem_append] at hs
  rcases hs with hs | hs
  · split at hs
    · simp only [List.mem_cons, List.not_mem_nil, or_false] at hs
      subst hs
      simp only
      split <;> decide
    · simp at hs
  · split at hs
    · simp only [List.mem_cons, List.not_mem_nil, or_false] at hs
      subst hs
      simp
    · simp at hs

/-- The build of `linux-x64-musl` is to make wheels, and makes them with the option that is for all systems. -/
theorem C203_refuted : ∃ b ∈ matrix, b.pypi = true ∧ c!"-musl" <:+ b.target ∧ wheelSteps b = [(c!"linux", some c!"auto")] :=
  ⟨_, List.mem_cons_of_mem _ (List.mem_cons_self ..), rfl, by decide, by decide⟩

example : (c!"ubuntu-22.04" : Str) ∈ [c!"ubuntu-22.04", c!"windows-2022", c!"macos-14"] ∧ wheelSteps ⟨c!"a", c!"x-musl", c!"b", true, true⟩ = [(c!"musl", some c!"musllinux_1_2")] := by
  decide

/-- The builds that are to make wheels make them in one step, the others in none. -/
theorem C203_partial : ∀ b ∈ matrix, (wheelSteps b).length = if b.pypi then 1 else 0 := by decide

example : wheelSteps ⟨c!"darwin-x64", c!"macos-14", c!"x86_64-apple-darwin", true, true⟩ = [(c!"macos & windows", none)] := by decide

/-! ### C204: pre-releases on npm -/

/-- After a pre-release, as after any release, npm offers it as the latest version of the packages with the executables. -/
theorem C204_refuted_always (offers : Str → Str → Option Str) (v version : Str) :
    ∀ p ∈ platformPackages, offered offers (npmPublications ('v' :: v) version) p c!"latest" = some v := by
  intro p hp
  have hne : p ≠ c!"smd" := by rintro rfl; revert hp; decide
  rw [publications_eq]
  apply offered_some
  · exact ⟨_, List.mem_append_left _ (List.mem_map_of_mem hp), rfl, rfl⟩
  · intro x hx e _
    rcases List.mem_append.mp hx with hx | hx
    · obtain ⟨q, _, rfl⟩ := List.mem_map.mp hx
      rfl
    · rw [List.mem_singleton.mp hx] at e
      exact absurd e hne

theorem C204_refuted : offered (fun _ _ => some c!"0.2.0") (npmPublications c!"v0.3.0-rc.1" c!"0.3.0-rc.1") c!"smd-linux-x64" c!"latest" = some c!"0.3.0-rc.1" :=
  C204_refuted_always _ c!"0.3.0-rc.1" _ _ (by decide)

/-- The package `smd` is offered as the latest version if and only if the tag has no hyphen; otherwise the latest version stays what it was, and the
pre-release is offered under `rc`. -/
theorem C204_partial (offers : Str → Str → Option Str) (tag version : Str) :
    ('-' ∈ tag → offered offers (npmPublications tag version) c!"smd" c!"latest" = offers c!"smd" c!"latest" ∧
      offered offers (npmPublications tag version) c!"smd" c!"rc" = some version) ∧
    ('-' ∉ tag → offered offers (npmPublications tag version) c!"smd" c!"latest" = some version ∧
      ∀ p, offered offers (npmPublications tag version) p c!"rc" = offers p c!"rc") := by
  have hpre : preRelease tag = true ↔ '-' ∈ tag := by simp [preRelease, gitRef]
  have hs : ∀ x ∈ platformPackages.map (fun p => (⟨p, releaseVersion tag, c!"latest"⟩ : Publication)), c!"smd" ≠ x.package ∧ x.distTag = c!"latest" := by
    intro x hx
    obtain ⟨q, hq, rfl⟩ := List.mem_map.mp hx
    exact ⟨by rintro rfl; revert hq; decide, rfl⟩
  rw [publications_eq]
  refine ⟨fun h => ?_, fun h => ?_⟩
  · rw [if_pos (hpre.mpr h)]
    refine ⟨offered_other _ _ _ _ fun x hx => ?_, offered_some _ _ _ _ _ ⟨_, List.mem_append_right _ (List.mem_singleton.mpr rfl), rfl, rfl⟩ fun x hx e _ => ?_⟩
    · rcases List.mem_append.mp hx with hx | hx
      · exact fun e => (hs x hx).1 e.1
      · rw [List.mem_singleton.mp hx]
        exact fun e => absurd e.2 (by simp)
    · rcases List.mem_append.mp hx with hx | hx
      · exact absurd e (hs x hx).1
      · rw [List.mem_singleton.mp hx]
  · rw [if_neg fun e => h (hpre.mp e)]
    refine ⟨offered_some _ _ _ _ _ ⟨_, List.mem_append_right _ (List.mem_singleton.mpr rfl), rfl, rfl⟩ fun x hx e _ => ?_, fun p => offered_other _ _ _ _ fun x hx e => ?_⟩
    · rcases List.mem_append.mp hx with hx | hx
      · exact absurd e (hs x hx).1
      · rw [List.mem_singleton.mp hx]
    · have : x.distTag = c!"latest" := by
        rcases List.mem_append.mp hx with hx | hx
        · exact (hs x hx).2
        · rw [List.mem_singleton.mp hx]
      rw [this] at e
      exact absurd e.2 (by decide)

example : ('-' : Char) ∈ (c!"v0.3.0-rc.1" : Str) ∧ ('-' : Char) ∉ (c!"v0.3.0" : Str) ∧
    offered (fun _ _ => some c!"0.2.0") (npmPublications c!"v0.3.0-rc.1" c!"0.3.0-rc.1") c!"smd" c!"latest" = some c!"0.2.0" := by decide +kernel

/-! ### C205: the files of the packages for Linux -/

set_option maxRecDepth 50000 in
private theorem debAssets_smd (v : Str) : debAssets (smdWith v) =
    [(c!"target/release/smd", c!"usr/bin/"), (c!"../LICENSE", c!"/usr/share/doc/smd/LICENSE"), (c!"../README.md", c!"usr/share/doc/smd/README"),
      (c!"../man/smd.1", c!"/usr/share/man/man1/smd.1"), (c!"../completions/smd.bash", c!"/usr/share/bash-completion/completions/smd"),
      (c!"../completions/smd.fish", c!"/usr/share/fish/vendor_completions.d/smd.fish"), (c!"../completions/_smd", c!"/usr/share/zsh/vendor-completions/")] := rfl

set_option maxRecDepth 50000 in
private theorem rpmAssets_smd (v : Str) : rpmAssets (smdWith v) =
    [(c!"target/release/smd", c!"/usr/bin/smd"), (c!"LICENSE", c!"/usr/share/doc/smd/LICENSE"), (c!"README.md", c!"/usr/share/doc/smd/README.md"),
      (c!"man/smd.1", c!"/usr/share/man/man1/smd.1"), (c!"completions/smd.bash", c!"/usr/share/bash-completion/completions/smd"),
      (c!"completions/smd.fish", c!"/usr/share/fish/vendor_completions.d/smd.fish"), (c!"completions/_smd", c!"/usr/share/zsh/vendor-completions/")] := rfl

/-- After the release of any version, every file that the manifest lists for the packages is there when they are built; both packages have the same files, and
install them in the same places but for the name of the README; the executable is `usr/bin/smd`. -/
theorem C205_files (v tag : Str) (hv : VersionText v) (ht : tag = 'v' :: v ∨ (tag = v ∧ v.head? ≠ some 'v')) :
    let deb := (debAssets (releaseSh tag repository).smd).map fun a => (debFile c!"smd" a.1, installed a.1 a.2)
    let rpm := (rpmAssets (releaseSh tag repository).smd).map fun a => (a.1, installed a.1 a.2)
    (∀ a ∈ deb ++ rpm, a.1 ∈ packageFiles) ∧ deb.map (·.1) = rpm.map (·.1) ∧ deb.filter (·.1 ≠ c!"README.md") = rpm.filter (·.1 ≠ c!"README.md") ∧
    (∀ a ∈ deb ++ rpm, a.1 = c!"target/release/smd" ↔ a.2 = c!"usr/bin/smd") ∧ c!"target/release/smd" ∈ deb.map (·.1) := by
  rw [release_eq hv ht]
  simp only [debAssets_smd, rpmAssets_smd]
  decide +kernel

example : VersionText c!"0.2.0" ∧ (debAssets (releaseSh c!"v0.2.0" repository).smd).length = 7 ∧
    (rpmAssets (releaseSh c!"v0.2.0" repository).smd)[6]? = some (c!"completions/_smd", c!"/usr/share/zsh/vendor-completions/") := by decide +kernel

/-! ### C206: the workspace -/

set_option maxRecDepth 50000 in
private theorem inherited_smd (v : Str) : inheritedDeps [] (smdWith v) = [c!"log", c!"dirs", c!"toml"] := rfl

set_option maxRecDepth 50000 in
private theorem pathDeps_smd (v : Str) : pathDeps [] (smdWith v) = [c!"smd-core", c!"gfm"] := rfl

/-- After the release of any version, the workspace declares every dependency that its crates take from it, and no other; the crates that they take from a
directory are members, as is every crate. -/
theorem C206_workspace (v tag : Str) (hv : VersionText v) (ht : tag = 'v' :: v ∨ (tag = v ∧ v.head? ≠ some 'v')) :
    let m := releaseSh tag repository
    (∀ d, d ∈ sectionKeys c!"[workspace.dependencies]" [] rootToml ↔ ∃ c ∈ [m.smd, m.core, m.gfm], d ∈ inheritedDeps [] c) ∧
    (∀ c ∈ [m.smd, m.core, m.gfm], ∀ d ∈ pathDeps [] c, d ∈ workspaceMembers rootToml) ∧
    ∀ c ∈ [m.smd, m.core, m.gfm], ∃ n ∈ workspaceMembers rootToml, tomlValue c!"[package]" c!"name" [] c = some n := by
  have e1 : sectionKeys c!"[workspace.dependencies]" [] rootToml = [c!"log", c!"dirs", c!"serde", c!"toml"] := by decide
  have e2 : workspaceMembers rootToml = [c!"smd-core", c!"smd", c!"gfm"] := by decide
  have e3 : inheritedDeps [] coreToml = [c!"log", c!"serde", c!"toml", c!"dirs"] := by decide
  have e4 : inheritedDeps [] gfmToml = [c!"log"] := by decide
  have e5 : pathDeps [] coreToml = [] := by decide
  have e6 : pathDeps [] gfmToml = [] := by decide
  have n1 : tomlValue c!"[package]" c!"name" [] (smdWith v) = some c!"smd" := rfl
  have n2 : tomlValue c!"[package]" c!"name" [] coreToml = some c!"smd-core" := by decide
  have n3 : tomlValue c!"[package]" c!"name" [] gfmToml = some c!"gfm" := by decide
  intro m
  have hm : m = _ := release_eq hv ht
  rw [hm]
  simp only [e1, e2, List.mem_cons, List.not_mem_nil, or_false, forall_eq_or_imp, forall_eq, exists_eq_or_imp, exists_eq_left, inherited_smd, pathDeps_smd, e3,
    e4, e5, e6, n1, n2, n3]
  refine ⟨fun d => ?_, by simp, by simp⟩
  constructor
  · rintro (h | h | h | h) <;> simp [h]
  · rintro ((h | h | h) | (h | h | h | h) | h) <;> simp [h]

example : VersionText c!"0.2.0" ∧ inheritedDeps [] (releaseSh c!"v0.2.0" repository).core = [c!"log", c!"serde", c!"toml", c!"dirs"] ∧
    workspaceMembers rootToml = [c!"smd-core", c!"smd", c!"gfm"] := by decide +kernel

end Smd.Props
