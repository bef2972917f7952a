import Verif.Lemmas.Node
import Verif.Release.Packages
import Verif.Spec.Assets

/-! The package `smd` for npm, and the programs that the packages install: C207 to C209. -/

namespace Smd.Props
open Smd.Rs Smd.Release Smd.Spec

/-! ### C207: the build of the package for npm -/

private theorem leaf_keys (v w : Str) : (pkgLeaves v w).map (·.1) = (pkgLeaves [] []).map (·.1) := rfl

private theorem no_input {v : Str} (hv : VersionText v) : ¬ TsupInput npmCheckout npmDirs (pkgWith v) := by
  have hc : ∀ d ∈ npmDirs, ∀ c ∈ tsupConfigs, d ++ c ∉ npmCheckout := by decide +kernel
  have hk : ∀ q ∈ (pkgLeaves [] []).map (·.1), q.head? ≠ some c!"tsup" := by decide +kernel
  rintro (⟨script, hm, hs⟩ | ⟨d, hd, c, h, hf⟩ | ⟨p, hp, hh⟩)
  · rw [leaves_pkg hv] at hm
    simp [pkgLeaves] at hm
    subst hm
    exact absurd hs (by decide)
  · exact hc d hd c h hf
  · rw [leaves_pkg hv] at hp
    exact hk _ (leaf_keys v v ▸ List.mem_map_of_mem hp) hh

/-- **C207, negated** No release publishes the package: tsup is given no file to build. -/
theorem C207_refuted (v tag : Str) (hv : VersionText v) (ht : tag = 'v' :: v ∨ (tag = v ∧ v.head? ≠ some 'v'))
    (build : List Str → List Str → Option (List Str)) (hb : TsupOk npmDirs build) : publishNpm build (releaseSh tag repository).npm = none := by
  rw [release_eq hv ht]
  exact hb _ _ (no_input hv)

private theorem named_pkg {v : Str} (hv : VersionText v) : namedFiles (pkgWith v) =
    [c!"lib/cjs/index.d.cts", c!"lib/esm/index.d.ts", c!"lib/cjs/index.d.cts", c!"lib/cli/cli.js", c!"lib/cli/cli.js", c!"lib/esm/index.d.ts",
      c!"lib/esm/index.js", c!"lib/cjs/index.d.cts", c!"lib/cjs/index.cjs"] := by
  unfold namedFiles
  rw [leaves_pkg hv]
  rfl

set_option maxRecDepth 50000 in
private theorem files_pkg (v : Str) : jsonItem c!"files" (pkgWith v) = some c!"lib" := rfl

/-- Every file that the manifest names is one that npm packs, and none is in the repository. -/
theorem C207_partial (v tag : Str) (hv : VersionText v) (ht : tag = 'v' :: v ∨ (tag = v ∧ v.head? ≠ some 'v')) :
    let m := (releaseSh tag repository).npm
    namedFiles m ≠ [] ∧ ∀ f ∈ namedFiles m, packed m f ∧ c!"npm/smd/" ++ f ∉ npmCheckout := by
  intro m
  have hm : m = pkgWith v := congrArg Manifests.npm (release_eq hv ht)
  rw [hm, named_pkg hv]
  have h1 : ∀ f ∈ [c!"lib/cjs/index.d.cts", c!"lib/esm/index.d.ts", c!"lib/cjs/index.d.cts", c!"lib/cli/cli.js", c!"lib/cli/cli.js", c!"lib/esm/index.d.ts",
      c!"lib/esm/index.js", c!"lib/cjs/index.d.cts", c!"lib/cjs/index.cjs"], c!"lib" ++ c!"/" <+: f ∧ c!"npm/smd/" ++ f ∉ npmCheckout := by decide +kernel
  exact ⟨by simp, fun f hf => ⟨⟨_, files_pkg v, (h1 f hf).1⟩, (h1 f hf).2⟩⟩

example : VersionText c!"0.2.0" ∧ (namedFiles (releaseSh c!"v0.2.0" repository).npm).length = 9 ∧ (namedFiles packageJson)[3]? = some c!"lib/cli/cli.js" := by decide +kernel

/-- A configuration, or an argument, would do. -/
example : TsupInput (c!"npm/smd/tsup.config.ts" :: npmCheckout) npmDirs packageJson ∧
    TsupInput npmCheckout npmDirs [c!"{", c!"  \"scripts\": {", c!"    \"build\": \"tsup src/index.ts src/cli.ts\"", c!"  }", c!"}"] :=
  ⟨.inr (.inl ⟨c!"npm/smd/", by decide, c!"tsup.config.ts", by decide, by decide⟩),
    .inl ⟨c!"tsup src/index.ts src/cli.ts", by decide, by decide⟩⟩

open Classical in
/-- The rule of tsup is that of a build that succeeds as soon as it has a file. -/
example : TsupOk npmDirs fun files manifest => if TsupInput files npmDirs manifest then some [c!"lib/cli/cli.js"] else none := by
  intro files manifest h
  exact if_neg h

/-! ### C208: the entry points of the package for npm -/

private theorem kind_esm {v : Str} (hv : VersionText v) : nodeKind (pkgWith v) c!"./lib/esm/index.js" = some true ∧ nodeKind (pkgWith v) c!"./lib/cli/cli.js" = some true := by
  have : ([c!"type"], c!"module") ∈ jsonLeaves [] (pkgWith v) := by
    rw [leaves_pkg hv]
    simp [pkgLeaves]
  unfold nodeKind
  simp only [this, decide_true]
  decide

private theorem kind_other (m : List Str) : nodeKind m c!"./lib/cjs/index.cjs" = some false ∧ nodeKind m c!"lib/cjs/index.d.cts" = none ∧
    nodeKind m c!"lib/esm/index.d.ts" = none := ⟨rfl, rfl, rfl⟩

/-- **C208, negated** What `main` and `module` name are files that node does not read, in every release. -/
theorem C208_refuted (v tag : Str) (hv : VersionText v) (ht : tag = 'v' :: v ∨ (tag = v ∧ v.head? ≠ some 'v')) :
    let m := (releaseSh tag repository).npm
    ∀ key ∈ [c!"main", c!"module"], ∃ f, ([key], f) ∈ jsonLeaves [] m ∧ nodeKind m f = none := by
  intro m
  have hm : m = pkgWith v := congrArg Manifests.npm (release_eq hv ht)
  rw [hm, leaves_pkg hv]
  simp only [List.mem_cons, List.not_mem_nil, or_false, forall_eq_or_imp, forall_eq]
  exact ⟨⟨_, by simp [pkgLeaves], (kind_other _).2.1⟩, ⟨_, by simp [pkgLeaves], (kind_other _).2.2⟩⟩

/-- Who reads `exports` gets what it asks for, under whatever further conditions: `import` a module and `require` CommonJS; and the program is a module. -/
theorem C208_partial (v tag : Str) (hv : VersionText v) (ht : tag = 'v' :: v ∨ (tag = v ∧ v.head? ≠ some 'v')) (conds : List Str) (h : c!"types" ∉ conds) :
    let m := (releaseSh tag repository).npm
    (c!"import" ∈ conds → ∀ sub ∈ [c!".", c!"./cli"], ∃ f, nodeResolve conds sub m = some f ∧ nodeKind m f = some true ∧ packed m (f.drop 2)) ∧
    (c!"require" ∈ conds → c!"import" ∉ conds → ∃ f, nodeResolve conds c!"." m = some f ∧ nodeKind m f = some false ∧ packed m (f.drop 2)) := by
  intro m
  have hm : m = pkgWith v := congrArg Manifests.npm (release_eq hv ht)
  rw [hm]
  have hp : ∀ f ∈ [c!"lib/cli/cli.js", c!"lib/esm/index.js", c!"lib/cjs/index.cjs"], packed (pkgWith v) f := by
    intro f hf
    refine ⟨_, files_pkg v, ?_⟩
    simp only [List.mem_cons, List.not_mem_nil, or_false] at hf
    rcases hf with rfl | rfl | rfl <;> decide
  refine ⟨fun hi sub hs => ?_, fun hr hi => ?_⟩
  · simp only [List.mem_cons, List.not_mem_nil, or_false] at hs
    rcases hs with rfl | rfl
    · refine ⟨c!"./lib/esm/index.js", ?_, (kind_esm hv).1, hp _ (by simp)⟩
      unfold nodeResolve
      rw [leaves_pkg hv]
      simp [pkgLeaves, List.find?, h, hi]
    · refine ⟨c!"./lib/cli/cli.js", ?_, (kind_esm hv).2, hp _ (by simp)⟩
      unfold nodeResolve
      rw [leaves_pkg hv]
      simp [pkgLeaves, List.find?, hi]
  · refine ⟨c!"./lib/cjs/index.cjs", ?_, (kind_other _).1, hp _ (by simp)⟩
    unfold nodeResolve
    rw [leaves_pkg hv]
    simp [pkgLeaves, List.find?, h, hi, hr]

/-- Who asks for types, with either condition, gets the declarations that belong to it. -/
theorem C208_types_partial (v tag : Str) (hv : VersionText v) (ht : tag = 'v' :: v ∨ (tag = v ∧ v.head? ≠ some 'v')) (conds : List Str) (h : c!"types" ∈ conds) :
    let m := (releaseSh tag repository).npm
    (c!"import" ∈ conds → ∃ f, nodeResolve conds c!"." m = some f ∧ c!".d.ts" <:+ f ∧ packed m (f.drop 2)) ∧
    (c!"require" ∈ conds → c!"import" ∉ conds → ∃ f, nodeResolve conds c!"." m = some f ∧ c!".d.cts" <:+ f ∧ packed m (f.drop 2)) := by
  intro m
  have hm : m = pkgWith v := congrArg Manifests.npm (release_eq hv ht)
  rw [hm]
  refine ⟨fun hi => ?_, fun hr hi => ?_⟩
  · refine ⟨c!"./lib/esm/index.d.ts", ?_, by decide, _, files_pkg v, by decide⟩
    unfold nodeResolve
    rw [leaves_pkg hv]
    simp [pkgLeaves, List.find?, h, hi]
  · refine ⟨c!"./lib/cjs/index.d.cts", ?_, by decide, _, files_pkg v, by decide⟩
    unfold nodeResolve
    rw [leaves_pkg hv]
    simp [pkgLeaves, List.find?, h, hi, hr]

example : nodeResolve [c!"node", c!"import"] c!"." packageJson = some c!"./lib/esm/index.js" ∧ nodeResolve [c!"node", c!"require"] c!"." packageJson = some c!"./lib/cjs/index.cjs" ∧
    nodeResolve [c!"require"] c!"./cli" packageJson = none ∧ nodeKind packageJson c!"./lib/esm/index.js" = some true := by decide +kernel

/-! ### C209: the programs that are installed -/

set_option maxRecDepth 50000 in
private theorem bins_smd (v : Str) : binNames [] (smdWith v) = [c!"smd", c!"smd-mangen", c!"smd-completions"] := rfl

/-- **C209, negated** The crate of every release has further programs, among them two that write files for its packages. -/
theorem C209_refuted (v tag : Str) (hv : VersionText v) (ht : tag = 'v' :: v ∨ (tag = v ∧ v.head? ≠ some 'v')) :
    ∃ n ∈ binNames [] (releaseSh tag repository).smd, ∃ k ∈ binNames [] (releaseSh tag repository).smd, n ≠ k ∧ n ≠ c!"smd" ∧ k ≠ c!"smd" := by
  rw [release_eq hv ht]
  simp only [bins_smd]
  exact ⟨c!"smd-mangen", by decide, c!"smd-completions", by decide, by decide, by decide, by decide⟩

set_option maxRecDepth 50000 in
private theorem deb_dests (v : Str) : (debAssets (smdWith v)).map (fun a => installed a.1 a.2) = (debAssets (smdWith [])).map (fun a => installed a.1 a.2) := rfl

set_option maxRecDepth 50000 in
private theorem rpm_dests (v : Str) : (rpmAssets (smdWith v)).map (fun a => installed a.1 a.2) = (rpmAssets (smdWith [])).map (fun a => installed a.1 a.2) := rfl

/-- The packages for Linux install `usr/bin/smd` and no other program, the package for npm has one command, of its own name, and the program that `cargo run` runs
is one of those of the crate. -/
theorem C209_partial (v tag : Str) (hv : VersionText v) (ht : tag = 'v' :: v ∨ (tag = v ∧ v.head? ≠ some 'v')) :
    let m := releaseSh tag repository
    (∀ a ∈ debAssets m.smd ++ rpmAssets m.smd, (c!"bin/" <:+: installed a.1 a.2 → installed a.1 a.2 = c!"usr/bin/smd")) ∧
    (∀ p ∈ jsonLeaves [] m.npm, p.1.head? = some c!"bin" → p.1 = [c!"bin"]) ∧ ([c!"name"], c!"smd") ∈ jsonLeaves [] m.npm ∧
    c!"smd" ∈ binNames [] m.smd ∧ tomlValue c!"[package]" c!"default-run" [] m.smd = some c!"smd" := by
  intro m
  have hm : m = _ := release_eq hv ht
  rw [hm]
  have h1 : ∀ d ∈ (debAssets (smdWith [])).map (fun a => installed a.1 a.2) ++ (rpmAssets (smdWith [])).map (fun a => installed a.1 a.2),
      c!"bin/" <:+: d → d = c!"usr/bin/smd" := by decide +kernel
  have h2 : ∀ q ∈ (pkgLeaves [] []).map (·.1), q.head? = some c!"bin" → q = [c!"bin"] := by decide +kernel
  refine ⟨fun a ha => h1 _ ?_, fun p hp => ?_, ?_, ?_, rfl⟩
  · rw [← deb_dests v, ← rpm_dests v, ← List.map_append]
    exact List.mem_map_of_mem ha
  · simp only [leaves_pkg hv] at hp
    exact h2 _ (leaf_keys v v ▸ List.mem_map_of_mem hp)
  · simp only [leaves_pkg hv]
    simp [pkgLeaves]
  · simp only [bins_smd]
    decide

example : binNames [] (releaseSh c!"v0.2.0" repository).smd = [c!"smd", c!"smd-mangen", c!"smd-completions"] ∧
    c!"usr/bin/smd" ∈ (debAssets (releaseSh c!"v0.2.0" repository).smd).map (fun a => installed a.1 a.2) := by decide +kernel

end Smd.Props
