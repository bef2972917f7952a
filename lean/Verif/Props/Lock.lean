import Verif.Lemmas.Release
import Verif.Release.Packages
import Verif.Spec.Lock

/-! The lock file after a release: C210. -/

namespace Smd.Props
open Smd.Rs Smd.Release Smd.Spec

private theorem lock_versions : lockVersion c!"smd" cargoLock = some c!"0.1.3-pre" ∧ lockVersion c!"smd-core" cargoLock = some c!"0.1.3-pre" ∧
    lockVersion c!"gfm" cargoLock = some c!"0.1.3-pre" := by decide

/-- **C210, negated** After the release of any version but that of the repository, the lock file has another version of smd than its manifest. -/
theorem C210_refuted (v tag : Str) (hv : VersionText v) (ht : tag = 'v' :: v ∨ (tag = v ∧ v.head? ≠ some 'v')) (h : v ≠ c!"0.1.3-pre") :
    lockVersion c!"smd" cargoLock ≠ tomlValue c!"[package]" c!"version" [] (releaseSh tag repository).smd := by
  rw [release_eq hv ht, lock_versions.1]
  simp only [smdWith_package hv]
  exact fun e => h (Option.some.inj e).symm

set_option maxRecDepth 50000 in
private theorem deps_smd (v : Str) : manifestDeps [] (smdWith v) =
    [c!"log", c!"dirs", c!"toml", c!"clap", c!"shellexpand", c!"env_logger", c!"clap_mangen", c!"clap_complete", c!"smd-core", c!"gfm"] := rfl

/-- All else fits: the lock file has the dependencies of every crate, and no others, and the versions of smd-core and gfm, which no release changes; it has that of
smd for the version of the repository. -/
theorem C210_partial (v tag : Str) (hv : VersionText v) (ht : tag = 'v' :: v ∨ (tag = v ∧ v.head? ≠ some 'v')) :
    let m := releaseSh tag repository
    (∀ c ∈ [m.smd, m.core, m.gfm], ∃ n, tomlValue c!"[package]" c!"name" [] c = some n ∧ ∀ d, d ∈ lockDeps n cargoLock ↔ d ∈ manifestDeps [] c) ∧
    (∀ c ∈ [m.core, m.gfm], ∃ n, tomlValue c!"[package]" c!"name" [] c = some n ∧ ∃ x, lockVersion n cargoLock = some x ∧ tomlValue c!"[package]" c!"version" [] c = some x) ∧
    (v = c!"0.1.3-pre" → lockVersion c!"smd" cargoLock = tomlValue c!"[package]" c!"version" [] m.smd) := by
  intro m
  have hm : m = _ := release_eq hv ht
  have n1 : tomlValue c!"[package]" c!"name" [] (smdWith v) = some c!"smd" := rfl
  have l1 : ∀ a b : List Str, (∀ d ∈ a, d ∈ b) ∧ (∀ d ∈ b, d ∈ a) → ∀ d, d ∈ a ↔ d ∈ b := fun a b h d => ⟨h.1 d, h.2 d⟩
  rw [hm]
  simp only [List.mem_cons, List.not_mem_nil, or_false, forall_eq_or_imp, forall_eq]
  refine ⟨⟨⟨_, n1, ?_⟩, ⟨c!"smd-core", by decide, l1 _ _ (by decide +kernel)⟩, ⟨c!"gfm", by decide, l1 _ _ (by decide +kernel)⟩⟩,
    ⟨⟨c!"smd-core", by decide, _, lock_versions.2.1, by decide⟩, ⟨c!"gfm", by decide, _, lock_versions.2.2, by decide⟩⟩, ?_⟩
  · rw [deps_smd]
    exact l1 _ _ (by decide +kernel)
  · intro e
    rw [smdWith_package hv, lock_versions.1, e]

example : VersionText c!"0.2.0" ∧ c!"0.2.0" ≠ c!"0.1.3-pre" ∧ (lockDeps c!"smd-core" cargoLock).length = 7 ∧ c!"thiserror" ∈ lockDeps c!"smd-core" cargoLock ∧
    tomlValue c!"[package]" c!"version" [] (releaseSh c!"v0.2.0" repository).smd = some c!"0.2.0" := by decide +kernel

end Smd.Props
