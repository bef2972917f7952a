import Verif.Lemmas.Wellformed

/-! The manifests are well-formed after a release: C196. -/

namespace Smd.Props
open Smd.Rs Smd.Release Smd.Spec

/-! ### C196: the manifests are well-formed after a release -/

/-- After a release the manifests of the crates are TOML, and the manifest of the npm package and those of the packages with the executables are JSON. -/
theorem C196_wellformed (v tag : Str) (hv : VersionText v) (ht : tag = 'v' :: v ∨ (tag = v ∧ v.head? ≠ some 'v')) :
    WellToml (releaseSh tag repository).smd ∧ WellToml (releaseSh tag repository).core ∧ WellToml (releaseSh tag repository).gfm ∧
    WellJson (releaseSh tag repository).npm := by
  rw [release_eq hv ht]
  exact ⟨smdWith_toml hv, coreToml_toml, gfmToml_toml, pkgWith_json hv⟩

set_option maxRecDepth 50000 in
/-- The manifests of the packages with the executables are JSON, for every build. -/
theorem C196_published (v : Str) (hv : VersionText v) : ∀ p ∈ npmPublished ('v' :: v), WellJson p.1 := by
  intro p hp
  obtain ⟨b, hb, rfl⟩ := List.mem_map.mp hp
  have hb' : b ∈ matrix.filter (·.npm) := hb
  have e : nodeManifest b ('v' :: v) = (nodeManifest b c!"v1").take 2 ++ (c!"  \"version\": \"" ++ v ++ c!"\",") :: (nodeManifest b c!"v1").drop 3 := by
    simp only [matrix, List.filter, List.mem_cons, List.not_mem_nil, or_false] at hb'
    rcases hb' with rfl | rfl | rfl | rfl | rfl | rfl <;> rfl
  have h1 : ∀ b ∈ matrix.filter (·.npm), (fileText ((nodeManifest b c!"v1").take 2)).foldlM jsonStep (.value, []) = some (.key, [true]) ∧
      (fileText ((nodeManifest b c!"v1").drop 3)).foldlM jsonStep (.key, [true]) = some (.after, []) := by decide +kernel
  unfold WellJson
  rw [e, json_lines _ (h1 b hb').1, json_line hv c!"  \"version\": \"" c!"\"," false [true] (s' := (.key, [true])) _ (by decide +kernel) (by decide)]
  exact (h1 b hb').2

/-- A version with a quotation mark: its text is not a `VersionText`, and the manifest is not JSON any more. -/
example : VersionText c!"1.2.0-rc.1+build_7" ∧ ¬ WellJson (releaseSh c!"v1\"2" repository).npm ∧ ¬ WellToml (releaseSh c!"v1\"2" repository).smd := by
  decide +kernel

/-- The machines refuse a missing comma, a comma too many, a missing bracket and a missing quotation mark. -/
example : ¬ WellJson [c!"{\"a\": \"b\" \"c\": \"d\"}"] ∧ ¬ WellJson [c!"{\"a\": [\"b\",]}"] ∧ ¬ WellJson [c!"{\"a\": \"b\",}"] ∧ ¬ WellJson [c!"{\"a\": [\"b\"}"] ∧
    ¬ WellJson [c!"{\"a: \"b\"}"] ∧ WellJson [c!"{\"a\": [\"b\", {}, []]}"] ∧ ¬ WellToml [c!"[a"] ∧ ¬ WellToml [c!"[[a]"] ∧ ¬ WellToml [c!"a = b"] ∧
    ¬ WellToml [c!"a = \"b\"c"] ∧ ¬ WellToml [c!"a = { b = 1, }"] ∧ ¬ WellToml [c!"a = [", c!"1"] ∧
    WellToml [c!"[[a.\"*\".c]] # d", c!"a.b = [", c!"  { b = true, c = \"d\" }, 12,", c!"]"] := by decide +kernel

end Smd.Props
