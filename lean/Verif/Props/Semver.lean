import Verif.Lemmas.Semver

/-! A released commit can be built: C198. -/

namespace Smd.Props
open Smd.Rs Smd.Release Smd.Spec

private theorem parsed : semver c!"0.1.3-pre" = some ⟨c!"0", c!"1", c!"3", [c!"pre"]⟩ := by decide

private theorem fits_iff {v tag : Str} {name : Str} {dep : List Str}
    (hpath : tomlValue (c!"[dependencies." ++ name ++ c!"]") c!"path" [] (releaseSh tag repository).smd = some (c!"../" ++ name))
    (hname : tomlValue c!"[package]" c!"name" [] dep = some name)
    (hr : tomlValue (c!"[dependencies." ++ name ++ c!"]") c!"version" [] (releaseSh tag repository).smd = some v)
    (hd : tomlValue c!"[package]" c!"version" [] dep = some c!"0.1.3-pre") :
    DependencyFits (releaseSh tag repository).smd name dep ↔ ∃ r, semver v = some r ∧ requirementMet r ⟨c!"0", c!"1", c!"3", [c!"pre"]⟩ := by
  constructor
  · rintro ⟨-, -, req, ver, r, w, h1, h2, h3, h4, h5⟩
    rw [hr] at h1
    rw [hd] at h2
    obtain rfl := Option.some.inj h1
    obtain rfl := Option.some.inj h2
    rw [parsed] at h4
    obtain rfl := Option.some.inj h4
    exact ⟨r, h3, h5⟩
  · rintro ⟨r, h1, h2⟩
    exact ⟨hpath, hname, v, _, r, _, hr, hd, h1, parsed, h2⟩

set_option maxRecDepth 20000 in
private theorem released {v tag : Str} (hv : VersionText v) (ht : tag = 'v' :: v ∨ (tag = v ∧ v.head? ≠ some 'v')) :
    tomlValue (c!"[dependencies." ++ c!"gfm" ++ c!"]") c!"version" [] (releaseSh tag repository).smd = some v ∧
    tomlValue (c!"[dependencies." ++ c!"smd-core" ++ c!"]") c!"version" [] (releaseSh tag repository).smd = some v ∧
    tomlValue c!"[package]" c!"version" [] (releaseSh tag repository).gfm = some c!"0.1.3-pre" ∧
    tomlValue c!"[package]" c!"version" [] (releaseSh tag repository).core = some c!"0.1.3-pre" ∧
    tomlValue (c!"[dependencies." ++ c!"gfm" ++ c!"]") c!"path" [] (releaseSh tag repository).smd = some (c!"../" ++ c!"gfm") ∧
    tomlValue (c!"[dependencies." ++ c!"smd-core" ++ c!"]") c!"path" [] (releaseSh tag repository).smd = some (c!"../" ++ c!"smd-core") ∧
    tomlValue c!"[package]" c!"name" [] (releaseSh tag repository).gfm = some c!"gfm" ∧
    tomlValue c!"[package]" c!"name" [] (releaseSh tag repository).core = some c!"smd-core" := by
  have h1 : tomlValue c!"[package]" c!"version" [] gfmToml = some c!"0.1.3-pre" := by decide
  have h2 : tomlValue c!"[package]" c!"version" [] coreToml = some c!"0.1.3-pre" := by decide
  have h3 : tomlValue c!"[package]" c!"name" [] gfmToml = some c!"gfm" := by decide
  have h4 : tomlValue c!"[package]" c!"name" [] coreToml = some c!"smd-core" := by decide
  rw [release_eq hv ht]
  exact ⟨smdWith_gfm hv, smdWith_core hv, h1, h2, rfl, rfl, h3, h4⟩

/-! ### C198: a released commit can be built -/

/-- After a release of any version that does not begin with `0.1.3-`, Cargo finds neither the version of `gfm` nor that of `smd-core` that `smd` requires. -/
theorem C198_refuted_always (v tag : Str) (hv : VersionText v) (ht : tag = 'v' :: v ∨ (tag = v ∧ v.head? ≠ some 'v')) (hne : ¬ c!"0.1.3-" <+: v) :
    ¬ DependencyFits (releaseSh tag repository).smd c!"gfm" (releaseSh tag repository).gfm ∧
    ¬ DependencyFits (releaseSh tag repository).smd c!"smd-core" (releaseSh tag repository).core := by
  obtain ⟨h1, h2, h3, h4, p1, p2, n1, n2⟩ := released hv ht
  rw [fits_iff p1 n1 h1 h3, fits_iff p2 n2 h2 h4, and_self]
  rintro ⟨⟨a, b, c, pre⟩, hs, h5, -, h6⟩
  obtain ⟨h7, h8, h9⟩ := h6 (by simp)
  simp only at h5 h7 h8 h9
  subst h5 h8 h9
  exact hne (semver_text hs h7)

/-- The witness: the next release. -/
theorem C198_refuted : ¬ DependencyFits (releaseSh c!"v0.1.3" repository).smd c!"gfm" (releaseSh c!"v0.1.3" repository).gfm :=
  (C198_refuted_always c!"0.1.3" c!"v0.1.3" (by decide) (.inl rfl) (by decide)).1

/-- Of the versions `0.1.3-q`, where `q` are letters, it finds those whose `q` is not behind `pre`. -/
theorem C198_partial (q tag : Str) (h0 : q ≠ []) (hq : ∀ c ∈ q, c.isAlpha = true) (ht : tag = c!"v0.1.3-" ++ q ∨ tag = c!"0.1.3-" ++ q) :
    (DependencyFits (releaseSh tag repository).smd c!"gfm" (releaseSh tag repository).gfm ↔ q = c!"pre" ∨ q < c!"pre") ∧
    (DependencyFits (releaseSh tag repository).smd c!"smd-core" (releaseSh tag repository).core ↔ q = c!"pre" ∨ q < c!"pre") := by
  have hv : VersionText (c!"0.1.3-" ++ q) := by
    refine ⟨by simp, fun c hc => ?_⟩
    rcases List.mem_append.1 hc with hc | hc
    · exact (by decide : ∀ c ∈ c!"0.1.3-", c.isAlphanum = true ∨ c ∈ c!".-+_") c hc
    · exact .inl (by simp [Char.isAlphanum, hq c hc])
  have ht' : tag = 'v' :: (c!"0.1.3-" ++ q) ∨ (tag = c!"0.1.3-" ++ q ∧ (c!"0.1.3-" ++ q).head? ≠ some 'v') := by
    rcases ht with rfl | rfl
    · exact .inl rfl
    · exact .inr ⟨rfl, by simp⟩
  obtain ⟨h1, h2, h3, h4, p1, p2, n1, n2⟩ := released hv ht'
  rw [fits_iff p1 n1 h1 h3, fits_iff p2 n2 h2 h4, and_self]
  rw [semver_pre h0 hq]
  have hd : q.all (·.isDigit) = false := by
    obtain ⟨x, t, rfl⟩ := List.exists_cons_of_ne_nil h0
    rw [List.all_cons]
    have h := hq x List.mem_cons_self
    have : x.isDigit = false := by
      rw [← Bool.not_eq_true]
      intro hd
      simp only [Char.isAlpha, Char.isUpper, Char.isLower, Char.isDigit, Bool.or_eq_true, Bool.and_eq_true, decide_eq_true_eq, ge_iff_le,
        UInt32.le_iff_toNat_le] at h hd
      simp at h hd
      omega
    rw [this, Bool.false_and]
  have hp : preLe [q] [c!"pre"] = true ↔ q = c!"pre" ∨ q < c!"pre" := by
    unfold preLe
    by_cases e : q = c!"pre"
    · simp [e, preLe]
    · rw [if_neg e, partLt, hd]
      simp [e]
  constructor
  · rintro ⟨r, hr, h5⟩
    obtain rfl := Option.some.inj hr
    obtain ⟨-, h6, -⟩ := h5
    simp [numberLt] at h6
    exact hp.1 h6
  · intro h
    exact ⟨_, rfl, rfl, by simp [numberLt, hp.2 h], by simp⟩

example : VersionText c!"0.2.0-rc.1" ∧ ¬ c!"0.1.3-" <+: c!"0.2.0-rc.1" ∧ (∀ c ∈ c!"alpha", c.isAlpha = true) ∧ c!"alpha" < c!"pre" ∧ ¬ c!"rc" < c!"pre" := by
  decide

end Smd.Props
