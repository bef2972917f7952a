import Verif.Lemmas.Release
import Verif.Release.Workflow
import Verif.Spec.Wellformed

/-! The machines of `Spec.Wellformed` on the manifests with any version. -/

namespace Smd.Release
open Smd.Rs Smd.Spec

/-! ### The text of a version inside a string -/

theorem versionText_char {v : Str} (h : VersionText v) : ∀ c ∈ v, c ≠ '"' ∧ ¬ (c = '\\' ∨ c.toNat < 32) := by
  intro c hc
  rcases h.2 c hc with h1 | h1
  · have h2 : 48 ≤ c.toNat ∧ c.toNat ≠ 92 := by
      simp only [Char.isAlphanum, Char.isAlpha, Char.isUpper, Char.isLower, Char.isDigit, Bool.or_eq_true, Bool.and_eq_true, decide_eq_true_eq,
        ge_iff_le, UInt32.le_iff_toNat_le] at h1
      have e : c.toNat = c.val.toNat := rfl
      simp at h1
      omega
    refine ⟨?_, ?_⟩
    · rintro rfl
      simp at h2
    · rintro (rfl | h3)
      · simp at h2
      · omega
  · simp only [List.mem_cons, List.not_mem_nil, or_false] at h1
    rcases h1 with rfl | rfl | rfl | rfl <;> decide

theorem json_version {v : Str} (k : Bool) (st : List Bool) (h : ∀ c ∈ v, c ≠ '"' ∧ ¬ (c = '\\' ∨ c.toNat < 32)) :
    v.foldlM jsonStep (.str k, st) = some (.str k, st) := by
  induction v with
  | nil => rfl
  | cons c v ih =>
    have hc := h c (by simp)
    rw [List.foldlM_cons, jsonStep, if_neg hc.1, if_neg hc.2]
    exact ih fun d hd => h d (by simp [hd])

theorem toml_version {v : Str} (st : List Bool) (h : ∀ c ∈ v, c ≠ '"' ∧ ¬ (c = '\\' ∨ c.toNat < 32)) :
    v.foldlM tomlStep (.str, st) = some (.str, st) := by
  induction v with
  | nil => rfl
  | cons c v ih =>
    have hc := h c (by simp)
    rw [List.foldlM_cons, tomlStep, if_neg hc.1, if_neg hc.2]
    exact ih fun d hd => h d (by simp [hd])

theorem fileText_append (a b : List Str) : fileText (a ++ b) = fileText a ++ fileText b := by simp [fileText]

theorem fileText_cons (l : Str) (b : List Str) : fileText (l :: b) = l ++ '\n' :: fileText b := by simp [fileText]

/-- A line with a version in a string. -/
theorem json_line {v : Str} (h : VersionText v) {s s' : JMode × List Bool} (a b : Str) (k : Bool) (st : List Bool) (ls : List Str)
    (ha : a.foldlM jsonStep s = some (.str k, st)) (hb : (b ++ ['\n']).foldlM jsonStep (.str k, st) = some s') :
    (fileText ((a ++ v ++ b) :: ls)).foldlM jsonStep s = (fileText ls).foldlM jsonStep s' := by
  rw [fileText_cons, show a ++ v ++ b ++ '\n' :: fileText ls = a ++ (v ++ ((b ++ ['\n']) ++ fileText ls)) by simp,
    List.foldlM_append, ha]
  show List.foldlM jsonStep (.str k, st) (v ++ ((b ++ ['\n']) ++ fileText ls)) = _
  rw [List.foldlM_append, json_version k st (versionText_char h)]
  show List.foldlM jsonStep (.str k, st) ((b ++ ['\n']) ++ fileText ls) = _
  rw [List.foldlM_append, hb]
  rfl

theorem toml_line {v : Str} (h : VersionText v) {s s' : TMode × List Bool} (a b : Str) (st : List Bool) (ls : List Str)
    (ha : a.foldlM tomlStep s = some (.str, st)) (hb : (b ++ ['\n']).foldlM tomlStep (.str, st) = some s') :
    (fileText ((a ++ v ++ b) :: ls)).foldlM tomlStep s = (fileText ls).foldlM tomlStep s' := by
  rw [fileText_cons, show a ++ v ++ b ++ '\n' :: fileText ls = a ++ (v ++ ((b ++ ['\n']) ++ fileText ls)) by simp,
    List.foldlM_append, ha]
  show List.foldlM tomlStep (.str, st) (v ++ ((b ++ ['\n']) ++ fileText ls)) = _
  rw [List.foldlM_append, toml_version st (versionText_char h)]
  show List.foldlM tomlStep (.str, st) ((b ++ ['\n']) ++ fileText ls) = _
  rw [List.foldlM_append, hb]
  rfl

theorem json_lines {s s' : JMode × List Bool} {a : List Str} (ls : List Str) (ha : (fileText a).foldlM jsonStep s = some s') :
    (fileText (a ++ ls)).foldlM jsonStep s = (fileText ls).foldlM jsonStep s' := by
  rw [fileText_append, List.foldlM_append, ha]
  rfl

theorem toml_lines {s s' : TMode × List Bool} {a : List Str} (ls : List Str) (ha : (fileText a).foldlM tomlStep s = some s') :
    (fileText (a ++ ls)).foldlM tomlStep s = (fileText ls).foldlM tomlStep s' := by
  rw [fileText_append, List.foldlM_append, ha]
  rfl

set_option maxRecDepth 50000 in
theorem pkgWith_json {v : Str} (h : VersionText v) : WellJson (pkgWith v) := by
  have hd : ∀ n ∈ [c!"darwin-arm64", c!"darwin-x64", c!"linux-arm64", c!"linux-x64", c!"windows-arm64"], ∀ s ∈ [JMode.key, JMode.firstKey], ∀ ls : List Str,
      (fileText (depLine n v c!"," :: ls)).foldlM jsonStep (s, [true, true]) = (fileText ls).foldlM jsonStep (.key, [true, true]) := by
    intro n hn s hs ls
    refine json_line h (c!"        \"smd-" ++ n ++ c!"\": \"") c!"\"," false [true, true] ls ?_ (by decide)
    revert s n
    decide +kernel
  have hl : ∀ ls : List Str,
      (fileText (depLine c!"windows-x64" v [] :: ls)).foldlM jsonStep (.key, [true, true]) = (fileText ls).foldlM jsonStep (.after, [true, true]) :=
    fun ls => json_line h c!"        \"smd-windows-x64\": \"" c!"\"" false [true, true] ls (by decide +kernel) (by decide)
  unfold WellJson pkgWith
  rw [json_lines (s' := (.key, [true])) _ (by decide +kernel),
    show versionLine v = c!"    \"version\": \"" ++ v ++ c!"\"," from rfl,
    json_line h c!"    \"version\": \"" c!"\"," false [true] (s' := (.key, [true])) _ (by decide +kernel) (by decide),
    json_lines (s' := (.firstKey, [true, true])) _ (by decide +kernel),
    hd _ (by decide) _ (by decide), hd _ (by decide) _ (by decide), hd _ (by decide) _ (by decide), hd _ (by decide) _ (by decide),
    hd _ (by decide) _ (by decide), hl]
  decide +kernel

set_option maxRecDepth 50000 in
theorem smdWith_toml {v : Str} (h : VersionText v) : WellToml (smdWith v) := by
  have e : smdWith v = smdToml.take 2 ++ (c!"version = \"" ++ v ++ c!"\" # managed by release.sh") :: ((smdToml.drop 3).take 43 ++
      (c!"version = \"" ++ v ++ c!"\" # managed by release.sh") :: ((smdToml.drop 47).take 3 ++
        (c!"version = \"" ++ v ++ c!"\" # managed by release.sh") :: smdToml.drop 51)) := rfl
  have hl : ∀ ls : List Str, (fileText ((c!"version = \"" ++ v ++ c!"\" # managed by release.sh") :: ls)).foldlM tomlStep (.line, []) =
      (fileText ls).foldlM tomlStep (.line, []) :=
    fun ls => toml_line h c!"version = \"" c!"\" # managed by release.sh" [] ls (by decide +kernel) (by decide +kernel)
  unfold WellToml
  rw [e, toml_lines (s' := (.line, [])) _ (by decide +kernel), hl, toml_lines (s' := (.line, [])) _ (by decide +kernel), hl,
    toml_lines (s' := (.line, [])) _ (by decide +kernel), hl]
  decide +kernel

theorem coreToml_toml : WellToml coreToml := by decide +kernel

theorem gfmToml_toml : WellToml gfmToml := by decide +kernel

end Smd.Release
