import Verif.Release.Script
import Verif.Spec.Manifest

/-! What `release.sh` makes of the manifests. -/

namespace Smd.Release
open Smd.Rs Smd.Spec

theorem VersionText.plain {v : Str} (h : VersionText v) {c : Char} (hc : c ∈ v) : c ≠ '"' ∧ c ≠ ' ' ∧ c ≠ ':' := by
  rcases h.2 c hc with h | h
  · refine ⟨?_, ?_, ?_⟩ <;> rintro rfl <;> revert h <;> decide
  · exact (by decide : ∀ c ∈ c!".-+_", c ≠ '"' ∧ c ≠ ' ' ∧ c ≠ ':') c h

theorem takeWhile_quote {v : Str} (h : VersionText v) (r : Str) : (v ++ '"' :: r).takeWhile (· != '"') = v := by
  rw [List.takeWhile_append_of_pos (fun c hc => by simpa using (VersionText.plain h hc).1)]
  simp

/-! ### Cargo.toml -/

/-- A line with a version that the script manages. -/
def managedLine (v : Str) : Str := c!"version = \"" ++ v ++ c!"\" # managed by release.sh"

theorem managed_managedLine (v : Str) : managed (managedLine v) = true := by
  have h1 : (managedLine v).drop ((managedLine v).length - 24) = c!" # managed by release.sh" := by
    have e : managedLine v = (c!"version = \"" ++ v ++ c!"\"") ++ c!" # managed by release.sh" := by simp [managedLine]
    rw [e, List.drop_append_of_le_length (by simp), List.drop_eq_nil_of_le (by simp)]
    rfl
  have h2 : (managedLine v).drop ((managedLine v).length - 23) = c!"# managed by release.sh" := by
    have e : managedLine v = (c!"version = \"" ++ v ++ c!"\" ") ++ c!"# managed by release.sh" := by simp [managedLine]
    rw [e, List.drop_append_of_le_length (by simp), List.drop_eq_nil_of_le (by simp)]
    rfl
  unfold managed
  rw [h1, h2]
  have h3 : 34 ≤ (managedLine v).length := by simp [managedLine]
  simp [h3, isMark]
  exact ⟨rfl, by decide⟩

theorem sedToml_again (t u l : Str) : sedToml t (sedToml u l) = sedToml t l := by
  by_cases h : managed l = true
  · have e1 : sedToml u l = managedLine u := by simp [sedToml, h, managedLine]
    rw [e1]
    simp [sedToml, h, managed_managedLine]
  · have e1 : sedToml u l = l := by simp [sedToml, h]
    rw [e1]

/-- `smd/Cargo.toml` with another version. -/
def smdWith (v : Str) : List Str := smdToml.map (sedToml v)

theorem smdWith_package {v : Str} (h : VersionText v) : tomlValue c!"[package]" c!"version" [] (smdWith v) = some v := by
  have : tomlValue c!"[package]" c!"version" [] (smdWith v) = some ((v ++ '"' :: c!" # managed by release.sh").takeWhile (· != '"')) := rfl
  rw [this, takeWhile_quote h]

set_option maxRecDepth 20000 in
theorem smdWith_gfm {v : Str} (h : VersionText v) : tomlValue c!"[dependencies.gfm]" c!"version" [] (smdWith v) = some v := by
  have : tomlValue c!"[dependencies.gfm]" c!"version" [] (smdWith v) = some ((v ++ '"' :: c!" # managed by release.sh").takeWhile (· != '"')) := rfl
  rw [this, takeWhile_quote h]

set_option maxRecDepth 20000 in
theorem smdWith_core {v : Str} (h : VersionText v) : tomlValue c!"[dependencies.smd-core]" c!"version" [] (smdWith v) = some v := by
  have : tomlValue c!"[dependencies.smd-core]" c!"version" [] (smdWith v) = some ((v ++ '"' :: c!" # managed by release.sh").takeWhile (· != '"')) := rfl
  rw [this, takeWhile_quote h]

set_option maxRecDepth 20000 in
theorem core_same (v : Str) : coreToml.map (sedToml v) = coreToml := rfl

set_option maxRecDepth 20000 in
theorem gfm_same (v : Str) : gfmToml.map (sedToml v) = gfmToml := rfl

/-! ### package.json -/

theorem behindLastQuote_end {v : Str} (x : Str) (hx : '"' ∉ x) : behindLastQuote (v ++ '"' :: x) = x := by
  unfold behindLastQuote
  rw [List.reverse_append, List.reverse_cons, List.append_assoc,
    List.takeWhile_append_of_pos (fun c hc => by simp at hc; simp; rintro rfl; exact hx hc)]
  simp

theorem beforeValue_none : ∀ (s : Str), ':' ∉ s.drop 1 → beforeValue s = none
  | [], _ => rfl
  | c :: cs, h => by
    simp at h
    rw [beforeValue, beforeValue_none cs (fun hm => h (List.mem_of_mem_drop hm))]
    have : startsWith (c :: cs) c!"\": \"" = false := by
      cases cs with
      | nil => simp [startsWith, List.isPrefixOf]
      | cons d cs =>
        simp at h
        have : (':' == d) = false := by simpa using h.1
        simp [startsWith, List.isPrefixOf, this]
    simp [this]

theorem beforeValue_append {x a : Str} (h : beforeValue x = some a) : ∀ n : Str, beforeValue (n ++ x) = some (n ++ a)
  | [] => h
  | c :: n => by rw [List.cons_append, beforeValue, beforeValue_append h n]; rfl

theorem beforeValue_value {v : Str} (h : VersionText v) (x : Str) (hx : ':' ∉ x) : beforeValue (c!"\": \"" ++ v ++ '"' :: x) = some [] := by
  have h1 : ':' ∉ v := fun hm => (VersionText.plain h hm).2.2 rfl
  have e : c!"\": \"" ++ v ++ '"' :: x = '"' :: (c!": \"" ++ v ++ '"' :: x) := rfl
  rw [e, beforeValue, beforeValue_none _ (by simp [h1, hx])]
  obtain ⟨c, w, rfl⟩ : ∃ c w, v = c :: w := List.exists_cons_of_ne_nil h.1
  simp [startsWith, List.isPrefixOf]

/-- The line of a dependency. -/
def depLine (n v x : Str) : Str := c!"        \"smd-" ++ n ++ c!"\": \"" ++ v ++ '"' :: x

theorem sedDep_depLine (n u v x : Str) (hn : n ≠ []) (hu : VersionText u) (hx : ':' ∉ x) (hq : '"' ∉ x) :
    sedDep v (depLine n u x) = depLine n v x := by
  obtain ⟨c, n, rfl⟩ := List.exists_cons_of_ne_nil hn
  have e : depLine (c :: n) u x = c!"        " ++ '"' :: (c!"smd-" ++ (c :: n) ++ c!"\": \"" ++ u ++ '"' :: x) := by simp [depLine]
  have step : ∀ (k : Nat) (s : Str), sedDep v (List.replicate k ' ' ++ s) = List.replicate k ' ' ++ sedDep v s := by
    intro k s
    induction k with
    | zero => rfl
    | succ k ih =>
      rw [List.replicate_succ, List.cons_append, sedDep]
      have : stripPrefix c!"\"smd-" (' ' :: (List.replicate k ' ' ++ s)) = none := by simp [stripPrefix, List.isPrefixOf]
      rw [this]
      simp [ih]
  have hd : depName (c :: (n ++ (c!"\": \"" ++ u ++ '"' :: x))) = some (c :: n) := by
    rw [depName, beforeValue_append (beforeValue_value hu x hx)]
    simp
  have hs : stripPrefix c!"\"smd-" ('"' :: (c!"smd-" ++ (c :: n) ++ c!"\": \"" ++ u ++ '"' :: x)) =
      some (c :: (n ++ (c!"\": \"" ++ u ++ '"' :: x))) := by
    simp [stripPrefix, List.isPrefixOf]
  have hb : behindLastQuote (c :: (n ++ (c!"\": \"" ++ u ++ '"' :: x))) = x := by
    rw [show c :: (n ++ (c!"\": \"" ++ u ++ '"' :: x)) = (c :: n ++ c!"\": \"" ++ u) ++ '"' :: x by simp, behindLastQuote_end x hq]
  rw [e, show c!"        " = List.replicate 8 ' ' from rfl, step, sedDep, hs]
  simp only [hd, hb]
  simp [depLine]

/-- Texts in which `sed` finds nothing are left as they are. -/
theorem sedVersion_same (v : Str) : ∀ s : Str, ¬ c!"\"version\": \"" <:+: s → sedVersion v s = s
  | [], _ => rfl
  | c :: s, h => by
    have h1 : stripPrefix c!"\"version\": \"" (c :: s) = none := by
      unfold stripPrefix
      rw [if_neg]
      intro hp
      exact h (List.isPrefixOf_iff_prefix.mp hp).isInfix
    rw [sedVersion, h1]
    simp only
    rw [sedVersion_same v s fun hs => h (hs.trans (List.suffix_cons c s).isInfix)]

theorem sedDep_same (v : Str) : ∀ s : Str, (∀ r, c!"\"smd-" ++ r <:+ s → depName r = none) → sedDep v s = s
  | [], _ => rfl
  | c :: s, h => by
    have ih := sedDep_same v s fun r hr => h r (hr.trans (List.suffix_cons c s))
    rw [sedDep]
    unfold stripPrefix
    split
    · next r hr =>
      split at hr
      · next hp =>
        injection hr with hr
        obtain ⟨w, hw⟩ := List.isPrefixOf_iff_prefix.mp hp
        have : w = r := by rw [← hr, ← hw]; simp
        subst this
        have hn : depName w = none := h w (hw ▸ List.suffix_refl _)
        simp only [hn, ih]
      · cases hr
    · simp [ih]

/-- The line of the version. -/
def versionLine (v : Str) : Str := c!"    \"version\": \"" ++ v ++ c!"\","

theorem sedVersion_versionLine (u v : Str) (hu : VersionText u) : sedVersion v (versionLine u) = versionLine v := by
  obtain ⟨c, w, rfl⟩ := List.exists_cons_of_ne_nil hu.1
  have e : versionLine (c :: w) = ' ' :: ' ' :: ' ' :: ' ' :: '"' :: (c!"version\": \"" ++ (c :: w ++ '"' :: c!",")) := by simp [versionLine]
  have hs : stripPrefix c!"\"version\": \"" ('"' :: (c!"version\": \"" ++ (c :: w ++ '"' :: c!","))) = some (c :: w ++ '"' :: c!",") := by
    simp [stripPrefix, List.isPrefixOf]
  have hsp : ∀ s : Str, sedVersion v (' ' :: s) = ' ' :: sedVersion v s := by
    intro s
    rw [sedVersion]
    simp [stripPrefix, List.isPrefixOf]
  rw [e, hsp, hsp, hsp, hsp, sedVersion, hs]
  simp only
  rw [if_pos (by simp), behindLastQuote_end c!"," (by simp)]
  simp [versionLine]

theorem sedDep_versionLine (u v : Str) (hu : VersionText u) : sedDep v (versionLine u) = versionLine u := by
  have hc : ':' ∉ u := fun hm => (VersionText.plain hu hm).2.2 rfl
  have hq : '"' ∉ u := fun hm => (VersionText.plain hu hm).1 rfl
  refine sedDep_same v _ ?_
  intro r ⟨p, hp⟩
  -- the only place for `"smd-` is the version itself, and no colon follows
  have hcr : ':' ∉ r := by
    intro hm
    have h1 : (versionLine u).count ':' = 1 := by simp [versionLine, List.count_append, List.count_eq_zero_of_not_mem hc]
    have h2 : c!"    \"version\"" ++ ':' :: (c!" \"" ++ u ++ c!"\",") = p ++ (c!"\"smd-" ++ r) := by rw [hp]; simp [versionLine]
    have h3 : p.count ':' = 0 := by
      rw [← hp, List.count_append, List.count_append] at h1
      have := List.count_pos_iff.mpr hm
      omega
    have h4 : ':' ∉ p := List.count_eq_zero.mp h3
    rcases List.append_eq_append_iff.mp h2 with ⟨a, e1, e2⟩ | ⟨a, e1, e2⟩
    · cases a with
      | nil => simp at e2
      | cons d a =>
        injection e2 with e2 _
        subst e2
        exact h4 (by rw [e1]; simp)
    · -- `"smd-` would begin within `"version"`
      have h5 : p <+: c!"    \"version\"" := ⟨a, e1.symm⟩
      have hl : p.length < 14 := by have := h5.length_le; simp at this; omega
      have h7 : ∀ k < 14, ((c!"    \"version\": \"").drop k).take 2 ≠ c!"\"s" := by decide
      refine h7 p.length hl ?_
      have h8 : (versionLine u).drop p.length = c!"\"smd-" ++ r := by rw [← hp]; simp
      rw [versionLine, List.append_assoc, List.drop_append_of_le_length (by simp; omega)] at h8
      have h9 := congrArg (List.take 2) h8
      rw [List.take_append_of_le_length (by simp; omega)] at h9
      rw [h9]
      rfl
  cases r with
  | nil => rfl
  | cons d r =>
    simp at hcr
    rw [depName, beforeValue_none r fun hm => hcr.2 (List.mem_of_mem_drop hm)]
    rfl

theorem sedVersion_noColon (v : Str) (s : Str) (h : ':' ∉ s) : sedVersion v s = s :=
  sedVersion_same v s fun hi => h (hi.subset (by decide))

/-- What is before the version in `package.json`. -/
def pkgHead : List Str := packageJson.take 2

/-- What is between the version and the dependencies that the script changes. -/
def pkgMid : List Str := (packageJson.drop 3).take 63

/-- What is behind these dependencies. -/
def pkgTail : List Str := packageJson.drop 72

/-- `npm/smd/package.json` with another version. -/
def pkgWith (v : Str) : List Str :=
  pkgHead ++ versionLine v :: (pkgMid ++ depLine c!"darwin-arm64" v c!"," :: depLine c!"darwin-x64" v c!"," :: depLine c!"linux-arm64" v c!"," ::
    depLine c!"linux-x64" v c!"," :: depLine c!"windows-arm64" v c!"," :: depLine c!"windows-x64" v [] :: pkgTail)

set_option maxRecDepth 50000 in
theorem packageJson_eq : packageJson = pkgWith c!"0.1.3-pre" := by decide +kernel

set_option maxRecDepth 50000 in
theorem pkg_fixed (v : Str) : (pkgHead.map (sedVersion v)).map (sedDep v) = pkgHead ∧ (pkgMid.map (sedVersion v)).map (sedDep v) = pkgMid ∧
    (pkgTail.map (sedVersion v)).map (sedDep v) = pkgTail := ⟨rfl, rfl, rfl⟩

theorem sedVersion_depLine (n u v x : Str) (hn : ∀ c ∈ n, c ≠ '"' ∧ c ≠ ':') (hu : VersionText u) (hx : ':' ∉ x) : sedVersion v (depLine n u x) = depLine n u x := by
  refine sedVersion_same v _ fun ⟨p, q, hpq⟩ => ?_
  have hc : ':' ∉ u := fun hm => (VersionText.plain hu hm).2.2 rfl
  have hcn : ':' ∉ n := fun hm => (hn _ hm).2 rfl
  -- one colon only, and `"smd-…"` is in front of it
  have h2 : (p ++ c!"\"version\"") ++ ':' :: (c!" \"" ++ q) = (c!"        \"smd-" ++ n ++ c!"\"") ++ ':' :: (c!" \"" ++ u ++ '"' :: x) := by
    rw [show (p ++ c!"\"version\"") ++ ':' :: (c!" \"" ++ q) = p ++ c!"\"version\": \"" ++ q by simp, hpq]
    simp [depLine]
  have h3 : ':' ∉ p := by
    intro hm
    have h4 := congrArg (List.count ':') h2
    have h5 := List.count_pos_iff.mpr hm
    simp [List.count_append, List.count_eq_zero_of_not_mem hc, List.count_eq_zero_of_not_mem hcn, List.count_eq_zero_of_not_mem hx] at h4
    omega
  have h6 : p ++ c!"\"version\"" = c!"        \"smd-" ++ n ++ c!"\"" := by
    have h7 := congrArg (List.takeWhile (· != ':')) h2
    rw [List.takeWhile_append_of_pos (by simp [or_imp, forall_and]; exact fun c hc e => h3 (e ▸ hc)),
      List.takeWhile_append_of_pos (by simp [or_imp, forall_and]; exact fun c hc => (hn c hc).2)] at h7
    simpa using h7
  -- the part of the quoted name behind the mark
  have h8 : p ++ c!"\"version" = c!"        \"smd-" ++ n := by
    refine List.append_cancel_right (bs := c!"\"") ?_
    rw [← h6]
    simp
  have h9 := congrArg (fun l : Str => (l.reverse.takeWhile (· != '"')).reverse) h8
  have hl : ((p ++ c!"\"version").reverse.takeWhile (· != '"')).reverse = c!"version" := by simp
  have hr : ((c!"        \"smd-" ++ n).reverse.takeWhile (· != '"')).reverse = c!"smd-" ++ n := by
    rw [List.reverse_append, List.takeWhile_append_of_pos (fun c hc => by simp at hc; simpa using (hn c hc).1)]
    simp
  simp only [hl, hr] at h9
  simp at h9

theorem pkgWith_sed {u v : Str} (hu : VersionText u) (hv : VersionText v) : ((pkgWith u).map (sedVersion v)).map (sedDep v) = pkgWith v := by
  obtain ⟨h1, h2, h3⟩ := pkg_fixed v
  have hd : ∀ n x : Str, n ≠ [] → (∀ c ∈ n, c ≠ '"' ∧ c ≠ ':') → ':' ∉ x → '"' ∉ x → sedDep v (sedVersion v (depLine n u x)) = depLine n v x := by
    intro n x hn hp hx hq
    rw [sedVersion_depLine n u v x hp hu hx, sedDep_depLine n u v x hn hu hx hq]
  unfold pkgWith
  simp only [List.map_append, List.map_cons, h1, h2, h3, sedVersion_versionLine u v hu, sedDep_versionLine v v hv]
  rw [hd _ _ (by decide) (by decide) (by decide) (by decide), hd _ _ (by decide) (by decide) (by decide) (by decide),
    hd _ _ (by decide) (by decide) (by decide) (by decide), hd _ _ (by decide) (by decide) (by decide) (by decide),
    hd _ _ (by decide) (by decide) (by decide) (by decide), hd _ _ (by decide) (by decide) (by decide) (by decide)]

set_option maxRecDepth 50000 in
theorem pkgWith_version {v : Str} (h : VersionText v) : jsonValue c!"version" (pkgWith v) = some v := by
  have : jsonValue c!"version" (pkgWith v) = some ((v ++ '"' :: c!",").takeWhile (· != '"')) := rfl
  rw [this, takeWhile_quote h]

set_option maxRecDepth 50000 in
theorem pkgWith_dep {v : Str} (h : VersionText v) {n : Str}
    (hn : n ∈ [c!"darwin-arm64", c!"darwin-x64", c!"linux-arm64", c!"linux-x64", c!"windows-arm64", c!"windows-x64"]) :
    jsonValue (c!"smd-" ++ n) (pkgWith v) = some v := by
  simp only [List.mem_cons, List.not_mem_nil, or_false] at hn
  rcases hn with rfl | rfl | rfl | rfl | rfl | rfl
  · exact (show _ = some ((v ++ '"' :: c!",").takeWhile (· != '"')) from rfl).trans (by rw [takeWhile_quote h])
  · exact (show _ = some ((v ++ '"' :: c!",").takeWhile (· != '"')) from rfl).trans (by rw [takeWhile_quote h])
  · exact (show _ = some ((v ++ '"' :: c!",").takeWhile (· != '"')) from rfl).trans (by rw [takeWhile_quote h])
  · exact (show _ = some ((v ++ '"' :: c!",").takeWhile (· != '"')) from rfl).trans (by rw [takeWhile_quote h])
  · exact (show _ = some ((v ++ '"' :: c!",").takeWhile (· != '"')) from rfl).trans (by rw [takeWhile_quote h])
  · exact (show _ = some ((v ++ '"' :: []).takeWhile (· != '"')) from rfl).trans (by rw [takeWhile_quote h])

/-- The tags of a version: with `v` or without. -/
theorem release_eq {v tag : Str} (hv : VersionText v) (ht : tag = 'v' :: v ∨ (tag = v ∧ v.head? ≠ some 'v')) :
    releaseSh tag repository = { smd := smdWith v, core := coreToml, gfm := gfmToml, npm := pkgWith v } := by
  have hne : tag ≠ [] := by
    rcases ht with rfl | ⟨rfl, _⟩
    · simp
    · exact hv.1
  have hs : stripV tag = v := by
    rcases ht with rfl | ⟨rfl, h⟩
    · rfl
    · unfold stripV
      split
      · next t => exact absurd rfl h
      · rfl
  unfold releaseSh
  rw [if_neg hne, hs]
  have h1 : repository.npm = pkgWith c!"0.1.3-pre" := packageJson_eq
  rw [h1, pkgWith_sed (by decide) hv]
  congr 1

end Smd.Release
