import Verif.Release.Packages

/-! Lemmas about what npm offers. -/

namespace Smd.Release
open Smd.Rs

/-- The last publication of a package under a tag is what npm offers. -/
theorem offered_other (p t : Str) : ∀ (xs : List Publication) (offers : Str → Str → Option Str), (∀ x ∈ xs, ¬ (p = x.package ∧ t = x.distTag)) →
    offered offers xs p t = offers p t
  | [], _, _ => rfl
  | x :: xs, offers, h => by
    rw [offered, offered_other p t xs _ fun y hy => h y (List.mem_cons_of_mem _ hy), if_neg (h x (by simp))]

theorem offered_some (p t v : Str) : ∀ (xs : List Publication) (offers : Str → Str → Option Str),
    (∃ x ∈ xs, p = x.package ∧ t = x.distTag) → (∀ x ∈ xs, p = x.package → t = x.distTag → x.version = v) → offered offers xs p t = some v
  | [], _, h, _ => by obtain ⟨x, hx, _⟩ := h; simp at hx
  | x :: xs, offers, h, hv => by
    rw [offered]
    by_cases h' : ∃ y ∈ xs, p = y.package ∧ t = y.distTag
    · exact offered_some p t v xs _ h' fun y hy => hv y (List.mem_cons_of_mem _ hy)
    · rw [offered_other p t xs _ fun y hy e => h' ⟨y, hy, e⟩]
      obtain ⟨y, hy, e1, e2⟩ := h
      rcases List.mem_cons.mp hy with rfl | hy
      · rw [if_pos ⟨e1, e2⟩, hv y (by simp) e1 e2]
      · exact absurd ⟨y, hy, e1, e2⟩ h'

/-- The packages with the executables. -/
def platformPackages : List Str := [c!"smd-linux-x64", c!"smd-linux-arm64", c!"smd-windows-x64", c!"smd-windows-arm64", c!"smd-darwin-x64", c!"smd-darwin-arm64"]

theorem publications_eq (tag version : Str) : npmPublications tag version =
    platformPackages.map (fun p => ⟨p, releaseVersion tag, c!"latest"⟩) ++ [⟨c!"smd", version, if preRelease tag then c!"rc" else c!"latest"⟩] := rfl

end Smd.Release
