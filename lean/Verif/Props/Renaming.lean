import Verif.Lemmas.RenameParse

/-! C111: characters without a meaning are not interpreted. -/

namespace Smd.Gfm
open Smd.Rs Smd.Spec

/-- Renaming the characters of a document that have no meaning renames them in the rendering and changes nothing else; nor
does it change whether there is a rendering. -/
theorem C111_renaming {f : Char → Char} (hf : Renaming f) (d : Str) :
    (∀ html, render d = .ok html → render (d.map f) = .ok (html.map f)) ∧
    (render d = .panic → render (d.map f) = .panic) ∧ (render d = .hang → render (d.map f) = .hang) := by
  have h := ren_render hf d
  refine ⟨fun html he => ?_, fun he => ?_, fun he => ?_⟩ <;> rw [h, he] <;> rfl

/-- Every character outside ASCII that has no meaning becomes the Cyrillic `ж`, every such ASCII letter becomes `w`. -/
def blur (c : Char) : Char := if Free c then (if c.toNat < 128 then 'w' else 'ж') else c

theorem blur_renaming : Renaming blur := by
  refine ⟨fun c h => by simp [blur, h], fun c h => ?_, fun c => ?_⟩
  · simp only [blur, h, if_true]
    split <;> decide
  · unfold blur
    split
    · split
      · exact ⟨fun _ => by assumption, fun _ => by decide⟩
      · exact ⟨fun h => absurd h (by decide), fun h => by omega⟩
    · exact Iff.rfl

example : c!"Größe ЖУК 中文".map blur = c!"wrжжe жжж жж" := by decide +kernel

example : render c!"# Größe\n\nЖУК **中文** [Öl](http://zw.de)\n" =
    .ok c!"<h1>Größe</h1>\n<p>ЖУК<strong>中文</strong><a href=\"http://zw.de\">Öl</a></p>\n" := by decide +kernel

example : render c!"# wrжжe\n\nжжж **жж** [жl](http://ww.de)\n" =
    .ok c!"<h1>wrжжe</h1>\n<p>жжж<strong>жж</strong><a href=\"http://ww.de\">жl</a></p>\n" := by decide +kernel

end Smd.Gfm
