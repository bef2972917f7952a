import Verif.Lemmas.Order
import Verif.Props.Safety

/-! # The order of the text -/

namespace Smd.Gfm
open Smd.Rs

/-! ## C178 — Text keeps its order and is shown once -/

/-- A table shows the whole of a cell once for each piece of code in it. -/
theorem C178_refuted : ∃ d html : Str, render d = .ok html ∧ d.count 'ä' = 1 ∧ html.count 'ä' = 2 ∧
    ¬ (html.filter (fun c => 128 ≤ c.toNat)).Sublist (d.filter (fun c => 128 ≤ c.toNat)) := by
  obtain ⟨html, h, h1, h2⟩ := render_check c!"|a|\n|-|\n|`ä``ö`|\n" (fun html => html.count 'ä' = 2 ∧
    html.filter (fun c => 128 ≤ c.toNat) = c!"äöäö") (by decide +kernel)
  exact ⟨_, html, h, by decide, h1, by rw [h2]; decide⟩

/-- Documents without footnotes, sections, tables and links with a title: the characters outside ASCII of the output are characters of the
document, in the same order, each at most as often. -/
theorem C178_partial (d html : Str) (hn : ¬ c!"[^" <:+: d) (hs : ¬ c!"<details>" <:+: d) (hp : '|' ∉ d)
    (ht : ∀ l, ')' ∉ l → ' ' ∉ l → ¬ c!"](" ++ l ++ c!" " <:+: d) (e : render d = .ok html) :
    (html.filter (fun c => 128 ≤ c.toNat)).Sublist (d.filter (fun c => 128 ≤ c.toNat)) :=
  render_ord (m := true) ⟨hn, hs, hp, fun _ => ht⟩ e

/-- With all kinds of links too, nothing is shown twice. -/
theorem C178_count_partial (d html : Str) (hn : ¬ c!"[^" <:+: d) (hs : ¬ c!"<details>" <:+: d) (hp : '|' ∉ d) (e : render d = .ok html)
    (c : Char) (hc : 128 ≤ c.toNat) : html.count c ≤ d.count c :=
  render_ord (m := false) ⟨hn, hs, hp, fun h => by cases h⟩ e c (by simpa [far] using hc)

/-- The title of a link comes before its text, and what follows the link in its line is not shown. -/
example : ∃ html, render c!"[ö](a \"ü\") é\n\nñ" = .ok html ∧ html.filter (fun c => 128 ≤ c.toNat) = c!"üöñ" ∧
    ¬ (html.filter (fun c => 128 ≤ c.toNat)).Sublist (c!"[ö](a \"ü\") é\n\nñ".filter (fun c => 128 ≤ c.toNat)) := by
  obtain ⟨html, h, h1⟩ := render_check c!"[ö](a \"ü\") é\n\nñ" (fun html => html.filter (fun c => 128 ≤ c.toNat) = c!"üöñ")
    (by decide +kernel)
  exact ⟨html, h, h1, by rw [h1]; decide⟩

/-- Task lists, brackets, links without title, images, autolinks and other tags. -/
example : ∃ html, render c!"- [ ] ä [ö]\n- [x] ü\n\n[é](a)![è](b) ñ <http:c> ø <å>" = .ok html ∧
    html.filter (fun c => 128 ≤ c.toNat) = c!"äöüéèñøå" :=
  render_check _ (fun html => html.filter (fun c => 128 ≤ c.toNat) = c!"äöüéèñøå") (by decide +kernel)

/-- Headings, lists with further lines, quotes, emphasis, code and escapes: everything comes in order, `ß` is in a fenced block and lost. -/
example : ∃ html, render c!"# ä **ö**\n\n- ü *é*\n  è\n\n> ñ `ø` \\å\n\n```\nß\n```\n\n1. ж~~я~~" = .ok html ∧
    html.filter (fun c => 128 ≤ c.toNat) = c!"äöüéèñøåжя" :=
  render_check _ (fun html => html.filter (fun c => 128 ≤ c.toNat) = c!"äöüéèñøåжя") (by decide +kernel)

/-- An endnote comes after text that follows it in the document; the theorems exclude footnotes. -/
example : ∃ html, render c!"[^1]: ä\n\nö" = .ok html ∧ html.filter (fun c => 128 ≤ c.toNat) = c!"öä↩" :=
  render_check _ (fun html => html.filter (fun c => 128 ≤ c.toNat) = c!"öä↩") (by decide +kernel)

end Smd.Gfm
