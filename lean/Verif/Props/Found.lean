import Verif.Props.Tokens
import Verif.Lemmas.Run

/-!
What can be found in no document: labels of headings (C57), images without an alternative text (C134).
-/

namespace Smd.Gfm
open Smd.Rs Smd.Spec

/-! ### C57 Labels -/

/-- **C57, negated** No heading of any document, at any depth, has a label. -/
theorem C57_refuted_never (ig : List Char) (d : Str) (ts : List Token) (h : lexWith self ig d = .ok ts) (l : Nat) (t : Str)
    (label : Option Str) (hf : Found ts (.header l t label)) : label = none := by
  obtain ⟨m, s', _, hsh⟩ := found_shape h hf
  cases hsh <;> rfl

/-! ### C134 Alternative texts -/

/-- **C134** Every image of every document has an alternative text, a part of the document, and it is put out, escaped. -/
theorem C134_alt (ig : List Char) (d : Str) (ts : List Token) (h : lexWith self ig d = .ok ts) (l : Str) (t : Option Str)
    (hf : Found ts (.image l t)) (st : PState) :
    ∃ text html, t = some text ∧ text <:+: d ∧ step2 self (.image l t) st = .ok { st with html := st.html ++ html } ∧
      c!" alt=\"" ++ escape text ++ c!"\"" <:+: html := by
  obtain ⟨m, s', hs', hsh⟩ := found_shape h hf
  cases hsh with
  | image a title u hv hl hc ht =>
    refine ⟨title, imageOut u.content (some title), rfl, ht.trans hs', rfl, ?_⟩
    unfold imageOut
    simp only [sanitize_eq_escape]
    split
    · exact ⟨c!"<p><img src=\"data:,\"", c!"></p>", by simp⟩
    · exact ⟨c!"<p><img src=\"" ++ u.content ++ c!"\"", c!" referrerpolicy=\"no-referrer\"></p>", by simp⟩

example : ∃ ts, lex c!"# a {#b}" = .ok ts ∧ Found ts (.header 1 c!"b" none) :=
  ⟨[.header 1 c!"b" none], by with_unfolding_all rfl, .here _ (by simp)⟩
example : ∃ ts, lex c!"![a \"b\"](http:x)" = .ok ts ∧ Found ts (.image c!"x" (some c!"a \"b\"")) :=
  ⟨[.image c!"x" (some c!"a \"b\"")], by with_unfolding_all rfl, .here _ (by simp)⟩
example : render c!"![a \"b\"](http:x)" = .ok c!"<p><img src=\"x\" alt=\"a &quot;b&quot;\" referrerpolicy=\"no-referrer\"></p>\n" := by decide +kernel

end Smd.Gfm
