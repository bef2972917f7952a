import Verif.Spec.Html

/-! Properly nested HTML. Nothing here is taken from the code. -/

namespace Smd.Spec

/-- Properly nested HTML: text, rules, elements without closing tag, elements around properly nested HTML, and any
sequence of these. -/
inductive Nested : Str → Prop
  | text (s : Str) (h1 : '<' ∉ s) (h2 : '>' ∉ s) : Nested s
  | append (a b : Str) (ha : Nested a) (hb : Nested b) : Nested (a ++ b)
  | rule : Nested c!"<hr />"
  | void (n : Str) (attrs : List (Str × Str)) (hn : n ∈ voidNames)
      (ha : ∀ a ∈ attrs, a.1 ∈ attrNames ∧ '"' ∉ a.2 ∧ '<' ∉ a.2 ∧ '>' ∉ a.2) : Nested (openTag n attrs)
  | elem (n : Str) (attrs : List (Str × Str)) (x : Str) (hn : n ∈ elementNames) (hv : n ∉ voidNames)
      (ha : ∀ a ∈ attrs, a.1 ∈ attrNames ∧ '"' ∉ a.2 ∧ '<' ∉ a.2 ∧ '>' ∉ a.2) (hx : Nested x) :
      Nested (openTag n attrs ++ x ++ closeTag n)

example : Nested c!"a<p><em>b</em></p>" := by
  have h : Nested c!"<em>b</em>" := .elem c!"em" [] c!"b" (by decide) (by decide) (by simp) (.text _ (by decide) (by decide))
  have h : Nested c!"<p><em>b</em></p>" := .elem c!"p" [] _ (by decide) (by decide) (by simp) h
  exact .append c!"a" _ (.text _ (by decide) (by decide)) h

end Smd.Spec
