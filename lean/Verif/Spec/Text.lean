import Verif.Rust.Str

/-! Occurrences of a text in another, used to state properties of documents and of rendered output. -/

namespace Smd.Spec

/-- The number of positions of `s` at which the text `p` starts. -/
def occ (p : Str) : Str → Nat
  | [] => 0
  | c :: cs => (if p <+: c :: cs then 1 else 0) + occ p cs

example : occ c!"ab" c!"abcabab" = 3 := by decide

/-- The text from `<details>` to the end of the summary line. -/
def DetailsStart (p : Str) : Prop :=
  ∃ nl summary cr : Str, (nl = c!"\n" ∨ nl = c!"\r\n") ∧ (cr = [] ∨ cr = c!"\r") ∧ '\n' ∉ summary ∧ '\r' ∉ summary ∧
    p = c!"<details>" ++ nl ++ c!"<summary>" ++ summary ++ c!"</summary>" ++ cr

end Smd.Spec
