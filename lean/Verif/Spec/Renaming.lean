import Verif.Rust.Str

/-! What it is to rename the characters of a text that have no meaning in a document. -/

namespace Smd.Spec
open Smd.Rs

/-- The characters without a meaning of their own: those outside ASCII, but for white space and the arrow that ends a
note in the rendering, and the ASCII letters that occur in no word the program looks for or writes. -/
def Free (c : Char) : Prop :=
  (128 ≤ c.toNat ∧ isWs c = false ∧ c ≠ '↩') ∨ c ∈ c!"GHKLMQUWYZwz"

instance (c : Char) : Decidable (Free c) := inferInstanceAs (Decidable (_ ∨ _))

/-- `f` renames characters without a meaning, ASCII letters to ASCII letters and others to others, and leaves every other
character alone. Different characters may get the same name. -/
structure Renaming (f : Char → Char) : Prop where
  fixes : ∀ c, ¬ Free c → f c = c
  free : ∀ c, Free c → Free (f c)
  ascii : ∀ c, (f c).toNat < 128 ↔ c.toNat < 128

end Smd.Spec
