import Verif.Rust.Str

/-!
What may stand between angle brackets: mail addresses and absolute addresses (CommonMark 0.31, section 6.5).
-/

namespace Smd.Spec
open Smd.Rs

/-- The characters of a mail address beside the `@`. -/
def mailChar (c : Char) : Bool :=
  c.isAlphanum || (c!".!#$%&'*+/=?^_`{|}~-").contains c

/-- A mail address: a name, an `@` and a host. -/
def MailAddress (t : Str) : Prop :=
  ∃ name host, t = name ++ '@' :: host ∧ (∀ c ∈ name, mailChar c = true) ∧ ∀ c ∈ host, mailChar c = true

/-- An address that begins with a scheme of 2 to 32 characters and a colon. -/
def HasScheme (t : Str) : Prop :=
  ∃ s r, t = s ++ ':' :: r ∧ (∀ c ∈ s, c.isAlphanum = true ∨ c ∈ c!"+.-") ∧ 2 ≤ s.length ∧ s.length ≤ 32

end Smd.Spec
