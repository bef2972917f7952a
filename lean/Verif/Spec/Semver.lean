import Verif.Spec.Manifest

/-!
Versions and requirements as Cargo understands them (Semantic Versioning 2.0.0; The Cargo Book, "Specifying Dependencies"). Numbers are kept as their digits,
which have no leading zeros. What is behind `+` says nothing about the order and is not read.
-/

namespace Smd.Spec

/-- The parts of a text between the characters `c`. -/
def pieces (c : Char) : Str → List Str
  | [] => [[]]
  | x :: s =>
    if x = c then [] :: pieces c s
    else match pieces c s with
      | [] => [[x]]
      | p :: ps => (x :: p) :: ps

/-- A number without leading zeros. -/
def isNumber (s : Str) : Bool := !s.isEmpty && s.all (·.isDigit) && (s == c!"0" || s.head? != some '0')

/-- A part of what is behind the hyphen of a version: letters, digits and hyphens; numbers without leading zeros. -/
def isPrePart (s : Str) : Bool := !s.isEmpty && s.all (fun c => c.isAlphanum || c == '-') && (!s.all (·.isDigit) || isNumber s)

/-- A version: three numbers, and the parts behind the hyphen, if there is one. -/
structure Semver where
  major : Str
  minor : Str
  patch : Str
  pre : List Str
deriving DecidableEq

/-- The version that a text stands for. -/
def semver (s : Str) : Option Semver :=
  match pieces '.' ((s.takeWhile (· != '+')).takeWhile (· != '-')) with
  | [a, b, c] =>
    if isNumber a && isNumber b && isNumber c then
      match (s.takeWhile (· != '+')).dropWhile (· != '-') with
      | [] => some ⟨a, b, c, []⟩
      | _ :: p => if (pieces '.' p).all isPrePart then some ⟨a, b, c, pieces '.' p⟩ else none
    else none
  | _ => none

/-- The order of numbers. -/
def numberLt (a b : Str) : Bool := decide (a.length < b.length) || (decide (a.length = b.length) && decide (a < b))

/-- The order of the parts behind the hyphen: numbers first, others by their characters. -/
def partLt (a b : Str) : Bool :=
  if a.all (·.isDigit) then !b.all (·.isDigit) || numberLt a b else !b.all (·.isDigit) && decide (a < b)

/-- The order of what is behind the hyphen: the first part that differs, or fewer parts. -/
def preLe : List Str → List Str → Bool
  | [], _ => true
  | _ :: _, [] => false
  | a :: as, b :: bs => if a = b then preLe as bs else partLt a b

/-- The requirement `req`, which Cargo reads as `^req`: not lower, and equal up to the first number that is not zero. A version with a hyphen is only taken
if the requirement has the same three numbers and a hyphen too. -/
def requirementMet (req ver : Semver) : Prop :=
  req.major = ver.major ∧
  (if req.major ≠ c!"0" then
      numberLt req.minor ver.minor ∨ (req.minor = ver.minor ∧ (numberLt req.patch ver.patch ∨ (req.patch = ver.patch ∧ (ver.pre = [] ∨ preLe req.pre ver.pre))))
    else if req.minor ≠ c!"0" then
      req.minor = ver.minor ∧ (numberLt req.patch ver.patch ∨ (req.patch = ver.patch ∧ (ver.pre = [] ∨ preLe req.pre ver.pre)))
    else req.minor = ver.minor ∧ req.patch = ver.patch ∧ (ver.pre = [] ∨ preLe req.pre ver.pre)) ∧
  (ver.pre ≠ [] → req.pre ≠ [] ∧ req.minor = ver.minor ∧ req.patch = ver.patch)

instance (r v : Semver) : Decidable (requirementMet r v) := by
  unfold requirementMet
  infer_instance

/-- Cargo finds in the directory of a dependency, which is beside that of the manifest `m`, the crate and the version that `m` requires. -/
def DependencyFits (m : List Str) (name : Str) (dep : List Str) : Prop :=
  tomlValue (c!"[dependencies." ++ name ++ c!"]") c!"path" [] m = some (c!"../" ++ name) ∧ tomlValue c!"[package]" c!"name" [] dep = some name ∧
  ∃ req ver r v, tomlValue (c!"[dependencies." ++ name ++ c!"]") c!"version" [] m = some req ∧ tomlValue c!"[package]" c!"version" [] dep = some ver ∧
    semver req = some r ∧ semver ver = some v ∧ requirementMet r v

/-- Orders of versions from the specification, and requirements from The Cargo Book. -/
example : partLt c!"alpha" c!"beta" = true ∧ partLt c!"2" c!"11" = true ∧ partLt c!"11" c!"alpha" = true ∧ preLe [c!"alpha"] [c!"alpha", c!"1"] = true ∧
    preLe [c!"beta", c!"11"] [c!"beta", c!"2"] = false ∧ semver c!"1.0.0-alpha.1+x" = some ⟨c!"1", c!"0", c!"0", [c!"alpha", c!"1"]⟩ ∧ semver c!"01.0.0" = none ∧
    semver c!"1.0" = none := by decide

example : let met (a b : Str) : Bool := match semver a, semver b with | some r, some v => decide (requirementMet r v) | _, _ => false
    met c!"1.2.3" c!"1.9.0" ∧ ¬ met c!"1.2.3" c!"2.0.0" ∧ met c!"0.2.3" c!"0.2.4" ∧ ¬ met c!"0.2.3" c!"0.3.0" ∧ ¬ met c!"0.0.3" c!"0.0.4" ∧
    ¬ met c!"1.0.0" c!"1.1.0-rc.1" ∧ met c!"1.0.0-rc.1" c!"1.0.0-rc.2" ∧ met c!"1.0.0-rc.1" c!"1.0.0" ∧ ¬ met c!"1.0.0-rc.2" c!"1.0.0-rc.1" := by
  decide +kernel

end Smd.Spec
