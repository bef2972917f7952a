import Verif.Lemmas.Ci
import Verif.Gfm.Parser
import Verif.Lemmas.Infix
import Verif.Lemmas.Inline

/-!
The tests and the checks of pull requests (C187).
-/

namespace Smd.Release
open Smd Smd.Rs

/-- **C187 is false of the code**: the test `gfm_test_soft_line_breaks_673` expects `<p>foo⏎baz</p>` for `foo⏎baz` and does not get it, and the checks succeed whichever
tests fail. -/
theorem C187_refuted :
    c!"gfm::soft_line_breaks::gfm_test_soft_line_breaks_673" ∈ testNames ∧ Gfm.render c!"foo\nbaz" ≠ .ok c!"<p>foo\nbaz</p>\n" ∧
    ∀ pass, checks (fun _ => true) pass = true := by
  refine ⟨by decide +kernel, by decide +kernel, fun pass => ?_⟩
  simp [checks, mainJob, coverageJob, cargoTest, runTests_smd]

/-- **C187 is false of the code**: whatever the tests give, the checks come to the same result. No name of a test contains `smd`, so the job that counts runs none. -/
theorem C187_refuted_always (works pass pass' : Str → Bool) : checks works pass = checks works pass' := by
  simp [checks, mainJob, coverageJob, cargoTest, runTests_smd]

/-- **C187, the part that holds** A test fails the command if it is run, and it is run if the filter occurs in its name; without a filter that is every test. -/
theorem C187_partial (filter : Str) (pass : Str → Bool) :
    cargoTest filter pass = true ↔ ∀ n ∈ testNames, filter <:+: n → pass n = true := by
  have hc : ∀ n, contains n filter = true ↔ filter <:+: n := fun n =>
    ⟨fun h => if hf : filter = [] then hf ▸ List.nil_infix else Gfm.contains_infix hf h, Gfm.contains_of_infix⟩
  simp only [cargoTest, runTests, List.all_eq_true, List.mem_filter, and_imp, hc]

-- With the filter `gfm` the failing test would be noticed.
example (pass : Str → Bool) (h : pass c!"gfm::soft_line_breaks::gfm_test_soft_line_breaks_673" = false) : cargoTest c!"gfm" pass = false := by
  rw [← Bool.not_eq_true, C187_partial]
  exact fun hc => by simpa [h] using hc _ C187_refuted.1 ⟨[], _, rfl⟩

end Smd.Release
