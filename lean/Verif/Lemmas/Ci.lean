import Verif.Release.Ci

/-! The tests that the checks run. -/

namespace Smd.Release
open Smd Smd.Rs

theorem runTests_smd : runTests c!"smd" = [] := by
  decide +kernel

end Smd.Release
