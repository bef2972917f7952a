import Verif.Lemmas.Release
import Verif.Spec.Node

/-! The texts of `npm/smd/package.json` after a release. -/

namespace Smd.Release
open Smd.Rs Smd.Spec

/-- They are those of the repository, but for the versions, of which the last is named apart. -/
def pkgLeaves (v w : Str) : List (List Str × Str) :=
  [([c!"name"], c!"smd"),
    ([c!"version"], v),
    ([c!"description"], c!"Want github-flavoured markdown as a pdf or html for your blog? smd is exactly what you need."),
    ([c!"type"], c!"module"),
    ([c!"main"], c!"lib/cjs/index.d.cts"),
    ([c!"module"], c!"lib/esm/index.d.ts"),
    ([c!"types"], c!"lib/cjs/index.d.cts"),
    ([c!"bin"], c!"lib/cli/cli.js"),
    ([c!"exports", c!"./cli", c!"import"], c!"./lib/cli/cli.js"),
    ([c!"exports", c!".", c!"import", c!"types"], c!"./lib/esm/index.d.ts"),
    ([c!"exports", c!".", c!"import", c!"default"], c!"./lib/esm/index.js"),
    ([c!"exports", c!".", c!"require", c!"types"], c!"./lib/cjs/index.d.cts"),
    ([c!"exports", c!".", c!"require", c!"default"], c!"./lib/cjs/index.cjs"),
    ([c!"scripts", c!"typecheck"], c!"tsc"),
    ([c!"scripts", c!"lint"], c!"eslint src"),
    ([c!"scripts", c!"lint:fix"], c!"eslint src --fix"),
    ([c!"scripts", c!"build"], c!"tsup"),
    ([c!"scripts", c!"dev"], c!"yarn build && node lib/cli/cli.js"),
    ([c!"repository", c!"type"], c!"git"),
    ([c!"repository", c!"url"], c!"git+https://github.com/flokkq/smd.git"),
    ([c!"author"], c!"Clemens Weber <office@flokkq.com>"),
    ([c!"license"], c!"MIT"),
    ([c!"bugs", c!"url"], c!"https://github.com/flokkq/smd/issues"),
    ([c!"homepage"], c!"https://github.com/flokkq/smd#readme"),
    ([c!"dependencies", c!"execa"], c!"^8.0.1"),
    ([c!"devDependencies", c!"@eslint/js"], c!"^9.11.0"),
    ([c!"devDependencies", c!"@types/eslint__js"], c!"^8.42.3"),
    ([c!"devDependencies", c!"@types/node"], c!"^20.16.5"),
    ([c!"devDependencies", c!"@typescript-eslint/eslint-plugin"], c!"^8.6.0"),
    ([c!"devDependencies", c!"@typescript-eslint/parser"], c!"^8.6.0"),
    ([c!"devDependencies", c!"eslint"], c!"^9.11.0"),
    ([c!"devDependencies", c!"tsup"], c!"^8.3.0"),
    ([c!"devDependencies", c!"typescript"], c!"^5.6.2"),
    ([c!"devDependencies", c!"typescript-eslint"], c!"^8.6.0"),
    ([c!"optionalDependencies", c!"smd-darwin-arm64"], v),
    ([c!"optionalDependencies", c!"smd-darwin-x64"], v),
    ([c!"optionalDependencies", c!"smd-linux-arm64"], v),
    ([c!"optionalDependencies", c!"smd-linux-x64"], v),
    ([c!"optionalDependencies", c!"smd-windows-arm64"], v),
    ([c!"optionalDependencies", c!"smd-windows-x64"], w),
    ([c!"packageManager"], c!"yarn@4.1.0"),
    ([c!"publishConfig", c!"access"], c!"public"),
    ([c!"engines", c!"node"], c!">=18.19 || >=20.6 || >=21")]

set_option maxRecDepth 100000 in
private theorem leaves_raw (v : Str) : jsonLeaves [] (pkgWith v) =
    pkgLeaves ((v ++ '"' :: c!",").takeWhile (· != '"')) ((v ++ '"' :: []).takeWhile (· != '"')) := rfl

theorem leaves_pkg {v : Str} (hv : VersionText v) : jsonLeaves [] (pkgWith v) = pkgLeaves v v := by
  rw [leaves_raw, takeWhile_quote hv, takeWhile_quote hv]

end Smd.Release
