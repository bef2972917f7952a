import Verif.Release.Workflow
import Verif.App.Bins

/-!
Model of what `.github/workflows/release.yaml` puts into the packages for npm and PyPI, and of the names under which npm offers them.
-/

namespace Smd.Release
open Smd Smd.Rs

/-- The file that is copied to `bin` of a package for npm, from `npm` (release.yaml 268). -/
def nodeExe (b : Build) : Str := c!"../target/" ++ b.target ++ c!"/release/" ++ nodeBin b

/-- The packages of "Publish to NPM" (release.yaml 247-271): the manifest, and the file that is copied to `bin`. -/
def npmFilled (tag : Str) : List (List Str × Str) := (matrix.filter (·.npm)).map fun b => (nodeManifest b tag, nodeExe b)

/-- The steps of a build that make wheels, with their option `manylinux` (release.yaml 274-302). The functions `startsWith` and `endsWith` of GitHub disregard
capital letters; there are none in the names. -/
def wheelSteps (b : Build) : List (Str × Option Str) :=
  (if b.pypi && c!"linux".isPrefixOf b.name then
    [(c!"linux", some (if b.target = c!"aarch64-unknown-linux-gnu" then c!"2_28" else c!"auto"))] else []) ++
  (if b.pypi && (c!"macos".isPrefixOf b.os || c!"windows".isPrefixOf b.os) then [(c!"macos & windows", none)] else []) ++
  (if b.pypi && c!"musl".isSuffixOf b.os then [(c!"musl", some c!"musllinux_1_2")] else [])

/-- A publication on npm: the package, its version, and the tag that the command names (`latest` if it names none). -/
structure Publication where
  package : Str
  version : Str
  distTag : Str

/-- The publications of a pushed tag: those of the builds, with `npm publish` (release.yaml 271), then the package `smd` in the version of its manifest, with
`yarn npm publish` (release.yaml 332-336). -/
def npmPublications (tag : Str) (version : Str) : List Publication :=
  ((matrix.filter (·.npm)).map fun b => ⟨nodePkg b, releaseVersion tag, c!"latest"⟩) ++
    [⟨c!"smd", version, if preRelease tag then c!"rc" else c!"latest"⟩]

/-- What npm does: the tag of the package is moved to the version. `offers p t` is the version of the package `p` under the tag `t`. -/
def offered (offers : Str → Str → Option Str) : List Publication → Str → Str → Option Str
  | [] => offers
  | x :: xs => offered (fun p t => if p = x.package ∧ t = x.distTag then some x.version else offers p t) xs

/-- The files that there are when `cargo-deb` and `cargo generate-rpm` run, of those that matter: the checkout, and what the commands before make (release.yaml
380-384, 431-435). -/
def packageFiles : List Str :=
  checkout ++ [c!"target/release/smd", c!"man/smd.1"] ++ Smd.App.Shell.all.map fun s => c!"completions/" ++ s.fileName

/-- `Cargo.toml` (1-9); the profiles (11-31) are left out. No call of `sed` in release.sh reads it. -/
def rootToml : List Str :=
  [c!"[workspace]", c!"resolver = \"2\"", c!"members = [\"smd-core\", \"smd\", \"gfm\"]", [], c!"[workspace.dependencies]", c!"log = \"0.4.21\"",
    c!"dirs = \"5.0.1\"", c!"serde = { version = \"1.0.215\", features = [\"derive\"] }", c!"toml = \"0.8.19\""]

/-- The files of the repository in `npm` and in its root, where `yarn build` runs and looks (release.yaml 322-328). -/
def npmCheckout : List Str :=
  checkout ++ [c!"npm/smd/.gitignore", c!"npm/smd/.yarnrc.yml", c!"npm/smd/.yarn/releases/yarn-4.1.0.cjs", c!"npm/smd/src/cli.ts",
    c!"npm/smd/src/getExePath.ts", c!"npm/smd/src/index.ts", c!"npm/smd/src/options.ts", c!"npm/smd/src/optionsToStringArgs.ts"]

/-- The directory of the package `smd`, and those around it. -/
def npmDirs : List Str := [c!"npm/smd/", c!"npm/", []]

/-- The job `publish-npm` (release.yaml 322-336): it builds the package, with the script `build` of the manifest, and publishes it if that does not fail. The result
has the files that were built. The script runs in bash with `-e`; the commands before and the copies after the build are taken to succeed (see C175 for the copies). -/
def publishNpm (build : List Str → List Str → Option (List Str)) (manifest : List Str) : Option (List Str) := build npmCheckout manifest

/-- `Cargo.lock` (450-455, 1039-1053, 1055-1066): the crates of the workspace. No call of `sed` in release.sh reads it. -/
def cargoLock : List Str :=
  [c!"[[package]]", c!"name = \"gfm\"", c!"version = \"0.1.3-pre\"", c!"dependencies = [", c!" \"log\",", c!"]", [], c!"[[package]]",
    c!"name = \"smd\"", c!"version = \"0.1.3-pre\"", c!"dependencies = [", c!" \"clap\",", c!" \"clap_complete\",", c!" \"clap_mangen\",",
    c!" \"dirs\",", c!" \"env_logger\",", c!" \"gfm\",", c!" \"log\",", c!" \"shellexpand\",", c!" \"smd-core\",", c!" \"toml\",", c!"]", [],
    c!"[[package]]", c!"name = \"smd-core\"", c!"version = \"0.1.3-pre\"", c!"dependencies = [", c!" \"config\",", c!" \"dirs\",",
    c!" \"headless_chrome\",", c!" \"log\",", c!" \"serde\",", c!" \"thiserror 2.0.4\",", c!" \"toml\",", c!"]", []]

end Smd.Release
