import Verif.Release.Script

/-!
Model of `.github/workflows/release.yaml`: the packages for npm that the builds publish, the jobs with the files that their steps read and make, and the
publication on crates.io. Whatever else may make a step fail (the network, compilers, secrets) is a parameter.
-/

namespace Smd.Release
open Smd Smd.Rs

/-- An entry of the matrix of builds. -/
structure Build where
  name : Str
  os : Str
  target : Str
  npm : Bool
  pypi : Bool

/-- `matrix.build` (release.yaml 53-150). -/
def matrix : List Build :=
  [⟨c!"linux-x64-glibc", c!"ubuntu-22.04", c!"x86_64-unknown-linux-gnu", true, true⟩,
    ⟨c!"linux-x64-musl", c!"ubuntu-22.04", c!"x86_64-unknown-linux-musl", false, true⟩,
    ⟨c!"linux-x86-glibc", c!"ubuntu-22.04", c!"i686-unknown-linux-gnu", false, false⟩,
    ⟨c!"linux-x86-musl", c!"ubuntu-22.04", c!"i686-unknown-linux-musl", false, true⟩,
    ⟨c!"linux-arm64-glibc", c!"ubuntu-22.04", c!"aarch64-unknown-linux-gnu", true, true⟩,
    ⟨c!"linux-arm64-musl", c!"ubuntu-22.04", c!"aarch64-unknown-linux-musl", false, true⟩,
    ⟨c!"win32-x64-mingw", c!"windows-2022", c!"x86_64-pc-windows-gnu", false, false⟩,
    ⟨c!"win32-x64-msvc", c!"windows-2022", c!"x86_64-pc-windows-msvc", true, true⟩,
    ⟨c!"win32-x86-msvc", c!"windows-2022", c!"i686-pc-windows-msvc", false, true⟩,
    ⟨c!"win32-arm64-msvc", c!"windows-2022", c!"aarch64-pc-windows-msvc", true, false⟩,
    ⟨c!"darwin-x64", c!"macos-14", c!"x86_64-apple-darwin", true, true⟩,
    ⟨c!"darwin-arm64", c!"macos-14", c!"aarch64-apple-darwin", true, true⟩]

/-- `GITHUB_REF` of a pushed tag. -/
def gitRef (tag : Str) : Str := c!"refs/tags/" ++ tag

/-- `${GITHUB_REF:11}` (release.yaml 156). -/
def releaseVersion (tag : Str) : Str := (gitRef tag).drop 11

/-- `contains(github.ref, '-')` (release.yaml 230). -/
def preRelease (tag : Str) : Bool := (gitRef tag).contains '-'

/-- `cut -d '-' -f1` (release.yaml 253). -/
def cut1 (s : Str) : Str := s.takeWhile (· != '-')

/-- `cut -d '-' -f2` (release.yaml 255) of a text with a `-`. -/
def cut2 (s : Str) : Str := ((s.dropWhile (· != '-')).drop 1).takeWhile (· != '-')

/-- `node_pkg` (release.yaml 258-262). -/
def nodePkg (b : Build) : Str :=
  if b.os = c!"windows-2022" then c!"smd-windows-" ++ cut2 b.name else c!"smd-" ++ cut1 b.name ++ c!"-" ++ cut2 b.name

/-- The file in `bin` (release.yaml 265-268). -/
def nodeBin (b : Build) : Str := if b.os = c!"windows-2022" then c!"smd.exe" else c!"smd"

/-- `envsubst` on a line: the variables of the form `${name}`, the only form in the template. The number is the length of the line or more. -/
def envsubst (env : Str → Str) : Nat → Str → Str
  | 0, s => s
  | _ + 1, [] => []
  | n + 1, '$' :: '{' :: r => env (r.takeWhile (· != '}')) ++ envsubst env n ((r.dropWhile (· != '}')).drop 1)
  | n + 1, c :: s => c :: envsubst env n s

/-- `npm/package.json.tmpl`. -/
def template : List Str :=
  [c!"{", c!"  \"name\": \"${node_pkg}\",", c!"  \"version\": \"${version}\",",
    c!"  \"description\": \"Want github-flavoured markdown as a pdf or html for your blog? smd is exactly what you need.\",",
    c!"  \"repository\": {", c!"    \"type\": \"git\",", c!"    \"url\": \"git+https://github.com/flokkq/smd.git\"", c!"  },",
    c!"  \"keywords\": [", c!"    \"smd\",", c!"    \"git\",", c!"    \"markdown\",", c!"    \"gfm\",", c!"    \"rust\"", c!"  ],",
    c!"  \"author\": \"Clemens Weber <office@flokkq.com>\",", c!"  \"license\": \"MIT\",", c!"  \"bugs\": {",
    c!"    \"url\": \"https://github.com/flokkq/smd/issues\"", c!"  },", c!"  \"homepage\": \"https://github.com/flokkq/smd#readme\",",
    c!"  \"os\": [", c!"    \"${node_os}\"", c!"  ],", c!"  \"cpu\": [", c!"    \"${node_arch}\"", c!"  ],", c!"  \"publishConfig\": {",
    c!"    \"access\": \"public\"", c!"  }", c!"}"]

/-- The variables that the step exports (release.yaml 253-262). -/
def nodeEnv (b : Build) (tag : Str) (x : Str) : Str :=
  if x = c!"node_pkg" then nodePkg b
  else if x = c!"version" then releaseVersion tag
  else if x = c!"node_os" then cut1 b.name
  else if x = c!"node_arch" then cut2 b.name
  else []

/-- The manifest of the package that a build publishes (release.yaml 264). -/
def nodeManifest (b : Build) (tag : Str) : List Str := template.map fun l => envsubst (nodeEnv b tag) l.length l

/-- The manifests of the packages that "Publish to NPM" publishes (release.yaml 247-271), with the names of their executables. -/
def npmPublished (tag : Str) : List (List Str × Str) := (matrix.filter (·.npm)).map fun b => (nodeManifest b tag, nodeBin b)

/-! ### Jobs -/

/-- A step of a job: the files it needs and the files it makes. The shells stop at the first command that fails (`bash -e`), and a job at the first step
that fails. -/
structure Step where
  name : Str
  reads : List Str
  makes : List Str

/-- A job: the jobs it waits for, and the steps of each of its builds. -/
structure Job where
  name : Str
  needs : List Str
  builds : List (List Step)

/-- The files of the repository's root and those of `npm/smd` that the steps copy. -/
def checkout : List Str :=
  [c!".editorconfig", c!".envrc", c!".gitignore", c!"CHANGELOG.md", c!"Cargo.lock", c!"Cargo.toml", c!"LICENSE", c!"README.md", c!"flake.lock",
    c!"flake.nix", c!"release.sh", c!"rust-toolchain.toml", c!"rustfmt.toml", c!"smd/Cargo.toml", c!"smd-core/Cargo.toml", c!"gfm/Cargo.toml",
    c!"npm/package.json.tmpl", c!"npm/smd/package.json"]

/-- The executable of a build. -/
def exeOf (b : Build) (bin : Str) : Str :=
  c!"target/" ++ b.target ++ c!"/release/" ++ bin ++ (if b.os = c!"windows-2022" then c!".exe" else [])

/-- The archive of a build (release.yaml 198-210). -/
def archiveOf (b : Build) (tag : Str) : Str :=
  c!"smd-" ++ releaseVersion tag ++ c!"-" ++ b.target ++ (if b.os = c!"windows-2022" then c!".zip" else c!".tar.gz")

/-- The steps of `publish-binaries` (release.yaml 151-308) that read or make files of the checkout. -/
def binarySteps (tag : Str) (b : Build) : List Step :=
  [⟨c!"Build", [c!"Cargo.toml"], [exeOf b c!"smd", exeOf b c!"smd-completions", exeOf b c!"smd-mangen"]⟩,
    ⟨c!"Prepare release assets", [c!"LICENSE", c!"LREADME.md", c!"CHANGELOG.md", exeOf b c!"smd", exeOf b c!"smd-completions", exeOf b c!"smd-mangen"],
      [c!"smd-" ++ releaseVersion tag ++ c!"/"]⟩,
    ⟨c!"Create release artifacts", [c!"smd-" ++ releaseVersion tag ++ c!"/"], [archiveOf b tag]⟩,
    ⟨c!"Publish to GitHub", [archiveOf b tag], []⟩] ++
  (if b.npm then [⟨c!"Publish to NPM", [c!"npm/package.json.tmpl", exeOf b c!"smd", c!"README.md"], []⟩] else []) ++
  [⟨c!"Upload Python wheels", [], []⟩]

/-- The steps of `publish-deb` (release.yaml 360-411). -/
def debSteps (tag : Str) : List Step :=
  [⟨c!"Build Debian package", [c!"smd/Cargo.toml"], [c!"smd-" ++ releaseVersion tag ++ c!".deb"]⟩,
    ⟨c!"Sign the package", [c!"smd-" ++ releaseVersion tag ++ c!".deb"], []⟩,
    if preRelease tag then ⟨c!"Upload the pre-release", [c!"smdcliff-" ++ releaseVersion tag ++ c!".deb"], []⟩
    else ⟨c!"Upload the release", [c!"smd-" ++ releaseVersion tag ++ c!".deb"], []⟩]

/-- The steps of `publish-rpm` (release.yaml 413-462). -/
def rpmSteps (tag : Str) : List Step :=
  [⟨c!"Build RPM package", [c!"smd/Cargo.toml"], [c!"smd-" ++ releaseVersion tag ++ c!".x86_64.rpm"]⟩,
    ⟨c!"Sign the package", [c!"smd-" ++ releaseVersion tag ++ c!".x86_64.rpm"], []⟩,
    if preRelease tag then ⟨c!"Upload the pre-release", [c!"smd-" ++ releaseVersion tag ++ c!".x86_64.rpm"], []⟩
    else ⟨c!"Upload the release", [c!"smd-" ++ releaseVersion tag ++ c!".x86_64.rpm"], []⟩]

/-- The jobs of the workflow, those that others wait for first; `publish-crates-io` is modelled below, and `publish-homebrew` (release.yaml 494-508), which
reads no file, is left out. -/
def jobs (tag : Str) : List Job :=
  [⟨c!"generate-changelog", [], [[⟨c!"Generate Changelog with git-cliff", [], []⟩, ⟨c!"Create GitHub Release", [], []⟩]]⟩,
    ⟨c!"publish-binaries", [c!"generate-changelog"], matrix.map (binarySteps tag)⟩,
    ⟨c!"publish-npm", [c!"publish-binaries"], [[⟨c!"Publish the package", [c!"npm/smd/package.json", c!"README.md", c!"CHANGELOG.md"], []⟩]]⟩,
    ⟨c!"publish-pypi", [c!"publish-binaries"], [[⟨c!"Publish to PyPI", [], []⟩]]⟩,
    ⟨c!"publish-deb", [c!"generate-changelog"], [debSteps tag]⟩,
    ⟨c!"publish-rpm", [c!"generate-changelog"], [rpmSteps tag]⟩]

/-- The steps that a build gets done. `works` tells whether a step works that has its files. -/
def doneSteps (works : Step → Bool) : List Str → List Step → List Step
  | _, [] => []
  | files, s :: r => if works s && s.reads.all (files.contains ·) then s :: doneSteps works (files ++ s.makes) r else []

/-- Whether a job succeeds: all the steps of all its builds. -/
def jobOk (works : Step → Bool) (j : Job) : Bool := j.builds.all fun b => (doneSteps works checkout b).length == b.length

/-- The jobs that succeed: a job runs if those succeeded that it waits for. -/
def okJobs (works : Str → Step → Bool) : List Str → List Job → List Str
  | ok, [] => ok
  | ok, j :: r => if j.needs.all (ok.contains ·) && jobOk (works j.name) j then okJobs works (ok ++ [j.name]) r else okJobs works ok r

/-- The jobs that succeed when a tag is pushed. -/
def succeeded (works : Str → Step → Bool) (tag : Str) : List Str := okJobs works [] (jobs tag)

/-! ### crates.io -/

/-- The crates in the order of publication (release.yaml 476-492), with their manifests. -/
def publishOrder (m : Manifests) : List (Str × List Str) := [(c!"smd-core", m.core), (c!"gfm", m.gfm), (c!"smd", m.smd)]

/-- `grep` with a pattern of characters and full stops, which are any character, at the beginning of a text. -/
def fits : Str → Str → Bool
  | [], _ => true
  | _ :: _, [] => false
  | p :: ps, c :: cs => (p == '.' || p == c) && fits ps cs

/-- `grep -q '"vers":"…"'` (release.yaml 486, 489). -/
def hasVersion (version : Str) : Str → Bool
  | [] => false
  | c :: cs => fits (c!"\"vers\":\"" ++ version ++ c!"\"") (c :: cs) || hasVersion version cs

/-- One of the two loops ends, if the index has the files `index t` at the time `t` (release.yaml 486, 489). A file that is not there is an answer without
versions. -/
def loopEnds (index : Nat → Str → Option Str) (version path : Str) (start stop : Nat) : Prop :=
  start ≤ stop ∧ ∃ file, index stop path = some file ∧ hasVersion version file = true

/-- "Publish the binary" begins at the time `t` (release.yaml 490-492): both loops have ended, one after the other. -/
def binaryStarts (index : Nat → Str → Option Str) (version : Str) (start t : Nat) : Prop :=
  ∃ s, loopEnds index version c!"gi/t-/smd-core" start s ∧ loopEnds index version c!"gi/t-/gfm" s t

end Smd.Release
