import Verif.Rust.Str

/-!
Model of `release.sh` (lines 14-20): what the script does to the versions in the manifests. Texts are lists of lines, as `sed` reads them.
The model of `sed` is right for versions without `/`, `&`, `\\` and line ends, which `sed` takes for its own signs; the theorems are about versions of
letters, digits, `.`, `-`, `+` and `_`. The changelog, the commit and the tag (lines 22-40) are in Release/Cliff.lean.
-/

namespace Smd.Release
open Smd Smd.Rs

/-- `${1#v}` (release.sh 17-20). -/
def stripV : Str → Str
  | 'v' :: t => t
  | t => t

/-- `# managed by release.sh` as a pattern: the full stop is any character (release.sh 15). -/
def isMark (m : Str) : Bool := m.length == 23 && startsWith m c!"# managed by release" && endsWith m c!"sh"

/-- A line that matches `^version = .* # managed by release.sh$` (release.sh 17, 18). -/
def managed (l : Str) : Bool :=
  decide (34 ≤ l.length) && startsWith l c!"version = " && (l.drop (l.length - 24)).head? == some ' ' && isMark (l.drop (l.length - 23))

/-- What the first two calls of `sed` make of a line (release.sh 17, 18). -/
def sedToml (v l : Str) : Str := if managed l then c!"version = \"" ++ v ++ c!"\" # managed by release.sh" else l

/-- The text behind the last quotation mark. -/
def behindLastQuote (s : Str) : Str := (s.reverse.takeWhile (· != '"')).reverse

/-- What the third call of `sed` makes of a line (release.sh 19): the first match of `"version": ".+"`, as long as possible. -/
def sedVersion (v : Str) : Str → Str
  | [] => []
  | c :: cs =>
    match stripPrefix c!"\"version\": \"" (c :: cs) with
    | some r => if '"' ∈ r.drop 1 then c!"\"version\": \"" ++ v ++ c!"\"" ++ behindLastQuote r else c :: sedVersion v cs
    | none => c :: sedVersion v cs

/-- The longest text in front of `": ".+"`, if there is one. -/
def beforeValue : Str → Option Str
  | [] => none
  | c :: cs =>
    match beforeValue cs with
    | some a => some (c :: a)
    | none => if startsWith (c :: cs) c!"\": \"" ∧ '"' ∈ cs.drop 4 then some [] else none

/-- The longest text that `.+` can be in `(smd-.+)": ".+"`, if there is one. -/
def depName : Str → Option Str
  | [] => none
  | c :: cs => (beforeValue cs).map (c :: ·)

/-- What the fourth call of `sed` makes of a line (release.sh 20): the first match of `"(smd-.+)": ".+"`, as long as possible. There is no second match
in a line, because the first one ends at the last quotation mark. -/
def sedDep (v : Str) : Str → Str
  | [] => []
  | c :: cs =>
    match stripPrefix c!"\"smd-" (c :: cs) with
    | some r =>
      match depName r with
      | some a => c!"\"smd-" ++ a ++ c!"\": \"" ++ v ++ c!"\"" ++ behindLastQuote r
      | none => c :: sedDep v cs
    | none => c :: sedDep v cs

/-- The manifests of the repository that the script changes or could change. -/
structure Manifests where
  smd : List Str
  core : List Str
  gfm : List Str
  npm : List Str

/-- `./release.sh tag` (release.sh 14-20). `smd*/Cargo.toml` are the manifests of `smd` and `smd-core`. Without an argument the script stops before
(release.sh 7-11). -/
def releaseSh (tag : Str) (m : Manifests) : Manifests :=
  if tag = [] then m
  else
    { smd := m.smd.map (sedToml (stripV tag))
      core := m.core.map (sedToml (stripV tag))
      gfm := m.gfm.map (sedToml (stripV tag))
      npm := (m.npm.map (sedVersion (stripV tag))).map (sedDep (stripV tag)) }

/-- `smd/Cargo.toml`. -/
def smdToml : List Str :=
  [c!"[package]", c!"name = \"smd\"", c!"version = \"0.1.3-pre\" # managed by release.sh",
    c!"description = \"convert markdown to github flavoured html or pdf 🎨\"", c!"authors = [\"Flokkq\"]", c!"license = \"MIT\"",
    c!"readme = \"../README.md\"", c!"repository = \"https://github.com/flokkq/smd\"",
    c!"keywords = [\"gfm\", \"markdown\", \"html\", \"pdf\", \"convert\"]", c!"categories = [\"command-line-utilities\"]",
    c!"default-run = \"smd\"", c!"edition = \"2021\"", [], c!"[[bin]]", c!"path = \"src/main.rs\"", c!"name = \"smd\"", [], c!"[[bin]]",
    c!"name = \"smd-mangen\"", c!"path = \"src/bin/mangen.rs\"", [], c!"[[bin]]", c!"name = \"smd-completions\"",
    c!"path = \"src/bin/completion.rs\"", [], c!"[profile.dev]", c!"incremental = true", c!"opt-level = 1", [],
    c!"[profile.dev.package.\"*\"]", c!"opt-level = 3", [], c!"[profile.release]", c!"opt-level = 3", [], c!"[dependencies]",
    c!"log.workspace = true", c!"dirs.workspace = true", c!"toml.workspace = true",
    c!"clap = { version = \"4.5.21\", features = [\"derive\", \"env\", \"wrap_help\", \"cargo\"] }", c!"shellexpand = \"3.1.0\"",
    c!"env_logger = \"=0.10.2\"", c!"clap_mangen = \"0.2.23\"", c!"clap_complete = \"4.5.19\"", [], c!"[dependencies.smd-core]",
    c!"version = \"0.1.3-pre\" # managed by release.sh", c!"path = \"../smd-core\"", [], c!"[dependencies.gfm]",
    c!"version = \"0.1.3-pre\" # managed by release.sh", c!"path = \"../gfm\"", [], c!"[package.metadata.generate-rpm]", c!"assets = [",
    c!"  { source = \"target/release/smd\", dest = \"/usr/bin/smd\", mode = \"755\" },",
    c!"  { source = \"LICENSE\", dest = \"/usr/share/doc/smd/LICENSE\", mode = \"644\" },",
    c!"  { source = \"README.md\", dest = \"/usr/share/doc/smd/README.md\", mode = \"644\" },",
    c!"  { source = \"man/smd.1\", dest = \"/usr/share/man/man1/smd.1\", mode = \"644\", doc = true },",
    c!"  { source = \"completions/smd.bash\", dest = \"/usr/share/bash-completion/completions/smd\", mode = \"644\" },",
    c!"  { source = \"completions/smd.fish\", dest = \"/usr/share/fish/vendor_completions.d/smd.fish\", mode = \"644\" },",
    c!"  { source = \"completions/_smd\", dest = \"/usr/share/zsh/vendor-completions/\", mode = \"644\" },", c!"]", [],
    c!"[package.metadata.deb]", c!"assets = [", c!"  [", c!"    \"target/release/smd\",", c!"    \"usr/bin/\",", c!"    \"755\",",
    c!"  ],", c!"  [", c!"    \"../LICENSE\",", c!"    \"/usr/share/doc/smd/LICENSE\",", c!"    \"644\",", c!"  ],", c!"  [",
    c!"    \"../README.md\",", c!"    \"usr/share/doc/smd/README\",", c!"    \"644\",", c!"  ],", c!"  [", c!"    \"../man/smd.1\",",
    c!"    \"/usr/share/man/man1/smd.1\",", c!"    \"644\",", c!"  ],", c!"  [", c!"    \"../completions/smd.bash\",",
    c!"    \"/usr/share/bash-completion/completions/smd\",", c!"    \"644\",", c!"  ],", c!"  [", c!"    \"../completions/smd.fish\",",
    c!"    \"/usr/share/fish/vendor_completions.d/smd.fish\",", c!"    \"644\",", c!"  ],", c!"  [", c!"    \"../completions/_smd\",",
    c!"    \"/usr/share/zsh/vendor-completions/\",", c!"    \"644\",", c!"  ],", c!"]"]

/-- `smd-core/Cargo.toml`. -/
def coreToml : List Str :=
  [c!"[package]", c!"name = \"smd-core\"", c!"version = \"0.1.3-pre\"", c!"edition = \"2021\"", [], c!"[dependencies]",
    c!"log.workspace = true", c!"serde.workspace = true", c!"toml.workspace = true", c!"dirs.workspace = true",
    c!"thiserror = \"2.0.4\"", c!"headless_chrome = \"1.0.15\"", [], c!"[dependencies.config]", c!"version = \"0.14.1\"",
    c!"default-features = false", c!"features = [\"toml\"]"]

/-- `gfm/Cargo.toml`. -/
def gfmToml : List Str :=
  [c!"[package]", c!"name = \"gfm\"", c!"version = \"0.1.3-pre\"",
    c!"description = \"Transpililing markdown to github flavoured markdown (html)\"", c!"license = \"MIT\"",
    c!"readme = \"../README.md\"", c!"repository = \"https://github.com/flokkq/smd\"",
    c!"keywords = [\"markdown\", \"gfm\", \"convert\", \"md2html\"]", c!"edition = \"2021\"", [], c!"[dependencies]",
    c!"log.workspace = true", [], c!"[package.metadata.docs.rs]", c!"all-features = true", c!"rustdoc-args = [\"--cfg\", \"docsrs\"]"]

/-- `npm/smd/package.json`. -/
def packageJson : List Str :=
  [c!"{", c!"    \"name\": \"smd\",", c!"    \"version\": \"0.1.3-pre\",",
    c!"    \"description\": \"Want github-flavoured markdown as a pdf or html for your blog? smd is exactly what you need.\",",
    c!"    \"type\": \"module\",", c!"    \"main\": \"lib/cjs/index.d.cts\",", c!"    \"module\": \"lib/esm/index.d.ts\",",
    c!"    \"types\": \"lib/cjs/index.d.cts\",", c!"    \"bin\": \"lib/cli/cli.js\",", c!"    \"exports\": {", c!"        \"./cli\": {",
    c!"            \"import\": \"./lib/cli/cli.js\"", c!"        },", c!"        \".\": {", c!"            \"import\": {",
    c!"                \"types\": \"./lib/esm/index.d.ts\",", c!"                \"default\": \"./lib/esm/index.js\"",
    c!"            },", c!"            \"require\": {", c!"                \"types\": \"./lib/cjs/index.d.cts\",",
    c!"                \"default\": \"./lib/cjs/index.cjs\"", c!"            }", c!"        }", c!"    },", c!"    \"files\": [",
    c!"        \"lib\"", c!"    ],", c!"    \"scripts\": {", c!"        \"typecheck\": \"tsc\",", c!"        \"lint\": \"eslint src\",",
    c!"        \"lint:fix\": \"eslint src --fix\",", c!"        \"build\": \"tsup\",",
    c!"        \"dev\": \"yarn build && node lib/cli/cli.js\"", c!"    },", c!"    \"repository\": {", c!"        \"type\": \"git\",",
    c!"        \"url\": \"git+https://github.com/flokkq/smd.git\"", c!"    },", c!"    \"keywords\": [", c!"        \"smd\",",
    c!"        \"git\",", c!"        \"markdown\",", c!"        \"gfm\",", c!"        \"rust\"", c!"    ],",
    c!"    \"author\": \"Clemens Weber <office@flokkq.com>\",", c!"    \"license\": \"MIT\",", c!"    \"bugs\": {",
    c!"        \"url\": \"https://github.com/flokkq/smd/issues\"", c!"    },",
    c!"    \"homepage\": \"https://github.com/flokkq/smd#readme\",", c!"    \"dependencies\": {", c!"        \"execa\": \"^8.0.1\"",
    c!"    },", c!"    \"devDependencies\": {", c!"        \"@eslint/js\": \"^9.11.0\",",
    c!"        \"@types/eslint__js\": \"^8.42.3\",", c!"        \"@types/node\": \"^20.16.5\",",
    c!"        \"@typescript-eslint/eslint-plugin\": \"^8.6.0\",", c!"        \"@typescript-eslint/parser\": \"^8.6.0\",",
    c!"        \"eslint\": \"^9.11.0\",", c!"        \"tsup\": \"^8.3.0\",", c!"        \"typescript\": \"^5.6.2\",",
    c!"        \"typescript-eslint\": \"^8.6.0\"", c!"    },", c!"    \"optionalDependencies\": {",
    c!"        \"smd-darwin-arm64\": \"0.1.3-pre\",", c!"        \"smd-darwin-x64\": \"0.1.3-pre\",",
    c!"        \"smd-linux-arm64\": \"0.1.3-pre\",", c!"        \"smd-linux-x64\": \"0.1.3-pre\",",
    c!"        \"smd-windows-arm64\": \"0.1.3-pre\",", c!"        \"smd-windows-x64\": \"0.1.3-pre\"", c!"    },",
    c!"    \"packageManager\": \"yarn@4.1.0\",", c!"    \"publishConfig\": {", c!"        \"access\": \"public\"", c!"    },",
    c!"    \"engines\": {", c!"        \"node\": \">=18.19 || >=20.6 || >=21\"", c!"    }", c!"}"]

/-- The manifests as they are in the repository. -/
def repository : Manifests := { smd := smdToml, core := coreToml, gfm := gfmToml, npm := packageJson }

end Smd.Release
