# Formal model of Flokkq/smd in Lean 4

## Trusted base

What a reader has to believe in order to believe the claims in `MANIFEST.json`:

1. **Lean's kernel** (4.33.0). The axioms of the property theorems are at most `propext`, `Classical.choice` and
   `Quot.sound` (all 666 were checked with `#print axioms`: 446 use all three, 77 `propext` and `Quot.sound`, 140 only
   `propext`, three none). There is no axiom of our own, no `sorry`, no `native_decide`, no `bv_decide`; `decide +kernel`
   is reduction by the kernel and adds no axiom.
2. **The model is the code.** The sandbox cannot build or run the code, so the tie between `/repo` and the model is the
   reading of it: each definition cites file and lines, and states where it simplifies. Two checks of that reading:
   * the 677 pairs of input and expected output in `/repo/gfm/tests` were evaluated in the model. 71 agree. The others are
     examples from the GFM specification that the parser does not implement; each class of difference was traced to the code
     (spaces lost, titles, lists in lists, reference links, HTML blocks, entities, ...). No difference was due to the model.
   * mutation of the model (`seeded/LOG.jsonl`): what happens to the theorems when a definition is changed.
3. **The specifications** in `lean/Verif/Spec/` and in the statements of the theorems say what the properties mean.
4. **The behaviour of what is not in the repository**, listed below under "Assumptions".

## What is modelled

Text is `List Char` (Lean's `Char` is a Unicode scalar value, exactly Rust's `char`). A Rust panic is the outcome `panic`; a
loop that never exits is the outcome `hang` (proved to be an endless loop, `C10_hang_is_endless`); recursion is bounded by a
fuel argument whose exhaustion (`fuelOut`) is proved unreachable (`C13_depth_is_linear`, `C10_only_two_failures`).

| source | model | remarks |
|---|---|---|
| `gfm/src/iter.rs` | `Gfm/Iter.lean` | on UTF-8 bytes with byte indices and `is_char_boundary`; proved to refine the cursor (remaining text) that the lexer model uses (C01, C02) |
| `gfm/src/lexer.rs` | `Gfm/Lexer.lean` | every routine; for its log calls see `Gfm/Said` |
| `gfm/src/lib.rs` | `Gfm/Parser.lean`, `Gfm/Render.lean` | every arm of both `match`es, epilogue, `sanitize_display_text`; the mutual recursion through `render`, `render_ignore`, `lex` |
| `gfm/src/token.rs` | `Gfm/Token.lean` | tokens, `ValidURL`, `percent_encode`, `validate_link` |
| `smd-core/src/fs.rs`, `error.rs` | `Core/Fs.lean` | as programs over system calls |
| `smd-core/src/config.rs` | `Core/Config.lean` | |
| `smd-core/src/browser.rs`, `convert.rs` | `Core/Convert.lean` | |
| the operating system and the browser | `Core/Sys.lean` | paths, files, handles, tabs of several processes; every call may fail at any time; a `write` may be short |
| `smd/src/lib.rs`, `main.rs`, `Cli::parse_dir` of `args.rs` | `App/Run.lean` | |
| `smd/src/args.rs` | `App/Args.lean` | the declared arguments, and a reader for them as clap has it |
| `smd/src/logger.rs` | `App/Logger.lean` | as steps of threads that share the width; colours left out |
| the log calls of `smd` and `smd-core`, `Display` of `error.rs`, levels and `RUST_LOG` | `App/Talk.lean` | the programs again, with what they say; the texts of other crates' errors are parameters; log lines of `headless_chrome` left out |
| the log calls of `gfm` | `Gfm/Said.lean` | the functions of the lexer and the renderer that log, or call others that do, again with what they say; `Debug` of strings and tokens are parameters |
| `smd/src/bin/mangen.rs`, `completion.rs` | `App/Bins.lean` | the texts of the page and of the scripts are parameters |
| `npm/smd/src/*.ts`, `package.json` | `Npm/Args.lean`, `Npm/Cli.lean` | |
| `release.sh`, `.github/workflows/release.yaml`, the manifests, `Cargo.toml`, `Cargo.lock` | `Release/Script.lean`, `Release/Workflow.lean`, `Release/Packages.lean` | `sed`, `cut`, `envsubst` and `grep` for the patterns used; signing and the steps that only install tools are left out |
| `.cliff/default.toml`, `.cliff/detailed.toml`, release.sh 22-38 | `Release/Cliff.lean` | git-cliff for these configurations and templates; blank lines, the bodies of messages, the filter `striptags` and capitals outside ASCII are left out; compared with `CHANGELOG.md` |
| `.github/workflows/main.yaml`, the names of all tests | `Release/Ci.lean` | whether a test passes and a tool works are parameters |
| Rust's `str` and `char` | `Rust/Str.lean` | the functions the code uses, as documented |

Not modelled: the texts of help and usage errors, what `headless_chrome` logs, colours, `smd-core/src/fs.rs`'s mock and the tests, `pypi`,
memory and stack (C13 gives the depth of recursion).

### The project's own tests

The tests cannot be run here, but their expectations can be compared with the model. /repo/gfm/tests/gfm has 677 documents with
the expected HTML, most of them the examples of the GFM specification. The model meets 71 of the expectations, all 19 of
autolinks.rs among them, which the code was evidently written against (escaping and percent-encoding of targets, which schemes
and addresses are accepted). `Gfm/Tests.lean` has these 71 as checked examples, and the unit tests of iter.rs, which the model
meets without exception. For the other 606 the model predicts that the test fails: 39 differ in white space only (spaces and
line ends between words, C25; the line end after code), 29 expect a backslash with a line break in the HTML because of an
escape in the test itself, most of the others are about constructs that are missing or broken (Findings below). No document
among the 677 makes the model panic or loop.

### Assumptions about what is not in the repository

* `std`: the functions in `Rust/Str.lean`; `fs::read_to_string` returns the bytes of the file if they are UTF-8;
  `File::create` empties or creates; `create_dir_all` adds directories; `Path::file_stem` and `set_extension`.
* crate `config`: later sources override earlier ones; a variable is taken if it starts with `smd__` in any case (the prefix is
  followed by the separator); how it converts to Boolean. Whether the case of the
  name of a variant matters is left open (`Os.anyCase`; only ASCII letters have case there). A variable that replaces the whole table `parse` is not modelled.
* crate `toml`: reading is the parameter `Os.toml`. `C65` assumes that it reads the part of TOML that `Spec.tomlOf` reads (comments, tables, strings, truth values and numbers), with the same result. Writing is modelled by `toToml`.
* `headless_chrome`: a tab shows what was in the file of the URL when it was opened; printing is a function of what the tab shows.
  URL parsing (C61) is modelled for what matters to the path: `#`, `?`, `\`, `%`. An escaped byte of 128 or more becomes U+FFFD and not a part of a character.
* `headless_chrome`: printing is a function of the options and of the content of the tab; of the options only those that are set are modelled.
* `env_logger` calls the format closure without a lock, in the thread that logs. A filter that is the name of a level shows the lines
  of that level and of the more important ones; what other values of `RUST_LOG` mean is a parameter.
* `shellexpand::tilde`, `dirs::config_dir`: results are parameters, the rule for `~` is modelled.
* clap 4.5 (C97-C102): arguments are read from left to right; help flags act when they are met, with status 0; every error ends with
  status 2: unknown arguments, a value for a flag, an option used twice, a missing or refused value, a missing subcommand or required
  option. `-abc` is a cluster of letters; a value is the rest of the cluster (without one `=`), what follows `=`, or the next
  argument unless that starts with a hyphen and is longer than one. After `--` there are positional arguments only. Counters stop at
  255. Only arguments declared `global` are known after the subcommand. Arguments are UTF-8. A panic exits with 101.
* `fs::write` and `write_all` of `std`: everything is written unless there is an error, and a write of nothing is one. clap_complete
  (C107): the five shells, the names of their files, and that an error of creating a file is returned while one of writing is a panic.
  `OUT_DIR` is Unicode.
* Cargo (C198): a dependency with a path and a version is taken from the path only if the version there meets the requirement, read as
  `^version`; the rules are those of Semantic Versioning 2.0.0 and of The Cargo Book (Spec/Semver.lean).
* git-cliff (C191-C195, C197): as described in Release/Cliff.lean. JSON and TOML (C196): the parts that the machines of Spec/Wellformed.lean read.
* npm (C204): a publication moves the tag it names, or `latest`, to its version. GitHub (C203): `startsWith` and `endsWith` in conditions. Targets of Rust and the
  words of node for platforms (C202): Spec/Platform.lean. cargo-deb takes files relative to the manifest, except `target/release/`, and cargo-generate-rpm relative
  to the working directory (C205).
* tsup (C207) fails if it is given no file by arguments, by `tsup.config.*` in its directory or above, or by `tsup` in `package.json`. node (C208) takes the first entry of
  `exports` all whose conditions hold, and reads `.js`, `.cjs` and `.mjs`. `cargo install` and maturin install all programs of a crate (C209). Spec/Node.lean.
* JavaScript: `Object.entries` in the order given; lower case for ASCII letters; an argument `undefined` reaches the executable as the text `undefined`.
  `import.meta.resolve` throws if the package is not installed; execa 8 rejects unless the program exits with 0; node ends with status 1
  after a rejection that is not handled.

## Properties

`proved`: for all inputs (states, executions). `partial`: false of the code as stated; the negation is proved with a witness
(`Cxx_refuted`), and a `_partial` theorem says what does hold and for which inputs. The theorems' names are in `MANIFEST.json`.

| property | status | model and proof |
|---|---|---|
| C01 | proved | byte-level `MarkdownIter` (UTF-8 bytes, `is_char_boundary` as in std) and refinement to a list-of-characters cursor |
| C02 | proved | same refinement; consume/peek operations against independent maximal/minimal prefix specifications |
| C03 | proved | fourteen sequential replacements modelled literally; equal to one map per character, by induction |
| C04 | proved | independent entity decoder, left inverse by induction |
| C05 | proved | literal sequential replacements; independent percent-decoder, left inverse by induction |
| C06 | proved | `validate_link` and `Display`; over all sources, lifted to every link token of every document and to the output |
| C07 | partial | the mail branch splits the source again: `data:x:image/..@`; holds for sources that are not mail-like; exact condition in `C07_exact` |
| C08 | proved | case analysis of `validate_link` |
| C09 | partial | round trip through percent-decoding; false for mail-like sources with several colons, and only for these (`C09_exact`) |
| C10 | partial | fuel-indexed renderer with explicit `hang`; fuel adequacy by strong induction on a measure; unclosed sections around complete ones hang behind any blocks; holds if sections are closed |
| C11 | partial | explicit `panic` for each `unwrap`; text after a heading label panics, behind any blocks; holds without such headings |
| C12 | proved | progress/suffix lemmas for each lexing routine; tokens come with their consumed pieces |
| C13 | proved | fuel adequacy bound, and lower bound by induction on nesting |
| C14 | partial | independent model of an HTML tokenizer; text in front of `[^`, titles and autolinks are copied raw, so that any HTML can be put there (`C14_refuted_always`); holds without markup there |
| C15 | partial | double quotes in link and image targets end the attribute; holds for targets without them |
| C16, C17, C19 | proved | counting occurrences of tags in the output; loop invariants relating counts to the flags |
| C18 | partial | a task after an ordered entry opens a `<ul>` that is never closed; `ol` balanced, `ul` balanced unless the document has both tasks and ordered lists |
| C20 | proved | case analysis of the epilogue |
| C21-C23 | proved | invariant of all tokens produced, at any depth |
| C24, C26-C32, C34, C38 | proved | what a text, list, heading etc. renders to, by induction over the text or the list of items |
| C25 | partial | spaces between words are dropped, for every paragraph of words |
| C33 | partial | blocks fenced with three backticks are dropped, wherever they are; those with four or more are shown |
| C35 | partial | text escaped twice, level modulo 256; any number of lines at any levels in terms of the rendering of the escaped text |
| C36 | partial | `\` at the end shows `EOF` (for every text), `\\` shows nothing; every other visible character is literal |
| C37 | partial | all endnotes have the identifier `fn:1`; names with white space are no definitions; one endnote per definition, in order |
| C39 | partial | with any title the `href` is empty and the rest of the line is lost (`C39_refuted_always`); without title for every accepted target |
| C40 | partial | every rejected target that ends in a footnote reference still yields an anchor (`C40_refuted_always`); targets of several lines included |
| C41 | partial | unterminated sections lose their content, whatever it is and behind any blocks; sections nested twice are misread; closed ones with sections next to each other |
| C42, C43 | partial | a short write is reported as success; holds if writes are complete |
| C44 | partial | `.html` input overwritten (by every successful run, `C44_refuted_always`), `tmp.html` deleted; every other input, at every moment of a run |
| C45 | proved | all failures before the output is created; a failing write of the output itself leaves it empty |
| C46 | partial | existing configuration kept; race with another writer refuted |
| C47 | proved | |
| C48 | partial | left behind if the browser fails; removed by every successful conversion; by the kind of failure in `Props/Again` |
| C49 | proved | at every moment of every run, and of any number of runs at the same time |
| C50 | partial | interleaving semantics of two processes, and of any number; they share `tmp.html` in one directory; holds for separate files |
| C51 | partial | 101 after a panic, 2 for a missing input |
| C52 | proved | decision function |
| C53 | partial | interleaving of threads: own target always fits, but columns may get narrower (lost update); one thread |
| C54 | proved | |
| C55 | proved | also for objects with a serialization that can be inverted |
| C56 | proved | tables of any size |
| C57 | partial | the label replaces the text and there is no `id` |
| C58 | proved | counting, for every element but `ul` |
| C59 | partial | stack discipline; a list after a quote is closed after the quote; holds for the documents of C60 with tables, images, sections, quotes, code and footnotes, unless a paragraph follows a list |
| C60 | proved | inline and block grammar as inductive types; rendering of the concrete text equals the specified HTML; the grammar includes quotes followed by a paragraph and lists followed by a paragraph, heading or thematic break, and fenced code, of which nothing is shown |
| C61 | partial | the working directory is put into a URL unescaped; the exact condition by comparing lengths: every step of reading a URL may only shorten it |
| C62 | partial | `a.md` and `a.markdown` have one output; exact condition in terms of stems |
| C63 | proved | |
| C64 | partial | `undefined` is passed on; exact condition (`C64_exact`) |
| C65 | proved | |
| C66 | partial | the wrapper looks for `git-cliff`, for every platform; else it would find the package |
| C67 | partial | `<pre><code>` is closed at the end of the document only, for every code span and running text; outside code in a quote before it |
| C68 | partial | the second line is never looked at but for colons, for every table; the other lines are shown |
| C69 | partial | a hyphen in a word starts a list entry, for all words; escaped or doubled it is text |
| C70 | partial | text after a list is inside it or leaves an open paragraph (all lists and paragraphs); headings and thematic breaks come after the closed list |
| C71 | partial | numbered headings, headings that end with code and headings with a tab inside are empty, for all texts; running text is shown |
| C72 | partial | a line break leaves nothing in the output, for all running text; `rows_usable`: cells hold no line ends, so that the arm writing `<br>` is dead, and `br` is not in the list of tags of C14 |
| C73 | partial | any number of lines of the three indentations, and of two tabs (`LexTo.tabLines`); five spaces or more, and hashes, are shown as text |
| C74 | partial | square brackets and backticks are kept; an unclosed `<` is lost, for every text; several lines: `plainTrim_full`, `plainTrim_blank` |
| C75 | partial | hashes and a space start a heading anywhere in a line, for all running text; otherwise they are text |
| C76 | partial | after an entry with `*` such a line ends the list, whatever it is; other markers by induction over the continuation paragraphs, lexer loop and nested rendering |
| C77 | partial | an inner entry is lost, whatever its text; kept after a blank line and a tab (C103) |
| C78 | partial | running text then one list entry, parser state inside a paragraph |
| C79 | partial | digits as running text, then the entry; one digit: corollary of C29 |
| C80 | partial | running text, image, running text; between blank lines it holds |
| C81 | partial | runs of CR LF are white space to the inline theorem; line feeds separate paragraphs |
| C82 | partial | running text then a rule; running text then a word |
| C83 | partial | running text then indented code; after a space the line is one plain token |
| C84 | partial | lexer reads the rest of the line as one text; interpreted behind an escaped bar and in the next line |
| C85 | partial | counting the non-empty cells of the line; cells of spaces: corollary of C56 |
| C86 | partial | witnesses; cells with links in the table theorem C56, where the link stands for the whole cell |
| C87 | partial | corollary of the inline theorem; `splitStr_refs`, `footRefs_refs` for several references in one text |
| C88 | partial | quote lines then heading, parser state inside a quote; a paragraph is outside |
| C89 | partial | corollary of C29 and C30; bullets: corollary of C28 |
| C90 | partial | corollary of C29 |
| C91 | partial | corollary of C24 |
| C92 | partial | bullets then ordered entries, both flags set at the end; two lists with a heading between them are closed in turn |
| C93 | partial | corollary of C24; between angle brackets it is a link |
| C94 | partial | corollary of C32; code without backslashes decodes to itself |
| C95 | partial | inline theorem and the open-marker lemma; unequal numbers of two or three markers are text |
| C96 | partial | witnesses; three hyphens, four others, or asterisks with a line after them between paragraphs |
| C97 | partial | declared arguments and a reader for command lines as clap has it; induction over the arguments |
| C98 | proved | equivalence of the reader with an inductive description of the accepted command lines |
| C99 | partial | consequence of C98 |
| C100 | partial | types of the options, conversion to arguments, reader for command lines; induction over the options |
| C101 | proved | C97 and C98 together with the exit status of a command |
| C102 | proved | C99 and the decision function of C52 |
| C103 | partial | false with `*` (as C76); other markers by induction over the further lines for the lexer's loop and for the entry, then over the entries |
| C104 | proved | invariant over all interleavings of any number of processes: a process that has emptied the file and not yet written will write the whole text, or fails |
| C105 | proved | the invariant of C104 |
| C106 | proved | `write_all` appends what is missing until nothing is; `Track` follows a condition through all executions |
| C107 | proved | induction over the shells with the invariant of C106 for each file |
| C108 | partial | refuted: any status but 0 becomes 1; the promise is rejected and `run` has no handler |
| C109 | partial | refuted for every platform and command line, a consequence of C66 |
| C110 | partial | refuted for every factor with tables whose cell consists of links, and without tables with code in nested entries (`codeChain`); part: `C110_partial` bounds the output of every document by `5·10^9·(n+1)²·(log2(n+1)+1)`. `Lemmas/Size` compares each token with the characters consumed for it, `Lemmas/Bound` gives the renderer a potential (length of the output plus what is still owed: open quotes, endnotes) and bounds what a token adds, with a weight on `<` for the padding that every enclosing list entry adds; `Lemmas/Growth` closes the recursion, first for texts of one line, then for all |
| C111 | proved | `Spec/Renaming` says which characters are free and what a renaming is, without reference to the model; `Lemmas/Rename` shows that the string functions commute with one, `RenameLex` and `RenameParse` lift that through every lexer routine, the renderer and their recursion. The theorem covers all three outcomes |
| C112 | partial | refuted with `    see #1`, code at the start and text after a newline; `C112_exception_partial` shows that this happens for every such line. Part: `C112_partial` for every document that does not begin with indented lines one of which has four spaces and a `#` (`Spec/Indented`), all outcomes; `C112_many_partial`: from the first newline on their number never matters. `Lemmas/Leading` shows on what of the tokens before it lexing depends, `Lemmas/Extends` that the renderer only appends |
| C113 | proved | `C113_reported` for what is logged, `C113_shown` for what reaches standard error. `Lemmas/Talk`: what a program that logs has said when it ends (`LHolds`), and that nothing is said with level error on the way to a success |
| C114 | partial | refuted by a run in which `File::create` fails: `IO error: `Permission denied (os error 13)`` is all there is. Part: `C114_partial`, in every other case an error names the file; in this case nothing has changed and the line before (level debug) names it |
| C115 | partial | refuted by a short write of a rendering of two lines. Part: `C115_partial`, the bytes always, the lines if the system writes everything; `C115_pdf` for PDF |
| C116 | partial | refuted with `RUST_LOG=trace`, which the first `-v` replaces by `debug`. Part: `C116_partial`; `C116_levels` gives what is shown for every number of `-v` |
| C117 | proved | `C117_shown` (HTML), `C117_pdf` and `C117_init` (the other two commands), from the transcripts in `Lemmas/Talk` (`html_holds`, `pdf_holds`, `init_holds`); the warnings are those of `Gfm/Said`, numbers of lines are those of `Spec/Lines` |
| C118 | proved | `C118_same`: erasing the log calls of `mainL` gives `run` (`erase_mainL`), and executions correspond in both directions; `C118_render`: erasing those of `renderL` gives `render` |
| C119 | partial | `C119_refuted`: the text `a b` causes a warning. `C119_partial`: the warnings are exactly one for each run of spaces and each single line end, in order; by induction over the loop of the lexer. `C119_shown`: the program shows exactly these by default |
| C120 | partial | `Lemmas/Effort` charges each log line to the characters that the token consumes: first one line of text (nested calls get a shorter line, and a quote only once, since its text is escaped), then lexing in general, then parsing by induction on the number of nested calls. `C120_refuted`: `linksTable k` has 10+6k characters and logs at least k*k lines |
| C121 | partial | executions are taken apart call by call (`success_inv`); the output of a PDF conversion is never `tmp.html` (`pdf_ne_tmp`) |
| C122 | partial | `Sem.same`: calls do not depend on the environment, the configuration directory or the reading of TOML; a failure to read the configuration is matched by a failure to read the input |
| C123 | partial | the input is as it was (C44), so the same text is rendered; the second write goes to the file of the first (`write_inv`), the temporary file is a new one and is removed (C121) |
| C124 | proved | `Said.bind_ok` takes the log of a sequence apart; `Good` states the grammar for the routines of the lexer, whose results without calls are shallow because they are the same with entry points that never return (`noRec`, `shallow_of_size`); a mutual induction over tokens for the parser, and one over the nesting of calls (`recL_told`) |
| C125 | partial | `agree_more`: the text before the last token does not see the line feeds (C126's locality); `nextToken_more`: routine by routine, the last token is the same and only line feeds are left; these make one token (`lexes_nls`), which changes nothing but closes a paragraph (`finish_newline`), as the end of the document does |
| C126 | proved | `Sim b b' s s'`: two texts with the same beginning that end in `b` and `b'`; `Agree b b'`: these look alike (first character, two spaces, line feed and tab); one lemma `*_local` per routine (Lemmas/Local, Lemmas/LocalBlocks): a routine that stops at `b` stops at `b'` with the same result; `nextToken_local`; induction over the tokens (`LexesUpTo.local`, `Cut.same`) |
| C127 | proved | `Strict`: every failure in a program leads to its end with the error, `Honest`: without failures only the stated results are possible; both are closed under `?` (`Strict.andThen`, `Honest.bind`) and carried along executions (`Strict.steps`, `Honest.cause`) |
| C128 | partial | `rest_of_probe`: only from the state in which nothing is open the letter comes out as a paragraph (the ends and the lengths of both outputs are compared in every state); `parseToks_pre`, `finish_pre`: from there the renderer goes on as from the start, behind what is written; `render_after`: C126's locality for the lexer |
| C129 | partial | `lexPlusMinus_tab`, `lexPlusMinus_nested`: the next line is lexed and its tokens join the entry; every token is then rendered as a document of its own (`entryOut_chars`) |
| C130 | partial | `CodeNest`: code and entries in one another; `pad_nest` follows the replacement through the HTML, `render_nest` is by induction on the nesting |
| C131 | partial | `quoted_line` (from C35_lines): a quoted line shows the rendering of its escaped text; the escaped code is code again, and is escaped once more |
| C132 | partial | The inner markers are escaped before the text is rendered, so that they are a word of the text (`escape_copied`, `render_inlines`) |
| C133 | partial | C35_lines at level 1; each line is a document of its own |
| C134 | proved | The shape of the tokens of any document (`found_shape`): an image comes from a link that has a text |
| C135 | partial | after a list the line is a paragraph, after a quote the quote is closed inside the code, for all lists, quotes and lines; code after all other blocks |
| C136 | partial | after `*` the box is text, for every box and text; tasks with `-` and `+` |
| C137 | partial | `>` and a space start a quote after any text in the line; other `>` are text, between any running texts |
| C138 | proved | the first quoted line closes the paragraph (`parseTok_quote_inP`); the others as in C35 |
| C139 | partial | `# #` and labels are the exceptions; for all other headings and any rest both documents have the same outcome, as the same token is found and the same text is left |
| C140 | partial | three backticks are shown, or everything up to the next three is lost, for all texts; code for other numbers |
| C141 | partial | asterisks before a line end are a thematic break inside the paragraph, for all texts and numbers; two or three at the end of the document are text |
| C142 | partial | resolution after RFC 3986 (Spec/Reference, checked with the RFC's 40 examples); `http:` is put before every relative target, so scheme or authority of the result are wrong; images keep the target |
| C143 | partial | no `#` is left in any href, so the fragment of the resolved address is missing; exact condition for the address being kept, by the lengths of the encoded text |
| C144 | partial | `lex_images` keeps only `content`; after RFC 3986 the scheme of the document is used instead |
| C145 | partial | `lex` does not know where a line begins; `LexTo.lastAu` for `_`, C78 for the others |
| C146 | partial | the text up to the next marker is kept in the token and escaped; `au_unmatched_then` gives the error text of a run of another length |
| C147 | partial | from C39: the text is escaped as a whole |
| C148 | partial | `Inline.brackets` pieces in two paragraphs, by C60 |
| C149 | partial | `quotes_text`: quoted lines, then running text, which closes the quotes |
| C150 | partial | `>` before a line feed is the text of an error; `quotes_text` and `quotes_inP` |
| C151 | partial | `Inline.angle`: text in angle brackets that is no link is escaped |
| C152 | partial | the text of a link ends at the first `]`; `LexTo.linkTo` |
| C153 | partial | `render_tight`: an entry without a space; `render_tab`: code of a tab; `au_tab`: no entry after `*` and a tab |
| C154 | partial | `LexTo.ruleIn`, between two lists of inlines |
| C155 | partial | `render_tight`: an entry without a space after its sign |
| C156 | partial | tildes and line ends as inlines |
| C157 | partial | `render_blocks_over`: two texts lexed to the same rest, to tokens that do the same, are rendered alike; C11_refuted_behind |
| C158 | partial | `cells_then`: what is behind the last bar is a cell; `tableRows_trim`, `tableRows_more`: the rows depend on the trimmed cells, and cells beyond the columns are dropped |
| C159 | proved | `render_blocks_over` with `parse_cr`: a blank text does nothing; C28_bullets and C35_lines with `render_cr` |
| C160 | partial | the mark as a word in front of inlines; C75_refuted_always |
| C161 | partial | `render_piece`: a piece of running text between others, applied to emphasis with a blank line in it |
| C162 | partial | `render_piece` with the backslash as the last character of the emphasised text; the rest of the would-be link is one word |
| C163 | partial | `LexTo.linkTo` with running text behind the link |
| C164 | partial | `bars_sem`: lines of running text and a bar, by induction over the lines |
| C165 | partial | `lexPipes_text`: the lines are counted, and the bars in them, by induction over the lines |
| C166 | partial | `render_piece` with a digit and the word `)` |
| C167 | partial | `LexTo.stars` in front of `bullets_sem`; C28 with empty texts |
| C168 | partial | tokens of the line add nothing to an open paragraph (`render_blank_between`); `tab_line`: the line is lexed as code |
| C169 | partial | `LexTo.blanks`: one token per character, by induction; `parseTok_blank` |
| C170 | partial | `LexTo.imageTitle` from `lexLinks_title`, which goes on behind the next line end |
| C171 | partial | `LexTo.note` behind running text, `nextToken_bang_note`: the image lexer gets a footnote and makes the message of it |
| C172 | proved | `Only`: every `<` of the output begins a tag with a name from a set, kept by every step of the parser (`Holds`); `Src`: everything rendered on the way is a part of the document, of an escaped part, or a message, so that its signs are signs of the document; names found by the tokenizer from `Only` |
| C173 | partial | the four calls of `sed` as functions on lines (`Release/Script.lean`), the manifests line by line; the requirements are read back with readers of TOML and JSON that know nothing of `sed`; a family `pkgWith v` of manifests closed under releases |
| C174 | proved | the matrix, `cut`, `envsubst` and `${GITHUB_REF:11}` modelled (`Release/Workflow.lean`); case by case over the six builds with a symbolic version |
| C175 | partial | jobs as lists of steps with the files they read and make, transcribed by hand; `works` stands for everything else that may fail |
| C176 | partial | the index as a function of time and path with files for crates only (`IndexOk`, the layout that Cargo documents); `indexPath` never gives the path of the wait, by cases on the length of the name |
| C177 | proved | an invariant of the renderer's state and notes over tokens, with the characters of a token's texts from `Shape`, of addresses from `validateLink`, and strong induction over the renderer's calls of itself (`Lemmas/Chars.lean`) |
| C178 | partial | `Less x y`: the characters outside ASCII of `x` are a sublist of those of `y`, or occur at most as often; for every routine of the lexer the text of the token followed by the rest is `Less` than the text before (`Ord`), then over the tokens of the renderer and the depth of its calls of itself (`Lemmas/Order.lean`) |
| C179 | proved | `MailAddress` from CommonMark; the output decodes to the address (`C179_mail`) and is the address for the usual characters (`C179_plain`) |
| C180 | partial | the exact output in both cases, behind any running text (`Lemmas/Angles.lean`) |
| C181 | partial | the exact output, behind any running text (`Lemmas/Angles.lean`) |
| C182 | partial | `HasScheme` is stated without the model; without it `validateLink` accepts no scheme (`validate_tag`) |
| C183 | partial | the exact output in all three cases |
| C184 | proved | the lexer makes one plain text of it (`lex_fence`); the text may not have the form of a footnote reference |
| C185 | partial | the exact output in both cases (`lex_note_indent`, `plainOut_note_indent`) |
| C186 | proved | the exact output; with a space the entry is a task (C76) |
| C187 | partial | the names of all 701 tests and the one example in the documentation are in `Release/Ci.lean`; the filter is that of libtest |
| C188 | partial | refuted for all such addresses at any place of running text; `validate_link` demands ASCII; an independent percent-decoder for the encoded ones |
| C189 | partial | the same running text as paragraph, heading and entry in one statement; the other elements show the brackets escaped, for all texts |
| C190 | proved | `Blames`: along each path of the program that logs, an error at the end has a call before it that justifies it; the run reaches that call (`LSteps`) |
| C191 | partial | every line that starts with `- ` is `printCommit` of a commit (`changelog_entry`); the last slashes of two equal texts are at the same place |
| C192 | partial | `groupBy` permutes (`groupBy_perm`); `conventional` is exactly the form of Spec/Changelog (`conventional_of`, `of_conventional`); a section is found in the text by its heading (`changelog_section`) |
| C193 | partial | releases of a history in two parts (`releases_append`) and the section of each (`changelog_section`) |
| C194 | partial | both are permutations of what the templates see (`sectionBody_perm`, `tagMessage_entries`) |
| C195 | partial | the lines behind a heading are those of its group (`groupEntries_body`), in the order of the reversed history (`groupBy_mem`) |
| C196 | proved | two machines in Spec/Wellformed read a part of JSON and of TOML (no escapes, no numbers with signs or points, nothing about names that occur twice); they stay in their string state over any version (`json_version`, `toml_version`), and what is around the versions is computed |
| C197 | partial | `sections` keeps the order and passes the version on even if it writes nothing (`sections_heads`, `sections_heads_all`); the tags of `closedReleases` are those that match the pattern (`closedReleases_tags`) |
| C198 | partial | Spec/Semver has the versions and requirements of Cargo (Semantic Versioning 2.0.0, The Cargo Book); a version with a hyphen is taken only if the requirement has its three numbers, and then the text begins with them (`semver_text`, from `joined_pieces`) |
| C199 | partial | from C165_refuted_lines, as the number of bars in a row is the number of its cells (rowSrc_count), and C68_partial |
| C200 | partial | from C165_refuted_lines (fewer than three lines) and C68_partial |
| C201 | partial | from C39_partial and display_parts; a text that begins with `<` has no scheme for sourceScheme |
| C202 | proved | Release/Packages has the file that is copied; the manifest does not depend on the tag in the lines of the system and the processor |
| C203 | partial | wheelSteps in Release/Packages has the three conditions |
| C204 | partial | publications_eq has the publications; offered_other and offered_some in Lemmas/Packages say what is offered after them |
| C205 | proved | readers of the two lists in Spec/Assets, which know nothing of sed; the lists do not depend on the version (debAssets_smd, rpmAssets_smd) |
| C206 | proved | rootToml in Release/Packages; readers of sections in Spec/Manifest; the lines that they read do not depend on the version |
| C207 | partial | jsonLeaves, a reader of JSON files of one entry per line, in Spec/Node; leaves_pkg: what it reads of the manifest after a release; the rule of tsup is a hypothesis on the build |
| C208 | partial | nodeResolve in Spec/Node: the first entry all whose conditions hold; nodeKind: what node makes of the end of a name |
| C209 | partial | binNames in Spec/Node; the lists of C205; jsonLeaves |
| C210 | partial | cargoLock in Release/Packages; readers of the lock file and of dependencies in Spec/Lock; deps_smd: the dependencies do not depend on the version |
| C211 | partial | headingTrim removes the last word if it is made of hashes; lexHeading_line and render_first: the two documents have the same first token and the same rest |
| C212 | partial | C87_refuted_always gives the whole output; the identifiers are the escaped names, and escaping is injective up to backslashes (C04_injective) |
| C213 | partial | C37_partial gives the endnotes; the links back are counted as the quoted texts of the page, of which no escaped text makes another |

## Findings: where the code does not do what it should

Each has a proved witness. The most serious first.

1. **Hang**: `<details>` inside an unclosed `<details>` loops forever (C10). **Panic**: `# a {#b} c` (C11), and every heading with a label in a file with Windows line ends (C157).
2. **Injection**: text in front of a footnote reference, definitions of footnotes whose name has white space (C37) or whose second line is indented by one or three spaces (C185), link titles and autolinks reach the output unescaped (C14); a double
   quote in a link or image target ends the attribute (C15).
3. **Data loss in documents**: spaces between words (C25: `foo bar` becomes `<p>foobar</p>`), no-break spaces (C169), text after an image with a title (C170), fenced code blocks (C33), text
   after a titled link (C39), everything after an unclosed link target with a space (C180), unterminated sections (C41), tables of other shape (C22), the second line of every table (C68), heading text in front of a label (C57),
   headings that start with a number, have a tab inside or end with code (C71) or with a tab and hashes (C211), nested lists (C77), an unclosed `<` (C74), tables with an empty cell (C85), backslashes in code (C94), the numbers of ordered lists (C90), tables of one row at the end of files with Windows line ends (C158).
4. **Wrong structure**: `<pre><code>` left open to the end of the document (C67), hyphens in words start lists (C69), emphasis goes on behind blank lines (C161), lines of spaces do not separate paragraphs (C168), tables without outer bars (C164), without rows (C200), with rows of different lengths (C199) or with an escaped bar (C165) and lists with `1)` (C166) are text, a `*` alone on its line is a thematic break (C167), so does `-5` (C155), a tab after a list sign makes code or a paragraph (C153), `a --- b` has a thematic break in its paragraph (C154), fences of tildes are text (C156), paragraphs
   after lists (C70), unbalanced `<ul>` (C18), misnested quotes and lists (C59), endnotes that all have the identifier `fn:1` (C37), references to one footnote that have one identifier (C212), two endnotes for a footnote that is defined twice (C213), references in emphasised text, quotes, cells, notes and ordered lists that are text (C189),
   `# ` inside a line (C75), an indented line with `#`, code at the start and text after a newline (C112), lines indented by more than four spaces (C73), no line breaks, in no document (C72), `[^1]:` inside a line is a definition (C171),
   lists directly after text (C78), list numbers of several digits (C79), images in paragraphs (C80), blank lines with carriage returns
   (C81), indented lines after lists and quotes (C135), boxes and further lines of entries with `*` (C136, C76, C103), tabs between words (C83), headings after quotes (C88), lists of different kinds (C92), text next to links in cells (C86), the next line of a list entry, cut into characters (C129), quotes in quotes with a space between the markers (C132), the lines of a quote, each a paragraph or list of its own (C133), `>` and a space inside a line (C137), `>` without a space is text and with a tab code (C183), three backticks inside a line (C140), asterisks at the end of a line (C141),
   signs and numbers with spaces inside a line start lists (C145), a line after a quoted line leaves the quote (C149), a line of only `>` splits it (C150), Windows line ends give tables an empty column (C158), a byte order mark is text in front of the first line (C160).
5. **Wrong text**: emphasis ends at an escaped marker (C162), sections without a summary are none and `<details>` inside a line becomes `details` (C181, C182), nested emphasis (C146), markup in link texts (C147), link references (C148) and comments (C151) are shown as written; an image in a link becomes a link to the image (C152); `\` at the end shows `EOF` (C36), quotes are escaped twice (C35), code in them too (C131), sections end in a stray backslash, line end, tabs and ` n` (C41); a link or code span in a table cell is
   replaced by the whole cell, so that the output and the log are quadratic in the document (C86, C110, C120); code in list entries gets two spaces per entry (C130) and after `*` loses a tab.
6. **Links**: one `@` and several colons let `data:text/html` through and change the target (C07, C09); titled links have an empty `href` (C39); targets end at their first closing parenthesis (C163) and keep angle brackets (C201); relative links get
   the scheme `http` and lead nowhere (C142), `#` and `%` are encoded, so that no link has a fragment (C143); links to addresses with letters outside ASCII lose their text, percent-encoded ones lead elsewhere (C188); images lose their scheme, `data:` images their data (C144).
7. **Files**: short writes are reported as success (C42, C43), with the number of lines of the whole text (C115); an `.html` input is overwritten and an input `tmp.html` deleted (C44); `tmp.html`
   stays behind after a browser failure, and a user's own is destroyed (C48); concurrent conversions share it (C50); unescaped
   working directory in the URL (C61); two inputs with one output (C62); a failing write empties the old output (C45); `initialize` races (C46).
8. **Process**: exit status 101 and 2 (C51); the configuration is loaded and has no influence, so neither `keep_temp_files` (C121) nor `on_parse_error` (C122) works; `--version` shows the help and never the version (C97); `-v` is refused after the subcommand (C99);
   with an object of options the npm wrapper can run no command at all (C100); log columns get narrower with several threads (C53); an output that cannot be created is not named (C114); the first `-v` can hide lines (C116); spaces between words cause warnings (C119); npm wrapper passes `undefined` (C64) and
   looks for the executable of another project (C66), so that it always fails (C109); and it turns every other exit status into 1 (C108).
9. **Releases**: the versions of `smd-core` and `gfm` are not raised (C173); no build gets past the copy of a missing `LREADME.md`, so nothing is published for GitHub, npm and PyPI (C175);
   the wait for crates.io asks for a path that belongs to no crate, and `smd-core` lacks the fields crates.io requires (C176).
   The checks of pull requests run none of the 701 tests: `cargo test --all-features smd` selects by name, and no name contains `smd` (C187).
   A released commit cannot be built, as `gfm` and `smd-core` keep a version that is not the required one (C198); releases whose commits do not have the form of conventional commits have no section in the changelog (C197);
   pre-releases become the latest version of the packages with the executables (C204); the step for musl wheels never runs (C203); the package for npm is not built, since tsup has no configuration (C207), and its `main` is a type declaration (C208); the crate and the wheels install smd-mangen and smd-completions (C209); the lock file keeps the old version of smd (C210).

Smaller observations made while modelling: the guard `!summary_line.len() >= 20` is a bitwise complement and always true; the
condition `!= "*" || != "_"` is always true; `lex_tabs_spaces` tests for a token it never returns; a backslash at the end of a document shows `EOF` (C125); a line feed at the end turns a last `#` into an empty heading (C125); `![^a]: b` shows an internal error text (C171); the environment is ignored without a configuration file, and the prefix
separator is `__`.
