{"id": "C01", "title": "Reading the document is character exact", "statement": "Advancing through a document yields exactly its Unicode characters in order, one per step and whole; looking at the next character never advances; at the end both report 'nothing', and no step ever panics or lands inside a multi-byte character.", "quantifier": "every UTF-8 document and every reachable read position", "why_tests_cant": "multi-byte boundaries occur at every mix of 1-4 byte characters and every offset; unit tests try a handful of strings", "anchors": ["gfm/src/iter.rs: MarkdownIter::next, peek, next_if_eq"]}
{"id": "C02", "title": "Scanning returns the exact slice it consumed", "statement": "Consuming while a predicate holds returns the longest prefix all of whose characters satisfy it; consuming up to a tail returns the shortest prefix that ends with the tail (everything if there is none); consuming a line returns up to and including the first newline; peeking a line or a fixed number of bytes does not move; the text between a saved index and the current index is exactly what was consumed in between.", "quantifier": "every document, position, predicate and tail string", "why_tests_cant": "the maximality/minimality claim is over all predicates and all texts", "anchors": ["gfm/src/iter.rs: consume_while_case_holds, consume_until_tail_is, consume_until_end, consume_line_ahead, peek_line_ahead, get_substring_from, get_substring_ahead, skip_while_true"]}
{"id": "C03", "title": "Displayed text cannot contain markup delimiters", "statement": "After escaping for display, text contains no < > \" ' [ ] { } | ~ ( ) or backslash, and every & in it starts one of the escapes the renderer itself emits, and escaping piecewise equals escaping the whole.", "quantifier": "every string", "why_tests_cant": "fourteen sequential replacements could re-escape or corrupt each other's output on some string; only a proof covers all strings", "anchors": ["gfm/src/lib.rs: Parser::sanitize_display_text"]}
{"id": "C04", "title": "Escaping loses nothing but backslashes", "statement": "Decoding the entities of an escaped text gives back the original text with its backslashes removed; so two texts that differ in anything but backslashes never display the same.", "quantifier": "every string", "why_tests_cant": "injectivity quantifies over all pairs of strings", "anchors": ["gfm/src/lib.rs: Parser::sanitize_display_text"]}
{"id": "C05", "title": "Percent-encoding of link targets is reversible", "statement": "Percent-encoding a link target encodes % and # [ ] ! $ ' ( ) * space and backslash, leaves every other character alone, and percent-decoding the result gives the target back.", "quantifier": "every string", "why_tests_cant": "round-trip over all strings, including ones that already contain % sequences", "anchors": ["gfm/src/token.rs: percent_encode"]}
{"id": "C06", "title": "No javascript: links", "statement": "No link taken from a document is ever given an href whose scheme is javascript in any letter case.", "quantifier": "every document and every link in it, at any nesting depth", "why_tests_cant": "URL filters are bypassed by inputs nobody thought to test", "anchors": ["gfm/src/token.rs: validate_link, ValidURL (Display)", "gfm/src/lexer.rs: lex_links, lex_side_carrot"]}
{"id": "C07", "title": "data: links are images only", "statement": "A link accepted with the data scheme has an href that starts with data:image/.", "quantifier": "every link source text", "why_tests_cant": "a bypass is a single unusual input among all strings", "anchors": ["gfm/src/token.rs: validate_link"]}
{"id": "C08", "title": "Shape of accepted links", "statement": "An accepted link source is pure ASCII without whitespace, and its href always starts with a scheme: http, mailto, or a scheme copied from the source which has 2 to 32 characters from the CommonMark scheme alphabet; a link source with one @ and a backslash is rejected.", "quantifier": "every link source text", "why_tests_cant": "decision logic over all strings with several interacting guards", "anchors": ["gfm/src/token.rs: validate_link, COMMONMARK_SCHEME_ASCII"]}
{"id": "C09", "title": "Links point where the author wrote", "statement": "For a link with an explicit scheme, percent-decoding the href after the scheme gives back the author's text after the scheme.", "quantifier": "every accepted link source text", "why_tests_cant": "fidelity over all strings; the mail branch and the percent-encoding interact", "anchors": ["gfm/src/token.rs: validate_link, ValidURL (Display), percent_encode"]}
{"id": "C10", "title": "Rendering always finishes", "statement": "Rendering a document returns after finitely many steps.", "quantifier": "every document", "why_tests_cant": "non-termination cannot be observed by a test that finishes, and the inputs are unbounded", "anchors": ["gfm/src/lib.rs: Parser::render, Parser::lex", "gfm/src/lexer.rs: next_token, parse_details, lex_links (footnote loop), lex_pipes"]}
{"id": "C11", "title": "Rendering never panics", "statement": "Rendering a document never panics (no failed unwrap, no out-of-range index or slice).", "quantifier": "every document", "why_tests_cant": "the panicking inputs are a thin set among all strings", "anchors": ["gfm/src/lexer.rs: lex_heading, parse_details, lex_plus_minus, lex_pipes, lex_numbers", "gfm/src/lib.rs: Parser::parse"]}
{"id": "C12", "title": "Lexing makes progress and visits each character once", "statement": "Every token is made from a non-empty contiguous piece of the document; the pieces, in order, make up the document exactly; hence there are never more tokens than characters.", "quantifier": "every document and every ignore list", "why_tests_cant": "covers every path through every lexing routine for all texts", "anchors": ["gfm/src/lexer.rs: next_token and all lex_* routines", "gfm/src/lib.rs: Parser::lex"]}
{"id": "C13", "title": "Nesting depth of recursive rendering is bounded by the document", "statement": "The renderer calls itself to a depth at most linear in the document's length, and the linear growth is real: for every depth there is a document that needs it.", "quantifier": "every document / every depth", "why_tests_cant": "depth bounds need an argument over all nestings of lists, quotes, headings and details", "anchors": ["gfm/src/lib.rs: Parser::render, Parser::parse (list item, block quote, details)", "gfm/src/lexer.rs: lex_heading, lex_plus_minus, lex_pipes, parse_details"]}
{"id": "C14", "title": "Output is safe from tag injection", "statement": "Every HTML tag in the rendered output is one the renderer itself writes; text of the document never becomes a tag.", "quantifier": "every document", "why_tests_cant": "the documentation promises output 'safe from script injection'; a single unsanitised path on one input breaks it", "anchors": ["gfm/src/lib.rs: Parser::render, Parser::parse, sanitize_display_text"]}
{"id": "C15", "title": "Output is safe from attribute injection", "statement": "Text of the document never ends an attribute value: link and image targets and titles never contain a raw double quote or angle bracket inside the emitted attribute.", "quantifier": "every document with links or images", "why_tests_cant": "same as C14, for the attribute context", "anchors": ["gfm/src/lib.rs: Parser::parse (Token::Link, Token::Image)", "gfm/src/token.rs: ValidURL (Display), fmt_unsafe"]}
{"id": "C16", "title": "Paragraph tags are balanced", "statement": "In the rendered output the number of <p> tags equals the number of </p> tags.", "quantifier": "every document without raw <", "why_tests_cant": "flag-driven state machine over unbounded token sequences", "anchors": ["gfm/src/lib.rs: Parser::parse (in_paragraph)"]}
{"id": "C17", "title": "Block quote tags are balanced", "statement": "In the rendered output the number of <blockquote> tags equals the number of </blockquote> tags, whatever the sequence of quote levels.", "quantifier": "every document without raw <", "why_tests_cant": "level arithmetic on u8 over unbounded sequences of quote levels", "anchors": ["gfm/src/lib.rs: Parser::parse (quote_level)", "gfm/src/lexer.rs: lex_blockquotes"]}
{"id": "C18", "title": "List tags are balanced", "statement": "In the rendered output every <ol> is closed and every <ul> is closed.", "quantifier": "every document without raw <", "why_tests_cant": "three list flags interact over all token sequences", "anchors": ["gfm/src/lib.rs: Parser::parse (in_ordered_list, in_unordered_list, in_task_list)"]}
{"id": "C19", "title": "Code tags are balanced", "statement": "In the rendered output the numbers of <pre>, <code>, </code> and </pre> agree.", "quantifier": "every document without raw <", "why_tests_cant": "the code flag is opened in one place and closed in another; all token sequences", "anchors": ["gfm/src/lib.rs: Parser::parse (in_code)"]}
{"id": "C20", "title": "Output is never empty and is terminated", "statement": "Rendered output is never empty, and it ends with a newline or with </code></pre>.", "quantifier": "every document", "why_tests_cant": "all documents, including empty and whitespace-only ones", "anchors": ["gfm/src/lib.rs: Parser::parse (epilogue)"]}
{"id": "C21", "title": "Heading levels are 1 to 6", "statement": "Every heading found in a document has level between 1 and 6, equal to the number of leading # characters; a run of seven or more # is never a heading.", "quantifier": "every document", "why_tests_cant": "all run lengths, all positions and nestings", "anchors": ["gfm/src/lexer.rs: lex_heading"]}
{"id": "C22", "title": "Tables have a consistent shape", "statement": "Every table found has at least one body row (so rendering it cannot index out of range), a rendered table's first body row has as many cells as the header, and no row has more cells than the alignment row.", "quantifier": "every document", "why_tests_cant": "all pipe/blank-cell combinations", "anchors": ["gfm/src/lexer.rs: lex_pipes", "gfm/src/lib.rs: Parser::parse (Token::Table)"]}
{"id": "C23", "title": "Table cells hold inline content only", "statement": "Cells contain only text, code, links and emphasis.", "quantifier": "every document", "why_tests_cant": "all cell texts", "anchors": ["gfm/src/lexer.rs: lex_pipes", "gfm/src/token.rs: Token::is_usable_in_table"]}
{"id": "C24", "title": "Plain words render as one escaped paragraph", "statement": "A document of ordinary characters (no Markdown control characters, no whitespace) renders as <p>, the escaped text, </p> and a newline.", "quantifier": "every non-empty text of ordinary characters", "why_tests_cant": "all strings over the unbounded ordinary alphabet", "anchors": ["gfm/src/lexer.rs: next_token", "gfm/src/lib.rs: Parser::render, Parser::parse"]}
{"id": "C25", "title": "Words stay separated", "statement": "Rendering keeps the space between two words of a paragraph.", "quantifier": "every pair of ordinary words", "why_tests_cant": "claim over all texts", "anchors": ["gfm/src/lexer.rs: lex_tabs_spaces", "gfm/src/lib.rs: Parser::parse (Token::Plaintext)"]}
{"id": "C26", "title": "Blank lines separate paragraphs", "statement": "Paragraphs of ordinary text separated by blank lines render to the concatenation of their own renderings, in order, for any number of paragraphs and any number of blank lines between them.", "quantifier": "every list of ordinary paragraphs and gap lengths", "why_tests_cant": "unbounded number of paragraphs", "anchors": ["gfm/src/lexer.rs: lex_newlines", "gfm/src/lib.rs: Parser::parse"]}
{"id": "C27", "title": "ATX headings", "statement": "n hashes, a space and an ordinary text render as <hn>text</hn>, for n from 1 to 6; with seven or more hashes, or without the space, the text is not a heading.", "quantifier": "every level and every ordinary text", "why_tests_cant": "all levels with all texts", "anchors": ["gfm/src/lexer.rs: lex_heading", "gfm/src/lib.rs: Parser::parse (Token::Header)"]}
{"id": "C28", "title": "Bullet lists", "statement": "A list of any number of '- item' lines with ordinary texts renders as a single <ul> with one <li> per item in order, each item's own rendering inside.", "quantifier": "every list of ordinary items", "why_tests_cant": "unbounded number of items", "anchors": ["gfm/src/lexer.rs: lex_plus_minus", "gfm/src/lib.rs: Parser::parse (Token::UnorderedListEntry)"]}
{"id": "C29", "title": "Ordered lists", "statement": "A list of any number of 'd. item' lines renders as a single <ol> with one <li> per item in order, with the item text escaped.", "quantifier": "every non-empty list of digits and one-line texts", "why_tests_cant": "unbounded number of items", "anchors": ["gfm/src/lexer.rs: lex_numbers", "gfm/src/lib.rs: Parser::parse (Token::OrderedListEntry)"]}
{"id": "C30", "title": "Task lists", "statement": "A list of '- [ ] text' / '- [x] text' / '- [X] text' lines renders as a single task list with one item per line in order, checked exactly for x and X, with the text escaped.", "quantifier": "every non-empty list of check states and one-line texts", "why_tests_cant": "unbounded number of items, all texts", "anchors": ["gfm/src/lexer.rs: lex_plus_minus", "gfm/src/lib.rs: Parser::parse (Token::TaskListItem)"]}
{"id": "C31", "title": "Emphasis", "statement": "Text between matching single, double or triple markers (* or _) renders inside em, strong, or strong+em, escaped; unmatched double and triple markers are shown literally.", "quantifier": "every text without * and _", "why_tests_cant": "all texts and marker combinations", "anchors": ["gfm/src/lexer.rs: lex_asterisk_underscore", "gfm/src/lib.rs: Parser::parse (Italic, Bold, BoldItalic)"]}
{"id": "C32", "title": "Inline code is literal", "statement": "Text between single backticks renders escaped inside <pre><code> with no Markdown interpretation of its content.", "quantifier": "every text without backticks", "why_tests_cant": "all texts, in particular ones full of Markdown syntax", "anchors": ["gfm/src/lexer.rs: lex_backticks", "gfm/src/lib.rs: Parser::parse (Token::Code)"]}
{"id": "C33", "title": "Fenced code blocks appear in the output", "statement": "The content of a fenced code block appears (escaped) in the rendered output.", "quantifier": "every fenced code block", "why_tests_cant": "claim over all contents", "anchors": ["gfm/src/lexer.rs: lex_backticks", "gfm/src/lib.rs: Parser::parse"]}
{"id": "C34", "title": "Thematic breaks", "statement": "A run of three or more - (or +), or four or more * or _ , renders as <hr />; two - do not.", "quantifier": "every run length", "why_tests_cant": "unbounded run length", "anchors": ["gfm/src/lexer.rs: lex_plus_minus, lex_asterisk_underscore", "gfm/src/lib.rs: Parser::parse (Token::HorizontalRule)"]}
{"id": "C35", "title": "Block quotes", "statement": "A line of n > characters, a space and text renders inside n nested blockquotes, with the text's own rendering inside.", "quantifier": "every level and every ordinary text", "why_tests_cant": "all levels (including beyond 255) and texts", "anchors": ["gfm/src/lexer.rs: lex_blockquotes", "gfm/src/lib.rs: Parser::parse (Token::BlockQuote)"]}
{"id": "C36", "title": "Backslash escapes", "statement": "A backslash before any non-whitespace character (other than #) makes that character literal text; a backslash at the end of the document adds nothing to the output.", "quantifier": "every character", "why_tests_cant": "every Unicode character", "anchors": ["gfm/src/lexer.rs: lex_escaped_character"]}
{"id": "C37", "title": "Footnotes", "statement": "Each footnote definition yields exactly one endnote, in order of definition, and each reference's target id exists in the output.", "quantifier": "every sequence of footnote definitions", "why_tests_cant": "unbounded sequences", "anchors": ["gfm/src/lexer.rs: lex_links (footnote branch)", "gfm/src/lib.rs: Parser::parse (Footnote, references)"]}
{"id": "C38", "title": "Strikethrough", "statement": "Text between double tildes renders inside <strike>, escaped; other tilde runs are literal.", "quantifier": "every text without ~", "why_tests_cant": "all texts and run lengths", "anchors": ["gfm/src/lexer.rs: lex_tilde", "gfm/src/lib.rs: Parser::parse (Token::Strikethrough)"]}
{"id": "C39", "title": "Inline links render as anchors", "statement": "[text](target) with an accepted target renders as an anchor whose href is the target's normalised URL and whose text is the escaped text; with a title the href is still present.", "quantifier": "every text without ] and every accepted target", "why_tests_cant": "all texts and targets", "anchors": ["gfm/src/lexer.rs: lex_links", "gfm/src/lib.rs: Parser::parse (Token::Link)"]}
{"id": "C40", "title": "Rejected links fall back to text", "statement": "[text](target) with a rejected target produces no anchor: the target is shown as escaped plain text.", "quantifier": "every text without ] and every rejected target without ) or space", "why_tests_cant": "all rejected targets", "anchors": ["gfm/src/lexer.rs: lex_links, next_token", "gfm/src/token.rs: validate_link"]}
{"id": "C41", "title": "Collapsible sections", "statement": "A details block renders as <details> with its escaped summary and the rendering of its content; an unterminated block does not lose its content.", "quantifier": "every summary and content", "why_tests_cant": "all contents, nestings", "anchors": ["gfm/src/lexer.rs: lex_side_carrot, parse_details", "gfm/src/lib.rs: Parser::parse (Token::Detail)"]}
{"id": "C42", "title": "HTML conversion writes exactly the rendering next to the input", "statement": "After a successful 'smd parse -i FILE -o html', FILE with its extension replaced by html contains exactly the rendering of FILE, and no other file changed.", "quantifier": "every file system, input path, content and rendering", "why_tests_cant": "all paths and contents", "anchors": ["smd/src/lib.rs: run", "smd-core/src/fs.rs: read_to_string, write_to_file"]}
{"id": "C43", "title": "A reported write is a complete write", "statement": "If writing a file reports success, the file contains the whole content.", "quantifier": "every content and every behaviour of the operating system's write call allowed by its contract", "why_tests_cant": "short writes depend on the OS; tests on a local disk never see one", "anchors": ["smd-core/src/fs.rs: write_to_file, write_bytes"]}
{"id": "C44", "title": "The input file is never modified", "statement": "Converting a file never changes the file being converted.", "quantifier": "every file system, path, format, and failure", "why_tests_cant": "all path shapes, e.g. inputs already ending in .html", "anchors": ["smd/src/lib.rs: run", "smd-core/src/convert.rs: PDFConverter::from_html"]}
{"id": "C45", "title": "A failed conversion leaves the previous output intact", "statement": "If reading, configuration or PDF conversion fails, an existing output file is unchanged.", "quantifier": "every file system and every failing step", "why_tests_cant": "all failure points", "anchors": ["smd/src/lib.rs: run"]}
{"id": "C46", "title": "initialize never overwrites a configuration", "statement": "'smd initialize' with an existing configuration file fails and changes nothing; otherwise, on success, the default configuration is there; running it twice reports the second run as an error.", "quantifier": "every file system and history", "why_tests_cant": "all states", "anchors": ["smd-core/src/config.rs: Config::initialize"]}
{"id": "C47", "title": "Configuration loading", "statement": "With no configuration file the defaults are used; with one, values from the environment override the file, any missing or invalid value is an error, and nothing is written.", "quantifier": "every file content and environment", "why_tests_cant": "all combinations of present/absent/invalid values in both sources", "anchors": ["smd-core/src/config.rs: Config::load_config, parse_from_str, ParseErrorAction"]}
{"id": "C48", "title": "The temporary file of a PDF conversion is always cleaned up", "statement": "After a PDF conversion, successful or not, tmp.html is not left behind.", "quantifier": "every file system and every browser behaviour", "why_tests_cant": "all failure points of the browser", "anchors": ["smd-core/src/convert.rs: PDFConverter::from_html"]}
{"id": "C49", "title": "Crash safety of the file system footprint", "statement": "Whenever a run is interrupted, only the output file and (for PDF) tmp.html in the working directory can differ from before the run.", "quantifier": "every file system, command and crash point", "why_tests_cant": "every prefix of the run's steps", "anchors": ["smd/src/lib.rs: run", "smd-core/src/convert.rs: from_html", "smd-core/src/config.rs: initialize"]}
{"id": "C50", "title": "Concurrent PDF conversions do not interfere", "statement": "Two PDF conversions running at the same time each print their own document.", "quantifier": "every interleaving of the two runs' steps", "why_tests_cant": "schedules cannot be enumerated by tests", "anchors": ["smd-core/src/convert.rs: PDFConverter::from_html"]}
{"id": "C51", "title": "Exit status tells success", "statement": "The process exits with 0 exactly when the requested command succeeded and with 1 otherwise.", "quantifier": "every command and outcome", "why_tests_cant": "all outcomes of all steps", "anchors": ["smd/src/main.rs: main", "smd/src/lib.rs: run"]}
{"id": "C52", "title": "Verbosity selects the log filter", "statement": "One -v selects debug, two or more select trace regardless of the environment; without -v an existing RUST_LOG is kept and otherwise info is used.", "quantifier": "every count 0..255 and every environment", "why_tests_cant": "all combinations", "anchors": ["smd/src/main.rs: main"]}
{"id": "C53", "title": "Log targets are padded to the widest target seen", "statement": "Every log line's target column is at least as wide as its own target and never narrower than a column already printed.", "quantifier": "every sequence of log calls and every interleaving of threads", "why_tests_cant": "lost updates need particular schedules", "anchors": ["smd/src/logger.rs: max_target_width, Padded"]}
{"id": "C54", "title": "npm wrapper argument conversion", "statement": "Options given to the npm wrapper become command line arguments in order: true becomes a bare flag, false and null are dropped, arrays repeat the flag, other values follow their flag, and keys become hyphen-case.", "quantifier": "every options object", "why_tests_cant": "all objects", "anchors": ["npm/smd/src/optionsToStringArgs.ts: optionsToStringArgs"]}
{"id": "C55", "title": "File reads return what was written", "statement": "Writing a text to a file and reading it back yields the text; decoding from a file equals decoding the text.", "quantifier": "every path, content and decoder", "why_tests_cant": "all contents", "anchors": ["smd-core/src/fs.rs: read_to_string, write_to_file, decode_from_file, encode_to_string"]}
{"id": "C56", "title": "Table rendering", "statement": "A table of ordinary cells renders one <th> per column with the escaped heading and one <tr> per body row with one <td> per cell, with the column's alignment, in order.", "quantifier": "every table size and every ordinary cell text", "why_tests_cant": "unbounded rows and columns", "anchors": ["gfm/src/lexer.rs: lex_pipes", "gfm/src/lib.rs: Parser::parse (Token::Table)"]}
{"id": "C57", "title": "Heading labels", "statement": "A heading 'n hashes, text, {#label}' renders as the heading with its text and the label as id.", "quantifier": "every level, ordinary text and label", "why_tests_cant": "all texts and labels", "anchors": ["gfm/src/lexer.rs: lex_heading", "gfm/src/lib.rs: Parser::parse (Token::Header)"]}
{"id": "C58", "title": "Every element is closed", "statement": "Every element the renderer writes other than ul (see C18) and the elements without closing tag is closed as often as it is opened.", "quantifier": "every document without markup in the places the renderer copies unescaped (see C14)", "why_tests_cant": "state machine over unbounded token sequences, with recursion into items, quotes, tables and details", "anchors": ["gfm/src/lib.rs: Parser::parse"]}
{"id": "C59", "title": "Elements are properly nested", "statement": "In the rendered output elements are closed in the reverse order in which they are opened.", "quantifier": "every document without raw <", "why_tests_cant": "block flags are closed in a fixed order at the end, whatever the order in which they were opened", "anchors": ["gfm/src/lib.rs: Parser::parse (epilogue)"]}
{"id": "C60", "title": "Documents render block by block", "statement": "A document of paragraphs, headings, thematic breaks, tables, images and collapsible sections, made of words, digits, emphasis, strikethrough, escapes, links, autolinks and footnote references, with enough line ends between the blocks and perhaps a list, block quotes, code or footnotes at the end, renders to the concatenation of the HTML of its blocks, in order (spaces and line ends inside a paragraph are dropped, see C25).", "quantifier": "every number, order and content of blocks and pieces of running text, every number of line ends between them", "why_tests_cant": "unbounded combinations of constructs; each construct is recognised by the first character only and must leave the rest to the others", "anchors": ["gfm/src/lexer.rs: Lexer::next_token", "gfm/src/lib.rs: Parser::parse"]}
{"id": "C61", "title": "The browser opens the temporary file", "statement": "In every working directory the URL that a PDF conversion gives the browser is the URL of the temporary file it has just written.", "quantifier": "every working directory", "why_tests_cant": "characters with a meaning in URLs occur in real paths but not in test directories", "anchors": ["smd-core/src/browser.rs: BrowserSession::open_file", "smd-core/src/convert.rs: PDFConverter::from_html"]}
{"id": "C62", "title": "Different inputs have different outputs", "statement": "Converting two different files to the same format writes two different files.", "quantifier": "every pair of paths", "why_tests_cant": "pairs of names that differ in the extension only", "anchors": ["smd/src/lib.rs: run"]}
{"id": "C63", "title": "Tilde expansion of the input path", "statement": "A leading ~ that is the whole argument or is followed by a slash stands for the home directory; every other argument is taken literally.", "quantifier": "every argument and home directory", "why_tests_cant": "tildes may occur anywhere in a path", "anchors": ["smd/src/args.rs: Cli::parse_dir"]}
{"id": "C64", "title": "npm arguments are strings", "statement": "Every argument the npm wrapper passes to the executable is a string.", "quantifier": "every options object its type allows", "why_tests_cant": "the type checker accepts undefined for every option; tests of single options do not cover it", "anchors": ["npm/smd/src/optionsToStringArgs.ts: optionsToStringArgs", "npm/smd/src/options.ts"]}
{"id": "C65", "title": "initialize and load agree", "statement": "After a successful 'smd initialize', loading the configuration yields the defaults, unless a variable of the environment says otherwise.", "quantifier": "every file system and environment without SMD variables", "why_tests_cant": "the two functions are only tested one by one, if at all", "anchors": ["smd-core/src/config.rs: Config::initialize", "smd-core/src/config.rs: Config::load_config"]}
{"id": "C66", "title": "The npm package finds its executable", "statement": "The executable the npm wrapper looks for is part of one of the packages it depends on.", "quantifier": "every platform and architecture", "why_tests_cant": "tests run on one platform, after a local build", "anchors": ["npm/smd/src/getExePath.ts: getExePath", "npm/smd/package.json"]}
{"id": "C67", "title": "Text after inline code is not code", "statement": "Text that follows a code span in a paragraph is outside the code element.", "quantifier": "every code span and every text after it", "why_tests_cant": "the renderer keeps a flag for the whole document, which only shows with text after the code", "anchors": ["gfm/src/lib.rs: Parser::parse"]}
{"id": "C68", "title": "Only a delimiter row is taken for one", "statement": "A line of a table is used up as delimiter row only if its cells are made of dashes and colons; otherwise its text is shown.", "quantifier": "every table", "why_tests_cant": "tests only have well-formed tables", "anchors": ["gfm/src/lexer.rs: lex_pipes"]}
{"id": "C69", "title": "A hyphen inside a word is text", "statement": "A hyphen or plus sign inside a word is shown as such.", "quantifier": "every hyphenated word", "why_tests_cant": "depends on the position of the hyphen in the line", "anchors": ["gfm/src/lexer.rs: lex_plus_minus"]}
{"id": "C70", "title": "Text after a list is outside of it", "statement": "A paragraph or heading that follows a list after a blank line is rendered as it would be on its own, after the closed list.", "quantifier": "every list and every block after it", "why_tests_cant": "the renderer closes a list one token too late, so it depends on what follows", "anchors": ["gfm/src/lib.rs: Parser::parse"]}
{"id": "C71", "title": "The text of a heading is shown", "statement": "The text of a heading appears inside the heading element, whatever inline markup it contains.", "quantifier": "every heading level and text", "why_tests_cant": "the renderer strips the paragraph of a nested rendering, which depends on what the text looks like", "anchors": ["gfm/src/lexer.rs: lex_heading"]}
{"id": "C72", "title": "Hard line breaks", "statement": "Two or more spaces, or a backslash, at the end of a line of a paragraph break the line in the output.", "quantifier": "every two lines of running text and every number of spaces", "why_tests_cant": "depends on what stands around the break", "anchors": ["gfm/src/lexer.rs: lex_tabs_spaces", "gfm/src/lib.rs: Parser::parse"]}
{"id": "C73", "title": "Indented code", "statement": "Lines indented by a tab, by four or more spaces, or by two spaces and a tab are shown as code without the first indentation.", "quantifier": "every number of lines and every content", "why_tests_cant": "the lexer counts the white space and also looks at the token before and for hashes in the line", "anchors": ["gfm/src/lexer.rs: lex_tabs_spaces", "gfm/src/lib.rs: Parser::parse"]}
{"id": "C74", "title": "Unfinished markup is text", "statement": "An opening bracket, angle bracket or run of backticks that is never closed is shown literally, with what follows.", "quantifier": "every running text before and every rest", "why_tests_cant": "the unclosed part may be arbitrarily long", "anchors": ["gfm/src/lexer.rs: lex_links, lex_backticks, lex_side_carrot"]}
{"id": "C75", "title": "A hash inside a line is text", "statement": "A hash that is not at the beginning of a line is shown as such.", "quantifier": "every running text before and after", "why_tests_cant": "depends on what follows the hash", "anchors": ["gfm/src/lexer.rs: lex_heading"]}
{"id": "C76", "title": "List entries with several paragraphs", "statement": "Paragraphs that follow a bullet entry after a blank line, indented by a tab, are rendered one after the other inside the entry.", "quantifier": "every number of paragraphs of running text", "why_tests_cant": "any number of paragraphs", "anchors": ["gfm/src/lexer.rs: lex_plus_minus", "gfm/src/lib.rs: Parser::parse"]}
{"id": "C77", "title": "Nested lists", "statement": "The entries of a list nested in a list entry are shown.", "quantifier": "every outer text and every inner entry", "why_tests_cant": "any inner entry", "anchors": ["gfm/src/lexer.rs: lex_plus_minus", "gfm/src/lib.rs: Parser::parse"]}
{"id": "C78", "title": "A paragraph ends before a list", "statement": "A list on the line after a paragraph, or after a blank line, is outside the paragraph: every element is closed inside the element it was opened in.", "quantifier": "every running text, every list", "why_tests_cant": "the texts are unbounded", "anchors": ["gfm/src/lexer.rs: lex_plus_minus", "gfm/src/lib.rs: Parser::parse"]}
{"id": "C79", "title": "List numbers of several digits", "statement": "A line that starts with a number of several digits, a dot and a space is an entry of an ordered list.", "quantifier": "every number of digits, every text", "why_tests_cant": "the texts are unbounded", "anchors": ["gfm/src/lexer.rs: lex_numbers"]}
{"id": "C80", "title": "Images in paragraphs", "statement": "An image between words is part of the paragraph.", "quantifier": "every running text before and after, every image", "why_tests_cant": "the texts are unbounded", "anchors": ["gfm/src/lexer.rs: lex_images", "gfm/src/lib.rs: Parser::parse"]}
{"id": "C81", "title": "Carriage returns", "statement": "Blank lines that end with carriage return and line feed separate paragraphs, as those that end with line feed do.", "quantifier": "every number of blank lines, every running text", "why_tests_cant": "the texts are unbounded", "anchors": ["gfm/src/lexer.rs: lex_newlines"]}
{"id": "C82", "title": "Underlined headings", "statement": "A line of hyphens or equal signs under a line of text makes the text a heading.", "quantifier": "every running text, every length of the line", "why_tests_cant": "the texts are unbounded", "anchors": ["gfm/src/lexer.rs: lex_plus_minus"]}
{"id": "C83", "title": "A tab between words", "statement": "A tab between two words separates them as a space does.", "quantifier": "every running text, every rest of the line", "why_tests_cant": "the texts are unbounded", "anchors": ["gfm/src/lexer.rs: lex_tabs_spaces", "gfm/src/lib.rs: Parser::parse"]}
{"id": "C84", "title": "Markup after a vertical bar", "statement": "Markup in a line with a vertical bar that is no table is interpreted.", "quantifier": "every running text before the bar, every rest of the line", "why_tests_cant": "the texts are unbounded", "anchors": ["gfm/src/lexer.rs: lex_pipes"]}
{"id": "C85", "title": "Tables with an empty cell", "statement": "A table with an empty cell is shown.", "quantifier": "every table of one row with an empty cell", "why_tests_cant": "the texts are unbounded", "anchors": ["gfm/src/lexer.rs: lex_pipes", "gfm/src/lib.rs: Parser::parse"]}
{"id": "C86", "title": "Code and links in cells", "statement": "Text next to a link or code in a table cell is shown once.", "quantifier": "every cell", "why_tests_cant": "the texts are unbounded", "anchors": ["gfm/src/lib.rs: Parser::parse"]}
{"id": "C87", "title": "Footnotes are numbered", "statement": "References to different footnotes have different numbers.", "quantifier": "every running text with two references", "why_tests_cant": "the texts are unbounded", "anchors": ["gfm/src/lib.rs: Parser::parse"]}
{"id": "C88", "title": "A quote ends before a heading", "statement": "A heading after a quote and a blank line is outside the quote.", "quantifier": "every quote, every heading", "why_tests_cant": "the texts are unbounded", "anchors": ["gfm/src/lib.rs: Parser::parse"]}
{"id": "C89", "title": "Markup in ordered and task lists", "statement": "Markup in the entries of ordered lists and task lists is interpreted.", "quantifier": "every entry", "why_tests_cant": "the texts are unbounded", "anchors": ["gfm/src/lib.rs: Parser::parse"]}
{"id": "C90", "title": "The first number of an ordered list", "statement": "Ordered lists that start with different numbers are shown with different numbers.", "quantifier": "every digit, every text", "why_tests_cant": "the texts are unbounded", "anchors": ["gfm/src/lib.rs: Parser::parse"]}
{"id": "C91", "title": "Character references", "statement": "A character reference such as &copy; stands for its character.", "quantifier": "every name of letters", "why_tests_cant": "the texts are unbounded", "anchors": ["gfm/src/lib.rs: sanitize_display_text"]}
{"id": "C92", "title": "Lists of different kinds", "statement": "A list of bullets and an ordered list after it are two lists, each closed inside the element it was opened in.", "quantifier": "every two lists", "why_tests_cant": "the texts are unbounded", "anchors": ["gfm/src/lib.rs: Parser::parse"]}
{"id": "C93", "title": "Bare addresses", "statement": "An address in running text becomes a link.", "quantifier": "every address without control characters", "why_tests_cant": "the texts are unbounded", "anchors": ["gfm/src/lexer.rs: Lexer::next_token"]}
{"id": "C94", "title": "Backslashes in code", "statement": "A backslash in code is shown.", "quantifier": "every code text", "why_tests_cant": "the texts are unbounded", "anchors": ["gfm/src/lib.rs: sanitize_display_text"]}
{"id": "C95", "title": "Markers inside words and without a partner", "statement": "An underscore inside a word and a marker without a partner are text.", "quantifier": "every word, every rest of the line", "why_tests_cant": "the texts are unbounded", "anchors": ["gfm/src/lexer.rs: lex_asterisk_underscore"]}
{"id": "C96", "title": "Thematic breaks of three characters", "statement": "A line of three asterisks or underscores, or of three hyphens with spaces between them, is a thematic break.", "quantifier": "the three forms", "why_tests_cant": "the texts are unbounded", "anchors": ["gfm/src/lexer.rs: lex_asterisk_underscore", "gfm/src/lexer.rs: lex_plus_minus"]}
{"id": "C97", "title": "--version prints the version", "statement": "The flag --version or -V, documented as 'Prints version information', makes the program print its version and exit with status 0, wherever a flag may stand.", "quantifier": "all command lines, file systems and home directories", "why_tests_cant": "command lines are unbounded lists of texts; the repository's test of the command line only asks clap whether the declaration is consistent", "anchors": ["smd/src/args.rs: Cli::version"]}
{"id": "C98", "title": "Which command lines are accepted", "statement": "The accepted command lines are: any number of -v (in its spellings), then initialize, or parse with --input once, with a path that exists after ~ is expanded, and --output at most once with pdf or html, in any order and in any of the five spellings of a value; pdf is the default; -- may come last. Each stands for one command and one verbosity.", "quantifier": "all command lines, file systems and home directories", "why_tests_cant": "command lines are unbounded lists of texts", "anchors": ["smd/src/args.rs: Cli, Commands, ParseArgs, Cli::parse_dir"]}
{"id": "C99", "title": "-v is accepted like the other flags", "statement": "If a command line is accepted, it is accepted with -v added anywhere between two arguments, for the same command.", "quantifier": "all accepted command lines, all positions", "why_tests_cant": "command lines are unbounded lists of texts", "anchors": ["smd/src/args.rs: Cli::verbose"]}
{"id": "C100", "title": "The npm wrapper can run a command", "statement": "runGitCliff runs a command of the program for some object of options, and for some array of arguments.", "quantifier": "all objects of type Options; all arrays of texts", "why_tests_cant": "objects and texts are unbounded", "anchors": ["npm/smd/src/index.ts: runGitCliff", "npm/smd/src/options.ts: Options", "smd/src/args.rs: Cli"]}
{"id": "C101", "title": "Exit status of the process by command line", "statement": "The process exits with 2 exactly if the command line is wrong, with 0 if help is asked for, and otherwise with the status of the command.", "quantifier": "all command lines and all ways the command may end", "why_tests_cant": "command lines are unbounded lists of texts", "anchors": ["smd/src/main.rs: main", "smd/src/args.rs: Cli"]}
{"id": "C102", "title": "The log filter follows from how often -v is given", "statement": "With no -v the filter is RUST_LOG, or info if it is not set; with one it is debug, with more it is trace, however they are spelled and however many there are.", "quantifier": "all accepted command lines, all environments", "why_tests_cant": "the number of -v is unbounded and the counter is a byte", "anchors": ["smd/src/main.rs: main", "smd/src/args.rs: Cli::verbose"]}
{"id": "C103", "title": "Further lines of a list entry", "statement": "In a list of bullets, lines that are indented by a tab and separated from the entry by a blank line belong to the entry: every entry shows its own line and these lines, in order, each interpreted as Markdown of its own, and the list goes on after them.", "quantifier": "all lists of bullets, with any number of entries and of further lines, and any texts whose own rendering has no code block", "why_tests_cant": "the lists, their lines and the texts are unbounded; the repository's tests render no such list", "anchors": ["gfm/src/lexer.rs: Lexer::lex_plus_minus", "gfm/src/lib.rs: Parser::parse, Token::UnorderedListEntry"]}
{"id": "C104", "title": "Initialising at the same time", "statement": "While any number of runs of `smd init` go on at the same time for a configuration that does not exist, the file is at every moment missing or holds a beginning of the default configuration. When all are over, at least one with success and none with an error of the system, it holds the whole default configuration.", "quantifier": "any number of processes, all interleavings of their system calls, all answers of the system", "why_tests_cant": "the number of runs and the interleavings are unbounded", "anchors": ["smd-core/src/config.rs: Config::initialize", "smd-core/src/fs.rs: write_bytes", "smd/src/lib.rs: run"]}
{"id": "C105", "title": "Converting the same document at the same time", "statement": "While any number of runs convert the same document to HTML at the same time, the output is at every moment what it was or a beginning of the document's HTML. When all are over, at least one with success and none with an error of the system, it is the whole HTML.", "quantifier": "any number of processes, all documents that render, all interleavings of their system calls, all answers of the system", "why_tests_cant": "the number of runs, the documents and the interleavings are unbounded", "anchors": ["smd/src/lib.rs: run", "smd-core/src/fs.rs: write_bytes"]}
{"id": "C106", "title": "Man page generator", "statement": "Without OUT_DIR the program that writes the man page panics and changes nothing. Otherwise only `smd.1` in that directory ever changes, at every moment it is as it was or a beginning of the page, and when the program succeeds it is the whole page, also on systems that write only a part at a time. It fails only with an error of the system.", "quantifier": "all pages, all directories, all answers of the system to each call, all moments of the execution", "why_tests_cant": "the ways in which writes can be split and fail are unbounded", "anchors": ["smd/src/bin/mangen.rs: main"]}
{"id": "C107", "title": "Completion script generator", "statement": "Without OUT_DIR the program that writes the completion scripts panics and changes nothing. Otherwise only the five script files in that directory ever change; at every moment the scripts of the first shells are complete, that of the next is as it was or a beginning, and the others are as they were. When the program succeeds all five are complete; else there was an error of the system or a panic.", "quantifier": "all scripts, all directories, all answers of the system to each call, all moments of the execution", "why_tests_cant": "the ways in which writes can be split and fail are unbounded", "anchors": ["smd/src/bin/completion.rs: main"]}
{"id": "C108", "title": "The npm command passes the status on", "statement": "The npm command ends with the exit status of the program that it starts.", "quantifier": "all statuses, arguments, platforms and installed packages", "why_tests_cant": "statuses, arguments and installations are unbounded", "anchors": ["npm/smd/src/cli.ts: run", "npm/smd/src/index.ts: runGitCliff"]}
{"id": "C109", "title": "The npm command works when installed", "statement": "With the packages that the wrapper depends on installed, the npm command succeeds whenever `smd` does.", "quantifier": "all platforms, arguments, behaviours of the program", "why_tests_cant": "the platforms and arguments are unbounded", "anchors": ["npm/smd/src/cli.ts: run", "npm/smd/src/getExePath.ts: getExePath", "npm/smd/package.json: optionalDependencies"]}
{"id": "C110", "title": "The rendering is at most proportional to the document", "statement": "There is a factor such that the HTML of every document is at most that many times as long as the document.", "quantifier": "all documents", "why_tests_cant": "a bound on growth quantifies over documents of every length", "anchors": ["gfm/src/lib.rs: Parser::parse", "gfm/src/lexer.rs: lex_pipes", "gfm/src/lexer.rs: next_token"]}
{"id": "C111", "title": "Characters without a meaning are not interpreted", "statement": "Renaming characters of a document that play no part in the syntax (non-ASCII characters other than white space and the arrow, and the ASCII letters that occur in no word the program looks for or writes) renames them in the HTML and changes nothing else; nor does it change whether the program ends, panics or loops.", "quantifier": "all documents, all renamings of such characters, injective or not", "why_tests_cant": "it compares the rendering of every document with that of every renaming of it", "anchors": ["gfm/src/lexer.rs: next_token", "gfm/src/lib.rs: Parser::parse", "gfm/src/lib.rs: Parser::lex"]}
{"id": "C112", "title": "Blank lines at the start of a document do not matter", "statement": "Putting newlines in front of a document does not change its HTML, nor whether it renders at all.", "quantifier": "all documents, any number of newlines", "why_tests_cant": "it compares the renderings of infinitely many texts with one another", "anchors": ["gfm/src/lexer.rs: lex_tabs_spaces", "gfm/src/lexer.rs: lex_newlines", "gfm/src/lib.rs: Parser::parse"]}
{"id": "C113", "title": "A failure is always reported", "statement": "A run of smd logs a line of level error if and only if it exits with status 1; the last line is then the text of the error. It is shown unless RUST_LOG is set and -v is not given.", "quantifier": "all commands, operating systems, states of the file system and executions, all texts of errors, all meanings of other filters", "why_tests_cant": "it is about every way in which a run can fail", "anchors": ["smd/src/main.rs: main", "smd/src/lib.rs: run", "smd-core/src/fs.rs: read_to_string, write_to_file, write_bytes", "smd-core/src/error.rs: Error"]}
{"id": "C114", "title": "An error about a file names the file", "statement": "When a conversion to HTML fails because of an operation on a file, a line of level error contains the path of the configuration, the input or the output.", "quantifier": "all inputs, operating systems, states and executions", "why_tests_cant": "it is about every call that can fail", "anchors": ["smd-core/src/fs.rs: write_to_file", "smd-core/src/error.rs: Error::IoError"]}
{"id": "C115", "title": "The announced size is that of the file", "statement": "After a successful conversion the last line of the log gives the number of bytes of the output, and for HTML the number of its lines.", "quantifier": "all inputs, operating systems (also ones that write less than asked), states and executions", "why_tests_cant": "it relates what is said to the state of the file system after every execution", "anchors": ["smd-core/src/fs.rs: write_to_file, write_bytes"]}
{"id": "C116", "title": "More -v never hide a line", "statement": "Whatever the run logs, one more -v shows at least the lines that are shown without it.", "quantifier": "all logs, numbers of -v, values of RUST_LOG and meanings of filters", "why_tests_cant": "it compares all pairs of settings on all logs", "anchors": ["smd/src/main.rs: main", "smd/src/logger.rs: init"]}
{"id": "C117", "title": "What a successful conversion says", "statement": "By default, a successful conversion to HTML shows exactly: that the configuration has been read, if there is one; that the input has been read; that it is translated; the warnings of the renderer; and what has been written.", "quantifier": "all inputs, operating systems, states and executions that succeed", "why_tests_cant": "it is about the whole log of every successful run", "anchors": ["smd/src/lib.rs: run", "smd/src/main.rs: main", "smd-core/src/fs.rs: read_to_string, write_to_file"]}
{"id": "C118", "title": "Logging changes nothing", "statement": "The program with its log calls reaches exactly the results and states that the program without them reaches; the renderer with its log calls gives the same rendering.", "quantifier": "all commands, documents, operating systems, states and executions", "why_tests_cant": "it is an equality of sets of executions", "anchors": ["smd-core/src/fs.rs: read_to_string, write_to_file, write_bytes", "smd/src/lib.rs: run", "smd/src/main.rs: main", "gfm/src/lexer.rs: next_token", "gfm/src/lib.rs: render, lex, parse"]}
{"id": "C119", "title": "Ordinary text causes no warnings", "statement": "Rendering text of ordinary words, spaces and line ends logs no warning, so a conversion of such text shows none.", "quantifier": "all texts without control characters; all operating systems, states and executions", "why_tests_cant": "it is about every text of any length", "anchors": ["gfm/src/lexer.rs: next_token, lex_newlines, lex_tabs_spaces", "smd/src/lib.rs: run"]}
{"id": "C120", "title": "The log grows linearly with the document", "statement": "The number of lines that rendering a document logs is at most a constant times its length; hence so is the log of a conversion.", "quantifier": "all documents; all operating systems, states and successful executions", "why_tests_cant": "a bound over documents of any length and nesting", "anchors": ["gfm/src/lib.rs: render, parse", "gfm/src/lexer.rs: next_token, lex_pipes", "smd/src/lib.rs: run"]}
{"id": "C121", "title": "keep_temp_files decides whether the temporary file stays", "statement": "After a successful conversion to PDF the temporary file tmp.html is there if the configuration that was loaded has keep_temp_files = true, and is not there otherwise.", "quantifier": "all operating systems, processes, states, configurations, inputs and executions", "why_tests_cant": "the claim is about all configurations, file systems and executions, and needs a browser", "anchors": ["smd-core/src/config.rs: keep_temp_files", "smd-core/src/convert.rs: from_html", "smd/src/lib.rs: run"]}
{"id": "C122", "title": "on_parse_error decides what happens to parts that cannot be parsed", "statement": "If the configuration has on_parse_error = abort, a document with a part that the lexer reports as an error is not converted; with serialize, the default, the part is in the output.", "quantifier": "all operating systems, processes, states, configurations, documents and executions", "why_tests_cant": "the claim is about all configurations and documents; a run that succeeds is also what a test without errors sees", "anchors": ["smd-core/src/config.rs: ParseErrorAction", "smd/src/lib.rs: run", "gfm/src/lib.rs: render"]}
{"id": "C123", "title": "Converting again changes nothing", "statement": "If a document has been converted and is converted again, both successfully, no name and no file's content changes in the second conversion.", "quantifier": "all operating systems, processes, states, inputs, formats and executions", "why_tests_cant": "quantifies over all file systems, links between files, and executions", "anchors": ["smd/src/lib.rs: run", "smd-core/src/fs.rs: write_bytes", "smd-core/src/convert.rs: from_html"]}
{"id": "C124", "title": "The log is a complete tree of calls", "statement": "What is logged during a successful rendering is a complete tree of calls: every lexing and parsing says when it starts and when it is done, and with how many bytes and tokens; in between come the characters at which a token is looked for and the tokens, each followed by the complete logs of the calls made for it. A warning quotes the text that then becomes the token. So a lexing is completed as often as one starts, and a parsing too.", "quantifier": "all documents that are rendered, all ways of showing texts and tokens", "why_tests_cant": "it relates all lines of logs of any length and nesting", "anchors": ["gfm/src/lib.rs: render, lex, parse", "gfm/src/lexer.rs: next_token, new"]}
{"id": "C125", "title": "Line feeds at the end of a document do not matter", "statement": "Line feeds added at the end of a document do not change the page. False of the code: `C#` is text, but with a line feed after it the `#` becomes an empty heading. True for every document whose last token is complete, for any number of line feeds.", "quantifier": "all documents whose last token is complete (`Sealed`), all numbers of line feeds; also when rendering fails", "why_tests_cant": "it compares the pages of infinitely many pairs of documents; tests can only try some endings", "anchors": ["gfm/src/lexer.rs: next_token and all lex_* routines", "gfm/src/lib.rs: parse"]}
{"id": "C126", "title": "An edit changes nothing before it", "statement": "A token depends only on the characters it consumes and the two characters after them. So two documents with the same beginning have the same tokens, cut at the same places, up to two characters before the first difference; the lexer can resume there; and both pages begin with the same HTML.", "quantifier": "all documents, all edits, all positions at least two characters before the edit", "why_tests_cant": "it compares all pairs of documents with a common beginning of any length", "anchors": ["gfm/src/lexer.rs: next_token and all lex_* routines", "gfm/src/iter.rs: get_substring_ahead, consume_until_tail_is", "gfm/src/lib.rs: lex, parse"]}
{"id": "C127", "title": "The first failure ends the run and is reported", "statement": "When an operation of the system or the browser fails, the program makes no further call but closing the file it was writing, and ends with the error of this operation; no failure is ignored, so in a successful run no operation has failed. A run ends with an error only for such a reason, or because the configuration cannot be parsed or is already there. The message about the browser tells which step has failed.", "quantifier": "all commands, all states, all executions and all failures at any point", "why_tests_cant": "it speaks about every point of every execution at which something may fail", "anchors": ["smd/src/lib.rs: run", "smd-core/src/fs.rs", "smd-core/src/browser.rs", "smd-core/src/convert.rs: from_html", "smd-core/src/config.rs: load_config, initialize"]}
{"id": "C128", "title": "A document can be converted in parts", "statement": "Two documents with a blank line between them are rendered to their renderings one after the other.", "quantifier": "all pairs of documents; all lists of documents", "why_tests_cant": "it relates the renderings of all pairs of documents, and asserts that one test tells about all documents that may follow", "anchors": ["gfm/src/lib.rs: parse", "gfm/src/lexer.rs: lex"]}
{"id": "C129", "title": "The next line of a list entry", "statement": "A line that follows the line of a bullet entry, indented by a tab or two spaces, belongs to the entry and its words are shown in one piece.", "quantifier": "every entry text, every word in the next line", "why_tests_cant": "any text may stand in the entry and in the line after it", "anchors": ["gfm/src/lexer.rs: lex_plus_minus", "gfm/src/lib.rs: Parser::parse (UnorderedListEntry)"]}
{"id": "C130", "title": "Code in list entries", "statement": "Code in an entry of a list is shown as it is outside of lists.", "quantifier": "every code text, every depth of nesting, code in front of an entry too", "why_tests_cant": "lists can be nested to any depth", "anchors": ["gfm/src/lib.rs: Parser::parse (UnorderedListEntry, replacement of <pre><code>)"]}
{"id": "C131", "title": "Code in block quotes", "statement": "Code in a block quote is shown as it is outside of quotes.", "quantifier": "every code text on one line, every level of the quote", "why_tests_cant": "any text may be code, and quotes have up to 255 levels", "anchors": ["gfm/src/lib.rs: Parser::parse (BlockQuote)", "gfm/src/lexer.rs: lex_blockquotes"]}
{"id": "C132", "title": "Quotes in quotes", "statement": "A quote in a quote is nested, whether or not there is a space between the markers.", "quantifier": "every number of outer and inner markers, every running text", "why_tests_cant": "texts and levels are unbounded", "anchors": ["gfm/src/lib.rs: Parser::parse (BlockQuote)", "gfm/src/lexer.rs: lex_blockquotes"]}
{"id": "C133", "title": "Lines of a block quote belong together", "statement": "Consecutive lines of a quote are rendered together: lines of text are one paragraph, entries are one list.", "quantifier": "every number of lines, every running text in them", "why_tests_cant": "any number of lines with any text", "anchors": ["gfm/src/lib.rs: Parser::parse (BlockQuote)"]}
{"id": "C134", "title": "Images have alternative texts", "statement": "Every image found in a document has an alternative text, taken from the document and put out escaped.", "quantifier": "every document, images at any depth", "why_tests_cant": "images can stand anywhere in any document", "anchors": ["gfm/src/lexer.rs: lex_images, lex_links", "gfm/src/lib.rs: Parser::parse (Image)"]}
{"id": "C135", "title": "Indented code after any block", "statement": "Lines indented by four spaces after a blank line are shown as code, whatever kind of block comes before.", "quantifier": "every block or list of blocks, every line", "why_tests_cant": "every kind of block can come before code, and the state it leaves behind decides", "anchors": ["gfm/src/lexer.rs: lex_tabs_spaces, lex_plus_minus", "gfm/src/lib.rs: Parser::parse (Code)"]}
{"id": "C136", "title": "Task lists with any marker", "statement": "A list line with a box is a task whichever bullet marker it has: hyphen, plus sign or asterisk.", "quantifier": "every marker, box and text", "why_tests_cant": "markers, boxes and texts combine freely", "anchors": ["gfm/src/lexer.rs: lex_plus_minus, lex_asterisk_underscore"]}
{"id": "C137", "title": "Greater-than signs inside a line are text", "statement": "A greater-than sign that is not at the beginning of a line is shown as it is: it starts no quote.", "quantifier": "every text before and after the sign", "why_tests_cant": "anything can stand before and after the sign", "anchors": ["gfm/src/lexer.rs: lex_blockquotes", "gfm/src/lib.rs: Parser::parse (BlockQuote)"]}
{"id": "C138", "title": "Quotes directly after text", "statement": "A quote in the line after a paragraph's text ends the paragraph and is rendered as it is by itself; no blank line is needed.", "quantifier": "every running text and every quote of any number of lines and levels", "why_tests_cant": "paragraphs and quotes combine freely", "anchors": ["gfm/src/lexer.rs: lex_blockquotes", "gfm/src/lib.rs: Parser::parse (BlockQuote)"]}
{"id": "C139", "title": "White space at the end of a heading", "statement": "Spaces and tabs at the end of a heading line do not change the result.", "quantifier": "every heading, every white space, every document after it", "why_tests_cant": "headings, white space and what follows are unbounded", "anchors": ["gfm/src/lexer.rs: lex_heading"]}
{"id": "C140", "title": "Code between three backticks within a line", "statement": "Text between three backticks within a line is code, as it is between any other number of backticks.", "quantifier": "every text between, before and after the backticks", "why_tests_cant": "the texts are unbounded", "anchors": ["gfm/src/lexer.rs: lex_backticks", "gfm/src/lib.rs: Parser::parse (CodeBlock)"]}
{"id": "C141", "title": "Asterisks at the end of a line are text", "statement": "Asterisks at the end of a line of text, with nothing to emphasise, are shown as they are.", "quantifier": "every text before and after, every number of asterisks", "why_tests_cant": "texts and numbers are unbounded", "anchors": ["gfm/src/lexer.rs: lex_asterisk_underscore", "gfm/src/lib.rs: Parser::parse (HorizontalRule)"]}
{"id": "C142", "title": "Relative links stay relative", "statement": "A link whose target has no scheme leads where the target leads when resolved against the address of the document, and an image with such an address is looked for there.", "quantifier": "every accepted target without a scheme and every address of the document", "why_tests_cant": "targets and places of documents are unbounded", "anchors": ["gfm/src/token.rs: ValidURL (Display), validate_link", "gfm/src/lib.rs: Parser::parse (Token::Link, Token::Image)"]}
{"id": "C143", "title": "Fragments and encoded characters in links", "statement": "A link leads to the address written in the document, with its fragment and its percent-encoded characters.", "quantifier": "every accepted target and every address of the document", "why_tests_cant": "targets are unbounded", "anchors": ["gfm/src/token.rs: percent_encode, ValidURL (Display)"]}
{"id": "C144", "title": "Images keep their scheme", "statement": "An image with a scheme in its address is loaded from that address.", "quantifier": "every accepted address with a scheme and every address of the document", "why_tests_cant": "addresses are unbounded", "anchors": ["gfm/src/lexer.rs: lex_images", "gfm/src/lib.rs: Parser::parse (Token::Image)"]}
{"id": "C145", "title": "Lists begin at the beginning of a line", "statement": "A sign (-, +, * or _) or a number with a dot, between spaces inside a line of text, is text and begins no list.", "quantifier": "every line of text, every text before and after the sign", "why_tests_cant": "lines are unbounded", "anchors": ["gfm/src/lexer.rs: lex_plus_minus, lex_asterisk_underscore, lex_numbers", "gfm/src/lib.rs: Parser::parse (Token::UnorderedListEntry, Token::OrderedListEntry)"]}
{"id": "C146", "title": "Markup inside emphasised text", "statement": "Markup inside emphasised, strong and struck text is rendered as outside of it; emphasis can be nested.", "quantifier": "every text between markers", "why_tests_cant": "texts are unbounded", "anchors": ["gfm/src/lexer.rs: lex_asterisk_underscore, lex_tilde", "gfm/src/lib.rs: Parser::parse (Token::Italic, Token::Bold, Token::Strikethrough)"]}
{"id": "C147", "title": "Markup in link texts", "statement": "Markup in the text of a link is rendered as outside of it.", "quantifier": "every link text and every accepted target", "why_tests_cant": "texts are unbounded", "anchors": ["gfm/src/lexer.rs: lex_links", "gfm/src/lib.rs: Parser::parse (Token::Link)"]}
{"id": "C148", "title": "Link references", "statement": "A link whose target is given by a label, [text][label] with [label]: target in another line, leads to that target, and the line with the target is not shown.", "quantifier": "every text, label and target", "why_tests_cant": "texts are unbounded", "anchors": ["gfm/src/lexer.rs: lex_links"]}
{"id": "C149", "title": "The line after a quoted line", "statement": "A line of text directly after a quoted line belongs to the paragraph in the quote.", "quantifier": "every quote and every line of text after it", "why_tests_cant": "quotes and lines are unbounded", "anchors": ["gfm/src/lexer.rs: lex_blockquotes", "gfm/src/lib.rs: Parser::parse (lines 54-67)"]}
{"id": "C150", "title": "Empty quoted lines", "statement": "A line of nothing but > separates paragraphs of a quote.", "quantifier": "every quote before and after the line", "why_tests_cant": "quotes are unbounded", "anchors": ["gfm/src/lexer.rs: lex_blockquotes"]}
{"id": "C151", "title": "Comments", "statement": "A comment <!-- ... --> is not shown.", "quantifier": "every comment and every text around it", "why_tests_cant": "comments are unbounded", "anchors": ["gfm/src/lexer.rs: lex_side_carrot"]}
{"id": "C152", "title": "Images as links", "statement": "An image in the text of a link, [![text](image)](target), is shown and leads to the target.", "quantifier": "every text, image address and target", "why_tests_cant": "texts are unbounded", "anchors": ["gfm/src/lexer.rs: lex_links, lex_images"]}
{"id": "C153", "title": "A tab after the sign of a list entry", "statement": "A list sign (-, +, * or a digit and a dot) followed by a tab or spaces and a text is an entry of a list with the text as a paragraph.", "quantifier": "every sign and text", "why_tests_cant": "texts are unbounded", "anchors": ["gfm/src/lexer.rs: lex_plus_minus, lex_asterisk_underscore, lex_numbers, lex_tabs_spaces"]}
{"id": "C154", "title": "Runs of signs inside a line", "statement": "Hyphens, plus signs, asterisks and underscores in the middle of a line are no thematic break.", "quantifier": "every run of signs and every text around it", "why_tests_cant": "runs and texts are unbounded", "anchors": ["gfm/src/lexer.rs: lex_plus_minus, lex_asterisk_underscore", "gfm/src/lib.rs: Parser::parse (Token::HorizontalRule)"]}
{"id": "C155", "title": "List entries need a space after their sign", "statement": "A hyphen or plus sign directly before a text (a negative number) is text.", "quantifier": "every text", "why_tests_cant": "texts are unbounded", "anchors": ["gfm/src/lexer.rs: lex_plus_minus"]}
{"id": "C156", "title": "Fences of tildes", "statement": "Lines between two lines of three or more tildes are a code block.", "quantifier": "every number of tildes, every language and every text between", "why_tests_cant": "texts are unbounded", "anchors": ["gfm/src/lexer.rs: lex_tilde"]}
{"id": "C157", "title": "Headings in files with Windows line ends", "statement": "A heading whose line ends with carriage return and line feed is rendered as the same heading with a line feed.", "quantifier": "every heading, all blocks before it, every text after it", "why_tests_cant": "texts are unbounded", "anchors": ["gfm/src/lexer.rs: lex_heading"]}
{"id": "C158", "title": "Tables in files with Windows line ends", "statement": "A table whose lines end with carriage return and line feed is rendered as the same table with line feeds.", "quantifier": "every table and text after it", "why_tests_cant": "tables are unbounded", "anchors": ["gfm/src/lexer.rs: lex_pipes", "gfm/src/lib.rs: Parser::parse"]}
{"id": "C159", "title": "Other lines in files with Windows line ends", "statement": "A carriage return at the end of a line of running text, a thematic break, a bullet or a quoted line changes nothing in the output.", "quantifier": "every text, break, list and quotation; for text and breaks all blocks before and every text after them", "why_tests_cant": "texts are unbounded", "anchors": ["gfm/src/lexer.rs: next_token", "gfm/src/lib.rs: Parser::parse"]}
{"id": "C160", "title": "A byte order mark is not shown", "statement": "A byte order mark at the start of a document does not appear in the output and changes nothing.", "quantifier": "every document", "why_tests_cant": "texts are unbounded", "anchors": ["gfm/src/lexer.rs: next_token", "smd-core/src/fs.rs: read_to_string"]}
{"id": "C161", "title": "Emphasis ends with its paragraph", "statement": "Markers in different paragraphs do not belong together: no emphasised, struck or code text goes on behind a blank line.", "quantifier": "every text around and between the markers", "why_tests_cant": "texts are unbounded", "anchors": ["gfm/src/lexer.rs: lex_asterisk_underscore", "gfm/src/lexer.rs: lex_tilde", "gfm/src/lexer.rs: lex_backticks"]}
{"id": "C162", "title": "Escaped closing markers", "statement": "A marker behind a backslash does not end emphasised text or the text of a link.", "quantifier": "every text in front of the escaped marker, text around", "why_tests_cant": "texts are unbounded", "anchors": ["gfm/src/lexer.rs: lex_asterisk_underscore", "gfm/src/lexer.rs: lex_links", "gfm/src/lexer.rs: lex_escaped_character"]}
{"id": "C163", "title": "Parentheses in link targets", "statement": "A link whose target has a pair of parentheses in it leads to the whole target.", "quantifier": "every text and target, text behind the link", "why_tests_cant": "targets are unbounded", "anchors": ["gfm/src/lexer.rs: lex_links"]}
{"id": "C164", "title": "Tables without outer bars", "statement": "Lines with bars between the cells are a table also if they do not begin with a bar.", "quantifier": "any number of lines of running text, a bar and anything", "why_tests_cant": "tables are unbounded", "anchors": ["gfm/src/lexer.rs: lex_pipes", "gfm/src/lib.rs: Parser::parse"]}
{"id": "C165", "title": "Escaped bars in cells", "statement": "A bar behind a backslash belongs to its cell, so that the table is the same as with another character in its place.", "quantifier": "every first line with an escaped bar, other lines", "why_tests_cant": "tables are unbounded", "anchors": ["gfm/src/lexer.rs: lex_pipes"]}
{"id": "C166", "title": "Numbers with a parenthesis", "statement": "A number, a closing parenthesis and a space begin an entry of an ordered list.", "quantifier": "every digit, text in front and behind", "why_tests_cant": "texts are unbounded", "anchors": ["gfm/src/lexer.rs: lex_numbers"]}
{"id": "C167", "title": "Empty list entries", "statement": "A list sign or a number with a dot alone on its line is an empty entry of the list.", "quantifier": "every list after the sign; running text around the number", "why_tests_cant": "lists are unbounded", "anchors": ["gfm/src/lexer.rs: lex_asterisk_underscore", "gfm/src/lexer.rs: lex_numbers", "gfm/src/lexer.rs: lex_plus_minus"]}
{"id": "C168", "title": "Lines of white space are blank", "statement": "A line of only spaces and tabs separates paragraphs as an empty line does.", "quantifier": "any number of spaces, running text around", "why_tests_cant": "texts and numbers of spaces are unbounded", "anchors": ["gfm/src/lexer.rs: lex_tabs_spaces", "gfm/src/lexer.rs: lex_newlines"]}
{"id": "C169", "title": "No-break and other spaces are shown", "statement": "White space other than spaces, tabs and line ends, for instance a no-break space, is part of the text and is shown.", "quantifier": "every sequence of such characters, running text around", "why_tests_cant": "texts are unbounded, and there are many such characters", "anchors": ["gfm/src/lexer.rs: Lexer::next_token", "gfm/src/lib.rs: Parser::parse"]}
{"id": "C170", "title": "Titles of images", "statement": "An image with a title is shown with its title, and the text after it is shown.", "quantifier": "every text, target, title, rest of the line, and next line", "why_tests_cant": "texts are unbounded", "anchors": ["gfm/src/lexer.rs: lex_images", "gfm/src/lexer.rs: lex_links", "gfm/src/lib.rs: Parser::parse"]}
{"id": "C171", "title": "Footnote definitions begin a line", "statement": "`[^name]:` inside a line of text is a reference to a footnote followed by a colon; only at the beginning of a line it is a definition.", "quantifier": "every name, text of the note, running text around", "why_tests_cant": "names and texts are unbounded", "anchors": ["gfm/src/lexer.rs: lex_links", "gfm/src/lexer.rs: lex_images"]}
{"id": "C172", "title": "Elements have a sign", "statement": "An element in the output has its sign in the document: no table without a bar, no list without `-`, `+`, `*`, `_` or a number with a dot, no heading without `#`, no code without a backtick, a tab or four spaces, and so on for every element of the renderer.", "quantifier": "every document, except where C14 fails (text copied unescaped)", "why_tests_cant": "the documents are unbounded, and list entries, quotations, headings and table cells are rendered by rendering again, partly from escaped text and from messages of the lexer", "anchors": ["gfm/src/lexer.rs: next_token", "gfm/src/lib.rs: parse", "gfm/src/lib.rs: sanitize_display_text"]}
{"id": "C173", "title": "A release sets all versions", "statement": "After `release.sh TAG` all crates and the npm package have the version of the tag, and require that version of each other.", "quantifier": "every version of letters, digits, `.`, `-`, `+` and `_`, with and without `v`; the manifests of the repository, and for the lines left alone all manifests", "why_tests_cant": "the versions are unbounded, and what sed leaves alone is so for every text", "anchors": ["release.sh: 14-20", "smd/Cargo.toml: version", "smd-core/Cargo.toml: version", "gfm/Cargo.toml: version", "npm/smd/package.json: version"]}
{"id": "C174", "title": "The npm packages of a release belong together", "statement": "The packages that the builds of a release publish for npm are those that the npm package requires, in the version that it requires, each for the system and processor of its name, with an executable of the right name.", "quantifier": "every version of letters, digits, `.`, `-`, `+` and `_`, tagged with `v`; the twelve builds of the matrix", "why_tests_cant": "the versions are unbounded; the packages can be seen only after publishing them", "anchors": [".github/workflows/release.yaml: publish-binaries", "npm/package.json.tmpl", "npm/smd/package.json: optionalDependencies", "release.sh: 19-20"]}
{"id": "C175", "title": "A pushed tag is published", "statement": "When a tag is pushed and all services and compilers work, all jobs of the release workflow succeed.", "quantifier": "every tag; for the failures every behaviour of services, compilers and networks", "why_tests_cant": "the workflow runs only on the servers, once per tag", "anchors": [".github/workflows/release.yaml: Prepare release assets", ".github/workflows/release.yaml: publish-npm", ".github/workflows/release.yaml: Upload the pre-release"]}
{"id": "C176", "title": "A release gets to crates.io", "statement": "A release publishes the crates on crates.io, the libraries before `smd`, which depends on them.", "quantifier": "every tag and version, every history of the index of crates.io, every waiting time", "why_tests_cant": "the index changes while the step waits, and the wait has no bound", "anchors": [".github/workflows/release.yaml: publish-crates-io", "smd-core/Cargo.toml: package"]}
{"id": "C177", "title": "The output invents no characters", "statement": "Every character of the output is a character of the document, printable ASCII, a line feed, a tab, or the arrow back from an endnote, which needs `[` and `^` in the document. So ASCII without `[` gives ASCII, and no control character appears that the document does not have.", "quantifier": "every document that renders", "why_tests_cant": "the alphabet is the whole of Unicode, and the renderer runs itself on parts of its input", "anchors": ["gfm/src/lib.rs: parse", "gfm/src/lexer.rs: next_token", "gfm/src/lib.rs: sanitize_display_text"]}
{"id": "C178", "title": "Text keeps its order and is shown once", "statement": "The characters outside ASCII of the output are characters of the document in the same order, each at most as often as in the document.", "quantifier": "every document without `[^`, `<details>`, `|` and, for the order, link targets followed by a space; refuted with these", "why_tests_cant": "any text may be repeated or moved by any nesting of constructs", "anchors": ["gfm/src/lib.rs: parse", "gfm/src/lexer.rs: next_token"]}
{"id": "C179", "title": "Mail addresses in angle brackets", "statement": "A mail address between angle brackets becomes a link with the scheme mailto; the text and the target of the link are the address as written.", "quantifier": "every mail address and every running text around it", "why_tests_cant": "any address in any text", "anchors": ["gfm/src/lexer.rs: lex_side_carrot", "gfm/src/token.rs: validate_link"]}
{"id": "C180", "title": "Targets of links that are not closed", "statement": "A link whose target is not closed is shown as it is written, and so is what follows.", "quantifier": "every text, target and rest of the document", "why_tests_cant": "the unclosed target may be followed by a document of any length", "anchors": ["gfm/src/lexer.rs: lex_links"]}
{"id": "C181", "title": "Sections without a summary", "statement": "A details element without a summary is a collapsible section with its text.", "quantifier": "every running text before it and every first line", "why_tests_cant": "any line can stand in the place of the summary", "anchors": ["gfm/src/lexer.rs: lex_side_carrot", "gfm/src/lexer.rs: parse_details"]}
{"id": "C182", "title": "Tags are shown as text", "statement": "What stands between angle brackets and is no address is shown as it is written.", "quantifier": "every text between angle brackets with white space, or without a scheme and without `@`, between all running texts", "why_tests_cant": "any text between the brackets", "anchors": ["gfm/src/lexer.rs: lex_side_carrot"]}
{"id": "C183", "title": "Quotes without a space", "statement": "One or more `>` at the start of a line start a quote, with or without a space or tab behind them.", "quantifier": "every number of signs and every running text behind them", "why_tests_cant": "any number of signs in front of any text", "anchors": ["gfm/src/lexer.rs: lex_blockquotes"]}
{"id": "C184", "title": "Fences that are not closed lose no text", "statement": "A fence that is closed by another number of backticks than three, or not at all, is shown as it is written.", "quantifier": "every language, every body without backticks, every number of backticks but three, between all running texts", "why_tests_cant": "any body of any length and any number of backticks", "anchors": ["gfm/src/lexer.rs: lex_backticks"]}
{"id": "C185", "title": "Indentation of further lines of footnotes", "statement": "An indented line after the definition of a footnote belongs to it, however far it is indented.", "quantifier": "every name, text and number of spaces, between all running texts", "why_tests_cant": "any number of spaces", "anchors": ["gfm/src/lexer.rs: lex_links"]}
{"id": "C186", "title": "A box needs a space behind it", "statement": "`[x]` or `[ ]` at the start of a list entry with no space behind it is text of an ordinary entry.", "quantifier": "the three signs, the three boxes and every running text of one line", "why_tests_cant": "any text may follow the box", "anchors": ["gfm/src/lexer.rs: lex_plus_minus", "gfm/src/lexer.rs: lex_asterisk_underscore"]}
{"id": "C187", "title": "A failing test is noticed", "statement": "If a test of the repository fails, the checks of a pull request fail.", "quantifier": "every test of the repository, every outcome of the tests and every outcome of the other commands", "why_tests_cant": "a test suite cannot notice that it is not run", "anchors": [".github/workflows/main.yaml: jobs.main", ".github/workflows/main.yaml: jobs.coverage", "gfm/tests/main.rs: gfm"]}
{"id": "C188", "title": "Addresses with letters outside ASCII", "statement": "A link, an image or an address in angle brackets may have an address with letters outside ASCII, as they are or percent-encoded, and leads there.", "quantifier": "every address with a letter outside ASCII, every text of the link or image, and all running text around it", "why_tests_cant": "addresses and the text around them are unbounded", "anchors": ["gfm/src/token.rs: validate_link", "gfm/src/lexer.rs: lex_links, lex_images, lex_side_carrot"]}
{"id": "C189", "title": "References to footnotes in other elements", "statement": "A reference to a footnote is one wherever text may stand: in emphasised text, quotes, cells, notes and entries of ordered lists, as in paragraphs, headings and bullet lists.", "quantifier": "every name and every text around the reference", "why_tests_cant": "texts are unbounded and references may be in any element", "anchors": ["gfm/src/lexer.rs: lex_links (footnote branch), lex_blockquotes", "gfm/src/lib.rs: Parser::parse"]}
{"id": "C190", "title": "A failed run says what failed", "statement": "If a run of the program fails, it has made a call to the system or the browser that failed, and the last line of the log, an error, is the message for that failure; the message tells whether the browser failed and in which step, and an existing configuration is named.", "quantifier": "every command, every state of the file system, every behaviour of the system and the browser", "why_tests_cant": "failures of the browser and of the system cannot be produced at will, and there are many places where they can happen", "anchors": ["smd-core/src/error.rs: Error", "smd-core/src/browser.rs: BrowserSession::initialize, BrowserSession::open_file, BrowserSession::print_to_pdf", "smd/src/main.rs: main", "smd-core/src/config.rs: Config::initialize"]}
{"id": "C191", "title": "Links in the changelog lead to the project", "statement": "Every entry of the changelog that a release writes links to the page of its commit in the repository smd.", "quantifier": "every history, every tag", "why_tests_cant": "the links are made by a template from a configuration; nothing is linked until a release is made, and nobody follows all links", "anchors": [".cliff/default.toml", "release.sh"]}
{"id": "C192", "title": "Every commit of a release is in its changelog", "statement": "The section of a release in the changelog has one entry for every commit since the last version.", "quantifier": "every history, every tag", "why_tests_cant": "a test has a few commits; commits are lost by the form of their first line, which anybody may write in any way", "anchors": [".cliff/default.toml", "release.sh"]}
{"id": "C193", "title": "What the changelog says of a release stays", "statement": "The section that a release writes for its version is still the same in the changelog of every later release.", "quantifier": "every history, every two releases with any commits and tags between them", "why_tests_cant": "it takes two releases with the whole history between them to see it", "anchors": [".cliff/default.toml", "release.sh"]}
{"id": "C194", "title": "The message of a tag says what the changelog says", "statement": "The message of the tag of a release has the same entries as the section of the changelog.", "quantifier": "every history, every tag", "why_tests_cant": "two configurations and two templates have to be compared for every history", "anchors": [".cliff/default.toml", "release.sh", ".cliff/detailed.toml"]}
{"id": "C195", "title": "Commits are listed under their type", "statement": "In the changelog a commit is under the heading of its type, and newer commits are before older ones.", "quantifier": "every history, every tag", "why_tests_cant": "types are free words; tests use the common ones", "anchors": [".cliff/default.toml", "release.sh"]}
{"id": "C196", "title": "Manifests stay well-formed after a release", "statement": "After release.sh has set a version, the manifests of the crates are still TOML and the manifest of the npm package is still JSON; so are the manifests that the workflow makes from the template for the packages with the executables.", "quantifier": "every version of letters, digits, `.`, `-`, `+` and `_`, every build of the release", "why_tests_cant": "the edits are made by regular expressions on text, for a version that is not known before the release; no test runs release.sh or envsubst, and a broken manifest is seen only when publishing fails", "anchors": ["release.sh", "npm/smd/package.json", "npm/package.json.tmpl", "smd/Cargo.toml", ".github/workflows/release.yaml"]}
{"id": "C197", "title": "The changelog has a section for every version, the newest first", "statement": "The changelog that a release writes has a heading for the release and for every version before it, from the newest to the oldest, and each names the changes since the version before it.", "quantifier": "every history, every tag", "why_tests_cant": "the sections are made from the tags and commits of the whole history; a test has one short history", "anchors": [".cliff/default.toml", "release.sh"]}
{"id": "C198", "title": "A released commit can be built", "statement": "After release.sh has set a version, Cargo finds for every crate of the repository that smd requires the required version in the directory that is named.", "quantifier": "every version of letters, digits, `.`, `-`, `+` and `_`, with and without `v`", "why_tests_cant": "release.sh does not run cargo, and no test runs release.sh; which versions fit depends on the order of versions and on the rules for pre-releases", "anchors": ["release.sh", "smd/Cargo.toml", "smd-core/Cargo.toml", "gfm/Cargo.toml"]}
{"id": "C199", "title": "Rows with fewer or more cells", "statement": "A table is shown as a table also if one of its rows has fewer or more cells than the heading.", "quantifier": "every number of rows and cells, and every text in the cells", "why_tests_cant": "which row differs, by how much and what the cells hold is open; the tests have rectangular tables only", "anchors": ["gfm/src/lexer.rs:909-979"]}
{"id": "C200", "title": "Tables without rows", "statement": "A heading and a delimiter row are a table, also if no other row follows.", "quantifier": "every heading and every delimiter row", "why_tests_cant": "the text of the cells is open; no test has a table without rows", "anchors": ["gfm/src/lexer.rs:909-979"]}
{"id": "C201", "title": "Targets in angle brackets", "statement": "A link whose target is between angle brackets leads to the target without the brackets, which may have spaces.", "quantifier": "every text and every target", "why_tests_cant": "targets are any texts; no test has one in brackets", "anchors": ["gfm/src/lexer.rs:665-790", "gfm/src/token.rs:194-295"]}
{"id": "C202", "title": "A package has the executable for its platform", "statement": "The executable in every package that the release publishes for npm was built for the system and the processor that the package is for; every build runs on a machine of the system it builds for.", "quantifier": "every tag and every build of the matrix", "why_tests_cant": "the workflow runs only when a tag is pushed, and a wrong target is found only by installing the package on that platform", "anchors": [".github/workflows/release.yaml:53-150", ".github/workflows/release.yaml:247-271", "npm/package.json.tmpl"]}
{"id": "C203", "title": "Python wheels", "statement": "Each build that is to make wheels makes them in exactly one step, the others in none; the wheels for musl are made with the option for musl.", "quantifier": "every build of the matrix; every build that runs on one of the machines of the matrix", "why_tests_cant": "the steps run only when a tag is pushed, and a step whose condition is never true does not fail", "anchors": [".github/workflows/release.yaml:274-302"]}
{"id": "C204", "title": "Pre-releases are not offered as the latest version on npm", "statement": "When a pre-release is published, the version that npm installs by default stays what it was, for all packages; a release is offered as the latest version.", "quantifier": "every tag, every version in the manifest, and every state of the registry before", "why_tests_cant": "what npm offers depends on all that was published before, and no test publishes", "anchors": [".github/workflows/release.yaml:247-271", ".github/workflows/release.yaml:323-336"]}
{"id": "C205", "title": "The files of the packages for Linux", "statement": "Every file that the manifest lists for the Debian and the RPM package is there when the packages are built; both have the same files and install them in the same places, but for the name of the README.", "quantifier": "every version of letters, digits, `.`, `-`, `+` and `_`, with and without `v`", "why_tests_cant": "the packages are built only when a tag is pushed; the names of the files come from three programs", "anchors": ["smd/Cargo.toml", ".github/workflows/release.yaml:376-385", ".github/workflows/release.yaml:429-436", "smd/src/bin/mangen.rs", "smd/src/bin/completion.rs"]}
{"id": "C206", "title": "The workspace declares what its crates use", "statement": "The workspace declares every dependency that its crates take from it, and no other; crates taken from a directory are members of the workspace, as is every crate.", "quantifier": "every version of letters, digits, `.`, `-`, `+` and `_`, with and without `v`", "why_tests_cant": "release.sh changes manifests and does not run cargo afterwards", "anchors": ["Cargo.toml", "smd/Cargo.toml", "smd-core/Cargo.toml", "gfm/Cargo.toml", "release.sh"]}
{"id": "C207", "title": "The package for npm is built", "statement": "The release workflow builds the package `smd` for npm: the script `build` makes the files that the manifest names, and they are packed.", "quantifier": "every version of letters, digits, `.`, `-`, `+` and `_`, with and without `v`; every build with tsup that fails if it is given no file", "why_tests_cant": "the package is built only when a tag is pushed", "anchors": ["npm/smd/package.json:8-34", ".github/workflows/release.yaml:322-336", "npm/smd/.gitignore"]}
{"id": "C208", "title": "The entry points of the package for npm", "statement": "Whoever loads the package gets JavaScript of the kind it asks for, by `exports` or by `main` and `module`.", "quantifier": "every version of letters, digits, `.`, `-`, `+` and `_`, with and without `v`; every list of conditions", "why_tests_cant": "no test loads the package, and there are as many lists of conditions as there are tools", "anchors": ["npm/smd/package.json:5-24"]}
{"id": "C209", "title": "One program is installed", "statement": "Installing a package of smd adds one program, `smd`, and no helpers of the build.", "quantifier": "every version of letters, digits, `.`, `-`, `+` and `_`, with and without `v`", "why_tests_cant": "nobody installs the packages before the release", "anchors": ["smd/Cargo.toml:14-24", "smd/Cargo.toml:50-99", "pypi/pyproject.toml", "npm/smd/package.json:9"]}
{"id": "C210", "title": "The lock file fits the manifests", "statement": "After a release, Cargo.lock has the version and the dependencies of every crate of the workspace that its manifest has.", "quantifier": "every version of letters, digits, `.`, `-`, `+` and `_`, with and without `v`", "why_tests_cant": "cargo repairs the lock file silently unless it is called with --locked, which no workflow does", "anchors": ["release.sh:16-23", "Cargo.lock:450-455", "Cargo.lock:1039-1066", "smd/Cargo.toml", "smd-core/Cargo.toml", "gfm/Cargo.toml"]}
{"id": "C211", "title": "Closing hashes of headings", "statement": "Hashes at the end of a heading line, separated from its text by spaces or tabs, are not shown: the document is rendered as without them.", "quantifier": "every level, text, number of spaces and tabs before and after the hashes, number of hashes and rest of the document", "why_tests_cant": "all texts, and all that may follow the heading", "anchors": ["gfm/src/lexer.rs:203-255"]}
{"id": "C212", "title": "Identifiers of footnote references", "statement": "Two references to footnotes in one text have different identifiers.", "quantifier": "every running text and every pair of references in it", "why_tests_cant": "all names and all text before, between and after the references", "anchors": ["gfm/src/lib.rs:155-175", "gfm/src/lib.rs:572-588"]}
{"id": "C213", "title": "Footnotes that are defined twice", "statement": "Of several definitions of a footnote the first counts: there is one endnote for each name.", "quantifier": "every sequence of footnote definitions, after every document of the forms of C60", "why_tests_cant": "unbounded sequences of definitions and all names", "anchors": ["gfm/src/lib.rs:547-566", "gfm/src/lib.rs:572-588"]}
