{
 "claims": [
  {
   "property": "C01",
   "status": "proved",
   "theorems": [
    "Smd.Gfm.Iter.C01_always_on_boundary",
    "Smd.Gfm.Iter.C01_step_is_next_char",
    "Smd.Gfm.Iter.C01_collect_is_document"
   ],
   "note": ""
  },
  {
   "property": "C02",
   "status": "proved",
   "theorems": [
    "Smd.Gfm.Iter.C02_consumeWhile",
    "Smd.Gfm.Iter.C02_consumeUntilTail",
    "Smd.Gfm.Iter.C02_line",
    "Smd.Gfm.Iter.C02_substringAhead",
    "Smd.Gfm.Iter.C02_substringFrom",
    "Smd.Gfm.Iter.C02_slice"
   ],
   "note": ""
  },
  {
   "property": "C03",
   "status": "proved",
   "theorems": [
    "Smd.Gfm.C03_no_delimiters",
    "Smd.Gfm.C03_amp_starts_reference",
    "Smd.Gfm.C03_piecewise",
    "Smd.Gfm.C03_ordinary_unchanged"
   ],
   "note": ""
  },
  {
   "property": "C04",
   "status": "proved",
   "theorems": [
    "Smd.Gfm.C04_display_roundtrip",
    "Smd.Gfm.C04_injective"
   ],
   "note": ""
  },
  {
   "property": "C05",
   "status": "proved",
   "theorems": [
    "Smd.Gfm.C05_roundtrip",
    "Smd.Gfm.C05_removed",
    "Smd.Gfm.C05_unchanged",
    "Smd.Gfm.C05_piecewise"
   ],
   "note": ""
  },
  {
   "property": "C06",
   "status": "proved",
   "theorems": [
    "Smd.Gfm.C06_no_javascript",
    "Smd.Gfm.C06_href_in_output",
    "Smd.Gfm.C06_no_javascript_in_documents"
   ],
   "note": ""
  },
  {
   "property": "C07",
   "status": "partial",
   "theorems": [
    "Smd.Gfm.C07_exact",
    "Smd.Gfm.C07_refuted",
    "Smd.Gfm.C07_data_is_image_partial"
   ],
   "note": "False of the code for sources with exactly one @ and several colons (C07_refuted); proved otherwise. C07_exact says for which sources it holds."
  },
  {
   "property": "C08",
   "status": "proved",
   "theorems": [
    "Smd.Gfm.C08_ascii_no_whitespace",
    "Smd.Gfm.C08_href_scheme",
    "Smd.Gfm.C08_scheme_kept",
    "Smd.Gfm.C08_rejected"
   ],
   "note": ""
  },
  {
   "property": "C09",
   "status": "partial",
   "theorems": [
    "Smd.Gfm.C09_refuted_always",
    "Smd.Gfm.C09_exact",
    "Smd.Gfm.C09_refuted",
    "Smd.Gfm.C09_points_where_written_partial",
    "Smd.Gfm.C09_schemeless"
   ],
   "note": "False of the code for sources with exactly one @ and several colons (C09_refuted, C09_refuted_always); proved otherwise, and for sources without a scheme. C09_exact: of the sources with a scheme exactly these are kept."
  },
  {
   "property": "C10",
   "status": "partial",
   "theorems": [
    "Smd.Gfm.C10_refuted_behind",
    "Smd.Gfm.C10_refuted",
    "Smd.Gfm.C10_hang_is_endless",
    "Smd.Gfm.C10_partial",
    "Smd.Gfm.C10_only_two_failures",
    "Smd.Gfm.C10_C11_total_partial"
   ],
   "note": "False of the code: an unclosed nested details block loops forever (C10_refuted), and so does every section with complete sections in it and no closing tag, behind any blocks (C10_refuted_behind). Proved for documents whose details blocks are closed and whose summaries contain no closing tag; the outcome hang is proved to be an endless loop, and no other failure than panic or hang exists."
  },
  {
   "property": "C11",
   "status": "partial",
   "theorems": [
    "Smd.Gfm.C11_refuted_behind",
    "Smd.Gfm.C11_refuted",
    "Smd.Gfm.C11_partial",
    "Smd.Gfm.C11_heading_panics"
   ],
   "note": "False of the code: text after a heading label panics (C11_refuted, C11_heading_panics for every such heading, and C11_refuted_behind for every such heading behind any blocks). Proved for all documents without such headings."
  },
  {
   "property": "C12",
   "status": "proved",
   "theorems": [
    "Smd.Gfm.C12_pieces",
    "Smd.Gfm.C12_token_count"
   ],
   "note": ""
  },
  {
   "property": "C13",
   "status": "proved",
   "theorems": [
    "Smd.Gfm.C13_depth_is_linear",
    "Smd.Gfm.C13_depth_is_reached"
   ],
   "note": ""
  },
  {
   "property": "C14",
   "status": "partial",
   "theorems": [
    "Smd.Gfm.C14_refuted_always",
    "Smd.Gfm.C14_refuted",
    "Smd.Gfm.C14_refuted_autolink",
    "Smd.Gfm.C14_refuted_title",
    "Smd.Gfm.C14_partial",
    "Smd.Gfm.C14_no_lt"
   ],
   "note": "False of the code (C14_refuted, C14_refuted_autolink, C14_refuted_title): text in front of [^, link titles and autolinks are copied unescaped. Proved for all documents with no markup in those three places, against a model of the HTML tokenizer. C14_refuted_always: any HTML on one line without brackets can be put into the output."
  },
  {
   "property": "C15",
   "status": "partial",
   "theorems": [
    "Smd.Gfm.C15_refuted_always",
    "Smd.Gfm.C15_refuted",
    "Smd.Gfm.C15_refuted_image",
    "Smd.Gfm.C15_partial"
   ],
   "note": "False of the code (C15_refuted, C15_refuted_image): a double quote in a target ends the attribute, and what follows it in any accepted target is outside (C15_refuted_always). Proved for all documents whose targets and autolinks have none."
  },
  {
   "property": "C16",
   "status": "proved",
   "theorems": [
    "Smd.Gfm.C16_paragraphs_balanced",
    "Smd.Gfm.C16_lt_needed"
   ],
   "note": ""
  },
  {
   "property": "C17",
   "status": "proved",
   "theorems": [
    "Smd.Gfm.C17_quotes_balanced"
   ],
   "note": ""
  },
  {
   "property": "C18",
   "status": "partial",
   "theorems": [
    "Smd.Gfm.C18_refuted_always",
    "Smd.Gfm.C18_refuted",
    "Smd.Gfm.C18_partial"
   ],
   "note": "False of the code (C18_refuted): after a bullet entry and an ordered entry, a task opens a ul that is never closed, whatever the entries are (C18_refuted_always). Proved: ol is balanced, ul is never closed too often, and ul is balanced in documents without tasks (no [) or without ordered lists (no digit followed by a full stop and a space)."
  },
  {
   "property": "C19",
   "status": "proved",
   "theorems": [
    "Smd.Gfm.C19_code_balanced"
   ],
   "note": ""
  },
  {
   "property": "C20",
   "status": "proved",
   "theorems": [
    "Smd.Gfm.C20_output_ends"
   ],
   "note": ""
  },
  {
   "property": "C21",
   "status": "proved",
   "theorems": [
    "Smd.Gfm.C21_levels",
    "Smd.Gfm.C21_seven"
   ],
   "note": ""
  },
  {
   "property": "C22",
   "status": "proved",
   "theorems": [
    "Smd.Gfm.C22_shape",
    "Smd.Gfm.C22_rendered"
   ],
   "note": ""
  },
  {
   "property": "C23",
   "status": "proved",
   "theorems": [
    "Smd.Gfm.C23_cells_inline"
   ],
   "note": ""
  },
  {
   "property": "C24",
   "status": "proved",
   "theorems": [
    "Smd.Gfm.C24_word"
   ],
   "note": ""
  },
  {
   "property": "C25",
   "status": "partial",
   "theorems": [
    "Smd.Gfm.C25_refuted",
    "Smd.Gfm.C25_refuted_always",
    "Smd.Gfm.C25_partial"
   ],
   "note": "False of the code: every space and line end between the words of a paragraph is dropped (C25_refuted, and C25_refuted_always for every paragraph of words). Spaces inside emphasis are kept (C25_partial)."
  },
  {
   "property": "C26",
   "status": "proved",
   "theorems": [
    "Smd.Gfm.C26_blocks",
    "Smd.Gfm.C26_paragraphs"
   ],
   "note": ""
  },
  {
   "property": "C27",
   "status": "proved",
   "theorems": [
    "Smd.Gfm.C27_forms",
    "Smd.Gfm.C27_empty",
    "Smd.Gfm.C27_hashes",
    "Smd.Gfm.C27_heading",
    "Smd.Gfm.C27_words",
    "Smd.Gfm.C27_not_heading",
    "Smd.Gfm.C27_empty_line"
   ],
   "note": ""
  },
  {
   "property": "C28",
   "status": "proved",
   "theorems": [
    "Smd.Gfm.C28_bullets"
   ],
   "note": ""
  },
  {
   "property": "C29",
   "status": "proved",
   "theorems": [
    "Smd.Gfm.C29_ordered"
   ],
   "note": ""
  },
  {
   "property": "C30",
   "status": "proved",
   "theorems": [
    "Smd.Gfm.C30_tasks"
   ],
   "note": ""
  },
  {
   "property": "C31",
   "status": "proved",
   "theorems": [
    "Smd.Gfm.C31_unmatched_lines",
    "Smd.Gfm.C31_emphasis",
    "Smd.Gfm.C31_unmatched"
   ],
   "note": ""
  },
  {
   "property": "C32",
   "status": "proved",
   "theorems": [
    "Smd.Gfm.C32_code",
    "Smd.Gfm.C32_single",
    "Smd.Gfm.C32_after_text"
   ],
   "note": ""
  },
  {
   "property": "C33",
   "status": "partial",
   "theorems": [
    "Smd.Gfm.C33_refuted",
    "Smd.Gfm.C33_refuted_always",
    "Smd.Gfm.C33_refuted_within",
    "Smd.Gfm.C33_partial"
   ],
   "note": "False of the code: a block fenced with three backticks leaves nothing in the output (C33_refuted; C33_refuted_always at the start of any document, C33_refuted_within after any blocks). Proved with four backticks or more (C33_partial)."
  },
  {
   "property": "C34",
   "status": "proved",
   "theorems": [
    "Smd.Gfm.C34_rules",
    "Smd.Gfm.C34_two",
    "Smd.Gfm.C34_mixed"
   ],
   "note": "C34_mixed: runs that mix asterisks, underscores and tabs, exactly."
  },
  {
   "property": "C35",
   "status": "partial",
   "theorems": [
    "Smd.Gfm.C35_refuted",
    "Smd.Gfm.C35_refuted_deep",
    "Smd.Gfm.C35_partial",
    "Smd.Gfm.C35_lines"
   ],
   "note": "False of the code: the text is escaped twice (C35_refuted), the level is taken modulo 256 (C35_refuted_deep). Proved up to level 255 for text that escaping does not change (C35_partial), and for any number of lines at any levels in terms of the rendering of the escaped text (C35_lines)."
  },
  {
   "property": "C36",
   "status": "partial",
   "theorems": [
    "Smd.Gfm.C36_refuted_always",
    "Smd.Gfm.C36_refuted",
    "Smd.Gfm.C36_refuted_backslash",
    "Smd.Gfm.C36_partial"
   ],
   "note": "False of the code: a backslash at the end of the document adds EOF to the output, two backslashes show nothing (C36_refuted, C36_refuted_backslash; for every text: C36_refuted_always). Proved for every other visible character in the middle of any running text."
  },
  {
   "property": "C37",
   "status": "partial",
   "theorems": [
    "Smd.Gfm.C37_refuted",
    "Smd.Gfm.C37_partial",
    "Smd.Gfm.C37_partial_back",
    "Smd.Gfm.C37_refuted_names",
    "Smd.Gfm.C37_refuted_targets",
    "Smd.Gfm.C37_refuted_always"
   ],
   "note": "False of the code: every endnote has the identifier fn:1, references point to fn:name (C37_refuted), so the link of a reference has no target for any name but 1 (C37_refuted_targets, for a reference after a word), and in every such document with two definitions two elements have one identifier (C37_refuted_always); a definition whose name has white space gives no endnote and is put out unescaped, for every name and text (C37_refuted_names). Proved: one endnote per definition, in order, with escaped text (C37_partial); links back have a target (C37_partial_back)."
  },
  {
   "property": "C38",
   "status": "proved",
   "theorems": [
    "Smd.Gfm.C38_unmatched_lines",
    "Smd.Gfm.C38_strike",
    "Smd.Gfm.C38_other_runs",
    "Smd.Gfm.C38_unmatched"
   ],
   "note": ""
  },
  {
   "property": "C39",
   "status": "partial",
   "theorems": [
    "Smd.Gfm.C39_refuted_always",
    "Smd.Gfm.C39_refuted",
    "Smd.Gfm.C39_refuted_rest",
    "Smd.Gfm.C39_partial",
    "Smd.Gfm.C39_plain_target"
   ],
   "note": "False of the code: with a title the href is empty, and the rest of the line is lost (C39_refuted, C39_refuted_rest). Proved without title for every accepted target. C39_refuted_always: it fails for every link with a title, also inside a text."
  },
  {
   "property": "C40",
   "status": "partial",
   "theorems": [
    "Smd.Gfm.C40_partial_lines",
    "Smd.Gfm.C40_refuted_always",
    "Smd.Gfm.C40_refuted",
    "Smd.Gfm.C40_partial"
   ],
   "note": "False of the code when the rejected target looks like a footnote reference (C40_refuted). Proved otherwise. C40_partial_lines: also for targets of several lines; C40_refuted_always: for every rejected target that ends in a footnote reference."
  },
  {
   "property": "C41",
   "status": "partial",
   "theorems": [
    "Smd.Gfm.C41_refuted",
    "Smd.Gfm.C41_refuted_nested",
    "Smd.Gfm.C41_partial",
    "Smd.Gfm.C41_refuted_behind"
   ],
   "note": "False of the code: the content of an unterminated section is lost (C41_refuted; whatever it is and behind any blocks, C41_refuted_behind), as is that of sections nested twice (C41_refuted_nested). Proved for sections with any content with complete sections, none inside another; stray characters follow the content."
  },
  {
   "property": "C42",
   "status": "partial",
   "theorems": [
    "Smd.App.C42_output_path",
    "Smd.App.C42_partial",
    "Smd.App.C42_pdf_partial",
    "Smd.App.C42_refuted"
   ],
   "note": "False of the code: a short write is reported as success (C42_refuted). Proved for HTML and PDF if writes are complete, with every other file unchanged."
  },
  {
   "property": "C43",
   "status": "partial",
   "theorems": [
    "Smd.App.C43_refuted",
    "Smd.App.C43_partial"
   ],
   "note": "False of the code (C43_refuted): the count returned by write is ignored. Proved: the file holds a beginning of the content, all of it if writes are complete."
  },
  {
   "property": "C44",
   "status": "partial",
   "theorems": [
    "Smd.App.C44_refuted",
    "Smd.App.C44_pdf_refuted",
    "Smd.App.C44_refuted_always",
    "Smd.App.C44_partial"
   ],
   "note": "False of the code (C44_refuted, C44_pdf_refuted): an .html input is overwritten, an input tmp.html is deleted. C44_refuted_always: after every successful run every input that is its own output holds its rendering. Proved at every moment of every run for all other inputs."
  },
  {
   "property": "C45",
   "status": "proved",
   "theorems": [
    "Smd.App.C45_nothing_changed",
    "Smd.App.C45_failed_conversion",
    "Smd.App.C45_failed_write_refuted"
   ],
   "note": "For every failure of reading, configuration, rendering and PDF conversion. A failing write of the output itself may leave it empty (C45_failed_write_refuted)."
  },
  {
   "property": "C46",
   "status": "partial",
   "theorems": [
    "Smd.App.C46_existing",
    "Smd.App.C46_partial",
    "Smd.App.C46_twice",
    "Smd.App.C46_race_refuted"
   ],
   "note": "Proved: an existing configuration is kept, a second run fails, and success leaves the default configuration if writes are complete. False with a concurrent writer (C46_race_refuted)."
  },
  {
   "property": "C47",
   "status": "proved",
   "theorems": [
    "Smd.App.C47_load",
    "Smd.App.C47_values",
    "Smd.App.C47_environment",
    "Smd.App.C47_missing"
   ],
   "note": ""
  },
  {
   "property": "C48",
   "status": "partial",
   "theorems": [
    "Smd.App.C48_failures",
    "Smd.App.C48_refuted",
    "Smd.App.C48_left_behind",
    "Smd.App.C48_partial"
   ],
   "note": "False of the code (C48_refuted, C48_left_behind): a browser failure leaves tmp.html. Proved for successful conversions (C48_partial); C48_failures says for every failure of the browser whether the file stays: it does exactly when the file could not be opened, navigated to or waited for."
  },
  {
   "property": "C49",
   "status": "proved",
   "theorems": [
    "Smd.App.C49_footprint",
    "Smd.App.C49_footprint_many"
   ],
   "note": ""
  },
  {
   "property": "C50",
   "status": "partial",
   "theorems": [
    "Smd.App.C50_refuted",
    "Smd.App.C50_partial",
    "Smd.App.C50_partial_many"
   ],
   "note": "False of the code in one working directory (C50_refuted). Proved for every interleaving of two runs whose files are separate. C50_partial_many: the same for any number of runs of any commands."
  },
  {
   "property": "C51",
   "status": "partial",
   "theorems": [
    "Smd.App.C51_refuted",
    "Smd.App.C51_missing_input",
    "Smd.App.C51_partial",
    "Smd.App.C51_initialize"
   ],
   "note": "False of the code: 101 after a panic, 2 for a missing input (C51_refuted, C51_missing_input). Proved for all other runs."
  },
  {
   "property": "C52",
   "status": "proved",
   "theorems": [
    "Smd.App.C52_verbosity"
   ],
   "note": ""
  },
  {
   "property": "C53",
   "status": "partial",
   "theorems": [
    "Smd.App.C53_own_target",
    "Smd.App.C53_refuted",
    "Smd.App.C53_partial",
    "Smd.App.C53_line"
   ],
   "note": "Proved for every interleaving: no column is narrower than its own target. False for columns before it with several threads (C53_refuted), proved for one thread."
  },
  {
   "property": "C54",
   "status": "proved",
   "theorems": [
    "Smd.Npm.C54_in_order",
    "Smd.Npm.C54_one",
    "Smd.Npm.C54_keys"
   ],
   "note": ""
  },
  {
   "property": "C55",
   "status": "proved",
   "theorems": [
    "Smd.App.C55_write_read",
    "Smd.App.C55_decode",
    "Smd.App.C55_object"
   ],
   "note": ""
  },
  {
   "property": "C56",
   "status": "proved",
   "theorems": [
    "Smd.Gfm.C56_table"
   ],
   "note": ""
  },
  {
   "property": "C57",
   "status": "partial",
   "theorems": [
    "Smd.Gfm.C57_refuted_never",
    "Smd.Gfm.C57_refuted",
    "Smd.Gfm.C57_partial"
   ],
   "note": "False of the code: the label replaces the text and no id is written (C57_refuted). Proved: the level is right, and the label is what is shown, whatever the text (C57_partial). No heading of any document ever has a label (C57_refuted_never)."
  },
  {
   "property": "C58",
   "status": "proved",
   "theorems": [
    "Smd.Gfm.C58_balanced"
   ],
   "note": ""
  },
  {
   "property": "C59",
   "status": "partial",
   "theorems": [
    "Smd.Gfm.C59_partial",
    "Smd.Gfm.C59_refuted_always",
    "Smd.Gfm.C59_refuted"
   ],
   "note": "False of the code (C59_refuted): a list after a quote is closed after the quote is; and every ordered list behind a list of bullets is misnested (C59_refuted_always). Proved for the documents of C60, with tables, images, sections, quotes, code and footnotes, unless a paragraph follows a list (C59_partial)."
  },
  {
   "property": "C60",
   "status": "proved",
   "theorems": [
    "Smd.Gfm.C60_documents"
   ],
   "note": ""
  },
  {
   "property": "C61",
   "status": "partial",
   "theorems": [
    "Smd.App.C61_refuted",
    "Smd.App.C61_other_file",
    "Smd.App.C61_partial"
   ],
   "note": "False of the code (C61_refuted, C61_other_file): characters with a meaning in URLs are not escaped. Proved, as an equivalence, for the paths without tab, line break, ?, #, \\ and without % in front of two hexadecimal digits (C61_partial)."
  },
  {
   "property": "C62",
   "status": "partial",
   "theorems": [
    "Smd.App.C62_refuted",
    "Smd.App.C62_partial",
    "Smd.App.C62_exact",
    "Smd.App.C62_stem"
   ],
   "note": "False of the code (C62_refuted): a.md and a.markdown. Proved for inputs with the same extension (C62_partial); C62_exact says for which inputs the outputs are the same: those in the same directory with the same stem."
  },
  {
   "property": "C63",
   "status": "proved",
   "theorems": [
    "Smd.App.C63_tilde"
   ],
   "note": ""
  },
  {
   "property": "C64",
   "status": "partial",
   "theorems": [
    "Smd.Npm.C64_refuted",
    "Smd.Npm.C64_partial",
    "Smd.Npm.C64_exact"
   ],
   "note": "False of the code (C64_refuted): undefined is passed on. Proved for options that are true, false, null, strings or arrays of strings; C64_exact: for no others."
  },
  {
   "property": "C65",
   "status": "proved",
   "theorems": [
    "Smd.App.C65_initialize_load",
    "Smd.App.C65_round_trip"
   ],
   "note": ""
  },
  {
   "property": "C66",
   "status": "partial",
   "theorems": [
    "Smd.Npm.C66_refuted",
    "Smd.Npm.C66_partial"
   ],
   "note": "False of the code for every platform and architecture (C66_refuted): the wrapper looks for git-cliff, the packages are called smd-*. Proved: apart from the program's name, the module is that of a dependency, for the platforms the packages cover (C66_partial)."
  },
  {
   "property": "C67",
   "status": "partial",
   "theorems": [
    "Smd.Gfm.C67_refuted",
    "Smd.Gfm.C67_refuted_always",
    "Smd.Gfm.C67_partial"
   ],
   "note": "False of the code (C67_refuted, and C67_refuted_always for every code span and every running text after it). It holds of paragraphs after a quote with code in it (C67_partial)."
  },
  {
   "property": "C68",
   "status": "partial",
   "theorems": [
    "Smd.Gfm.C68_refuted",
    "Smd.Gfm.C68_refuted_always",
    "Smd.Gfm.C68_partial"
   ],
   "note": "False of the code (C68_refuted): C68_refuted_always shows that in every table the second line matters only by its alignment colons. All other lines are shown (C68_partial)."
  },
  {
   "property": "C69",
   "status": "partial",
   "theorems": [
    "Smd.Gfm.C69_refuted",
    "Smd.Gfm.C69_refuted_always",
    "Smd.Gfm.C69_partial"
   ],
   "note": "False of the code (C69_refuted, and C69_refuted_always for running text around the hyphen). With a backslash before it, or doubled, the sign is shown (C69_partial)."
  },
  {
   "property": "C70",
   "status": "partial",
   "theorems": [
    "Smd.Gfm.C70_refuted",
    "Smd.Gfm.C70_refuted_heading",
    "Smd.Gfm.C70_refuted_always",
    "Smd.Gfm.C70_partial"
   ],
   "note": "False of the code for paragraphs (C70_refuted) and headings (C70_refuted_heading). C70_refuted_always: for every list and every paragraph after it that starts with two letters. Headings and thematic breaks come after the closed list, inside a paragraph (C70_partial)."
  },
  {
   "property": "C71",
   "status": "partial",
   "theorems": [
    "Smd.Gfm.C71_refuted_tab",
    "Smd.Gfm.C71_refuted",
    "Smd.Gfm.C71_refuted_numbered",
    "Smd.Gfm.C71_refuted_code",
    "Smd.Gfm.C71_partial"
   ],
   "note": "False of the code: a heading that starts with a number and a dot, that ends with inline code, or that has a tab inside its text, is shown empty (C71_refuted, C71_refuted_numbered, C71_refuted_code, C71_refuted_tab, for all such headings). Proved for headings of running text. Missing: these headings."
  },
  {
   "property": "C72",
   "status": "partial",
   "theorems": [
    "Smd.Gfm.C72_refuted",
    "Smd.Gfm.C72_refuted_always",
    "Smd.Gfm.C72_refuted_backslash",
    "Smd.Gfm.C72_refuted_never"
   ],
   "note": "False of the code, for all running text: spaces and backslash at the end of a line leave nothing in the output (C72_refuted, C72_refuted_always, C72_refuted_backslash). No document without `<` has a line break in its output (C72_refuted_never): the arm of the renderer that writes `<br>` is never reached."
  },
  {
   "property": "C73",
   "status": "partial",
   "theorems": [
    "Smd.Gfm.C73_partial_tabs",
    "Smd.Gfm.C73_partial",
    "Smd.Gfm.C73_partial_last",
    "Smd.Gfm.C73_refuted",
    "Smd.Gfm.C73_refuted_deep",
    "Smd.Gfm.C73_refuted_lost"
   ],
   "note": "False of the code: with a hash in the line and text before it (C73_refuted) and with five or more spaces, for every text (C73_refuted_deep), it is a paragraph. Proved for a tab, four spaces, and two spaces with a tab, any number of lines without those hashes (C73_partial, C73_partial_last). Two tabs: code that starts with a tab (C73_partial_tabs)."
  },
  {
   "property": "C74",
   "status": "partial",
   "theorems": [
    "Smd.Gfm.C74_partial_angles",
    "Smd.Gfm.C74_partial_lines",
    "Smd.Gfm.C74_partial_blank",
    "Smd.Gfm.C74_partial",
    "Smd.Gfm.C74_partial_code",
    "Smd.Gfm.C74_refuted",
    "Smd.Gfm.C74_refuted_always"
   ],
   "note": "False of the code for angle brackets: the less-than sign is lost, for every text (C74_refuted, C74_refuted_always). Proved for square brackets and backticks (C74_partial, C74_partial_code). Also several lines after the bracket (C74_partial_lines, C74_partial_blank) and empty angle brackets (C74_partial_angles)."
  },
  {
   "property": "C75",
   "status": "partial",
   "theorems": [
    "Smd.Gfm.C75_refuted",
    "Smd.Gfm.C75_refuted_always",
    "Smd.Gfm.C75_partial"
   ],
   "note": "False of the code: one to six hashes and a space anywhere in a line start a heading (C75_refuted, C75_refuted_always). Proved for seven or more hashes and hashes that are not followed by white space (C75_partial)."
  },
  {
   "property": "C76",
   "status": "partial",
   "theorems": [
    "Smd.Gfm.C76_refuted",
    "Smd.Gfm.C76_refuted_always",
    "Smd.Gfm.C76_partial"
   ],
   "note": "False of the code for entries with an asterisk: the list ends, and the line is a paragraph of its own whose markup is not interpreted, whatever it is (C76_refuted, C76_refuted_always). Proved for entries with a hyphen or a plus sign, any number of paragraphs of running text (C76_partial). Missing: the asterisk."
  },
  {
   "property": "C77",
   "status": "partial",
   "theorems": [
    "Smd.Gfm.C77_partial",
    "Smd.Gfm.C77_refuted",
    "Smd.Gfm.C77_refuted_always",
    "Smd.Gfm.C77_refuted_tab"
   ],
   "note": "False of the code: an inner entry indented by two spaces is lost, whatever it is (C77_refuted, C77_refuted_always). Proved: after a blank line and a tab, a list of one entry is inside the entry before it (C77_partial; see C103). Missing: lists indented by spaces, which are lost or become entries of the outer list, and inner lists of several entries. With a tab in front of the inner entry it is lost as well (C77_refuted_tab)."
  },
  {
   "property": "C78",
   "status": "partial",
   "theorems": [
    "Smd.Gfm.C78_refuted",
    "Smd.Gfm.C78_refuted_bullet",
    "Smd.Gfm.C78_refuted_ordered",
    "Smd.Gfm.C78_refuted_task",
    "Smd.Gfm.C78_partial"
   ],
   "note": "False of the code when the list follows directly: the list is opened inside the paragraph and closed after it (C78_refuted, and for all bullets, ordered entries and tasks C78_refuted_bullet, C78_refuted_ordered, C78_refuted_task). Proved after a blank line (C78_partial)."
  },
  {
   "property": "C79",
   "status": "partial",
   "theorems": [
    "Smd.Gfm.C79_refuted",
    "Smd.Gfm.C79_refuted_always",
    "Smd.Gfm.C79_partial"
   ],
   "note": "False of the code: only the last digit starts the list, the others are text in a paragraph around it (C79_refuted, C79_refuted_always). Proved: lists of up to nine entries, numbered from 1 (C79_partial). Missing: numbers above 9, which are broken."
  },
  {
   "property": "C80",
   "status": "partial",
   "theorems": [
    "Smd.Gfm.C80_refuted",
    "Smd.Gfm.C80_refuted_always",
    "Smd.Gfm.C80_partial"
   ],
   "note": "False of the code: the image opens a paragraph inside the paragraph (C80_refuted, C80_refuted_always). It holds of images between blank lines (C80_partial)."
  },
  {
   "property": "C81",
   "status": "partial",
   "theorems": [
    "Smd.Gfm.C81_refuted",
    "Smd.Gfm.C81_refuted_always",
    "Smd.Gfm.C81_partial"
   ],
   "note": "False of the code: carriage returns and line feeds are dropped and the paragraphs joined (C81_refuted, C81_refuted_always). It holds of line feeds (C81_partial)."
  },
  {
   "property": "C82",
   "status": "partial",
   "theorems": [
    "Smd.Gfm.C82_refuted",
    "Smd.Gfm.C82_refuted_always",
    "Smd.Gfm.C82_refuted_equals"
   ],
   "note": "False of the code: hyphens are a thematic break inside the paragraph, equal signs are text (C82_refuted, C82_refuted_always, C82_refuted_equals)."
  },
  {
   "property": "C83",
   "status": "partial",
   "theorems": [
    "Smd.Gfm.C83_refuted",
    "Smd.Gfm.C83_refuted_always",
    "Smd.Gfm.C83_partial"
   ],
   "note": "False of the code: what follows the tab is a code block whose end is outside the paragraph (C83_refuted, C83_refuted_always). Proved: a tab after a space is kept, with the rest of the line as plain text (C83_partial)."
  },
  {
   "property": "C84",
   "status": "partial",
   "theorems": [
    "Smd.Gfm.C84_refuted",
    "Smd.Gfm.C84_refuted_always",
    "Smd.Gfm.C84_refuted_lines",
    "Smd.Gfm.C84_partial"
   ],
   "note": "False of the code: the rest of the line after the bar is shown as it is written (C84_refuted, C84_refuted_always; nothing is lost). It is interpreted if the bar is escaped (C84_partial). C84_refuted_lines: the line after it is interpreted, the line end between them is lost."
  },
  {
   "property": "C85",
   "status": "partial",
   "theorems": [
    "Smd.Gfm.C85_refuted",
    "Smd.Gfm.C85_refuted_always",
    "Smd.Gfm.C85_partial"
   ],
   "note": "False of the code: the table is lost (C85_refuted, C85_refuted_always). Proved: a cell written as spaces is shown as an empty cell (C85_partial)."
  },
  {
   "property": "C86",
   "status": "partial",
   "theorems": [
    "Smd.Gfm.C86_refuted",
    "Smd.Gfm.C86_refuted_code",
    "Smd.Gfm.C86_refuted_always",
    "Smd.Gfm.C86_partial"
   ],
   "note": "False of the code: text next to a link is shown twice, in every table (C86_refuted, C86_refuted_always); a witness for code (C86_refuted_code). Proved: a cell that consists of a link shows it once (C86_partial)."
  },
  {
   "property": "C87",
   "status": "partial",
   "theorems": [
    "Smd.Gfm.C87_refuted_always",
    "Smd.Gfm.C87_refuted",
    "Smd.Gfm.C87_partial_text",
    "Smd.Gfm.C87_partial"
   ],
   "note": "False of the code: every reference has the number 1 (C87_refuted, C87_refuted_always). Proved: a single reference has the number 1 (C87_partial). References in a text that the lexer leaves in one piece, here behind a bar, are numbered from 1 (C87_partial_text)."
  },
  {
   "property": "C88",
   "status": "partial",
   "theorems": [
    "Smd.Gfm.C88_refuted",
    "Smd.Gfm.C88_refuted_always",
    "Smd.Gfm.C88_partial"
   ],
   "note": "False of the code: every heading after a quote is inside it (C88_refuted, C88_refuted_always). A quote ends before a paragraph (C88_partial)."
  },
  {
   "property": "C89",
   "status": "partial",
   "theorems": [
    "Smd.Gfm.C89_refuted",
    "Smd.Gfm.C89_refuted_always",
    "Smd.Gfm.C89_refuted_task",
    "Smd.Gfm.C89_partial"
   ],
   "note": "False of the code: the text of such an entry is shown as it is written, whatever it is (C89_refuted, C89_refuted_always, C89_refuted_task). Proved: markup in bullets is interpreted as in a paragraph (C89_partial). Missing: ordered lists and task lists, where it is false."
  },
  {
   "property": "C90",
   "status": "partial",
   "theorems": [
    "Smd.Gfm.C90_refuted_always",
    "Smd.Gfm.C90_refuted",
    "Smd.Gfm.C90_partial"
   ],
   "note": "False of the code: the number does not matter (C90_refuted, C90_refuted_always). Proved: a list numbered from 1 is shown as an ordered list with its entries in order (C90_partial)."
  },
  {
   "property": "C91",
   "status": "partial",
   "theorems": [
    "Smd.Gfm.C91_refuted",
    "Smd.Gfm.C91_refuted_always",
    "Smd.Gfm.C91_partial"
   ],
   "note": "False of the code: the ampersand is escaped, whatever the name (C91_refuted, C91_refuted_always). Proved: the characters of a word, ampersands among them, stand for themselves (C91_partial)."
  },
  {
   "property": "C92",
   "status": "partial",
   "theorems": [
    "Smd.Gfm.C92_refuted",
    "Smd.Gfm.C92_refuted_always",
    "Smd.Gfm.C92_partial"
   ],
   "note": "False of the code: the second is opened inside the first and closed after it (C92_refuted, C92_refuted_always). It holds if a heading is between them (C92_partial)."
  },
  {
   "property": "C93",
   "status": "partial",
   "theorems": [
    "Smd.Gfm.C93_refuted",
    "Smd.Gfm.C93_refuted_always",
    "Smd.Gfm.C93_partial"
   ],
   "note": "False of the code: it is shown as text (C93_refuted, C93_refuted_always). It does between angle brackets (C93_partial)."
  },
  {
   "property": "C94",
   "status": "partial",
   "theorems": [
    "Smd.Gfm.C94_refuted",
    "Smd.Gfm.C94_refuted_always",
    "Smd.Gfm.C94_partial"
   ],
   "note": "False of the code: all backslashes are dropped (C94_refuted, C94_refuted_always). Code without backslashes is shown (C94_partial)."
  },
  {
   "property": "C95",
   "status": "partial",
   "theorems": [
    "Smd.Gfm.C95_refuted",
    "Smd.Gfm.C95_refuted_always",
    "Smd.Gfm.C95_refuted_open",
    "Smd.Gfm.C95_partial",
    "Smd.Gfm.C95_refuted_line_end"
   ],
   "note": "False of the code: underscores inside all words emphasise, and so does a single marker up to the end of the document (C95_refuted, C95_refuted_always, C95_refuted_open), and an underscore at the end of a line emphasises the lines after it (C95_refuted_line_end). Two or three markers with another number of markers after them are text (C95_partial)."
  },
  {
   "property": "C96",
   "status": "partial",
   "theorems": [
    "Smd.Gfm.C96_refuted",
    "Smd.Gfm.C96_refuted_underscores",
    "Smd.Gfm.C96_refuted_spaces",
    "Smd.Gfm.C96_partial_stars",
    "Smd.Gfm.C96_partial",
    "Smd.Gfm.C96_refuted_spaces_always"
   ],
   "note": "False of the code: witnesses for each form (C96_refuted, C96_refuted_underscores, C96_refuted_spaces). What is a thematic break is C34. Three hyphens, and four of the others, are thematic breaks between paragraphs (C96_partial). A line of asterisks, three or any other number, is one when a line follows (C96_partial_stars)."
  },
  {
   "property": "C97",
   "status": "partial",
   "theorems": [
    "Smd.App.C97_refuted",
    "Smd.App.C97_partial"
   ],
   "note": "False of the code: the flag is declared with ArgAction::Help, so no command line prints the version (C97_refuted, for every command line). Proved: which command lines show the help (exactly those of Spec.HelpLine), with --version and -V among the ways to ask for it (C97_partial)."
  },
  {
   "property": "C98",
   "status": "proved",
   "theorems": [
    "Smd.App.C98_accepted",
    "Smd.App.C98_unambiguous"
   ],
   "note": ""
  },
  {
   "property": "C99",
   "status": "partial",
   "theorems": [
    "Smd.App.C99_refuted_always",
    "Smd.App.C99_refuted",
    "Smd.App.C99_partial"
   ],
   "note": "False of the code: verbose is not global, so no accepted command line has -v, in any spelling, after the subcommand (C99_refuted, C99_refuted_always). Proved: before the subcommand any number of them may be added and they are counted up to 255 (C99_partial)."
  },
  {
   "property": "C100",
   "status": "partial",
   "theorems": [
    "Smd.App.C100_refuted",
    "Smd.App.C100_partial"
   ],
   "note": "False of the code for objects: whatever options are given, no command is run, since options become flags and the program requires a subcommand (C100_refuted, for every object of the type Options). Proved: arrays are passed on unchanged, so that exactly those of C98 run a command (C100_partial)."
  },
  {
   "property": "C101",
   "status": "proved",
   "theorems": [
    "Smd.App.C101_status",
    "Smd.App.C101_usage",
    "Smd.App.C101_parse"
   ],
   "note": ""
  },
  {
   "property": "C102",
   "status": "proved",
   "theorems": [
    "Smd.App.C102_filter"
   ],
   "note": ""
  },
  {
   "property": "C103",
   "status": "partial",
   "theorems": [
    "Smd.Gfm.C103_refuted",
    "Smd.Gfm.C103_partial"
   ],
   "note": "False of the code for entries with an asterisk: a further line ends the list (C103_refuted, see also C76_refuted_always). Proved for entries with a hyphen or a plus sign, any number of entries and further lines; entries with an asterisk may be in the list if they have no further lines (C103_partial). Missing: the asterisk."
  },
  {
   "property": "C104",
   "status": "proved",
   "theorems": [
    "Smd.App.C104_beginning",
    "Smd.App.C104_whole"
   ],
   "note": ""
  },
  {
   "property": "C105",
   "status": "proved",
   "theorems": [
    "Smd.App.C105_beginning",
    "Smd.App.C105_whole"
   ],
   "note": ""
  },
  {
   "property": "C106",
   "status": "proved",
   "theorems": [
    "Smd.App.C106_unset",
    "Smd.App.C106_page"
   ],
   "note": ""
  },
  {
   "property": "C107",
   "status": "proved",
   "theorems": [
    "Smd.App.C107_unset",
    "Smd.App.C107_scripts"
   ],
   "note": ""
  },
  {
   "property": "C108",
   "status": "partial",
   "theorems": [
    "Smd.Npm.C108_refuted",
    "Smd.Npm.C108_partial"
   ],
   "note": "false: a status other than 0 becomes 1, because the promise of execa is rejected and nobody handles it (C108_refuted); proved: 0 if the program exits with 0, else 1, with the arguments passed on unchanged"
  },
  {
   "property": "C109",
   "status": "partial",
   "theorems": [
    "Smd.Npm.C109_refuted",
    "Smd.Npm.C109_partial"
   ],
   "note": "false: with only these packages the command always ends with 1 (C109_refuted), because another package is looked for (C66); proved: with that package it succeeds exactly if the program does"
  },
  {
   "property": "C110",
   "status": "partial",
   "theorems": [
    "Smd.Gfm.C110_refuted_lists",
    "Smd.Gfm.C110_refuted",
    "Smd.Gfm.C110_partial"
   ],
   "note": "false: every link or code span in a table cell is replaced by the rendering of the whole cell, so the output grows with the square of the document (C110_refuted, for every factor); proved for all documents: at most quadratic, up to the number of digits of the footnote numbers; C110_refuted_lists: also false for documents without tables, because of the spaces that entries add to the code in them"
  },
  {
   "property": "C111",
   "status": "proved",
   "theorems": [
    "Smd.Gfm.C111_renaming"
   ],
   "note": ""
  },
  {
   "property": "C112",
   "status": "partial",
   "theorems": [
    "Smd.Gfm.C112_refuted",
    "Smd.Gfm.C112_partial",
    "Smd.Gfm.C112_many_partial",
    "Smd.Gfm.C112_exception_partial"
   ],
   "note": "false: a line indented by four spaces with a # in it is code at the very start and a paragraph after a newline (C112_refuted, C112_exception_partial for all such lines); proved for every document that does not begin that way, for panics and endless loops too, and for all documents from one newline on"
  },
  {
   "property": "C113",
   "status": "proved",
   "theorems": [
    "Smd.App.C113_reported",
    "Smd.App.C113_shown"
   ],
   "note": ""
  },
  {
   "property": "C114",
   "status": "partial",
   "theorems": [
    "Smd.App.C114_refuted",
    "Smd.App.C114_partial"
   ],
   "note": "false: if the output cannot be created, the only error is `IO error: ...` without a path (C114_refuted); proved in all other cases, and in this one nothing has been changed and the path is in a debug line"
  },
  {
   "property": "C115",
   "status": "partial",
   "theorems": [
    "Smd.App.C115_partial",
    "Smd.App.C115_pdf",
    "Smd.App.C115_refuted"
   ],
   "note": "false: after a short write the lines are those of the whole text (C115_refuted); the bytes are always right, the lines are right if nothing is written short"
  },
  {
   "property": "C116",
   "status": "partial",
   "theorems": [
    "Smd.App.C116_levels",
    "Smd.App.C116_refuted",
    "Smd.App.C116_partial"
   ],
   "note": "false: RUST_LOG=trace shows more than -v, which overrides it (C116_refuted); proved if RUST_LOG is not set or there is a -v already; what 0, 1, 2 and more -v show is proved exactly"
  },
  {
   "property": "C117",
   "status": "proved",
   "theorems": [
    "Smd.App.C117_shown",
    "Smd.App.C117_pdf",
    "Smd.App.C117_init"
   ],
   "note": ""
  },
  {
   "property": "C118",
   "status": "proved",
   "theorems": [
    "Smd.App.C118_same",
    "Smd.App.C118_render"
   ],
   "note": ""
  },
  {
   "property": "C119",
   "status": "partial",
   "theorems": [
    "Smd.Gfm.C119_refuted",
    "Smd.Gfm.C119_partial",
    "Smd.Gfm.C119_refuted_always",
    "Smd.App.C119_shown"
   ],
   "note": "False of the code: every run of one to three spaces and every single line end is logged as an error of the lexer, with warn, which is shown by default (C119_refuted, and C119_refuted_always for every such text with a space). Proved instead: for text without control characters and at most three spaces in a row the warnings are exactly these (C119_partial), and a conversion shows exactly them (C119_shown)."
  },
  {
   "property": "C120",
   "status": "partial",
   "theorems": [
    "Smd.Gfm.C120_refuted",
    "Smd.Gfm.C120_partial",
    "Smd.Gfm.C120_square",
    "Smd.App.C120_run"
   ],
   "note": "False of the code: a table cell is parsed again, and logged again, for every link in it, so k links cost k*k lines (C120_refuted). Proved instead: linear for documents without '|' (C120_partial), also for the whole program (C120_run), and at most quadratic for every document (C120_square)."
  },
  {
   "property": "C121",
   "status": "partial",
   "theorems": [
    "Smd.App.C121_partial",
    "Smd.App.C121_refuted"
   ],
   "note": "False of the code: the configuration is loaded and never used, so a file that should be kept is removed (C121_refuted). Proved: after every successful conversion to PDF there is no tmp.html, whatever is configured (C121_partial)."
  },
  {
   "property": "C122",
   "status": "partial",
   "theorems": [
    "Smd.App.C122_no_influence",
    "Smd.App.C122_refuted",
    "Smd.App.C122_refuted_serialize"
   ],
   "note": "False of the code: with abort the document 'a b', whose space is reported, is converted (C122_refuted), and with serialize the space is missing from the output (C122_refuted_serialize). Proved instead: any two valid configurations, environments and configuration directories give a conversion exactly the same executions, with the same results (C122_no_influence)."
  },
  {
   "property": "C123",
   "status": "partial",
   "theorems": [
    "Smd.App.C123_refuted",
    "Smd.App.C123_partial"
   ],
   "note": "False of the code for an input with the extension of the output: its rendering is rendered again (C123_refuted). Proved for every other input that is not the temporary file or linked to it, on systems that write everything, for both formats, also when another process in the same directory makes the second conversion (C123_partial)."
  },
  {
   "property": "C124",
   "status": "proved",
   "theorems": [
    "Smd.Gfm.C124_tree",
    "Smd.Gfm.C124_balanced"
   ],
   "note": ""
  },
  {
   "property": "C125",
   "status": "partial",
   "theorems": [
    "Smd.Gfm.C125_refuted",
    "Smd.Gfm.C125_partial",
    "Smd.Gfm.C125_empty",
    "Smd.Gfm.C125_needed"
   ],
   "note": "C125_refuted with the witness `C#`. C125_partial: equal pages when the last token is complete; what counts as complete is the definition Sealed in Spec/Trailing. C125_needed: for emphasis, link titles, indented code, list entries and a backslash that are not complete the page changes. C125_empty: a document of line feeds alone is like the empty one. A `<details>` is complete when its closing tag is the end. Missing: texts of more than one character such as `1.` at the end, and line breaks and tabs at the end."
  },
  {
   "property": "C126",
   "status": "proved",
   "theorems": [
    "Smd.Gfm.C126_token",
    "Smd.Gfm.C126_tokens",
    "Smd.Gfm.C126_resume",
    "Smd.Gfm.C126_html",
    "Smd.Gfm.C126_two_needed"
   ],
   "note": ""
  },
  {
   "property": "C127",
   "status": "proved",
   "theorems": [
    "Smd.Core.C127_at_once",
    "Smd.Core.C127_reported",
    "Smd.Core.C127_success",
    "Smd.Core.C127_cause",
    "Smd.Core.C127_stage",
    "Smd.Core.C127_io_same"
   ],
   "note": ""
  },
  {
   "property": "C128",
   "status": "partial",
   "theorems": [
    "Smd.Gfm.C128_refuted",
    "Smd.Gfm.C128_partial",
    "Smd.Gfm.C128_fails_partial",
    "Smd.Gfm.C128_exact_partial",
    "Smd.Gfm.C128_alone_partial",
    "Smd.Gfm.C128_many_partial"
   ],
   "note": "False: a list that is interrupted by a blank line goes on in the next part (C128_refuted). C128_partial: true if the first document ends with line feeds that are a token of their own and a one-letter paragraph after it is rendered as it should; then any document may follow. C128_exact_partial: this test is exact. C128_fails_partial: if the second document hangs or panics so does the whole. C128_alone_partial: without the line feed in front of the second document, but for C112's exception. C128_many_partial: any number of parts."
  },
  {
   "property": "C129",
   "status": "partial",
   "theorems": [
    "Smd.Gfm.C129_refuted",
    "Smd.Gfm.C129_refuted_tab",
    "Smd.Gfm.C129_refuted_spaces",
    "Smd.Gfm.C129_partial"
   ],
   "note": "False of the code: every character of the next line is a paragraph of its own, for every word and both indentations (C129_refuted, C129_refuted_tab, C129_refuted_spaces). Proved: the word is shown inside the entry, below its text, and the pieces joined give the word (C129_partial)."
  },
  {
   "property": "C130",
   "status": "partial",
   "theorems": [
    "Smd.Gfm.C130_refuted",
    "Smd.Gfm.C130_partial",
    "Smd.Gfm.C130_refuted_always",
    "Smd.Gfm.C130_partial_tab",
    "Smd.Gfm.C130_refuted_marker"
   ],
   "note": "False of the code: every enclosing entry puts two spaces in front of the code, so at depth n there are 2n (C130_refuted, C130_refuted_always). Proved: it is shown, with these spaces and nothing else changed, at every depth and with code between the entries (C130_partial). After tabs likewise (C130_partial_tab); how many tabs belong to the code depends on the marker (C130_refuted_marker)."
  },
  {
   "property": "C131",
   "status": "partial",
   "theorems": [
    "Smd.Gfm.C131_refuted",
    "Smd.Gfm.C131_refuted_always",
    "Smd.Gfm.C131_partial"
   ],
   "note": "False of the code: the code is escaped twice and its tabs become two spaces, whatever it is (C131_refuted, C131_refuted_always). Proved: code without tabs that escaping does not change is shown as outside, at every level (C131_partial)."
  },
  {
   "property": "C132",
   "status": "partial",
   "theorems": [
    "Smd.Gfm.C132_refuted",
    "Smd.Gfm.C132_refuted_always",
    "Smd.Gfm.C132_partial"
   ],
   "note": "False of the code: with a space between the markers the inner ones are shown as text, escaped twice, for every text (C132_refuted, C132_refuted_always). Proved: without a space, m markers behind n others are m quotes in n quotes (C132_partial)."
  },
  {
   "property": "C133",
   "status": "partial",
   "theorems": [
    "Smd.Gfm.C133_refuted",
    "Smd.Gfm.C133_partial",
    "Smd.Gfm.C133_refuted_text",
    "Smd.Gfm.C133_refuted_entries"
   ],
   "note": "False of the code: every line of text is a paragraph of its own and every entry a list of its own, for any number of lines (C133_refuted, C133_refuted_text, C133_refuted_entries). Proved: the lines are in one block quote, in order, each with its own rendering (C133_partial)."
  },
  {
   "property": "C134",
   "status": "proved",
   "theorems": [
    "Smd.Gfm.C134_alt"
   ],
   "note": ""
  },
  {
   "property": "C135",
   "status": "partial",
   "theorems": [
    "Smd.Gfm.C135_refuted",
    "Smd.Gfm.C135_refuted_lists",
    "Smd.Gfm.C135_refuted_quotes",
    "Smd.Gfm.C135_partial"
   ],
   "note": "False of the code: after a list of any kind the line is a paragraph (C135_refuted, C135_refuted_lists for every list and every line), and after a quote the code element contains the closing tags of the quote (C135_refuted_quotes for all quotes and lines). Proved after any blocks of the other kinds (C135_partial). Missing: lists and quotes. Lines with a hash are left to C73."
  },
  {
   "property": "C136",
   "status": "partial",
   "theorems": [
    "Smd.Gfm.C136_refuted",
    "Smd.Gfm.C136_refuted_always",
    "Smd.Gfm.C136_partial"
   ],
   "note": "False of the code: after an asterisk the box is shown as text, whatever the box and the text (C136_refuted, C136_refuted_always). Proved for hyphens and plus signs (C136_partial; lists of them in C30). Missing: the asterisk."
  },
  {
   "property": "C137",
   "status": "partial",
   "theorems": [
    "Smd.Gfm.C137_refuted",
    "Smd.Gfm.C137_refuted_always",
    "Smd.Gfm.C137_partial"
   ],
   "note": "False of the code: `1 > 0` ends the paragraph and starts a quote (C137_refuted); so do all greater-than signs followed by a space after any running text, with any further quoted lines (C137_refuted_always). Proved for signs with neither space nor tab behind them (C137_partial). Missing: signs followed by a space or tab."
  },
  {
   "property": "C138",
   "status": "proved",
   "theorems": [
    "Smd.Gfm.C138_quotes"
   ],
   "note": ""
  },
  {
   "property": "C139",
   "status": "partial",
   "theorems": [
    "Smd.Gfm.C139_refuted",
    "Smd.Gfm.C139_refuted_label",
    "Smd.Gfm.C139_partial"
   ],
   "note": "False of the code: a heading of hashes only is empty without and not empty with a space at its end (C139_refuted), and a space after a label stops the program (C139_refuted_label). Proved for all other headings, whatever their text and whatever follows: the documents with and without the white space have the same outcome (C139_partial). Missing: headings of hashes only and headings with a label."
  },
  {
   "property": "C140",
   "status": "partial",
   "theorems": [
    "Smd.Gfm.C140_refuted",
    "Smd.Gfm.C140_refuted_always",
    "Smd.Gfm.C140_refuted_lost",
    "Smd.Gfm.C140_partial"
   ],
   "note": "False of the code: the backticks are shown as text, whatever the texts (C140_refuted, C140_refuted_always); and if three backticks occur in a later line, everything up to them is missing from the result (C140_refuted_lost). Proved for other numbers of backticks (C140_partial). Missing: three backticks."
  },
  {
   "property": "C141",
   "status": "partial",
   "theorems": [
    "Smd.Gfm.C141_refuted",
    "Smd.Gfm.C141_refuted_always",
    "Smd.Gfm.C141_partial"
   ],
   "note": "False of the code: any number of asterisks at the end of a line becomes a thematic break inside the paragraph (C141_refuted, C141_refuted_always). Proved for two or three at the end of the document (C141_partial). Missing: asterisks before a line end."
  },
  {
   "property": "C142",
   "status": "partial",
   "theorems": [
    "Smd.Gfm.C142_refuted",
    "Smd.Gfm.C142_refuted_always",
    "Smd.Gfm.C142_partial",
    "Smd.Gfm.C142_partial_image"
   ],
   "note": "False of the code: the href is http: and the target (C142_refuted), so that by RFC 3986 no relative link leads where it should in a document that is not read over http, nor over http unless it starts with // (C142_refuted_always). Proved for targets that start with // and need no encoding in documents read over http (C142_partial), and for the addresses of images (C142_partial_image). Missing: all other relative links, and targets with one @, which become mail addresses."
  },
  {
   "property": "C143",
   "status": "partial",
   "theorems": [
    "Smd.Gfm.C143_refuted",
    "Smd.Gfm.C143_refuted_percent",
    "Smd.Gfm.C143_refuted_always",
    "Smd.Gfm.C143_refuted_autolink",
    "Smd.Gfm.C143_exact",
    "Smd.Gfm.C143_partial"
   ],
   "note": "False of the code: # and % are encoded (C143_refuted, C143_refuted_percent), so that no link or autolink with a fragment leads where it should, wherever the document is (C143_refuted_always, C143_refuted_autolink). Exact: the address is kept if and only if it has a scheme and none of the characters %#[]!$'()*\\ and not one @ with several colons (C143_exact). Proved for such addresses (C143_partial). Missing: targets with these characters."
  },
  {
   "property": "C144",
   "status": "partial",
   "theorems": [
    "Smd.Gfm.C144_refuted",
    "Smd.Gfm.C144_refuted_data",
    "Smd.Gfm.C144_exact",
    "Smd.Gfm.C144_partial",
    "Smd.Gfm.C144_refuted_always"
   ],
   "note": "False of the code: the scheme is dropped (C144_refuted), so that an image at scheme://rest is found if and only if the document is read over the same scheme (C144_exact), and an image in a data: address by no document (C144_refuted_data, C144_refuted_always). Proved for documents read over the scheme of the image (C144_partial). Missing: all other documents, addresses with one @."
  },
  {
   "property": "C145",
   "status": "partial",
   "theorems": [
    "Smd.Gfm.C145_refuted",
    "Smd.Gfm.C145_refuted_always",
    "Smd.Gfm.C145_refuted_number",
    "Smd.Gfm.C145_partial"
   ],
   "note": "False of the code: every such sign begins a list in the middle of the line (C145_refuted, C145_refuted_always), also an underscore, which is no sign of a list, and every digit with a dot and a space, as at the end of a sentence (C145_refuted_number). Proved for signs after a backslash and numbers without a space after the dot (C145_partial). Missing: signs and numbers with spaces."
  },
  {
   "property": "C146",
   "status": "partial",
   "theorems": [
    "Smd.Gfm.C146_refuted",
    "Smd.Gfm.C146_refuted_always",
    "Smd.Gfm.C146_refuted_middle",
    "Smd.Gfm.C146_refuted_code",
    "Smd.Gfm.C146_partial"
   ],
   "note": "False of the code: nested emphasis is not understood (C146_refuted). All markers of strong text that ends with emphasis are shown (C146_refuted_always); if the emphasis is in the middle, the marker that ends it begins a list (C146_refuted_middle). Code inside is shown with its backticks (C146_refuted_code). Proved for words without markup (C146_partial). Missing: any markup inside."
  },
  {
   "property": "C147",
   "status": "partial",
   "theorems": [
    "Smd.Gfm.C147_refuted",
    "Smd.Gfm.C147_refuted_always",
    "Smd.Gfm.C147_partial"
   ],
   "note": "False of the code: the markers are shown (C147_refuted, C147_refuted_always). Proved for words without markup (C147_partial). Missing: any markup."
  },
  {
   "property": "C148",
   "status": "partial",
   "theorems": [
    "Smd.Gfm.C148_refuted",
    "Smd.Gfm.C148_refuted_always",
    "Smd.Gfm.C148_partial"
   ],
   "note": "False of the code: both are shown as they are written and nothing becomes a link (C148_refuted, C148_refuted_always). Proved for links with their target (C148_partial). Missing: references."
  },
  {
   "property": "C149",
   "status": "partial",
   "theorems": [
    "Smd.Gfm.C149_refuted",
    "Smd.Gfm.C149_refuted_always",
    "Smd.Gfm.C149_partial"
   ],
   "note": "False of the code: the quote ends before the line (C149_refuted), always (C149_refuted_always). Proved for lines with their own sign, which are in the quote as paragraphs of their own (C149_partial; see C133). Missing: lines without a sign."
  },
  {
   "property": "C150",
   "status": "partial",
   "theorems": [
    "Smd.Gfm.C150_refuted",
    "Smd.Gfm.C150_refuted_always",
    "Smd.Gfm.C150_partial"
   ],
   "note": "False of the code: the line ends the quote and is shown as a paragraph between two quotes (C150_refuted, C150_refuted_always). Proved for lines of > and a space (C150_partial). Missing: lines without the space."
  },
  {
   "property": "C151",
   "status": "partial",
   "theorems": [
    "Smd.Gfm.C151_refuted",
    "Smd.Gfm.C151_refuted_always"
   ],
   "note": "False of the code: every comment of one line without > and without [^ is shown (C151_refuted, C151_refuted_always). Nothing of the claim is proved."
  },
  {
   "property": "C152",
   "status": "partial",
   "theorems": [
    "Smd.Gfm.C152_refuted",
    "Smd.Gfm.C152_refuted_always",
    "Smd.Gfm.C152_partial"
   ],
   "note": "False of the code: there is no image, and the only link leads to the address of the image (C152_refuted, C152_refuted_always). Proved for an image with the link after it (C152_partial). Missing: images in links."
  },
  {
   "property": "C153",
   "status": "partial",
   "theorems": [
    "Smd.Gfm.C153_refuted",
    "Smd.Gfm.C153_refuted_always",
    "Smd.Gfm.C153_partial"
   ],
   "note": "False of the code: after - or + and a tab the text is code in the entry, after * sign and text are a paragraph, after a number the text is code that is closed outside the paragraph it is opened in (C153_refuted, C153_refuted_always). Proved for one space (C153_partial; the texts of numbered entries are shown as written). Missing: tabs."
  },
  {
   "property": "C154",
   "status": "partial",
   "theorems": [
    "Smd.Gfm.C154_refuted",
    "Smd.Gfm.C154_refuted_always",
    "Smd.Gfm.C154_partial"
   ],
   "note": "False of the code: three or more - or + and four or more * or _ are a thematic break inside the paragraph (C154_refuted, C154_refuted_always). Proved for two - or + (C154_partial). Missing: longer runs."
  },
  {
   "property": "C155",
   "status": "partial",
   "theorems": [
    "Smd.Gfm.C155_refuted",
    "Smd.Gfm.C155_refuted_always",
    "Smd.Gfm.C155_partial"
   ],
   "note": "False of the code: it is an entry of a list (C155_refuted, C155_refuted_always). Proved for signs after a backslash (C155_partial). Missing: signs without one."
  },
  {
   "property": "C156",
   "status": "partial",
   "theorems": [
    "Smd.Gfm.C156_refuted",
    "Smd.Gfm.C156_refuted_always"
   ],
   "note": "False of the code: the tildes, the language and the text are one paragraph (C156_refuted, C156_refuted_always). Nothing of the claim is proved."
  },
  {
   "property": "C157",
   "status": "partial",
   "theorems": [
    "Smd.Gfm.C157_refuted",
    "Smd.Gfm.C157_refuted_always",
    "Smd.Gfm.C157_partial"
   ],
   "note": "False of the code: a heading with a label panics (C157_refuted, and every such heading behind any blocks and with anything after it: C157_refuted_always). Proved for headings of running text without a label, behind any blocks and whatever follows (C157_partial). Missing: labels."
  },
  {
   "property": "C158",
   "status": "partial",
   "theorems": [
    "Smd.Gfm.C158_refuted",
    "Smd.Gfm.C158_refuted_always",
    "Smd.Gfm.C158_refuted_last",
    "Smd.Gfm.C158_partial"
   ],
   "note": "False of the code: the carriage return is a cell of its own, so the table is the one with an empty column more (C158_refuted, C158_refuted_always), and a table of one row without a line end after it is not shown at all (C158_refuted_last). Proved if the first two lines end with line feeds, whatever the ends of the rows (C158_partial)."
  },
  {
   "property": "C159",
   "status": "proved",
   "theorems": [
    "Smd.Gfm.C159_text",
    "Smd.Gfm.C159_rule",
    "Smd.Gfm.C159_bullets",
    "Smd.Gfm.C159_quotes"
   ],
   "note": ""
  },
  {
   "property": "C160",
   "status": "partial",
   "theorems": [
    "Smd.Gfm.C160_refuted",
    "Smd.Gfm.C160_refuted_always",
    "Smd.Gfm.C160_refuted_heading"
   ],
   "note": "False of the code: it is text like any other (C160_refuted), shown in front of every running text (C160_refuted_always), and a paragraph of its own in front of every heading (C160_refuted_heading)."
  },
  {
   "property": "C161",
   "status": "partial",
   "theorems": [
    "Smd.Gfm.C161_refuted",
    "Smd.Gfm.C161_refuted_always",
    "Smd.Gfm.C161_refuted_strike",
    "Smd.Gfm.C161_partial"
   ],
   "note": "False of the code: markers in different paragraphs make one paragraph of both with the blank line inside of it, for emphasis (C161_refuted, C161_refuted_always) and for tildes (C161_refuted_strike), whatever text is around. Proved if the markers of each paragraph are in pairs (C161_partial)."
  },
  {
   "property": "C162",
   "status": "partial",
   "theorems": [
    "Smd.Gfm.C162_refuted",
    "Smd.Gfm.C162_refuted_always",
    "Smd.Gfm.C162_refuted_link",
    "Smd.Gfm.C162_partial"
   ],
   "note": "False of the code: emphasis ends at the escaped marker (C162_refuted, C162_refuted_always), and a link with an escaped bracket in its text is no link (C162_refuted_link). Proved outside of emphasis and links, where an escaped marker is text (C162_partial)."
  },
  {
   "property": "C163",
   "status": "partial",
   "theorems": [
    "Smd.Gfm.C163_refuted",
    "Smd.Gfm.C163_refuted_always",
    "Smd.Gfm.C163_partial"
   ],
   "note": "False of the code: the target ends at the first closing parenthesis, and what comes behind it is text (C163_refuted, C163_refuted_always). Proved for targets without parentheses (C163_partial)."
  },
  {
   "property": "C164",
   "status": "partial",
   "theorems": [
    "Smd.Gfm.C164_refuted",
    "Smd.Gfm.C164_refuted_always",
    "Smd.Gfm.C164_refuted_rule"
   ],
   "note": "False of the code: such lines are the text of one paragraph (C164_refuted, C164_refuted_always), with a thematic break in it if the second line has three or more hyphens (C164_refuted_rule). Tables with outer bars are C56."
  },
  {
   "property": "C165",
   "status": "partial",
   "theorems": [
    "Smd.Gfm.C165_refuted",
    "Smd.Gfm.C165_refuted_lines",
    "Smd.Gfm.C165_refuted_always"
   ],
   "note": "False of the code: with one escaped bar in the first line the whole table is text (C165_refuted, C165_refuted_always), as are all lines that begin with bars and have different numbers of them, with or without backslashes (C165_refuted_lines). Tables without bars in cells are C56."
  },
  {
   "property": "C166",
   "status": "partial",
   "theorems": [
    "Smd.Gfm.C166_refuted",
    "Smd.Gfm.C166_refuted_always",
    "Smd.Gfm.C166_partial"
   ],
   "note": "False of the code: they are text in every running text, at the start of a line or not (C166_refuted, C166_refuted_always). Proved for numbers with a dot (C166_partial)."
  },
  {
   "property": "C167",
   "status": "partial",
   "theorems": [
    "Smd.Gfm.C167_refuted",
    "Smd.Gfm.C167_refuted_always",
    "Smd.Gfm.C167_refuted_number",
    "Smd.Gfm.C167_partial"
   ],
   "note": "False of the code: an asterisk alone on its line is a thematic break, in front of every list (C167_refuted, C167_refuted_always), and a number with a dot is text (C167_refuted_number). Proved for signs with a space behind them, any number of them (C167_partial)."
  },
  {
   "property": "C168",
   "status": "partial",
   "theorems": [
    "Smd.Gfm.C168_refuted",
    "Smd.Gfm.C168_refuted_always",
    "Smd.Gfm.C168_refuted_tabs",
    "Smd.Gfm.C168_partial"
   ],
   "note": "False of the code: with a line of spaces between them two paragraphs are one (C168_refuted, C168_refuted_always); a line of one or two tabs, or two spaces and a tab, opens a code element that is closed at the end of the document (C168_refuted_tabs). Proved if there is an empty line next to the line of spaces (C168_partial)."
  },
  {
   "property": "C169",
   "status": "partial",
   "theorems": [
    "Smd.Gfm.C169_refuted",
    "Smd.Gfm.C169_refuted_always",
    "Smd.Gfm.C169_partial"
   ],
   "note": "False of the code: each character without meaning is a token of its own, and tokens that are blank are dropped, so that no-break spaces are never shown in running text (C169_refuted, C169_refuted_always). Proved inside of emphasis and link texts (C169_partial)."
  },
  {
   "property": "C170",
   "status": "partial",
   "theorems": [
    "Smd.Gfm.C170_refuted",
    "Smd.Gfm.C170_refuted_always",
    "Smd.Gfm.C170_partial"
   ],
   "note": "False of the code: the title is dropped, and so is the rest of the line (C170_refuted, C170_refuted_always). Proved without a title (C170_partial)."
  },
  {
   "property": "C171",
   "status": "partial",
   "theorems": [
    "Smd.Gfm.C171_refuted",
    "Smd.Gfm.C171_refuted_always",
    "Smd.Gfm.C171_refuted_message",
    "Smd.Gfm.C171_partial"
   ],
   "note": "False of the code: wherever it stands it is taken for a definition, so that the rest of the line becomes an endnote (C171_refuted, C171_refuted_always); after an exclamation mark a message of the program, \"Non link token returned from lex_links\", is put into the document and the note is lost (C171_refuted_message). Proved if anything but a colon or a parenthesis follows (C171_partial)."
  },
  {
   "property": "C172",
   "status": "proved",
   "theorems": [
    "Smd.Gfm.C172_signs",
    "Smd.Gfm.C172_absent",
    "Smd.Gfm.C172_paragraphs",
    "Smd.Gfm.C172_message"
   ],
   "note": ""
  },
  {
   "property": "C173",
   "status": "partial",
   "theorems": [
    "Smd.Props.C173_refuted",
    "Smd.Props.C173_partial",
    "Smd.Props.C173_again_partial",
    "Smd.Props.C173_rest_partial"
   ],
   "note": "Refuted for every version but 0.1.3-pre: the versions of smd-core and gfm lack the mark `# managed by release.sh`, stay 0.1.3-pre, and differ from those that smd requires (C173_refuted). Proved: the version of smd, its requirements, the npm package's version and its six requirements are the tag's (C173_partial); a second release gives what it would have given without the first (C173_again_partial); all other lines of all manifests stay (C173_rest_partial)."
  },
  {
   "property": "C174",
   "status": "proved",
   "theorems": [
    "Smd.Props.C174_published"
   ],
   "note": ""
  },
  {
   "property": "C175",
   "status": "partial",
   "theorems": [
    "Smd.Props.C175_refuted",
    "Smd.Props.C175_deb",
    "Smd.Props.C175_partial"
   ],
   "note": "Refuted for every tag: `cp {LICENSE,LREADME.md,CHANGELOG.md}` names a file that is not there, so publish-binaries fails in every build before it publishes anything, and publish-npm and publish-pypi do not run (C175_refuted); pre-releases upload `smdcliff-….deb`, which nobody made (C175_deb). Proved: changelog, RPM and, for releases, Debian package (C175_partial)."
  },
  {
   "property": "C176",
   "status": "partial",
   "theorems": [
    "Smd.Props.C176_refuted",
    "Smd.Props.C176_paths",
    "Smd.Props.C176_metadata",
    "Smd.Props.C176_partial"
   ],
   "note": "Refuted: the wait asks for `gi/t-/smd-core`, which is the path of no crate whatsoever, so `smd` is never published (C176_refuted; the right paths in C176_paths); smd-core has no description and no license, without which crates.io takes no crate (C176_metadata). Proved: every crate comes after those it depends on (C176_partial)."
  },
  {
   "property": "C177",
   "status": "proved",
   "theorems": [
    "Smd.Gfm.C177_chars",
    "Smd.Gfm.C177_ascii",
    "Smd.Gfm.C177_control"
   ],
   "note": ""
  },
  {
   "property": "C178",
   "status": "partial",
   "theorems": [
    "Smd.Gfm.C178_refuted",
    "Smd.Gfm.C178_partial",
    "Smd.Gfm.C178_count_partial"
   ],
   "note": "Refuted: a table shows the whole of a cell once for each piece of code in it (C178_refuted). Proved for documents without footnotes, sections, tables and links with a title (C178_partial); with all links too, nothing is shown twice (C178_count_partial). Characters outside ASCII stand for text, since the renderer writes none of them itself there; by C111 such letters may be replaced by others."
  },
  {
   "property": "C179",
   "status": "proved",
   "theorems": [
    "Smd.Gfm.C179_mail",
    "Smd.Gfm.C179_plain"
   ],
   "note": ""
  },
  {
   "property": "C180",
   "status": "partial",
   "theorems": [
    "Smd.Gfm.C180_refuted",
    "Smd.Gfm.C180_refuted_always",
    "Smd.Gfm.C180_partial"
   ],
   "note": "False of the code with a space in the target: the rest of the document becomes the title of a link (C180_refuted, C180_refuted_always). Proved without a space (C180_partial)."
  },
  {
   "property": "C181",
   "status": "partial",
   "theorems": [
    "Smd.Gfm.C181_refuted",
    "Smd.Gfm.C181_refuted_line",
    "Smd.Gfm.C181_partial"
   ],
   "note": "False of the code: there is no section and its end tag is shown as text (C181_refuted); on one line the angle brackets are lost, whatever stands around it (C181_refuted_line). Proved that the first line is shown (C181_partial)."
  },
  {
   "property": "C182",
   "status": "partial",
   "theorems": [
    "Smd.Gfm.C182_refuted",
    "Smd.Gfm.C182_partial"
   ],
   "note": "False of the code for <details>, whose angle brackets are lost (C182_refuted). Proved for every other (C182_partial)."
  },
  {
   "property": "C183",
   "status": "partial",
   "theorems": [
    "Smd.Gfm.C183_refuted",
    "Smd.Gfm.C183_refuted_always",
    "Smd.Gfm.C183_refuted_tab",
    "Smd.Gfm.C183_partial"
   ],
   "note": "False of the code: without a space the signs are text (C183_refuted, C183_refuted_always); with a tab the quote holds code (C183_refuted_tab). Proved with a space (C183_partial)."
  },
  {
   "property": "C184",
   "status": "proved",
   "theorems": [
    "Smd.Gfm.C184_fences"
   ],
   "note": ""
  },
  {
   "property": "C185",
   "status": "partial",
   "theorems": [
    "Smd.Gfm.C185_refuted",
    "Smd.Gfm.C185_refuted_always",
    "Smd.Gfm.C185_partial"
   ],
   "note": "False of the code for every number of spaces but two and four: there is no footnote, and its text is put out without being escaped (C185_refuted, C185_refuted_always). Proved for two or four spaces and a tab (C185_partial)."
  },
  {
   "property": "C186",
   "status": "proved",
   "theorems": [
    "Smd.Gfm.C186_boxes"
   ],
   "note": ""
  },
  {
   "property": "C187",
   "status": "partial",
   "theorems": [
    "Smd.Release.C187_refuted",
    "Smd.Release.C187_refuted_always",
    "Smd.Release.C187_partial"
   ],
   "note": "False of the code: the filter smd occurs in the name of no test, so none is run, and the job that runs all drops their result (C187_refuted_always); one of the tests fails (C187_refuted). Proved: cargo test succeeds exactly if the tests with the filter in their name pass (C187_partial)."
  },
  {
   "property": "C188",
   "status": "partial",
   "theorems": [
    "Smd.Gfm.C188_refuted",
    "Smd.Gfm.C188_refuted_always",
    "Smd.Gfm.C188_refuted_encoded",
    "Smd.Gfm.C188_refuted_angles",
    "Smd.Gfm.C188_refuted_image",
    "Smd.Gfm.C188_partial"
   ],
   "note": "False of the code: with a letter outside ASCII in the target the text of a link is lost and only the target shown (C188_refuted, C188_refuted_always), images and addresses in angle brackets are shown as written (C188_refuted_image, C188_refuted_angles); percent-encoded letters are encoded again in every accepted link (C188_refuted_encoded). Proved: an image beside the document, without a scheme, keeps its percent-encoded address (C188_partial)."
  },
  {
   "property": "C189",
   "status": "partial",
   "theorems": [
    "Smd.Gfm.C189_refuted",
    "Smd.Gfm.C189_refuted_emphasis",
    "Smd.Gfm.C189_refuted_quote",
    "Smd.Gfm.C189_refuted_note",
    "Smd.Gfm.C189_refuted_ordered",
    "Smd.Gfm.C189_partial"
   ],
   "note": "False of the code: the reference is shown as text in all emphasised and struck text (C189_refuted_emphasis), in all quotes (C189_refuted_quote), notes (C189_refuted_note) and entries of ordered lists (C189_refuted_ordered), and in a cell (C189_refuted). Proved: in paragraphs, headings and entries of bullet lists it is a reference, between the text as it is elsewhere (C189_partial)."
  },
  {
   "property": "C190",
   "status": "proved",
   "theorems": [
    "Smd.App.C190_said",
    "Smd.App.C190_existing",
    "Smd.App.C190_steps"
   ],
   "note": ""
  },
  {
   "property": "C191",
   "status": "partial",
   "theorems": [
    "Smd.Props.C191_refuted",
    "Smd.Props.C191_partial"
   ],
   "note": "False of the code for every entry of every changelog: the repository is configured as a whole address, so the links lead to https://github.com/Flokkq/https://github.com/orhun/git-cliff/blob/main/cliff.toml/commit/... (C191_refuted). Proved: every entry shows the first seven digits of the identifier of a commit of the history and its link ends in all of them (C191_partial)."
  },
  {
   "property": "C192",
   "status": "partial",
   "theorems": [
    "Smd.Props.C192_refuted_always",
    "Smd.Props.C192_refuted",
    "Smd.Props.C192_partial"
   ],
   "note": "False of the code: a commit whose first line is not of the form type(scope)!: description leaves no trace (C192_refuted, and C192_refuted_always for every such commit in every history). Proved: there is exactly one entry for every commit of that form, and no other (C192_partial). Missing: the other commits."
  },
  {
   "property": "C193",
   "status": "partial",
   "theorems": [
    "Smd.Props.C193_refuted",
    "Smd.Props.C193_refuted_pattern",
    "Smd.Props.C193_partial"
   ],
   "note": "False of the code for every release: the next changelog has one entry more in the section, that of the commit `prepare for ...` which release.sh makes after it has written the changelog (C193_refuted); and for a tag without a v in front of a digit there is no section any more (C193_refuted_pattern). Proved for the sections of versions before the release (C193_partial)."
  },
  {
   "property": "C194",
   "status": "partial",
   "theorems": [
    "Smd.Props.C194_refuted_always",
    "Smd.Props.C194_refuted",
    "Smd.Props.C194_partial"
   ],
   "note": "False of the code for every release: the message has an entry for the commit of the release itself (C194_refuted_always), and entries for commits like `fix typo` that the changelog leaves out (C194_refuted). Proved: every entry of the section is in the message, with the same description and the same digits (C194_partial)."
  },
  {
   "property": "C195",
   "status": "partial",
   "theorems": [
    "Smd.Props.C195_refuted_always",
    "Smd.Props.C195_refuted",
    "Smd.Props.C195_partial"
   ],
   "note": "False of the code for types that only begin like one with a heading: `fixture: ...` is a bug fix (C195_refuted, and C195_refuted_always for all seven headings and every continuation). Proved: commits of the seven types are under their headings, newer ones first (C195_partial). Missing: other types, whose headings may be the same for different types (`docs` and `Docs`)."
  },
  {
   "property": "C196",
   "status": "proved",
   "theorems": [
    "Smd.Props.C196_wellformed",
    "Smd.Props.C196_published"
   ],
   "note": ""
  },
  {
   "property": "C197",
   "status": "partial",
   "theorems": [
    "Smd.Props.C197_refuted_always",
    "Smd.Props.C197_refuted",
    "Smd.Props.C197_partial",
    "Smd.Props.C197_complete_partial"
   ],
   "note": "False of the code: a release without commits of the form type(scope)!: description has no section (C197_refuted, C197_refuted_always for every such release), and so no later heading shows that it was skipped. Proved: the headings are those of the tags in this order, each with the range from the tag before, possibly with some missing (C197_partial); none is missing if the tagged commits have the form, as those of release.sh do, and one commit since the last tag has it (C197_complete_partial). Missing: releases of other commits only."
  },
  {
   "property": "C198",
   "status": "partial",
   "theorems": [
    "Smd.Props.C198_refuted_always",
    "Smd.Props.C198_refuted",
    "Smd.Props.C198_partial"
   ],
   "note": "False of the code for every version that does not begin with 0.1.3-: the manifests of gfm and smd-core keep 0.1.3-pre, which no other requirement takes, so that the tagged commit cannot be built (C198_refuted_always; C198_refuted for the next release 0.1.3). Proved for the versions 0.1.3-q, where q are letters: they fit exactly if q is not behind pre (C198_partial). Missing: other releases. C175_partial, which supposes that the compiler works, says nothing about these."
  },
  {
   "property": "C199",
   "status": "partial",
   "theorems": [
    "Smd.Gfm.C199_refuted",
    "Smd.Gfm.C199_refuted_always",
    "Smd.Gfm.C199_partial"
   ],
   "note": "False of the code: one such row makes text of the whole table (C199_refuted; C199_refuted_always for every such table whose cells have no bracket). Proved for rows with as many cells as the heading; with another number of cells in the delimiter row the lines are text, as GFM says (C199_partial). Missing: the other rows."
  },
  {
   "property": "C200",
   "status": "partial",
   "theorems": [
    "Smd.Gfm.C200_refuted_always",
    "Smd.Gfm.C200_refuted",
    "Smd.Gfm.C200_partial"
   ],
   "note": "False of the code: the lines are text (C200_refuted, C200_refuted_always). Proved with a row of spaces: every cell of the heading is shown (C200_partial). Missing: tables without any row."
  },
  {
   "property": "C201",
   "status": "partial",
   "theorems": [
    "Smd.Gfm.C201_refuted",
    "Smd.Gfm.C201_refuted_always",
    "Smd.Gfm.C201_partial"
   ],
   "note": "False of the code: the brackets are taken for a part of the address, and the scheme in them is not seen (C201_refuted; C201_refuted_always for every accepted target without spaces; with spaces the rest is taken for a title, C39_refuted_always). Proved for ordinary targets without brackets (C201_partial). Missing: all targets with brackets."
  },
  {
   "property": "C202",
   "status": "proved",
   "theorems": [
    "Smd.Props.C202_executable",
    "Smd.Props.C202_builds"
   ],
   "note": ""
  },
  {
   "property": "C203",
   "status": "partial",
   "theorems": [
    "Smd.Props.C203_refuted_always",
    "Smd.Props.C203_refuted",
    "Smd.Props.C203_partial"
   ],
   "note": "False of the code for musl: the condition of the step looks for musl in the name of the machine, so that it never runs (C203_refuted, C203_refuted_always). The number of steps is proved (C203_partial). Missing: the option for musl. What maturin makes of the option auto is not modelled."
  },
  {
   "property": "C204",
   "status": "partial",
   "theorems": [
    "Smd.Props.C204_refuted_always",
    "Smd.Props.C204_refuted",
    "Smd.Props.C204_partial"
   ],
   "note": "False of the code for the six packages with the executables, which are published without a tag of npm (C204_refuted, C204_refuted_always). Proved for the package smd, in both directions (C204_partial). Missing: the other packages. What npm does with tags is an assumption (offered in Release/Packages)."
  },
  {
   "property": "C205",
   "status": "proved",
   "theorems": [
    "Smd.Props.C205_files"
   ],
   "note": ""
  },
  {
   "property": "C206",
   "status": "proved",
   "theorems": [
    "Smd.Props.C206_workspace"
   ],
   "note": ""
  },
  {
   "property": "C207",
   "status": "partial",
   "theorems": [
    "Smd.Props.C207_refuted",
    "Smd.Props.C207_partial"
   ],
   "note": "False of the code, for every release: the script is `tsup` without arguments, and there is no configuration of tsup in the repository, so the build fails and nothing is published (C207_refuted). Proved: every file that the manifest names would be packed, and none is in the repository (C207_partial). Missing: that they are built. That tsup fails without an entry is an assumption (Spec/Node)."
  },
  {
   "property": "C208",
   "status": "partial",
   "theorems": [
    "Smd.Props.C208_refuted",
    "Smd.Props.C208_partial",
    "Smd.Props.C208_types_partial"
   ],
   "note": "False of the code: `main` and `module` name type declarations, in every release (C208_refuted). Proved for whoever reads `exports`: `import` gets a module and `require` CommonJS, under whatever further conditions but `types` (C208_partial), and with `types` the declarations (C208_types_partial). Missing: tools that read `main` or `module`."
  },
  {
   "property": "C209",
   "status": "partial",
   "theorems": [
    "Smd.Props.C209_refuted",
    "Smd.Props.C209_partial"
   ],
   "note": "False of the crate and the wheels: `cargo install` and maturin install every program of the crate, among them smd-mangen and smd-completions (C209_refuted). Proved for the packages for Debian, RPM and npm (C209_partial). Missing: the crate and the wheels. What cargo and maturin install is an assumption (Spec/Node)."
  },
  {
   "property": "C210",
   "status": "partial",
   "theorems": [
    "Smd.Props.C210_refuted",
    "Smd.Props.C210_partial"
   ],
   "note": "False of the code: release.sh changes the manifest of smd and commits the lock file as it is, so its version of smd is the old one after the release of any version but 0.1.3-pre (C210_refuted). Proved: the dependencies of all crates and the versions of smd-core and gfm, which no release changes, fit (C210_partial). Missing: the version of smd."
  },
  {
   "property": "C211",
   "status": "partial",
   "theorems": [
    "Smd.Gfm.C211_refuted",
    "Smd.Gfm.C211_refuted_always",
    "Smd.Gfm.C211_partial"
   ],
   "note": "False of the code if the last character in front of the hashes is a tab: the text of the heading is lost with the hashes (C211_refuted), whatever text it is (C211_refuted_always). Proved after spaces and tabs of which the last is a space, for all texts that do not end with a hash and have no label (C211_partial). Missing: a tab directly in front of the hashes."
  },
  {
   "property": "C212",
   "status": "partial",
   "theorems": [
    "Smd.Gfm.C212_refuted",
    "Smd.Gfm.C212_refuted_always",
    "Smd.Gfm.C212_partial",
    "Smd.Gfm.C212_paragraphs_partial"
   ],
   "note": "False of the code: the identifier is the name of the footnote, so two references to one footnote have one identifier (C212_refuted), as have any two references whose names differ in backslashes only (C212_refuted_always). Proved: all other pairs of references have different identifiers, which name their footnotes (C212_partial), also in different paragraphs of a document (C212_paragraphs_partial, which gives both cases). Missing: several references to one footnote."
  },
  {
   "property": "C213",
   "status": "partial",
   "theorems": [
    "Smd.Gfm.C213_refuted",
    "Smd.Gfm.C213_refuted_always",
    "Smd.Gfm.C213_partial"
   ],
   "note": "False of the code: each definition has an endnote, so a name that is defined twice has two (C213_refuted, C213_refuted_always for every sequence of definitions), and both links lead back to the same reference. Proved: a footnote with one definition has exactly one endnote, with its text, wherever the definition is among the others (C213_partial). Missing: repeated definitions."
  }
 ]
}