import Verif.Rust.Str

/-!
Model of `.github/workflows/main.yaml`: which tests the checks of a pull request run, and when the checks succeed. The names of the tests are those of the
repository; whether a test passes and whether a tool works are parameters.
-/

namespace Smd.Release
open Smd Smd.Rs

set_option maxRecDepth 10000

/-- smd-core/src/fs.rs -/
def tests_fs_tests : List Str :=
  [c!"test_serialize", c!"test_deserialize", c!"test_read_to_string", c!"test_encode_to_string", c!"test_decode_from_file"]

/-- smd-core/src/browser.rs -/
def tests_browser_tests : List Str :=
  [c!"test_initialize", c!"test_open_file", c!"test_print_to_pdf"]

/-- smd-core/src/error.rs -/
def tests_error_test : List Str :=
  [c!"throw_parse_error"]

/-- smd-core/src/config.rs -/
def tests_config_tests : List Str :=
  [c!"test_default_config", c!"test_parse_from_toml", c!"test_invalid_toml"]

/-- smd/src/args.rs -/
def tests_args_tests : List Str :=
  [c!"verify_cli", c!"path_tilde_expansion"]

/-- gfm/src/iter.rs -/
def tests_iter_tests : List Str :=
  [c!"peek_does_not_advance", c!"peek_does_not_advance_utf", c!"modern_standard_arabic_test", c!"consume_until_end_consumes_full_string",
    c!"next_advances_utf_correctly", c!"test_slashes", c!"general_iter_test", c!"consume_peek_line_test", c!"test_degenerate_newlines",
    c!"test_mixed_chars"]

/-- gfm/tests/gfm/atx_headings.rs -/
def tests_gfm_atx_headings : List Str :=
  [c!"gfm_test_32_simple_atx_headings", c!"gfm_test_33_atx_heading_too_many_hashes", c!"gfm_test_34_atx_heading_missing_space",
    c!"gfm_test_35_atx_heading_escaped_hash", c!"gfm_test_36_atx_heading_inline_content", c!"gfm_test_37_atx_heading_trailing_whitespace",
    c!"gfm_test_38_atx_heading_indentation_allowed", c!"gfm_test_39_atx_heading_indentation_too_much", c!"gfm_test_40_atx_heading_in_paragraph",
    c!"gfm_test_41_atx_heading_closing_hash_sequence", c!"gfm_test_42_atx_heading_closing_hash_sequence_length",
    c!"gfm_test_43_atx_heading_closing_hash_with_spaces", c!"gfm_test_44_atx_heading_closing_hash_with_text",
    c!"gfm_test_45_atx_heading_closing_hash_without_space", c!"gfm_test_46_atx_heading_escaped_closing_hash",
    c!"gfm_test_47_atx_heading_interrupted_by_hr", c!"gfm_test_48_atx_heading_interrupted_paragraph", c!"gfm_test_49_atx_heading_empty"]

/-- gfm/tests/gfm/autolinks.rs -/
def tests_gfm_autolinks : List Str :=
  [c!"gfm_test_603_simple_autolink", c!"gfm_test_604_autolink_with_query", c!"gfm_test_605_autolink_with_port", c!"gfm_test_606_uppercase_autolink",
    c!"gfm_test_607_made_up_scheme_autolink", c!"gfm_test_608_made_up_scheme_with_comma", c!"gfm_test_609_relative_autolink",
    c!"gfm_test_610_localhost_autolink", c!"gfm_test_611_invalid_autolink_with_space", c!"gfm_test_612_invalid_backslash_autolink",
    c!"gfm_test_613_email_autolink", c!"gfm_test_614_email_autolink_with_plus", c!"gfm_test_615_invalid_email_with_backslash",
    c!"gfm_test_616_empty_autolink", c!"gfm_test_617_autolink_with_spaces", c!"gfm_test_618_invalid_scheme", c!"gfm_test_619_non_uri_autolink",
    c!"gfm_test_620_non_autolink_uri", c!"gfm_test_621_non_autolink_email"]

/-- gfm/tests/gfm/autolinks_extention.rs -/
def tests_gfm_autolinks_extention : List Str :=
  [c!"gfm_test_622_www_autolink", c!"gfm_test_623_www_autolink_with_path", c!"gfm_test_624_trailing_punctuation",
    c!"gfm_test_625_parentheses_balancing", c!"gfm_test_626_parentheses_interior", c!"gfm_test_627_entity_reference_in_autolink",
    c!"gfm_test_628_autolink_with_lt", c!"gfm_test_629_http_https_autolink", c!"gfm_test_630_email_autolink", c!"gfm_test_631_email_plus_symbol",
    c!"gfm_test_632_email_special_characters", c!"gfm_test_633_protocol_autolinks", c!"gfm_test_634_xmpp_autolink_with_resource",
    c!"gfm_test_635_xmpp_autolink_trailing_slash"]

/-- gfm/tests/gfm/backslash_escapes.rs -/
def tests_gfm_backslash_escapes : List Str :=
  [c!"gfm_test_308_backslash_escape_ascii_punctuation", c!"gfm_test_309_backslash_escape_other_characters",
    c!"gfm_test_310_escaped_characters_literal", c!"gfm_test_311_escaped_backslash", c!"gfm_test_312_backslash_hard_line_break",
    c!"gfm_test_313_backslash_in_code_span", c!"gfm_test_314_backslash_in_code_block_indented", c!"gfm_test_315_backslash_in_fenced_code_block",
    c!"gfm_test_316_backslash_in_autolink", c!"gfm_test_317_backslash_in_html_tag", c!"gfm_test_318_backslash_in_link_and_title",
    c!"gfm_test_319_backslash_in_link_reference", c!"gfm_test_320_backslash_in_info_string"]

/-- gfm/tests/gfm/blank_lines.rs -/
def tests_gfm_blank_lines : List Str :=
  [c!"gfm_test_197_blank_lines_ignored"]

/-- gfm/tests/gfm/block_quotes.rs -/
def tests_gfm_block_quotes : List Str :=
  [c!"gfm_test_206_simple_block_quote", c!"gfm_test_207_block_quote_without_spaces_after_marker", c!"gfm_test_208_block_quote_with_indented_marker",
    c!"gfm_test_209_block_quote_as_code_block", c!"gfm_test_210_lazy_block_quote_continuation", c!"gfm_test_211_lazy_and_non_lazy_block_quote_lines",
    c!"gfm_test_212_block_quote_with_thematic_break", c!"gfm_test_213_block_quote_with_list_item",
    c!"gfm_test_214_indented_code_block_in_block_quote", c!"gfm_test_215_fenced_code_block_in_block_quote",
    c!"gfm_test_216_lazy_continuation_of_list_in_block_quote", c!"gfm_test_217_empty_block_quote",
    c!"gfm_test_218_empty_block_quote_with_whitespace", c!"gfm_test_219_block_quote_with_blank_lines",
    c!"gfm_test_220_separate_block_quotes_with_blank_line", c!"gfm_test_221_single_block_quote_from_consecutive_lines",
    c!"gfm_test_222_block_quote_with_two_paragraphs", c!"gfm_test_223_block_quote_interrupts_paragraph",
    c!"gfm_test_224_no_blank_lines_needed_around_block_quote", c!"gfm_test_225_lazy_block_quote_continuation",
    c!"gfm_test_226_block_quote_with_blank_line_and_paragraph", c!"gfm_test_227_block_quote_with_blank_line_followed_by_text",
    c!"gfm_test_228_nested_block_quotes_with_lazy_continuation", c!"gfm_test_229_nested_block_quotes_with_mixed_markers",
    c!"gfm_test_230_indented_code_block_in_block_quote"]

/-- gfm/tests/gfm/blocks_and_inlines.rs -/
def tests_gfm_blocks_and_inlines : List Str :=
  [c!"gfm_test_12_block_structure_precedence"]

/-- gfm/tests/gfm/code_spans.rs -/
def tests_gfm_code_spans : List Str :=
  [c!"gfm_test_338_simple_code_span", c!"gfm_test_339_code_span_with_backticks", c!"gfm_test_340_motivation_for_stripping_spaces",
    c!"gfm_test_341_single_space_stripped", c!"gfm_test_342_no_stripping_single_side_space", c!"gfm_test_343_no_stripping_unicode_space",
    c!"gfm_test_344_code_span_only_spaces", c!"gfm_test_345_line_endings_to_spaces", c!"gfm_test_346_preserve_space_after_line_ending",
    c!"gfm_test_347_interior_spaces_preserved", c!"gfm_test_348_literal_backslashes", c!"gfm_test_349_multiple_backticks",
    c!"gfm_test_350_multiple_backticks_with_spaces", c!"gfm_test_351_code_span_precedence_emphasis", c!"gfm_test_352_code_span_precedence_links",
    c!"gfm_test_353_code_span_vs_html_tag", c!"gfm_test_354_html_tag_over_code_span", c!"gfm_test_355_code_span_with_mixed_symbols",
    c!"gfm_test_356_autolink_with_backticks", c!"gfm_test_357_unmatched_backticks_literal", c!"gfm_test_358_unclosed_backticks",
    c!"gfm_test_359_mismatched_backtick_lengths"]

/-- gfm/tests/gfm/disallowed_raw_html.rs -/
def tests_gfm_disallowed_raw_html : List Str :=
  [c!"gfm_test_disallowed_raw_html_657"]

/-- gfm/tests/gfm/emphasis_and_strong_emphasis.rs -/
def tests_gfm_emphasis_and_strong_emphasis : List Str :=
  [c!"gfm_test_360_simple_emphasis", c!"gfm_test_361_emphasis_whitespace_after_opening", c!"gfm_test_362_emphasis_with_punctuation",
    c!"gfm_test_363_unicode_whitespace_not_emphasis", c!"gfm_test_364_intraword_emphasis_allowed", c!"gfm_test_365_intraword_numbers",
    c!"gfm_test_366_simple_emphasis_with_underscore", c!"gfm_test_367_emphasis_whitespace_after_opening_underscore",
    c!"gfm_test_368_emphasis_with_punctuation_underscore", c!"gfm_test_369_intraword_emphasis_disallowed_underscore",
    c!"gfm_test_370_numbers_underscore", c!"gfm_test_371_unicode_text_underscore", c!"gfm_test_372_underscore_with_quotes",
    c!"gfm_test_373_underscore_with_punctuation", c!"gfm_test_374_mismatched_delimiters", c!"gfm_test_375_emphasis_closing_whitespace",
    c!"gfm_test_376_newline_counts_as_whitespace", c!"gfm_test_377_emphasis_with_punctuation_closing", c!"gfm_test_378_nested_emphasis",
    c!"gfm_test_379_intraword_emphasis", c!"gfm_test_380_closing_underscore_whitespace",
    c!"gfm_test_381_emphasis_with_punctuation_closing_underscore", c!"gfm_test_382_nested_emphasis_with_underscore",
    c!"gfm_test_383_intraword_emphasis_disallowed_with_underscore", c!"gfm_test_384_unicode_text_underscore_intraword_disallowed",
    c!"gfm_test_385_emphasis_with_underscores", c!"gfm_test_386_emphasis_followed_by_punctuation_underscore", c!"gfm_test_387_strong_emphasis",
    c!"gfm_test_388_strong_emphasis_whitespace_after_opening", c!"gfm_test_389_strong_emphasis_with_punctuation",
    c!"gfm_test_390_intraword_strong_emphasis", c!"gfm_test_391_strong_emphasis_underscores",
    c!"gfm_test_392_strong_emphasis_whitespace_after_opening_underscores", c!"gfm_test_393_strong_emphasis_with_newline",
    c!"gfm_test_394_strong_emphasis_with_punctuation_underscores", c!"gfm_test_395_intraword_strong_emphasis_disallowed_with_underscores",
    c!"gfm_test_396_numbers_with_strong_emphasis_underscores", c!"gfm_test_397_unicode_text_with_strong_emphasis",
    c!"gfm_test_398_nested_strong_emphasis", c!"gfm_test_399_strong_emphasis_with_punctuation", c!"gfm_test_400_closing_strong_emphasis_whitespace",
    c!"gfm_test_401_strong_emphasis_with_punctuation_in_closing", c!"gfm_test_402_nested_emphasis_and_strong_emphasis",
    c!"gfm_test_403_combined_emphasis_with_citations", c!"gfm_test_404_emphasis_with_quotes", c!"gfm_test_405_intraword_strong_emphasis",
    c!"gfm_test_406_strong_emphasis_with_closing_whitespace", c!"gfm_test_407_strong_emphasis_with_punctuation_and_underscore",
    c!"gfm_test_408_nested_emphasis_with_strong_emphasis", c!"gfm_test_409_intraword_strong_emphasis_disallowed_with_underscores",
    c!"gfm_test_410_unicode_with_intraword_strong_emphasis", c!"gfm_test_411_nested_strong_emphasis_underscore",
    c!"gfm_test_412_strong_emphasis_followed_by_punctuation", c!"gfm_test_413_emphasis_with_links", c!"gfm_test_414_emphasis_across_lines",
    c!"gfm_test_415_nested_emphasis_and_strong_emphasis", c!"gfm_test_416_nested_emphasis", c!"gfm_test_417_double_nested_emphasis",
    c!"gfm_test_418_emphasis_with_extra_closing_delimiter", c!"gfm_test_419_nested_emphasis_and_strong_emphasis_mixed",
    c!"gfm_test_420_intraword_emphasis_and_strong_emphasis_mixed", c!"gfm_test_421_unmatched_emphasis",
    c!"gfm_test_422_nested_strong_emphasis_in_emphasis", c!"gfm_test_423_nested_strong_emphasis_in_emphasis_variant",
    c!"gfm_test_424_nested_strong_emphasis_in_emphasis_variant_2", c!"gfm_test_425_nested_emphasis_with_balanced_delimiters",
    c!"gfm_test_426_nested_emphasis_with_unbalanced_delimiters", c!"gfm_test_427_multilevel_nested_emphasis",
    c!"gfm_test_428_nested_emphasis_with_links", c!"gfm_test_429_no_empty_emphasis", c!"gfm_test_430_no_empty_strong_emphasis",
    c!"gfm_test_431_strong_emphasis_with_links", c!"gfm_test_432_multiline_strong_emphasis", c!"gfm_test_433_nested_emphasis_in_strong_emphasis",
    c!"gfm_test_434_double_nested_strong_emphasis", c!"gfm_test_435_triple_nested_strong_emphasis",
    c!"gfm_test_436_nested_strong_emphasis_with_unmatched_delimiters", c!"gfm_test_437_nested_emphasis_within_strong_emphasis",
    c!"gfm_test_438_intraword_emphasis_and_strong_emphasis", c!"gfm_test_439_emphasis_within_strong_emphasis_variant",
    c!"gfm_test_440_nested_emphasis_in_strong_emphasis_variant", c!"gfm_test_441_multilevel_nested_emphasis_and_strong_emphasis",
    c!"gfm_test_442_nested_emphasis_with_links_in_strong_emphasis", c!"gfm_test_443_no_empty_emphasis_variant",
    c!"gfm_test_444_no_empty_strong_emphasis_variant", c!"gfm_test_445_literal_asterisks", c!"gfm_test_446_emphasis_with_literal_asterisk",
    c!"gfm_test_447_emphasis_with_literal_underscore", c!"gfm_test_448_literal_asterisks_with_unmatched_delimiters",
    c!"gfm_test_449_strong_emphasis_with_literal_asterisk", c!"gfm_test_450_strong_emphasis_with_literal_underscore",
    c!"gfm_test_451_excess_literal_asterisks_outside_emphasis", c!"gfm_test_452_excess_literal_asterisks_outside_emphasis_reverse",
    c!"gfm_test_453_nested_strong_emphasis_with_excess_literal_asterisks", c!"gfm_test_454_excess_literal_asterisks_in_emphasis",
    c!"gfm_test_455_strong_emphasis_with_excess_literal_asterisks", c!"gfm_test_456_emphasis_with_excess_literal_asterisks",
    c!"gfm_test_457_excess_literal_underscores", c!"gfm_test_458_emphasis_with_literal_underscore", c!"gfm_test_459_emphasis_with_literal_asterisk",
    c!"gfm_test_460_excess_literal_underscores_with_unmatched_delimiters", c!"gfm_test_461_strong_emphasis_with_literal_underscore",
    c!"gfm_test_462_strong_emphasis_with_literal_asterisk", c!"gfm_test_463_excess_literal_underscores_outside_emphasis",
    c!"gfm_test_464_excess_literal_underscores_outside_emphasis_reverse", c!"gfm_test_465_nested_strong_emphasis_with_excess_literal_underscores",
    c!"gfm_test_466_excess_literal_underscores_in_emphasis", c!"gfm_test_467_strong_emphasis_with_excess_literal_underscores",
    c!"gfm_test_468_emphasis_with_excess_literal_underscores", c!"gfm_test_469_emphasis_and_strong_emphasis",
    c!"gfm_test_470_nested_emphasis_with_different_delimiters", c!"gfm_test_471_strong_emphasis_and_nested_emphasis",
    c!"gfm_test_472_nested_emphasis_with_different_delimiters_variant", c!"gfm_test_473_double_nested_strong_emphasis",
    c!"gfm_test_474_double_nested_strong_emphasis_variant", c!"gfm_test_475_triple_nested_strong_emphasis",
    c!"gfm_test_476_emphasis_with_strong_emphasis", c!"gfm_test_477_triple_nested_emphasis_and_strong_emphasis",
    c!"gfm_test_478_mismatched_emphasis_delimiters", c!"gfm_test_479_mixed_emphasis_and_strong_emphasis",
    c!"gfm_test_480_unmatched_nested_emphasis_and_strong_emphasis", c!"gfm_test_481_unmatched_nested_emphasis",
    c!"gfm_test_482_emphasis_with_unmatched_link_delimiters", c!"gfm_test_483_emphasis_with_unmatched_link_delimiters_and_underscore",
    c!"gfm_test_484_emphasis_with_html_image_tag", c!"gfm_test_485_strong_emphasis_with_html_link_tag",
    c!"gfm_test_486_strong_emphasis_with_html_link_tag_variant", c!"gfm_test_487_emphasis_with_inline_code",
    c!"gfm_test_488_emphasis_with_inline_code_and_underscore", c!"gfm_test_489_strong_emphasis_with_autolink",
    c!"gfm_test_490_strong_emphasis_with_autolink_and_underscore"]

/-- gfm/tests/gfm/entity_and_numeric_character_references.rs -/
def tests_gfm_entity_and_numeric_character_references : List Str :=
  [c!"gfm_test_321_html_named_entities", c!"gfm_test_322_decimal_numeric_character_references",
    c!"gfm_test_323_hexadecimal_numeric_character_references", c!"gfm_test_324_invalid_and_nonentities", c!"gfm_test_325_missing_semicolon",
    c!"gfm_test_326_made_up_entity", c!"gfm_test_327_entities_in_url", c!"gfm_test_328_entities_in_link_title",
    c!"gfm_test_329_entities_in_link_reference", c!"gfm_test_330_entities_in_info_strings", c!"gfm_test_331_entities_in_code_span",
    c!"gfm_test_332_entities_in_code_block", c!"gfm_test_333_entities_as_structure_symbols", c!"gfm_test_334_entities_as_list_markers",
    c!"gfm_test_335_entities_as_newline_markers", c!"gfm_test_336_entities_as_tab", c!"gfm_test_337_entities_in_titles"]

/-- gfm/tests/gfm/fenced_code_blocks.rs -/
def tests_gfm_fenced_code_blocks : List Str :=
  [c!"gfm_test_89_fenced_code_block_backticks", c!"gfm_test_90_fenced_code_block_tildes", c!"gfm_test_91_insufficient_backticks",
    c!"gfm_test_92_closing_fence_must_match_opening", c!"gfm_test_93_closing_fence_with_tildes", c!"gfm_test_94_closing_fence_length_mismatch",
    c!"gfm_test_95_closing_fence_with_extra_tildes", c!"gfm_test_96_unclosed_code_block", c!"gfm_test_97_nested_unclosed_code_block",
    c!"gfm_test_98_fenced_code_block_in_blockquote", c!"gfm_test_99_code_block_with_empty_lines", c!"gfm_test_100_empty_code_block",
    c!"gfm_test_101_fenced_code_block_with_indentation", c!"gfm_test_102_fenced_code_block_with_partial_indentation",
    c!"gfm_test_103_indentation_and_closing_fence", c!"gfm_test_104_indented_code_instead_of_fenced_block",
    c!"gfm_test_105_closing_fence_indented_less_than_opening", c!"gfm_test_106_closing_fence_indented_by_three_spaces",
    c!"gfm_test_107_closing_fence_indented_by_four_spaces", c!"gfm_test_108_internal_spaces_in_fence", c!"gfm_test_109_mismatched_fences",
    c!"gfm_test_110_paragraphs_around_fenced_code_block", c!"gfm_test_111_blocks_around_fenced_code_block",
    c!"gfm_test_112_code_block_with_language_info_string", c!"gfm_test_113_code_block_with_complex_info_string", c!"gfm_test_114_empty_info_string",
    c!"gfm_test_115_invalid_info_string_with_backticks", c!"gfm_test_116_info_string_with_backticks_and_tildes",
    c!"gfm_test_117_closing_fence_with_info_string"]

/-- gfm/tests/gfm/hard_line_breaks.rs -/
def tests_gfm_hard_line_breaks : List Str :=
  [c!"gfm_test_hard_line_breaks_658", c!"gfm_test_hard_line_breaks_659", c!"gfm_test_hard_line_breaks_660", c!"gfm_test_hard_line_breaks_661",
    c!"gfm_test_hard_line_breaks_662", c!"gfm_test_hard_line_breaks_663", c!"gfm_test_hard_line_breaks_664", c!"gfm_test_hard_line_breaks_665",
    c!"gfm_test_hard_line_breaks_666", c!"gfm_test_hard_line_breaks_667", c!"gfm_test_hard_line_breaks_668", c!"gfm_test_hard_line_breaks_669",
    c!"gfm_test_hard_line_breaks_670", c!"gfm_test_hard_line_breaks_671", c!"gfm_test_hard_line_breaks_672"]

/-- gfm/tests/gfm/html_blocks.rs -/
def tests_gfm_html_blocks : List Str :=
  [c!"gfm_test_118_html_block_with_embedded_markdown", c!"gfm_test_119_basic_html_block_type_6", c!"gfm_test_120_html_block_with_unclosed_tag",
    c!"gfm_test_121_html_block_with_closing_tag", c!"gfm_test_122_html_block_with_markdown_between_tags",
    c!"gfm_test_123_partial_opening_tag_html_block", c!"gfm_test_124_partial_html_tag_with_multiline_attribute",
    c!"gfm_test_125_html_block_with_unclosed_tag_and_markdown", c!"gfm_test_126_partial_html_tag_with_markdown",
    c!"gfm_test_127_partial_invalid_html_tag", c!"gfm_test_128_html_block_with_invalid_tag_and_markdown",
    c!"gfm_test_129_inline_html_block_with_markdown", c!"gfm_test_130_html_block_with_embedded_text",
    c!"gfm_test_131_html_block_with_markdown_inside", c!"gfm_test_132_non_block_tag_html_with_markdown_inside", c!"gfm_test_133_custom_html_block",
    c!"gfm_test_134_inline_html_block_with_class", c!"gfm_test_135_html_block_with_closing_tag_only", c!"gfm_test_136_html_block_with_del_tags",
    c!"gfm_test_137_html_block_with_blank_line_inside", c!"gfm_test_138_inline_html_inside_paragraph", c!"gfm_test_139_html_block_pre_tag",
    c!"gfm_test_140_html_block_script_tag", c!"gfm_test_141_html_block_style_tag", c!"gfm_test_142_html_block_no_matching_end_tag",
    c!"gfm_test_143_html_block_in_blockquote", c!"gfm_test_144_html_block_in_list", c!"gfm_test_145_html_block_with_inline_content",
    c!"gfm_test_146_html_comment_block", c!"gfm_test_147_html_block_with_inline_content_after",
    c!"gfm_test_148_html_block_with_comment_and_markdown", c!"gfm_test_149_html_block_processing_instruction",
    c!"gfm_test_150_html_block_doctype_declaration", c!"gfm_test_151_html_block_cdata", c!"gfm_test_152_indented_html_comment_block",
    c!"gfm_test_153_indented_html_block", c!"gfm_test_154_html_block_interrupting_paragraph", c!"gfm_test_155_html_block_needing_blank_line_after",
    c!"gfm_test_156_html_block_type_7_not_interrupting_paragraph", c!"gfm_test_157_html_block_with_blank_line_inside",
    c!"gfm_test_158_html_block_without_blank_lines", c!"gfm_test_159_html_block_with_nested_tags",
    c!"gfm_test_160_html_block_with_nested_tags_and_indentation"]

/-- gfm/tests/gfm/images.rs -/
def tests_gfm_images : List Str :=
  [c!"gfm_test_581_image_with_title", c!"gfm_test_582_reference_image", c!"gfm_test_583_nested_image_within_image",
    c!"gfm_test_584_link_within_image_description", c!"gfm_test_585_collapsed_reference_image", c!"gfm_test_586_case_insensitive_reference_image",
    c!"gfm_test_587_simple_inline_image", c!"gfm_test_588_inline_image_with_spaces", c!"gfm_test_589_image_with_angle_bracket_destination",
    c!"gfm_test_590_image_with_empty_alt", c!"gfm_test_591_reference_style_image", c!"gfm_test_592_case_insensitive_reference_style_image",
    c!"gfm_test_593_collapsed_reference_image", c!"gfm_test_594_collapsed_reference_with_formatting",
    c!"gfm_test_595_case_insensitive_collapsed_reference", c!"gfm_test_596_whitespace_between_brackets_invalid",
    c!"gfm_test_597_shortcut_reference_image", c!"gfm_test_598_shortcut_reference_with_formatting",
    c!"gfm_test_599_invalid_label_with_unescaped_brackets", c!"gfm_test_600_case_insensitive_shortcut_reference",
    c!"gfm_test_601_literal_with_escaped_bracket", c!"gfm_test_602_link_after_literal_exclamation"]

/-- gfm/tests/gfm/indented_code_blocks.rs -/
def tests_gfm_indented_code_blocks : List Str :=
  [c!"gfm_test_77_simple_indented_code_block", c!"gfm_test_78_code_block_vs_list_item_ambiguity", c!"gfm_test_79_nested_list_with_indented_code",
    c!"gfm_test_80_literal_text_in_code_block", c!"gfm_test_81_multiple_chunks_in_code_block", c!"gfm_test_82_extra_indentation_in_code_block",
    c!"gfm_test_83_code_block_does_not_interrupt_paragraph", c!"gfm_test_84_code_block_and_paragraph",
    c!"gfm_test_85_code_block_before_and_after_other_blocks", c!"gfm_test_86_first_line_more_than_four_spaces",
    c!"gfm_test_87_blank_lines_around_code_block", c!"gfm_test_88_trailing_spaces_in_code_block"]

/-- gfm/tests/gfm/inlines.rs -/
def tests_gfm_inlines : List Str :=
  [c!"gfm_test_307_inline_code_with_backtick"]

/-- gfm/tests/gfm/link_reference_definitions.rs -/
def tests_gfm_link_reference_definitions : List Str :=
  [c!"gfm_test_161_basic_link_reference_definition", c!"gfm_test_162_indented_link_reference_definition",
    c!"gfm_test_163_complex_link_reference_definition", c!"gfm_test_164_link_reference_definition_with_angle_brackets",
    c!"gfm_test_165_multiline_link_reference_title", c!"gfm_test_166_link_reference_with_blank_line_in_title",
    c!"gfm_test_167_link_reference_definition_without_title", c!"gfm_test_168_link_reference_definition_missing_destination",
    c!"gfm_test_169_empty_link_destination", c!"gfm_test_170_invalid_title_without_whitespace_separator",
    c!"gfm_test_171_backslash_escapes_in_link_reference", c!"gfm_test_172_link_before_definition",
    c!"gfm_test_173_first_matching_link_reference_takes_precedence", c!"gfm_test_174_case_insensitive_label_matching",
    c!"gfm_test_175_unicode_case_insensitive_label_matching", c!"gfm_test_176_unused_link_reference_definition",
    c!"gfm_test_177_multiline_link_reference_label", c!"gfm_test_178_invalid_link_reference_with_extra_characters",
    c!"gfm_test_179_link_reference_without_title", c!"gfm_test_180_indented_link_reference_definition",
    c!"gfm_test_181_link_reference_inside_code_block", c!"gfm_test_182_link_reference_cannot_interrupt_paragraph",
    c!"gfm_test_183_link_reference_after_block_elements", c!"gfm_test_184_link_reference_followed_by_setext_heading",
    c!"gfm_test_185_invalid_setext_heading_with_link_reference", c!"gfm_test_186_multiple_link_references_without_blank_lines",
    c!"gfm_test_187_link_reference_in_blockquote", c!"gfm_test_188_unused_link_reference_definition"]

/-- gfm/tests/gfm/links.rs -/
def tests_gfm_links : List Str :=
  [c!"gfm_test_494_inline_link_with_title", c!"gfm_test_495_inline_link_without_title", c!"gfm_test_496_empty_inline_link",
    c!"gfm_test_497_empty_inline_link_with_pointy_brackets", c!"gfm_test_498_invalid_inline_link_with_spaces",
    c!"gfm_test_499_valid_inline_link_with_spaces_and_pointy_brackets", c!"gfm_test_500_inline_link_with_line_break",
    c!"gfm_test_501_inline_link_with_line_break_in_pointy_brackets", c!"gfm_test_502_inline_link_with_closing_parenthesis_in_pointy_brackets",
    c!"gfm_test_503_unescaped_closing_pointy_bracket_in_link", c!"gfm_test_504_unmatched_pointy_brackets_in_link",
    c!"gfm_test_505_escaped_parentheses_in_link", c!"gfm_test_506_balanced_parentheses_in_link", c!"gfm_test_507_unbalanced_parentheses_with_escape",
    c!"gfm_test_508_unbalanced_parentheses_in_pointy_brackets", c!"gfm_test_509_escaped_characters_in_link",
    c!"gfm_test_510_link_with_fragment_and_query", c!"gfm_test_511_backslash_in_link", c!"gfm_test_512_entity_and_numeric_references_in_link",
    c!"gfm_test_513_omitted_destination_with_title", c!"gfm_test_514_different_quote_types_in_title", c!"gfm_test_515_escaped_characters_in_title",
    c!"gfm_test_516_unicode_whitespace_in_title", c!"gfm_test_517_nested_quotes_in_title", c!"gfm_test_518_workaround_nested_quotes",
    c!"gfm_test_519_whitespace_around_destination_and_title", c!"gfm_test_520_whitespace_after_link_text",
    c!"gfm_test_521_balanced_brackets_in_link_text", c!"gfm_test_522_unbalanced_brackets_in_link_text", c!"gfm_test_523_unbalanced_brackets_nested",
    c!"gfm_test_524_escaped_unbalanced_brackets_in_link_text", c!"gfm_test_525_inline_content_in_link_text", c!"gfm_test_526_image_inside_link",
    c!"gfm_test_527_nested_links_not_allowed", c!"gfm_test_528_nested_emphasis_and_links", c!"gfm_test_529_image_with_nested_links",
    c!"gfm_test_530_emphasis_with_link_text", c!"gfm_test_531_emphasis_and_link_destination", c!"gfm_test_532_emphasis_broken_by_non_link_brackets",
    c!"gfm_test_533_html_tag_and_link_grouping", c!"gfm_test_534_code_and_link_grouping", c!"gfm_test_535_autolink_and_link_grouping",
    c!"gfm_test_536_full_reference_link", c!"gfm_test_537_reference_with_balanced_brackets",
    c!"gfm_test_538_escaped_unbalanced_brackets_in_reference", c!"gfm_test_539_inline_content_in_reference", c!"gfm_test_540_image_inside_reference",
    c!"gfm_test_541_links_cannot_contain_links_in_reference", c!"gfm_test_542_emphasis_and_links_in_reference",
    c!"gfm_test_543_emphasis_with_reference_grouping", c!"gfm_test_544_emphasis_and_reference_grouping",
    c!"gfm_test_545_html_and_reference_grouping", c!"gfm_test_546_code_and_reference_grouping", c!"gfm_test_547_autolink_and_reference_grouping",
    c!"gfm_test_548_case_insensitive_reference_matching", c!"gfm_test_549_unicode_case_fold_reference_matching",
    c!"gfm_test_550_internal_whitespace_normalized_in_reference", c!"gfm_test_551_no_whitespace_between_text_and_label",
    c!"gfm_test_552_separate_lines_for_reference", c!"gfm_test_553_first_matching_reference_is_used",
    c!"gfm_test_554_no_normalization_on_reference_inline_content", c!"gfm_test_555_unescaped_brackets_in_labels",
    c!"gfm_test_556_unbalanced_brackets_in_labels", c!"gfm_test_557_nested_brackets_in_labels", c!"gfm_test_558_backslash_escape_brackets_in_labels",
    c!"gfm_test_559_escaped_backslash_in_labels", c!"gfm_test_560_empty_reference_label_not_allowed",
    c!"gfm_test_561_whitespace_only_reference_label_not_allowed", c!"gfm_test_562_collapsed_reference_link",
    c!"gfm_test_563_collapsed_reference_with_inline_content", c!"gfm_test_564_case_insensitive_collapsed_reference_matching",
    c!"gfm_test_565_no_whitespace_between_reference_and_brackets", c!"gfm_test_566_shortcut_reference_link",
    c!"gfm_test_567_inline_content_in_shortcut_reference", c!"gfm_test_568_unexpected_brackets_in_shortcut_reference",
    c!"gfm_test_569_misnested_shortcut_reference", c!"gfm_test_570_case_insensitive_shortcut_reference_matching",
    c!"gfm_test_571_preserve_space_after_shortcut_reference", c!"gfm_test_572_escape_opening_bracket_in_text",
    c!"gfm_test_573_reference_with_asterisks_in_label", c!"gfm_test_574_full_reference_takes_precedence_over_shortcut",
    c!"gfm_test_575_collapsed_reference_takes_precedence_over_shortcut", c!"gfm_test_576_inline_link_takes_precedence_over_reference",
    c!"gfm_test_577_inline_text_following_inline_link", c!"gfm_test_578_shortcut_reference_precedence_in_sequence",
    c!"gfm_test_579_full_reference_precedence_in_sequence", c!"gfm_test_580_no_shortcut_reference_due_to_following_label"]

/-- gfm/tests/gfm/list_items.rs -/
def tests_gfm_list_items : List Str :=
  [c!"gfm_test_231_blocks_outside_list", c!"gfm_test_232_ordered_list_item", c!"gfm_test_233_unindented_paragraph_after_list",
    c!"gfm_test_234_indented_paragraph_in_list", c!"gfm_test_235_indented_code_block_after_list_item",
    c!"gfm_test_236_properly_indented_paragraph_in_list", c!"gfm_test_237_indentation_in_nested_blocks",
    c!"gfm_test_238_insufficiently_indented_paragraph_in_nested_blocks", c!"gfm_test_239_invalid_list_items",
    c!"gfm_test_240_list_item_with_multiple_blank_lines", c!"gfm_test_241_complex_list_item", c!"gfm_test_242_preserve_blank_lines_in_code_block",
    c!"gfm_test_243_large_start_number_in_ordered_list", c!"gfm_test_244_too_large_start_number_in_ordered_list",
    c!"gfm_test_245_ordered_list_with_zero_as_start", c!"gfm_test_246_ordered_list_with_leading_zeros",
    c!"gfm_test_247_negative_number_in_ordered_list", c!"gfm_test_248_indented_code_in_list_item",
    c!"gfm_test_249_deeply_indented_code_in_list_item", c!"gfm_test_250_indented_code_outside_list", c!"gfm_test_251_indented_code_as_list_item",
    c!"gfm_test_252_extra_indent_in_code_block", c!"gfm_test_253_no_list_items_with_partial_indent",
    c!"gfm_test_254_invalid_list_due_to_insufficient_indentation", c!"gfm_test_255_valid_list_with_correct_indentation",
    c!"gfm_test_256_list_with_blank_lines", c!"gfm_test_257_indentation_does_not_change_blank_line_behavior",
    c!"gfm_test_258_list_with_multiple_blank_lines_stopping_item", c!"gfm_test_259_empty_bullet_list_items", c!"gfm_test_260_list_with_mixed_spaces",
    c!"gfm_test_261_empty_ordered_list_items", c!"gfm_test_262_empty_bullet_list", c!"gfm_test_263_empty_list_does_not_interrupt_paragraph",
    c!"gfm_test_264_one_space_indented_list_item", c!"gfm_test_265_two_spaces_indented_list_item", c!"gfm_test_266_three_spaces_indented_list_item",
    c!"gfm_test_267_four_spaces_is_code_block", c!"gfm_test_268_lazy_continuation_in_list", c!"gfm_test_269_partial_deletion_of_indentation",
    c!"gfm_test_270_nested_structure_lazy_continuation", c!"gfm_test_271_nested_structure_full_continuation",
    c!"gfm_test_272_properly_nested_sublists", c!"gfm_test_273_insufficiently_nested_sublists", c!"gfm_test_274_sublist_under_wider_marker",
    c!"gfm_test_275_insufficient_indentation_with_wider_marker", c!"gfm_test_276_list_as_first_block_in_item",
    c!"gfm_test_277_nested_list_with_ordered_list", c!"gfm_test_278_list_item_with_heading_and_rules"]

/-- gfm/tests/gfm/lists.rs -/
def tests_gfm_lists : List Str :=
  [c!"gfm_test_281_bullet_list_different_markers", c!"gfm_test_282_ordered_list_different_delimiters", c!"gfm_test_283_list_interrupts_paragraph",
    c!"gfm_test_284_no_list_in_paragraph", c!"gfm_test_285_list_in_paragraph", c!"gfm_test_286_blank_lines_between_items",
    c!"gfm_test_287_nested_lists_with_blank_lines", c!"gfm_test_288_html_comment_separates_lists", c!"gfm_test_289_html_comment_prevents_code_block",
    c!"gfm_test_290_list_items_not_same_indent_level", c!"gfm_test_291_ordered_list_with_varying_indents",
    c!"gfm_test_292_paragraph_continuation_line", c!"gfm_test_293_indented_code_in_ordered_list", c!"gfm_test_294_loose_list_with_blank_lines",
    c!"gfm_test_295_loose_list_with_empty_item", c!"gfm_test_296_loose_list_with_block_elements", c!"gfm_test_297_loose_list_with_reference",
    c!"gfm_test_298_tight_list_with_code_block", c!"gfm_test_299_tight_list_with_loose_sublist", c!"gfm_test_300_tight_list_with_blockquote",
    c!"gfm_test_301_tight_list_with_nested_code_block", c!"gfm_test_302_single_paragraph_tight_list",
    c!"gfm_test_303_single_paragraph_nested_tight_list", c!"gfm_test_304_loose_list_with_code_and_paragraph",
    c!"gfm_test_305_loose_outer_list_tight_inner_list", c!"gfm_test_306_nested_lists_with_blank_lines"]

/-- gfm/tests/gfm/paragraphs.rs -/
def tests_gfm_paragraphs : List Str :=
  [c!"gfm_test_189_two_simple_paragraphs", c!"gfm_test_190_paragraphs_with_multiple_lines", c!"gfm_test_191_multiple_blank_lines_between_paragraphs",
    c!"gfm_test_192_paragraph_with_leading_spaces", c!"gfm_test_193_paragraph_with_indented_lines_after_first",
    c!"gfm_test_194_first_line_indented_up_to_three_spaces", c!"gfm_test_195_first_line_indented_four_spaces_triggers_code_block",
    c!"gfm_test_196_paragraph_with_final_spaces"]

/-- gfm/tests/gfm/raw_html.rs -/
def tests_gfm_raw_html : List Str :=
  [c!"gfm_test_raw_html_636_open_tags", c!"gfm_test_raw_html_637_empty_elements", c!"gfm_test_raw_html_638_whitespace_in_tags",
    c!"gfm_test_raw_html_639_with_attributes", c!"gfm_test_raw_html_640_custom_tag_names", c!"gfm_test_raw_html_641_illegal_tag_names",
    c!"gfm_test_raw_html_642_illegal_attribute_names", c!"gfm_test_raw_html_643_illegal_attribute_values",
    c!"gfm_test_raw_html_644_illegal_whitespace", c!"gfm_test_raw_html_645_missing_whitespace", c!"gfm_test_raw_html_646_closing_tags",
    c!"gfm_test_raw_html_647_illegal_closing_tag_attributes", c!"gfm_test_raw_html_648_valid_comment", c!"gfm_test_raw_html_649_invalid_comment",
    c!"gfm_test_raw_html_650_not_a_comment", c!"gfm_test_raw_html_651_processing_instructions", c!"gfm_test_raw_html_652_declarations",
    c!"gfm_test_raw_html_653_cdata_sections", c!"gfm_test_raw_html_654_entity_references", c!"gfm_test_raw_html_655_backslash_escapes",
    c!"gfm_test_raw_html_656_backslash_in_quotes"]

/-- gfm/tests/gfm/setext_headings.rs -/
def tests_gfm_setext_headings : List Str :=
  [c!"gfm_test_50_setext_heading_simple_examples", c!"gfm_test_51_setext_heading_multiline_content",
    c!"gfm_test_52_setext_heading_leading_and_trailing_whitespace", c!"gfm_test_53_setext_heading_any_length_underlining",
    c!"gfm_test_54_setext_heading_indented_content", c!"gfm_test_55_setext_heading_too_much_indentation",
    c!"gfm_test_56_setext_heading_with_indented_underlining", c!"gfm_test_57_setext_heading_invalid_indent_in_underlining",
    c!"gfm_test_58_setext_heading_invalid_internal_spaces", c!"gfm_test_59_setext_heading_trailing_spaces_in_content",
    c!"gfm_test_60_setext_heading_with_backslash_at_end", c!"gfm_test_61_setext_heading_indicators_of_block_structure",
    c!"gfm_test_62_setext_heading_in_block_quote", c!"gfm_test_63_setext_heading_with_lazy_continuation",
    c!"gfm_test_64_setext_heading_in_list_item", c!"gfm_test_65_setext_heading_needs_blank_line_after_paragraph",
    c!"gfm_test_66_setext_heading_no_blank_lines_needed", c!"gfm_test_67_setext_heading_cannot_be_empty",
    c!"gfm_test_68_thematic_break_instead_of_setext_heading", c!"gfm_test_69_setext_heading_after_list",
    c!"gfm_test_70_indented_code_block_instead_of_setext_heading", c!"gfm_test_71_setext_heading_in_block_quote",
    c!"gfm_test_72_setext_heading_literal_text", c!"gfm_test_73_setext_heading_with_blank_lines",
    c!"gfm_test_74_setext_heading_with_blank_lines_around_thematic_break", c!"gfm_test_75_setext_heading_alternative_thematic_break",
    c!"gfm_test_76_setext_heading_with_escaped_dashes"]

/-- gfm/tests/gfm/soft_line_breaks.rs -/
def tests_gfm_soft_line_breaks : List Str :=
  [c!"gfm_test_soft_line_breaks_673", c!"gfm_test_soft_line_breaks_674"]

/-- gfm/tests/gfm/strikethrough.rs -/
def tests_gfm_strikethrough : List Str :=
  [c!"gfm_test_491_simple_strikethrough", c!"gfm_test_492_strikethrough_with_new_paragraph", c!"gfm_test_493_no_strikethrough_with_three_tildes"]

/-- gfm/tests/gfm/tables.rs -/
def tests_gfm_tables : List Str :=
  [c!"gfm_test_198_simple_table", c!"gfm_test_199_table_with_alignment", c!"gfm_test_200_table_with_escaped_pipes",
    c!"gfm_test_201_table_ends_with_blockquote", c!"gfm_test_202_table_with_extra_row_and_paragraph",
    c!"gfm_test_203_table_not_recognized_with_mismatched_delimiter", c!"gfm_test_204_table_with_varying_row_lengths",
    c!"gfm_test_205_table_with_no_body_rows"]

/-- gfm/tests/gfm/tabs.rs -/
def tests_gfm_tabs : List Str :=
  [c!"gfm_test_1_characters_and_lines_valid_document", c!"gfm_test_2_characters_and_lines_indented_code_block", c!"gfm_test_3_unicode_in_code_block",
    c!"gfm_test_4_list_with_tab_indentation", c!"gfm_test_5_nested_list_with_tab_indentation", c!"gfm_test_6_block_quote_with_tab_indentation",
    c!"gfm_test_7_list_item_with_tab_indentation", c!"gfm_test_8_blank_line_in_code_block", c!"gfm_test_9_nested_list_with_indentation",
    c!"gfm_test_10_atx_heading_with_tab", c!"gfm_test_11_hr_with_tabs"]

/-- gfm/tests/gfm/task_list_items.rs -/
def tests_gfm_task_list_items : List Str :=
  [c!"gfm_test_279_task_list_items_basic", c!"gfm_test_280_nested_task_list_items"]

/-- gfm/tests/gfm/textual_context.rs -/
def tests_gfm_textual_context : List Str :=
  [c!"gfm_test_textual_content_675", c!"gfm_test_textual_content_676", c!"gfm_test_textual_content_677"]

/-- gfm/tests/gfm/thematic_breaks.rs -/
def tests_gfm_thematic_breaks : List Str :=
  [c!"gfm_test_13_simple_thematic_breaks", c!"gfm_test_14_wrong_characters_in_break", c!"gfm_test_15_equals_signs_in_break",
    c!"gfm_test_16_not_enough_characters", c!"gfm_test_17_thematic_break_with_indentation", c!"gfm_test_18_four_spaces_is_not_a_thematic_break",
    c!"gfm_test_19_thematic_break_follows_paragraph", c!"gfm_test_20_more_than_three_characters_in_break",
    c!"gfm_test_21_spaces_between_thematic_break_characters", c!"gfm_test_22_complex_thematic_break_with_spaces",
    c!"gfm_test_23_multiple_spaces_between_break_characters", c!"gfm_test_24_thematic_break_with_trailing_spaces",
    c!"gfm_test_25_invalid_characters_in_thematic_break", c!"gfm_test_26_invalid_mixed_characters_in_thematic_break",
    c!"gfm_test_27_thematic_break_in_list", c!"gfm_test_28_thematic_break_interrupting_paragraph", c!"gfm_test_29_thematic_break_as_setext_heading",
    c!"gfm_test_30_thematic_break_and_list_item_conflict", c!"gfm_test_31_thematic_break_in_list_item"]

/-- The functions with the attribute `test`, by module. None is ignored and none is expected to panic. -/
def testModules : List (Str × List Str) :=
  [(c!"fs::tests", tests_fs_tests), (c!"browser::tests", tests_browser_tests), (c!"error::test", tests_error_test),
    (c!"config::tests", tests_config_tests), (c!"args::tests", tests_args_tests), (c!"iter::tests", tests_iter_tests),
    (c!"gfm::atx_headings", tests_gfm_atx_headings), (c!"gfm::autolinks", tests_gfm_autolinks),
    (c!"gfm::autolinks_extention", tests_gfm_autolinks_extention), (c!"gfm::backslash_escapes", tests_gfm_backslash_escapes),
    (c!"gfm::blank_lines", tests_gfm_blank_lines), (c!"gfm::block_quotes", tests_gfm_block_quotes),
    (c!"gfm::blocks_and_inlines", tests_gfm_blocks_and_inlines), (c!"gfm::code_spans", tests_gfm_code_spans),
    (c!"gfm::disallowed_raw_html", tests_gfm_disallowed_raw_html),
    (c!"gfm::emphasis_and_strong_emphasis", tests_gfm_emphasis_and_strong_emphasis),
    (c!"gfm::entity_and_numeric_character_references", tests_gfm_entity_and_numeric_character_references),
    (c!"gfm::fenced_code_blocks", tests_gfm_fenced_code_blocks), (c!"gfm::hard_line_breaks", tests_gfm_hard_line_breaks),
    (c!"gfm::html_blocks", tests_gfm_html_blocks), (c!"gfm::images", tests_gfm_images),
    (c!"gfm::indented_code_blocks", tests_gfm_indented_code_blocks), (c!"gfm::inlines", tests_gfm_inlines),
    (c!"gfm::link_reference_definitions", tests_gfm_link_reference_definitions), (c!"gfm::links", tests_gfm_links),
    (c!"gfm::list_items", tests_gfm_list_items), (c!"gfm::lists", tests_gfm_lists), (c!"gfm::paragraphs", tests_gfm_paragraphs),
    (c!"gfm::raw_html", tests_gfm_raw_html), (c!"gfm::setext_headings", tests_gfm_setext_headings),
    (c!"gfm::soft_line_breaks", tests_gfm_soft_line_breaks), (c!"gfm::strikethrough", tests_gfm_strikethrough),
    (c!"gfm::tables", tests_gfm_tables), (c!"gfm::tabs", tests_gfm_tabs), (c!"gfm::task_list_items", tests_gfm_task_list_items),
    (c!"gfm::textual_context", tests_gfm_textual_context), (c!"gfm::thematic_breaks", tests_gfm_thematic_breaks)]

/-- The names the test programs know them by: the module in its crate and the function. The second list is the one example in the documentation
(gfm/src/lib.rs 21-29), which `rustdoc` names by file, function and line. -/
def testNames : List Str :=
  testModules.flatMap (fun m => m.2.map fun f => m.1 ++ c!"::" ++ f) ++ [c!"gfm/src/lib.rs - Parser::render (line 21)"]

/-- The tests that `cargo test` runs with a filter: those whose name contains it. -/
def runTests (filter : Str) : List Str := testNames.filter (contains · filter)

/-- `cargo test` succeeds: every test it runs passes. -/
def cargoTest (filter : Str) (pass : Str → Bool) : Bool := (runTests filter).all pass

/-- The job `main` (main.yaml 26-45). `works` says which of the other commands succeed. -/
def mainJob (works : Str → Bool) (pass : Str → Bool) : Bool :=
  works c!"cargo fmt --check" && works c!"cargo clippy" && works c!"cargo build --tests" && cargoTest c!"smd" pass

/-- The job `coverage` (main.yaml 2-24): the status of `cargo tarpaulin`, which runs all tests, is dropped by `|| true`. -/
def coverageJob (works : Str → Bool) (pass : Str → Bool) : Bool :=
  works c!"cargo install cargo-tarpaulin" && (cargoTest [] pass || true) && works c!"codecov"

/-- The checks of a pull request: all jobs of the workflow. -/
def checks (works : Str → Bool) (pass : Str → Bool) : Bool := mainJob works pass && coverageJob works pass

end Smd.Release
