import Verif.Gfm.Render
import Verif.Gfm.Iter

/-!
Checks of the model against the project's own tests in /repo/gfm/tests/gfm (677 documents with the expected rendering, taken
from the GFM specification, some of them adapted by the authors). The tests cannot be run here. These are the 71 whose
expectation the model meets; all of autolinks.rs is among them. DESIGN.md says what the others are about. At the end the
unit tests of iter.rs, all of which the model meets. These are tests of the model, not proofs of properties.
-/

namespace Smd.Gfm
open Smd.Rs

/-! ### atx_headings.rs -/

/-- `gfm_test_32_simple_atx_headings` -/
example : render c!"# foo\n## foo\n### foo\n#### foo\n##### foo\n###### foo" =
    .ok c!"<h1>foo</h1>\n<h2>foo</h2>\n<h3>foo</h3>\n<h4>foo</h4>\n<h5>foo</h5>\n<h6>foo</h6>\n" := by decide +kernel

/-- `gfm_test_37_atx_heading_trailing_whitespace` -/
example : render c!"#                  foo                      " =
    .ok c!"<h1>foo</h1>\n" := by decide +kernel

/-- `gfm_test_38_atx_heading_indentation_allowed` -/
example : render c!" ### foo\n  ## foo\n   # foo" =
    .ok c!"<h3>foo</h3>\n<h2>foo</h2>\n<h1>foo</h1>\n" := by decide +kernel

/-- `gfm_test_41_atx_heading_closing_hash_sequence` -/
example : render c!"## foo ##\n  ###   bar    ###" =
    .ok c!"<h2>foo</h2>\n<h3>bar</h3>\n" := by decide +kernel

/-- `gfm_test_42_atx_heading_closing_hash_sequence_length` -/
example : render c!"# foo ##################################\n##### foo ##" =
    .ok c!"<h1>foo</h1>\n<h5>foo</h5>\n" := by decide +kernel

/-- `gfm_test_43_atx_heading_closing_hash_with_spaces` -/
example : render c!"### foo ###     " =
    .ok c!"<h3>foo</h3>\n" := by decide +kernel

/-- `gfm_test_45_atx_heading_closing_hash_without_space` -/
example : render c!"# foo#" =
    .ok c!"<h1>foo#</h1>\n" := by decide +kernel

/-- `gfm_test_47_atx_heading_interrupted_by_hr` -/
example : render c!"****\n## foo\n****" =
    .ok c!"<hr />\n<h2>foo</h2>\n<hr />\n" := by decide +kernel

/-- `gfm_test_49_atx_heading_empty` -/
example : render c!"## \n#\n### ###" =
    .ok c!"<h2></h2>\n<h1></h1>\n<h3></h3>\n" := by decide +kernel

/-! ### autolinks.rs -/

/-- `gfm_test_603_simple_autolink` -/
example : render c!"<http://foo.bar.baz>" =
    .ok c!"<p><a href=\"http://foo.bar.baz\">http://foo.bar.baz</a></p>\n" := by decide +kernel

/-- `gfm_test_604_autolink_with_query` -/
example : render c!"<http://foo.bar.baz/test?q=hello&id=22&boolean>" =
    .ok c!"<p><a href=\"http://foo.bar.baz/test?q=hello&amp;id=22&amp;boolean\">http://foo.bar.baz/test?q=hello&amp;id=22&amp;boolean</a></p>\n" := by decide +kernel

/-- `gfm_test_605_autolink_with_port` -/
example : render c!"<irc://foo.bar:2233/baz>" =
    .ok c!"<p><a href=\"irc://foo.bar:2233/baz\">irc://foo.bar:2233/baz</a></p>\n" := by decide +kernel

/-- `gfm_test_606_uppercase_autolink` -/
example : render c!"<MAILTO:FOO@BAR.BAZ>" =
    .ok c!"<p><a href=\"MAILTO:FOO@BAR.BAZ\">MAILTO:FOO@BAR.BAZ</a></p>\n" := by decide +kernel

/-- `gfm_test_607_made_up_scheme_autolink` -/
example : render c!"<a+b+c:d>" =
    .ok c!"<p><a href=\"a+b+c:d\">a+b+c:d</a></p>\n" := by decide +kernel

/-- `gfm_test_608_made_up_scheme_with_comma` -/
example : render c!"<made-up-scheme://foo,bar>" =
    .ok c!"<p><a href=\"made-up-scheme://foo,bar\">made-up-scheme://foo,bar</a></p>\n" := by decide +kernel

/-- `gfm_test_609_relative_autolink` -/
example : render c!"<http://../>" =
    .ok c!"<p><a href=\"http://../\">http://../</a></p>\n" := by decide +kernel

/-- `gfm_test_610_localhost_autolink` -/
example : render c!"<localhost:5001/foo>" =
    .ok c!"<p><a href=\"localhost:5001/foo\">localhost:5001/foo</a></p>\n" := by decide +kernel

/-- `gfm_test_611_invalid_autolink_with_space` -/
example : render c!"<http://foo.bar/baz bim>" =
    .ok c!"<p>&lt;http://foo.bar/baz bim&gt;</p>\n" := by decide +kernel

/-- `gfm_test_612_invalid_backslash_autolink` -/
example : render c!"<http://example.com/\\[\\>" =
    .ok c!"<p><a href=\"http://example.com/%5C%5B%5C\">http://example.com/\\[\\</a></p>\n" := by decide +kernel

/-- `gfm_test_613_email_autolink` -/
example : render c!"<foo@bar.example.com>" =
    .ok c!"<p><a href=\"mailto:foo@bar.example.com\">foo@bar.example.com</a></p>\n" := by decide +kernel

/-- `gfm_test_614_email_autolink_with_plus` -/
example : render c!"<foo+special@Bar.baz-bar0.com>" =
    .ok c!"<p><a href=\"mailto:foo+special@Bar.baz-bar0.com\">foo+special@Bar.baz-bar0.com</a></p>\n" := by decide +kernel

/-- `gfm_test_615_invalid_email_with_backslash` -/
example : render c!"<foo\\+@bar.example.com>" =
    .ok c!"<p>&lt;foo+@bar.example.com&gt;</p>\n" := by decide +kernel

/-- `gfm_test_616_empty_autolink` -/
example : render c!"<>" =
    .ok c!"<p>&lt;&gt;</p>\n" := by decide +kernel

/-- `gfm_test_617_autolink_with_spaces` -/
example : render c!"< http://foo.bar >" =
    .ok c!"<p>&lt; http://foo.bar &gt;</p>\n" := by decide +kernel

/-- `gfm_test_618_invalid_scheme` -/
example : render c!"<m:abc>" =
    .ok c!"<p>&lt;m:abc&gt;</p>\n" := by decide +kernel

/-- `gfm_test_619_non_uri_autolink` -/
example : render c!"<foo.bar.baz>" =
    .ok c!"<p>&lt;foo.bar.baz&gt;</p>\n" := by decide +kernel

/-- `gfm_test_620_non_autolink_uri` -/
example : render c!"http://example.com" =
    .ok c!"<p>http://example.com</p>\n" := by decide +kernel

/-- `gfm_test_621_non_autolink_email` -/
example : render c!"foo@bar.example.com" =
    .ok c!"<p>foo@bar.example.com</p>\n" := by decide +kernel

/-! ### blank_lines.rs -/

/-- `gfm_test_197_blank_lines_ignored` -/
example : render c!"  \n\naaa\n  \n\n# aaa\n\n  \n" =
    .ok c!"<p>aaa</p>\n<h1>aaa</h1>\n" := by decide +kernel

/-! ### code_spans.rs -/

/-- `gfm_test_357_unmatched_backticks_literal` -/
example : render c!"```foo``" =
    .ok c!"<p>```foo``</p>\n" := by decide +kernel

/-- `gfm_test_358_unclosed_backticks` -/
example : render c!"`foo" =
    .ok c!"<p>`foo</p>\n" := by decide +kernel

/-! ### emphasis_and_strong_emphasis.rs -/

/-- `gfm_test_360_simple_emphasis` -/
example : render c!"*foo bar*" =
    .ok c!"<p><em>foo bar</em></p>\n" := by decide +kernel

/-- `gfm_test_364_intraword_emphasis_allowed` -/
example : render c!"foo*bar*" =
    .ok c!"<p>foo<em>bar</em></p>\n" := by decide +kernel

/-- `gfm_test_365_intraword_numbers` -/
example : render c!"5*6*78" =
    .ok c!"<p>5<em>6</em>78</p>\n" := by decide +kernel

/-- `gfm_test_366_simple_emphasis_with_underscore` -/
example : render c!"_foo bar_" =
    .ok c!"<p><em>foo bar</em></p>\n" := by decide +kernel

/-- `gfm_test_379_intraword_emphasis` -/
example : render c!"*foo*bar" =
    .ok c!"<p><em>foo</em>bar</p>\n" := by decide +kernel

/-- `gfm_test_387_strong_emphasis` -/
example : render c!"**foo bar**" =
    .ok c!"<p><strong>foo bar</strong></p>\n" := by decide +kernel

/-- `gfm_test_390_intraword_strong_emphasis` -/
example : render c!"foo**bar**" =
    .ok c!"<p>foo<strong>bar</strong></p>\n" := by decide +kernel

/-- `gfm_test_391_strong_emphasis_underscores` -/
example : render c!"__foo bar__" =
    .ok c!"<p><strong>foo bar</strong></p>\n" := by decide +kernel

/-- `gfm_test_405_intraword_strong_emphasis` -/
example : render c!"**foo**bar" =
    .ok c!"<p><strong>foo</strong>bar</p>\n" := by decide +kernel

/-- `gfm_test_414_emphasis_across_lines` -/
example : render c!"*foo\nbar*" =
    .ok c!"<p><em>foo\nbar</em></p>\n" := by decide +kernel

/-- `gfm_test_429_no_empty_emphasis` -/
example : render c!"** is not an empty emphasis" =
    .ok c!"<p>** is not an empty emphasis</p>\n" := by decide +kernel

/-- `gfm_test_432_multiline_strong_emphasis` -/
example : render c!"**foo\nbar**" =
    .ok c!"<p><strong>foo\nbar</strong></p>\n" := by decide +kernel

/-- `gfm_test_443_no_empty_emphasis_variant` -/
example : render c!"__ is not an empty emphasis" =
    .ok c!"<p>__ is not an empty emphasis</p>\n" := by decide +kernel

/-- `gfm_test_456_emphasis_with_excess_literal_asterisks` -/
example : render c!"*foo****" =
    .ok c!"<p><em>foo</em>***</p>\n" := by decide +kernel

/-- `gfm_test_468_emphasis_with_excess_literal_underscores` -/
example : render c!"_foo____" =
    .ok c!"<p><em>foo</em>___</p>\n" := by decide +kernel

/-- `gfm_test_469_emphasis_and_strong_emphasis` -/
example : render c!"**foo**" =
    .ok c!"<p><strong>foo</strong></p>\n" := by decide +kernel

/-- `gfm_test_471_strong_emphasis_and_nested_emphasis` -/
example : render c!"__foo__" =
    .ok c!"<p><strong>foo</strong></p>\n" := by decide +kernel

/-! ### entity_and_numeric_character_references.rs -/

/-- `gfm_test_325_missing_semicolon` -/
example : render c!"&copy" =
    .ok c!"<p>&amp;copy</p>\n" := by decide +kernel

/-- `gfm_test_326_made_up_entity` -/
example : render c!"&MadeUpEntity;" =
    .ok c!"<p>&amp;MadeUpEntity;</p>\n" := by decide +kernel

/-! ### hard_line_breaks.rs -/

/-- `gfm_test_hard_line_breaks_670` -/
example : render c!"foo  " =
    .ok c!"<p>foo</p>\n" := by decide +kernel

/-- `gfm_test_hard_line_breaks_672` -/
example : render c!"### foo  " =
    .ok c!"<h3>foo</h3>\n" := by decide +kernel

/-! ### list_items.rs -/

/-- `gfm_test_253_no_list_items_with_partial_indent` -/
example : render c!"   foo\n\nbar\n" =
    .ok c!"<p>foo</p>\n<p>bar</p>\n" := by decide +kernel

/-! ### lists.rs -/

/-- `gfm_test_286_blank_lines_between_items` -/
example : render c!"- foo\n\n- bar\n\n\n- baz\n" =
    .ok c!"<ul>\n<li>\n<p>foo</p>\n</li>\n<li>\n<p>bar</p>\n</li>\n<li>\n<p>baz</p>\n</li>\n</ul>\n" := by decide +kernel

/-! ### paragraphs.rs -/

/-- `gfm_test_189_two_simple_paragraphs` -/
example : render c!"aaa\n\nbbb\n" =
    .ok c!"<p>aaa</p>\n<p>bbb</p>\n" := by decide +kernel

/-- `gfm_test_191_multiple_blank_lines_between_paragraphs` -/
example : render c!"aaa\n\n\nbbb\n" =
    .ok c!"<p>aaa</p>\n<p>bbb</p>\n" := by decide +kernel

/-! ### raw_html.rs -/

/-- `gfm_test_raw_html_642_illegal_attribute_names` -/
example : render c!"<a h*#ref=\"hi\">" =
    .ok c!"<p>&lt;a h*#ref=&quot;hi&quot;&gt;</p>\n" := by decide +kernel

/-- `gfm_test_raw_html_647_illegal_closing_tag_attributes` -/
example : render c!"</a href=\"foo\">" =
    .ok c!"<p>&lt;/a href=&quot;foo&quot;&gt;</p>\n" := by decide +kernel

/-- `gfm_test_raw_html_656_backslash_in_quotes` -/
example : render c!"<a href=\"\\\"\">" =
    .ok c!"<p>&lt;a href=&quot;&quot;&quot;&gt;</p>\n" := by decide +kernel

/-! ### setext_headings.rs -/

/-- `gfm_test_67_setext_heading_cannot_be_empty` -/
example : render c!"\n====\n" =
    .ok c!"<p>====</p>\n" := by decide +kernel

/-- `gfm_test_68_thematic_break_instead_of_setext_heading` -/
example : render c!"---\n---\n" =
    .ok c!"<hr />\n<hr />\n" := by decide +kernel

/-! ### tabs.rs -/

/-- `gfm_test_1_characters_and_lines_valid_document` -/
example : render c!"\tfoo\tbaz\t\tbim" =
    .ok c!"<pre><code>foo\tbaz\t\tbim\n</code></pre>" := by decide +kernel

/-- `gfm_test_2_characters_and_lines_indented_code_block` -/
example : render c!"  \tfoo\tbaz\t\tbim" =
    .ok c!"<pre><code>foo\tbaz\t\tbim\n</code></pre>" := by decide +kernel

/-- `gfm_test_3_unicode_in_code_block` -/
example : render c!"    a\ta\n    ὐ\ta" =
    .ok c!"<pre><code>a\ta\nὐ\ta\n</code></pre>" := by decide +kernel

/-- `gfm_test_4_list_with_tab_indentation` -/
example : render c!"  - foo\n\n\tbar" =
    .ok c!"<ul>\n<li>\n<p>foo</p>\n<p>bar</p>\n</li>\n</ul>\n" := by decide +kernel

/-- `gfm_test_8_blank_line_in_code_block` -/
example : render c!"    foo\n\tbar" =
    .ok c!"<pre><code>foo\nbar\n</code></pre>" := by decide +kernel

/-! ### textual_context.rs -/

/-- `gfm_test_textual_content_677` -/
example : render c!"Multiple     spaces" =
    .ok c!"<p>Multiple     spaces</p>\n" := by decide +kernel

/-! ### thematic_breaks.rs -/

/-- `gfm_test_15_equals_signs_in_break` -/
example : render c!"===\n" =
    .ok c!"<p>===</p>\n" := by decide +kernel

/-- `gfm_test_17_thematic_break_with_indentation` -/
example : render c!" ***\n  ***\n   ***\n" =
    .ok c!"<hr />\n<hr />\n<hr />\n" := by decide +kernel

/-- `gfm_test_20_more_than_three_characters_in_break` -/
example : render c!"_____________________________________\n" =
    .ok c!"<hr />\n" := by decide +kernel

/-- `gfm_test_26_invalid_mixed_characters_in_thematic_break` -/
example : render c!" *-*\n" =
    .ok c!"<p><em>-</em></p>\n" := by decide +kernel

/-! ### iter.rs -/

namespace Iter

/-- `peek_does_not_advance` -/
example : let it := new c!"this is some plaintext"
    peek it = some (enc c!"t") ∧ (next it).1 = some (enc c!"t") := by decide +kernel

/-- `peek_does_not_advance_utf` -/
example : let it := new c!"الْأَ"
    peek it = some (enc c!"ا") ∧ (next it).1 = some (enc c!"ا") := by decide +kernel

/-- `modern_standard_arabic_test` -/
example : ∃ it, consumeLine (new c!"الْﺦﷺأَ") = .ok (some (enc c!"الْﺦﷺأَ"), it) ∧ (next it).1 = none :=
  ⟨⟨enc c!"الْﺦﷺأَ", (enc c!"الْﺦﷺأَ").length⟩, by decide +kernel⟩

/-- `consume_until_end_consumes_full_string` -/
example : let r := consumeUntilEnd (new c!"this is some plaintext")
    r.1 = some (enc c!"this is some plaintext") ∧ (next r.2).1 = none := by decide +kernel

/-- The characters `peek` and `next` return, one after the other. -/
def chars : Nat → MdIter → List (Option Bytes × Option Bytes)
  | 0, _ => []
  | n + 1, it => (peek it, (next it).1) :: chars n (next it).2

/-- `next_advances_utf_correctly` -/
example : chars 10 (new c!"اa木b겅c€d𐍈e") =
    [c!"ا", c!"a", c!"木", c!"b", c!"겅", c!"c", c!"€", c!"d", c!"𐍈", c!"e"].map (fun s => (some (enc s), some (enc s))) := by
  decide +kernel

/-- `test_slashes` -/
example : let i0 := new c!"¯\\\\\\\\\\¯"
    let r := consumeWhile (fun c => c == enc c!"\\") (next i0).2
    peek i0 = some (enc c!"¯") ∧ (next i0).1 = some (enc c!"¯") ∧ peek (next i0).2 = some (enc c!"\\") ∧
    r.1 = some (enc c!"\\\\\\\\\\") ∧ peek r.2 = some (enc c!"¯") ∧ (next r.2).1 = some (enc c!"¯") ∧ (next (next r.2).2).1 = none := by
  decide +kernel

/-- `general_iter_test` -/
example : let i0 := new c!"this is some plaintext"
    let r1 := consumeWhile (fun c => c != enc c!" ") (next i0).2
    let r2 := consumeUntilTail (enc c!"plain") r1.2
    let r3 := consumeUntilEnd r2.2
    let j := new c!"jkfsgbkfgbdklfdsbh gkhsdfbg <details> and more chars"
    let q1 := consumeUntilTail (enc c!"<details>") j
    let q2 := consumeUntilEnd q1.2
    r1.1 = some (enc c!"his") ∧ r2.1 = some (enc c!" is some plain") ∧ r3.1 = some (enc c!"text") ∧ (next r3.2).1 = none ∧
    q1.1 = some (enc c!"jkfsgbkfgbdklfdsbh gkhsdfbg <details>") ∧ q2.1 = some (enc c!" and more chars") ∧ peek q2.2 = none := by
  decide +kernel

/-- The lines `consume_line_ahead` returns, one after the other. -/
def lines : Nat → MdIter → List (Option Bytes)
  | 0, _ => []
  | n + 1, it => match consumeLine it with
    | .ok (l, it') => l :: lines n it'
    | _ => []

/-- `consume_peek_line_test` -/
example : let it := new c!"this is some plaintext in a line\nAnd a new line with more content"
    peekLine it = .ok (some (enc c!"this is some plaintext in a line\n")) ∧
    lines 3 it = [some (enc c!"this is some plaintext in a line\n"), some (enc c!"And a new line with more content"), none] := by
  decide +kernel

/-- `test_degenerate_newlines` -/
example : lines 7 (new c!"\n\n\n\n\nfoo\n") =
    [c!"\n", c!"\n", c!"\n", c!"\n", c!"\n", c!"foo\n"].map (fun s => some (enc s)) ++ [none] := by decide +kernel

/-- `test_mixed_chars` -/
example : lines 3 (new c!"  - foo\n\n\tbar\n") = [c!"  - foo\n", c!"\n", c!"\tbar\n"].map (fun s => some (enc s)) := by
  decide +kernel

end Iter

end Smd.Gfm
