import Verif.Tests.Suite1
/-! # The project's own conformance tests, run on the model (tests/jsontestsuite.rs, second half)

Tests, not proofs: each evaluates the model in Lean's kernel on one file. They show that the model behaves as the
project's tests say the code does. Generated from the files in /repo/tests. -/

namespace JustJson
open Spec

section
attribute [local instance] arch64

-- n_string_incomplete_surrogate_escape_invalid.json
example : (validateJsonBytes (b8 "[\"\\uD800\\uD800\\x\"]")).isErr = true := by decide +kernel

-- n_string_invalid-utf-8-in-escape.json
example : (validateJsonBytes (raw [91, 34, 92, 117, 229, 34, 93])).isErr = true := by decide +kernel

-- n_string_invalid_backslash_esc.json
example : (validateJsonBytes (b8 "[\"\\a\"]")).isErr = true := by decide +kernel

-- n_string_invalid_unicode_escape.json
example : (validateJsonBytes (b8 "[\"\\uqqqq\"]")).isErr = true := by decide +kernel

-- n_string_invalid_utf8_after_escape.json
example : (validateJsonBytes (raw [91, 34, 92, 229, 34, 93])).isErr = true := by decide +kernel

-- n_string_leading_uescaped_thinspace.json
example : (validateJsonBytes (b8 "[\\u0020\"asd\"]")).isErr = true := by decide +kernel

-- n_string_no_quotes_with_bad_escape.json
example : (validateJsonBytes (b8 "[\\n]")).isErr = true := by decide +kernel

-- n_string_single_doublequote.json
example : (validateJsonBytes (b8 "\"")).isErr = true := by decide +kernel

-- n_string_single_quote.json
example : (validateJsonBytes (b8 "['single quote']")).isErr = true := by decide +kernel

-- n_string_single_string_no_double_quotes.json
example : (validateJsonBytes (b8 "abc")).isErr = true := by decide +kernel

-- n_string_start_escape_unclosed.json
example : (validateJsonBytes (b8 "[\"\\")).isErr = true := by decide +kernel

-- n_string_unescaped_ctrl_char.json
example : (validateJsonBytes (raw [91, 34, 97, 0, 97, 34, 93])).isErr = true := by decide +kernel

-- n_string_unescaped_newline.json
example : (validateJsonBytes (b8 "[\"new\nline\"]")).isErr = true := by decide +kernel

-- n_string_unescaped_tab.json
example : (validateJsonBytes (b8 "[\"\t\"]")).isErr = true := by decide +kernel

-- n_string_unicode_CapitalU.json
example : (validateJsonBytes (b8 "\"\\UA66D\"")).isErr = true := by decide +kernel

-- n_string_with_trailing_garbage.json
example : (validateJsonBytes (b8 "\"\"x")).isErr = true := by decide +kernel

-- n_structure_U+2060_word_joined.json
example : (validateJsonBytes (raw [91, 226, 129, 160, 93])).isErr = true := by decide +kernel

-- n_structure_UTF8_BOM_no_data.json
example : (validateJsonBytes (raw [239, 187, 191])).isErr = true := by decide +kernel

-- n_structure_angle_bracket_..json
example : (validateJsonBytes (b8 "<.>")).isErr = true := by decide +kernel

-- n_structure_angle_bracket_null.json
example : (validateJsonBytes (b8 "[<null>]")).isErr = true := by decide +kernel

-- n_structure_array_trailing_garbage.json
example : (validateJsonBytes (b8 "[1]x")).isErr = true := by decide +kernel

-- n_structure_array_with_extra_array_close.json
example : (validateJsonBytes (b8 "[1]]")).isErr = true := by decide +kernel

-- n_structure_array_with_unclosed_string.json
example : (validateJsonBytes (b8 "[\"asd]")).isErr = true := by decide +kernel

-- n_structure_ascii-unicode-identifier.json
example : (validateJsonBytes (raw [97, 195, 165])).isErr = true := by decide +kernel

-- n_structure_capitalized_True.json
example : (validateJsonBytes (b8 "[True]")).isErr = true := by decide +kernel

-- n_structure_close_unopened_array.json
example : (validateJsonBytes (b8 "1]")).isErr = true := by decide +kernel

-- n_structure_comma_instead_of_closing_brace.json
example : (validateJsonBytes (b8 "{\"x\": true,")).isErr = true := by decide +kernel

-- n_structure_double_array.json
example : (validateJsonBytes (b8 "[][]")).isErr = true := by decide +kernel

-- n_structure_end_array.json
example : (validateJsonBytes (b8 "]")).isErr = true := by decide +kernel

-- n_structure_incomplete_UTF8_BOM.json
example : (validateJsonBytes (raw [239, 187, 123, 125])).isErr = true := by decide +kernel

-- n_structure_lone-invalid-utf-8.json
example : (validateJsonBytes (raw [229])).isErr = true := by decide +kernel

-- n_structure_lone-open-bracket.json
example : (validateJsonBytes (b8 "[")).isErr = true := by decide +kernel

-- n_structure_no_data.json
example : (validateJsonBytes (b8 "")).isErr = true := by decide +kernel

-- n_structure_null-byte-outside-string.json
example : (validateJsonBytes (raw [91, 0, 93])).isErr = true := by decide +kernel

-- n_structure_number_with_trailing_garbage.json
example : (validateJsonBytes (b8 "2@")).isErr = true := by decide +kernel

-- n_structure_object_followed_by_closing_object.json
example : (validateJsonBytes (b8 "{}}")).isErr = true := by decide +kernel

-- n_structure_object_unclosed_no_value.json
example : (validateJsonBytes (b8 "{\"\":")).isErr = true := by decide +kernel

-- n_structure_object_with_comment.json
example : (validateJsonBytes (b8 "{\"a\":/*comment*/\"b\"}")).isErr = true := by decide +kernel

-- n_structure_object_with_trailing_garbage.json
example : (validateJsonBytes (b8 "{\"a\": true} \"x\"")).isErr = true := by decide +kernel

-- n_structure_open_array_apostrophe.json
example : (validateJsonBytes (b8 "['")).isErr = true := by decide +kernel

-- n_structure_open_array_comma.json
example : (validateJsonBytes (b8 "[,")).isErr = true := by decide +kernel

-- n_structure_open_array_open_object.json
example : (validateJsonBytes (b8 "[{")).isErr = true := by decide +kernel

-- n_structure_open_array_open_string.json
example : (validateJsonBytes (b8 "[\"a")).isErr = true := by decide +kernel

-- n_structure_open_array_string.json
example : (validateJsonBytes (b8 "[\"a\"")).isErr = true := by decide +kernel

-- n_structure_open_object.json
example : (validateJsonBytes (b8 "{")).isErr = true := by decide +kernel

-- n_structure_open_object_close_array.json
example : (validateJsonBytes (b8 "{]")).isErr = true := by decide +kernel

-- n_structure_open_object_comma.json
example : (validateJsonBytes (b8 "{,")).isErr = true := by decide +kernel

-- n_structure_open_object_open_array.json
example : (validateJsonBytes (b8 "{[")).isErr = true := by decide +kernel

-- n_structure_open_object_open_string.json
example : (validateJsonBytes (b8 "{\"a")).isErr = true := by decide +kernel

-- n_structure_open_object_string_with_apostrophes.json
example : (validateJsonBytes (b8 "{'a'")).isErr = true := by decide +kernel

-- n_structure_open_open.json
example : (validateJsonBytes (b8 "[\"\\{[\"\\{[\"\\{[\"\\{")).isErr = true := by decide +kernel

-- n_structure_single_eacute.json
example : (validateJsonBytes (raw [233])).isErr = true := by decide +kernel

-- n_structure_single_star.json
example : (validateJsonBytes (b8 "*")).isErr = true := by decide +kernel

-- n_structure_trailing_#.json
example : (validateJsonBytes (b8 "{\"a\":\"b\"}#{}")).isErr = true := by decide +kernel

-- n_structure_uescaped_LF_before_string.json
example : (validateJsonBytes (b8 "[\\u000A\"\"]")).isErr = true := by decide +kernel

-- n_structure_unclosed_array.json
example : (validateJsonBytes (b8 "[1")).isErr = true := by decide +kernel

-- n_structure_unclosed_array_partial_null.json
example : (validateJsonBytes (b8 "[ false, nul")).isErr = true := by decide +kernel

-- n_structure_unclosed_array_unfinished_false.json
example : (validateJsonBytes (b8 "[ true, fals")).isErr = true := by decide +kernel

-- n_structure_unclosed_array_unfinished_true.json
example : (validateJsonBytes (b8 "[ false, tru")).isErr = true := by decide +kernel

-- n_structure_unclosed_object.json
example : (validateJsonBytes (b8 "{\"asd\":\"asd\"")).isErr = true := by decide +kernel

-- n_structure_unicode-identifier.json
example : (validateJsonBytes (raw [195, 165])).isErr = true := by decide +kernel

-- n_structure_whitespace_U+2060_word_joiner.json
example : (validateJsonBytes (raw [91, 226, 129, 160, 93])).isErr = true := by decide +kernel

-- n_structure_whitespace_formfeed.json
example : (validateJsonBytes (raw [91, 12, 93])).isErr = true := by decide +kernel

-- y_array_arraysWithSpaces.json
example : (validateJsonBytes (b8 "[[]   ]")).isOk = true := by decide +kernel

-- y_array_empty-string.json
example : (validateJsonBytes (b8 "[\"\"]")).isOk = true := by decide +kernel

-- y_array_empty.json
example : (validateJsonBytes (b8 "[]")).isOk = true := by decide +kernel

-- y_array_ending_with_newline.json
example : (validateJsonBytes (b8 "[\"a\"]")).isOk = true := by decide +kernel

-- y_array_false.json
example : (validateJsonBytes (b8 "[false]")).isOk = true := by decide +kernel

-- y_array_heterogeneous.json
example : (validateJsonBytes (b8 "[null, 1, \"1\", {}]")).isOk = true := by decide +kernel

-- y_array_null.json
example : (validateJsonBytes (b8 "[null]")).isOk = true := by decide +kernel

-- y_array_with_1_and_newline.json
example : (validateJsonBytes (b8 "[1\n]")).isOk = true := by decide +kernel

-- y_array_with_leading_space.json
example : (validateJsonBytes (b8 " [1]")).isOk = true := by decide +kernel

-- y_array_with_several_null.json
example : (validateJsonBytes (b8 "[1,null,null,null,2]")).isOk = true := by decide +kernel

-- y_array_with_trailing_space.json
example : (validateJsonBytes (b8 "[2] ")).isOk = true := by decide +kernel

-- y_number.json
example : (validateJsonBytes (b8 "[123e65]")).isOk = true := by decide +kernel

-- y_number_0e+1.json
example : (validateJsonBytes (b8 "[0e+1]")).isOk = true := by decide +kernel

-- y_number_0e1.json
example : (validateJsonBytes (b8 "[0e1]")).isOk = true := by decide +kernel

-- y_number_after_space.json
example : (validateJsonBytes (b8 "[ 4]")).isOk = true := by decide +kernel

-- y_number_double_close_to_zero.json
example : (validateJsonBytes (b8 "[-0.000000000000000000000000000000000000000000000000000000000000000000000000000001]\n")).isOk = true := by decide +kernel

-- y_number_int_with_exp.json
example : (validateJsonBytes (b8 "[20e1]")).isOk = true := by decide +kernel

-- y_number_minus_zero.json
example : (validateJsonBytes (b8 "[-0]")).isOk = true := by decide +kernel

-- y_number_negative_int.json
example : (validateJsonBytes (b8 "[-123]")).isOk = true := by decide +kernel

-- y_number_negative_one.json
example : (validateJsonBytes (b8 "[-1]")).isOk = true := by decide +kernel

-- y_number_negative_zero.json
example : (validateJsonBytes (b8 "[-0]")).isOk = true := by decide +kernel

-- y_number_real_capital_e.json
example : (validateJsonBytes (b8 "[1E22]")).isOk = true := by decide +kernel

-- y_number_real_capital_e_neg_exp.json
example : (validateJsonBytes (b8 "[1E-2]")).isOk = true := by decide +kernel

-- y_number_real_capital_e_pos_exp.json
example : (validateJsonBytes (b8 "[1E+2]")).isOk = true := by decide +kernel

-- y_number_real_exponent.json
example : (validateJsonBytes (b8 "[123e45]")).isOk = true := by decide +kernel

-- y_number_real_fraction_exponent.json
example : (validateJsonBytes (b8 "[123.456e78]")).isOk = true := by decide +kernel

-- y_number_real_neg_exp.json
example : (validateJsonBytes (b8 "[1e-2]")).isOk = true := by decide +kernel

-- y_number_real_pos_exponent.json
example : (validateJsonBytes (b8 "[1e+2]")).isOk = true := by decide +kernel

-- y_number_simple_int.json
example : (validateJsonBytes (b8 "[123]")).isOk = true := by decide +kernel

-- y_number_simple_real.json
example : (validateJsonBytes (b8 "[123.456789]")).isOk = true := by decide +kernel

-- y_object.json
example : (validateJsonBytes (b8 "{\"asd\":\"sdf\", \"dfg\":\"fgh\"}")).isOk = true := by decide +kernel

-- y_object_basic.json
example : (validateJsonBytes (b8 "{\"asd\":\"sdf\"}")).isOk = true := by decide +kernel

-- y_object_duplicated_key.json
example : (validateJsonBytes (b8 "{\"a\":\"b\",\"a\":\"c\"}")).isOk = true := by decide +kernel

-- y_object_duplicated_key_and_value.json
example : (validateJsonBytes (b8 "{\"a\":\"b\",\"a\":\"b\"}")).isOk = true := by decide +kernel

-- y_object_empty.json
example : (validateJsonBytes (b8 "{}")).isOk = true := by decide +kernel

-- y_object_empty_key.json
example : (validateJsonBytes (b8 "{\"\":0}")).isOk = true := by decide +kernel

-- y_object_escaped_null_in_key.json
example : (validateJsonBytes (b8 "{\"foo\\u0000bar\": 42}")).isOk = true := by decide +kernel

-- y_object_extreme_numbers.json
example : (validateJsonBytes (b8 "{ \"min\": -1.0e+28, \"max\": 1.0e+28 }")).isOk = true := by decide +kernel

-- y_object_long_strings.json
example : (validateJsonBytes (b8 "{\"x\":[{\"id\": \"xxxxxxxxxxxxxxxxxxxxxxxxxxxxxxxxxxxxxxxx\"}], \"id\": \"xxxxxxxxxxxxxxxxxxxxxxxxxxxxxxxxxxxxxxxx\"}")).isOk = true := by decide +kernel

-- y_object_simple.json
example : (validateJsonBytes (b8 "{\"a\":[]}")).isOk = true := by decide +kernel

-- y_object_string_unicode.json
example : (validateJsonBytes (b8 "{\"title\":\"\\u041f\\u043e\\u043b\\u0442\\u043e\\u0440\\u0430 \\u0417\\u0435\\u043c\\u043b\\u0435\\u043a\\u043e\\u043f\\u0430\" }")).isOk = true := by decide +kernel

-- y_object_with_newlines.json
example : (validateJsonBytes (b8 "{\n\"a\": \"b\"\n}")).isOk = true := by decide +kernel

-- y_string_1_2_3_bytes_UTF-8_sequences.json
example : (validateJsonBytes (b8 "[\"\\u0060\\u012a\\u12AB\"]")).isOk = true := by decide +kernel

-- y_string_accepted_surrogate_pair.json
example : (validateJsonBytes (b8 "[\"\\uD801\\udc37\"]")).isOk = true := by decide +kernel

-- y_string_accepted_surrogate_pairs.json
example : (validateJsonBytes (b8 "[\"\\ud83d\\ude39\\ud83d\\udc8d\"]")).isOk = true := by decide +kernel

-- y_string_allowed_escapes.json
example : (validateJsonBytes (b8 "[\"\\\"\\\\\\/\\b\\f\\n\\r\\t\"]")).isOk = true := by decide +kernel

-- y_string_backslash_and_u_escaped_zero.json
example : (validateJsonBytes (b8 "[\"\\\\u0000\"]")).isOk = true := by decide +kernel

-- y_string_backslash_doublequotes.json
example : (validateJsonBytes (b8 "[\"\\\"\"]")).isOk = true := by decide +kernel

-- y_string_comments.json
example : (validateJsonBytes (b8 "[\"a/*b*/c/*d//e\"]")).isOk = true := by decide +kernel

-- y_string_double_escape_a.json
example : (validateJsonBytes (b8 "[\"\\\\a\"]")).isOk = true := by decide +kernel

-- y_string_double_escape_n.json
example : (validateJsonBytes (b8 "[\"\\\\n\"]")).isOk = true := by decide +kernel

-- y_string_escaped_control_character.json
example : (validateJsonBytes (b8 "[\"\\u0012\"]")).isOk = true := by decide +kernel

-- y_string_escaped_noncharacter.json
example : (validateJsonBytes (b8 "[\"\\uFFFF\"]")).isOk = true := by decide +kernel

-- y_string_in_array.json
example : (validateJsonBytes (b8 "[\"asd\"]")).isOk = true := by decide +kernel

-- y_string_in_array_with_leading_space.json
example : (validateJsonBytes (b8 "[ \"asd\"]")).isOk = true := by decide +kernel

-- y_string_last_surrogates_1_and_2.json
example : (validateJsonBytes (b8 "[\"\\uDBFF\\uDFFF\"]")).isOk = true := by decide +kernel

-- y_string_nbsp_uescaped.json
example : (validateJsonBytes (b8 "[\"new\\u00A0line\"]")).isOk = true := by decide +kernel

-- y_string_nonCharacterInUTF-8_U+10FFFF.json
example : (validateJsonBytes (raw [91, 34, 244, 143, 191, 191, 34, 93])).isOk = true := by decide +kernel

-- y_string_nonCharacterInUTF-8_U+FFFF.json
example : (validateJsonBytes (raw [91, 34, 239, 191, 191, 34, 93])).isOk = true := by decide +kernel

-- y_string_null_escape.json
example : (validateJsonBytes (b8 "[\"\\u0000\"]")).isOk = true := by decide +kernel

-- y_string_one-byte-utf-8.json
example : (validateJsonBytes (b8 "[\"\\u002c\"]")).isOk = true := by decide +kernel

-- y_string_pi.json
example : (validateJsonBytes (raw [91, 34, 207, 128, 34, 93])).isOk = true := by decide +kernel

-- y_string_reservedCharacterInUTF-8_U+1BFFF.json
example : (validateJsonBytes (raw [91, 34, 240, 155, 191, 191, 34, 93])).isOk = true := by decide +kernel

-- y_string_simple_ascii.json
example : (validateJsonBytes (b8 "[\"asd \"]")).isOk = true := by decide +kernel

-- y_string_space.json
example : (validateJsonBytes (b8 "\" \"")).isOk = true := by decide +kernel

-- y_string_surrogates_U+1D11E_MUSICAL_SYMBOL_G_CLEF.json
example : (validateJsonBytes (b8 "[\"\\uD834\\uDd1e\"]")).isOk = true := by decide +kernel

-- y_string_three-byte-utf-8.json
example : (validateJsonBytes (b8 "[\"\\u0821\"]")).isOk = true := by decide +kernel

-- y_string_two-byte-utf-8.json
example : (validateJsonBytes (b8 "[\"\\u0123\"]")).isOk = true := by decide +kernel

-- y_string_u+2028_line_sep.json
example : (validateJsonBytes (raw [91, 34, 226, 128, 168, 34, 93])).isOk = true := by decide +kernel

-- y_string_u+2029_par_sep.json
example : (validateJsonBytes (raw [91, 34, 226, 128, 169, 34, 93])).isOk = true := by decide +kernel

-- y_string_uEscape.json
example : (validateJsonBytes (b8 "[\"\\u0061\\u30af\\u30EA\\u30b9\"]")).isOk = true := by decide +kernel

-- y_string_uescaped_newline.json
example : (validateJsonBytes (b8 "[\"new\\u000Aline\"]")).isOk = true := by decide +kernel

-- y_string_unescaped_char_delete.json
example : (validateJsonBytes (raw [91, 34, 127, 34, 93])).isOk = true := by decide +kernel

-- y_string_unicode.json
example : (validateJsonBytes (b8 "[\"\\uA66D\"]")).isOk = true := by decide +kernel

-- y_string_unicodeEscapedBackslash.json
example : (validateJsonBytes (b8 "[\"\\u005C\"]")).isOk = true := by decide +kernel

-- y_string_unicode_2.json
example : (validateJsonBytes (raw [91, 34, 226, 141, 130, 227, 136, 180, 226, 141, 130, 34, 93])).isOk = true := by decide +kernel

-- y_string_unicode_U+10FFFE_nonchar.json
example : (validateJsonBytes (b8 "[\"\\uDBFF\\uDFFE\"]")).isOk = true := by decide +kernel

-- y_string_unicode_U+1FFFE_nonchar.json
example : (validateJsonBytes (b8 "[\"\\uD83F\\uDFFE\"]")).isOk = true := by decide +kernel

-- y_string_unicode_U+200B_ZERO_WIDTH_SPACE.json
example : (validateJsonBytes (b8 "[\"\\u200B\"]")).isOk = true := by decide +kernel

-- y_string_unicode_U+2064_invisible_plus.json
example : (validateJsonBytes (b8 "[\"\\u2064\"]")).isOk = true := by decide +kernel

-- y_string_unicode_U+FDD0_nonchar.json
example : (validateJsonBytes (b8 "[\"\\uFDD0\"]")).isOk = true := by decide +kernel

-- y_string_unicode_U+FFFE_nonchar.json
example : (validateJsonBytes (b8 "[\"\\uFFFE\"]")).isOk = true := by decide +kernel

-- y_string_unicode_escaped_double_quote.json
example : (validateJsonBytes (b8 "[\"\\u0022\"]")).isOk = true := by decide +kernel

-- y_string_utf8.json
example : (validateJsonBytes (raw [91, 34, 226, 130, 172, 240, 157, 132, 158, 34, 93])).isOk = true := by decide +kernel

-- y_string_with_del_character.json
example : (validateJsonBytes (raw [91, 34, 97, 127, 97, 34, 93])).isOk = true := by decide +kernel

-- y_structure_lonely_false.json
example : (validateJsonBytes (b8 "false")).isOk = true := by decide +kernel

-- y_structure_lonely_int.json
example : (validateJsonBytes (b8 "42")).isOk = true := by decide +kernel

-- y_structure_lonely_negative_real.json
example : (validateJsonBytes (b8 "-0.1")).isOk = true := by decide +kernel

-- y_structure_lonely_null.json
example : (validateJsonBytes (b8 "null")).isOk = true := by decide +kernel

-- y_structure_lonely_string.json
example : (validateJsonBytes (b8 "\"asd\"")).isOk = true := by decide +kernel

-- y_structure_lonely_true.json
example : (validateJsonBytes (b8 "true")).isOk = true := by decide +kernel

-- y_structure_string_empty.json
example : (validateJsonBytes (b8 "\"\"")).isOk = true := by decide +kernel

-- y_structure_trailing_newline.json
example : (validateJsonBytes (b8 "[\"a\"]\n")).isOk = true := by decide +kernel

-- y_structure_true_in_array.json
example : (validateJsonBytes (b8 "[true]")).isOk = true := by decide +kernel

-- y_structure_whitespace_array.json
example : (validateJsonBytes (b8 " [] ")).isOk = true := by decide +kernel

end
end JustJson
