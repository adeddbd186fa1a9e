import Verif.Props.Steady
/-! # The project's own conformance tests, run on the model (tests/jsontestsuite.rs, first half)

Tests, not proofs: each evaluates the model in Lean's kernel on one file. They show that the model behaves as the
project's tests say the code does. Generated from the files in /repo/tests. -/

namespace JustJson
open Spec

section
attribute [local instance] arch64

/-- bytes given as numbers -/
abbrev raw (l : List Nat) : List UInt8 := l.map UInt8.ofNat

/-- an error, not a panic -/
def Outcome.isErr {ε α : Type} : Outcome ε α → Bool
  | .err _ => true
  | _ => false

/-- the parse returns -/
def Outcome.returns {ε α : Type} : Outcome ε α → Bool
  | .panic _ => false
  | _ => true

-- i_number_double_huge_neg_exp.json
example : (validateJsonBytes (b8 "[123.456e-789]")).returns = true := by decide +kernel

-- i_number_huge_exp.json
example : (validateJsonBytes (b8 "[0.4e00669999999999999999999999999999999999999999999999999999999999999999999999999999999999999999999999999999999999999999999969999999006]")).returns = true := by decide +kernel

-- i_number_neg_int_huge_exp.json
example : (validateJsonBytes (b8 "[-1e+9999]")).returns = true := by decide +kernel

-- i_number_pos_double_huge_exp.json
example : (validateJsonBytes (b8 "[1.5e+9999]")).returns = true := by decide +kernel

-- i_number_real_neg_overflow.json
example : (validateJsonBytes (b8 "[-123123e100000]")).returns = true := by decide +kernel

-- i_number_real_pos_overflow.json
example : (validateJsonBytes (b8 "[123123e100000]")).returns = true := by decide +kernel

-- i_number_real_underflow.json
example : (validateJsonBytes (b8 "[123e-10000000]")).returns = true := by decide +kernel

-- i_number_too_big_neg_int.json
example : (validateJsonBytes (b8 "[-123123123123123123123123123123]")).returns = true := by decide +kernel

-- i_number_too_big_pos_int.json
example : (validateJsonBytes (b8 "[100000000000000000000]")).returns = true := by decide +kernel

-- i_number_very_big_negative_int.json
example : (validateJsonBytes (b8 "[-237462374673276894279832749832423479823246327846]")).returns = true := by decide +kernel

-- i_object_key_lone_2nd_surrogate.json
example : (validateJsonBytes (b8 "{\"\\uDFAA\":0}")).returns = true := by decide +kernel

-- i_string_1st_surrogate_but_2nd_missing.json
example : (validateJsonBytes (b8 "[\"\\uDADA\"]")).returns = true := by decide +kernel

-- i_string_1st_valid_surrogate_2nd_invalid.json
example : (validateJsonBytes (b8 "[\"\\uD888\\u1234\"]")).returns = true := by decide +kernel

-- i_string_UTF-16LE_with_BOM.json
example : (validateJsonBytes (raw [255, 254, 91, 0, 34, 0, 233, 0, 34, 0, 93, 0])).returns = true := by decide +kernel

-- i_string_UTF-8_invalid_sequence.json
example : (validateJsonBytes (raw [91, 34, 230, 151, 165, 209, 136, 250, 34, 93])).returns = true := by decide +kernel

-- i_string_UTF8_surrogate_U+D800.json
example : (validateJsonBytes (raw [91, 34, 237, 160, 128, 34, 93])).returns = true := by decide +kernel

-- i_string_incomplete_surrogate_and_escape_valid.json
example : (validateJsonBytes (b8 "[\"\\uD800\\n\"]")).returns = true := by decide +kernel

-- i_string_incomplete_surrogate_pair.json
example : (validateJsonBytes (b8 "[\"\\uDd1ea\"]")).returns = true := by decide +kernel

-- i_string_incomplete_surrogates_escape_valid.json
example : (validateJsonBytes (b8 "[\"\\uD800\\uD800\\n\"]")).returns = true := by decide +kernel

-- i_string_invalid_lonely_surrogate.json
example : (validateJsonBytes (b8 "[\"\\ud800\"]")).returns = true := by decide +kernel

-- i_string_invalid_surrogate.json
example : (validateJsonBytes (b8 "[\"\\ud800abc\"]")).returns = true := by decide +kernel

-- i_string_invalid_utf-8.json
example : (validateJsonBytes (raw [91, 34, 255, 34, 93])).returns = true := by decide +kernel

-- i_string_inverted_surrogates_U+1D11E.json
example : (validateJsonBytes (b8 "[\"\\uDd1e\\uD834\"]")).returns = true := by decide +kernel

-- i_string_iso_latin_1.json
example : (validateJsonBytes (raw [91, 34, 233, 34, 93])).returns = true := by decide +kernel

-- i_string_lone_second_surrogate.json
example : (validateJsonBytes (b8 "[\"\\uDFAA\"]")).returns = true := by decide +kernel

-- i_string_lone_utf8_continuation_byte.json
example : (validateJsonBytes (raw [91, 34, 129, 34, 93])).returns = true := by decide +kernel

-- i_string_not_in_unicode_range.json
example : (validateJsonBytes (raw [91, 34, 244, 191, 191, 191, 34, 93])).returns = true := by decide +kernel

-- i_string_overlong_sequence_2_bytes.json
example : (validateJsonBytes (raw [91, 34, 192, 175, 34, 93])).returns = true := by decide +kernel

-- i_string_overlong_sequence_6_bytes.json
example : (validateJsonBytes (raw [91, 34, 252, 131, 191, 191, 191, 191, 34, 93])).returns = true := by decide +kernel

-- i_string_overlong_sequence_6_bytes_null.json
example : (validateJsonBytes (raw [91, 34, 252, 128, 128, 128, 128, 128, 34, 93])).returns = true := by decide +kernel

-- i_string_truncated-utf-8.json
example : (validateJsonBytes (raw [91, 34, 224, 255, 34, 93])).returns = true := by decide +kernel

-- i_string_utf16BE_no_BOM.json
example : (validateJsonBytes (raw [0, 91, 0, 34, 0, 233, 0, 34, 0, 93])).returns = true := by decide +kernel

-- i_string_utf16LE_no_BOM.json
example : (validateJsonBytes (raw [91, 0, 34, 0, 233, 0, 34, 0, 93, 0])).returns = true := by decide +kernel

-- i_structure_500_nested_arrays.json
example : (validateJsonBytes (raw [91, 91, 91, 91, 91, 91, 91, 91, 91, 91, 91, 91, 91, 91, 91, 91, 91, 91, 91, 91, 91, 91, 91, 91, 91, 91, 91, 91, 91, 91, 91, 91, 91, 91, 91, 91, 91, 91, 91, 91, 91, 91, 91, 91, 91, 91, 91, 91, 91, 91, 91, 91, 91, 91, 91, 91, 91, 91, 91, 91, 91, 91, 91, 91, 91, 91, 91, 91, 91, 91, 91, 91, 91, 91, 91, 91, 91, 91, 91, 91, 91, 91, 91, 91, 91, 91, 91, 91, 91, 91, 91, 91, 91, 91, 91, 91, 91, 91, 91, 91, 91, 91, 91, 91, 91, 91, 91, 91, 91, 91, 91, 91, 91, 91, 91, 91, 91, 91, 91, 91, 91, 91, 91, 91, 91, 91, 91, 91, 91, 91, 91, 91, 91, 91, 91, 91, 91, 91, 91, 91, 91, 91, 91, 91, 91, 91, 91, 91, 91, 91, 91, 91, 91, 91, 91, 91, 91, 91, 91, 91, 91, 91, 91, 91, 91, 91, 91, 91, 91, 91, 91, 91, 91, 91, 91, 91, 91, 91, 91, 91, 91, 91, 91, 91, 91, 91, 91, 91, 91, 91, 91, 91, 91, 91, 91, 91, 91, 91, 91, 91, 91, 91, 91, 91, 91, 91, 91, 91, 91, 91, 91, 91, 91, 91, 91, 91, 91, 91, 91, 91, 91, 91, 91, 91, 91, 91, 91, 91, 91, 91, 91, 91, 91, 91, 91, 91, 91, 91, 91, 91, 91, 91, 91, 91, 91, 91, 91, 91, 91, 91, 91, 91, 91, 91, 91, 91, 91, 91, 91, 91, 91, 91, 91, 91, 91, 91, 91, 91, 91, 91, 91, 91, 91, 91, 91, 91, 91, 91, 91, 91, 91, 91, 91, 91, 91, 91, 91, 91, 91, 91, 91, 91, 91, 91, 91, 91, 91, 91, 91, 91, 91, 91, 91, 91, 91, 91, 91, 91, 91, 91, 91, 91, 91, 91, 91, 91, 91, 91, 91, 91, 91, 91, 91, 91, 91, 91, 91, 91, 91, 91, 91, 91, 91, 91, 91, 91, 91, 91, 91, 91, 91, 91, 91, 91, 91, 91, 91, 91, 91, 91, 91, 91, 91, 91, 91, 91, 91, 91, 91, 91, 91, 91, 91, 91, 91, 91, 91, 91, 91, 91, 91, 91, 91, 91, 91, 91, 91, 91, 91, 91, 91, 91, 91, 91, 91, 91, 91, 91, 91, 91, 91, 91, 91, 91, 91, 91, 91, 91, 91, 91, 91, 91, 91, 91, 91, 91, 91, 91, 91, 91, 91, 91, 91, 91, 91, 91, 91, 91, 91, 91, 91, 91, 91, 91, 91, 91, 91, 91, 91, 91, 91, 91, 91, 91, 91, 91, 91, 91, 91, 91, 91, 91, 91, 91, 91, 91, 91, 91, 91, 91, 91, 91, 91, 91, 91, 91, 91, 91, 91, 91, 91, 91, 91, 91, 91, 91, 91, 91, 91, 91, 91, 91, 91, 91, 91, 91, 91, 91, 91, 91, 91, 91, 91, 91, 91, 91, 91, 91, 91, 91, 91, 91, 91, 91, 91, 91, 91, 91, 91, 91, 93, 93, 93, 93, 93, 93, 93, 93, 93, 93, 93, 93, 93, 93, 93, 93, 93, 93, 93, 93, 93, 93, 93, 93, 93, 93, 93, 93, 93, 93, 93, 93, 93, 93, 93, 93, 93, 93, 93, 93, 93, 93, 93, 93, 93, 93, 93, 93, 93, 93, 93, 93, 93, 93, 93, 93, 93, 93, 93, 93, 93, 93, 93, 93, 93, 93, 93, 93, 93, 93, 93, 93, 93, 93, 93, 93, 93, 93, 93, 93, 93, 93, 93, 93, 93, 93, 93, 93, 93, 93, 93, 93, 93, 93, 93, 93, 93, 93, 93, 93, 93, 93, 93, 93, 93, 93, 93, 93, 93, 93, 93, 93, 93, 93, 93, 93, 93, 93, 93, 93, 93, 93, 93, 93, 93, 93, 93, 93, 93, 93, 93, 93, 93, 93, 93, 93, 93, 93, 93, 93, 93, 93, 93, 93, 93, 93, 93, 93, 93, 93, 93, 93, 93, 93, 93, 93, 93, 93, 93, 93, 93, 93, 93, 93, 93, 93, 93, 93, 93, 93, 93, 93, 93, 93, 93, 93, 93, 93, 93, 93, 93, 93, 93, 93, 93, 93, 93, 93, 93, 93, 93, 93, 93, 93, 93, 93, 93, 93, 93, 93, 93, 93, 93, 93, 93, 93, 93, 93, 93, 93, 93, 93, 93, 93, 93, 93, 93, 93, 93, 93, 93, 93, 93, 93, 93, 93, 93, 93, 93, 93, 93, 93, 93, 93, 93, 93, 93, 93, 93, 93, 93, 93, 93, 93, 93, 93, 93, 93, 93, 93, 93, 93, 93, 93, 93, 93, 93, 93, 93, 93, 93, 93, 93, 93, 93, 93, 93, 93, 93, 93, 93, 93, 93, 93, 93, 93, 93, 93, 93, 93, 93, 93, 93, 93, 93, 93, 93, 93, 93, 93, 93, 93, 93, 93, 93, 93, 93, 93, 93, 93, 93, 93, 93, 93, 93, 93, 93, 93, 93, 93, 93, 93, 93, 93, 93, 93, 93, 93, 93, 93, 93, 93, 93, 93, 93, 93, 93, 93, 93, 93, 93, 93, 93, 93, 93, 93, 93, 93, 93, 93, 93, 93, 93, 93, 93, 93, 93, 93, 93, 93, 93, 93, 93, 93, 93, 93, 93, 93, 93, 93, 93, 93, 93, 93, 93, 93, 93, 93, 93, 93, 93, 93, 93, 93, 93, 93, 93, 93, 93, 93, 93, 93, 93, 93, 93, 93, 93, 93, 93, 93, 93, 93, 93, 93, 93, 93, 93, 93, 93, 93, 93, 93, 93, 93, 93, 93, 93, 93, 93, 93, 93, 93, 93, 93, 93, 93, 93, 93, 93, 93, 93, 93, 93, 93, 93, 93, 93, 93, 93, 93, 93, 93, 93, 93, 93, 93, 93, 93, 93, 93, 93, 93, 93, 93, 93, 93, 93, 93, 93, 93, 93, 93, 93, 93, 93, 93, 93, 93, 93, 93, 93, 93, 93, 93, 93, 93, 93, 93, 93, 93, 93, 93, 93, 93, 93, 93, 93, 93, 93, 93, 93, 93, 93, 93, 93, 93, 93, 93, 93, 93, 93, 93, 93, 93, 93, 93, 93, 93, 93, 93])).returns = true := by decide +kernel

-- i_structure_UTF-8_BOM_empty_object.json
example : (validateJsonBytes (raw [239, 187, 191, 123, 125])).returns = true := by decide +kernel

-- n_array_1_true_without_comma.json
example : (validateJsonBytes (b8 "[1 true]")).isErr = true := by decide +kernel

-- n_array_a_invalid_utf8.json
example : (validateJsonBytes (raw [91, 97, 229, 93])).isErr = true := by decide +kernel

-- n_array_colon_instead_of_comma.json
example : (validateJsonBytes (b8 "[\"\": 1]")).isErr = true := by decide +kernel

-- n_array_comma_after_close.json
example : (validateJsonBytes (b8 "[\"\"],")).isErr = true := by decide +kernel

-- n_array_comma_and_number.json
example : (validateJsonBytes (b8 "[,1]")).isErr = true := by decide +kernel

-- n_array_double_comma.json
example : (validateJsonBytes (b8 "[1,,2]")).isErr = true := by decide +kernel

-- n_array_double_extra_comma.json
example : (validateJsonBytes (b8 "[\"x\",,]")).isErr = true := by decide +kernel

-- n_array_extra_close.json
example : (validateJsonBytes (b8 "[\"x\"]]")).isErr = true := by decide +kernel

-- n_array_extra_comma.json
example : (validateJsonBytes (b8 "[\"\",]")).isErr = true := by decide +kernel

-- n_array_incomplete.json
example : (validateJsonBytes (b8 "[\"x\"")).isErr = true := by decide +kernel

-- n_array_incomplete_invalid_value.json
example : (validateJsonBytes (b8 "[x")).isErr = true := by decide +kernel

-- n_array_inner_array_no_comma.json
example : (validateJsonBytes (b8 "[3[4]]")).isErr = true := by decide +kernel

-- n_array_invalid_utf8.json
example : (validateJsonBytes (raw [91, 255, 93])).isErr = true := by decide +kernel

-- n_array_items_separated_by_semicolon.json
example : (validateJsonBytes (b8 "[1:2]")).isErr = true := by decide +kernel

-- n_array_just_comma.json
example : (validateJsonBytes (b8 "[,]")).isErr = true := by decide +kernel

-- n_array_just_minus.json
example : (validateJsonBytes (b8 "[-]")).isErr = true := by decide +kernel

-- n_array_missing_value.json
example : (validateJsonBytes (b8 "[   , \"\"]")).isErr = true := by decide +kernel

-- n_array_newlines_unclosed.json
example : (validateJsonBytes (b8 "[\"a\",\n4\n,1,")).isErr = true := by decide +kernel

-- n_array_number_and_comma.json
example : (validateJsonBytes (b8 "[1,]")).isErr = true := by decide +kernel

-- n_array_number_and_several_commas.json
example : (validateJsonBytes (b8 "[1,,]")).isErr = true := by decide +kernel

-- n_array_spaces_vertical_tab_formfeed.json
example : (validateJsonBytes (raw [91, 34, 11, 97, 34, 92, 102, 93])).isErr = true := by decide +kernel

-- n_array_star_inside.json
example : (validateJsonBytes (b8 "[*]")).isErr = true := by decide +kernel

-- n_array_unclosed.json
example : (validateJsonBytes (b8 "[\"\"")).isErr = true := by decide +kernel

-- n_array_unclosed_trailing_comma.json
example : (validateJsonBytes (b8 "[1,")).isErr = true := by decide +kernel

-- n_array_unclosed_with_new_lines.json
example : (validateJsonBytes (b8 "[1,\n1\n,1")).isErr = true := by decide +kernel

-- n_array_unclosed_with_object_inside.json
example : (validateJsonBytes (b8 "[{}")).isErr = true := by decide +kernel

-- n_incomplete_false.json
example : (validateJsonBytes (b8 "[fals]")).isErr = true := by decide +kernel

-- n_incomplete_null.json
example : (validateJsonBytes (b8 "[nul]")).isErr = true := by decide +kernel

-- n_incomplete_true.json
example : (validateJsonBytes (b8 "[tru]")).isErr = true := by decide +kernel

-- n_multidigit_number_then_00.json
example : (validateJsonBytes (raw [49, 50, 51, 0])).isErr = true := by decide +kernel

-- n_number_++.json
example : (validateJsonBytes (b8 "[++1234]")).isErr = true := by decide +kernel

-- n_number_+1.json
example : (validateJsonBytes (b8 "[+1]")).isErr = true := by decide +kernel

-- n_number_+Inf.json
example : (validateJsonBytes (b8 "[+Inf]")).isErr = true := by decide +kernel

-- n_number_-01.json
example : (validateJsonBytes (b8 "[-01]")).isErr = true := by decide +kernel

-- n_number_-1.0..json
example : (validateJsonBytes (b8 "[-1.0.]")).isErr = true := by decide +kernel

-- n_number_-2..json
example : (validateJsonBytes (b8 "[-2.]")).isErr = true := by decide +kernel

-- n_number_-NaN.json
example : (validateJsonBytes (b8 "[-NaN]")).isErr = true := by decide +kernel

-- n_number_.-1.json
example : (validateJsonBytes (b8 "[.-1]")).isErr = true := by decide +kernel

-- n_number_.2e-3.json
example : (validateJsonBytes (b8 "[.2e-3]")).isErr = true := by decide +kernel

-- n_number_0.1.2.json
example : (validateJsonBytes (b8 "[0.1.2]")).isErr = true := by decide +kernel

-- n_number_0.3e+.json
example : (validateJsonBytes (b8 "[0.3e+]")).isErr = true := by decide +kernel

-- n_number_0.3e.json
example : (validateJsonBytes (b8 "[0.3e]")).isErr = true := by decide +kernel

-- n_number_0.e1.json
example : (validateJsonBytes (b8 "[0.e1]")).isErr = true := by decide +kernel

-- n_number_0_capital_E+.json
example : (validateJsonBytes (b8 "[0E+]")).isErr = true := by decide +kernel

-- n_number_0_capital_E.json
example : (validateJsonBytes (b8 "[0E]")).isErr = true := by decide +kernel

-- n_number_0e+.json
example : (validateJsonBytes (b8 "[0e+]")).isErr = true := by decide +kernel

-- n_number_0e.json
example : (validateJsonBytes (b8 "[0e]")).isErr = true := by decide +kernel

-- n_number_1.0e+.json
example : (validateJsonBytes (b8 "[1.0e+]")).isErr = true := by decide +kernel

-- n_number_1.0e-.json
example : (validateJsonBytes (b8 "[1.0e-]")).isErr = true := by decide +kernel

-- n_number_1.0e.json
example : (validateJsonBytes (b8 "[1.0e]")).isErr = true := by decide +kernel

-- n_number_1_000.json
example : (validateJsonBytes (b8 "[1 000.0]")).isErr = true := by decide +kernel

-- n_number_1eE2.json
example : (validateJsonBytes (b8 "[1eE2]")).isErr = true := by decide +kernel

-- n_number_2.e+3.json
example : (validateJsonBytes (b8 "[2.e+3]")).isErr = true := by decide +kernel

-- n_number_2.e-3.json
example : (validateJsonBytes (b8 "[2.e-3]")).isErr = true := by decide +kernel

-- n_number_2.e3.json
example : (validateJsonBytes (b8 "[2.e3]")).isErr = true := by decide +kernel

-- n_number_9.e+.json
example : (validateJsonBytes (b8 "[9.e+]")).isErr = true := by decide +kernel

-- n_number_Inf.json
example : (validateJsonBytes (b8 "[Inf]")).isErr = true := by decide +kernel

-- n_number_NaN.json
example : (validateJsonBytes (b8 "[NaN]")).isErr = true := by decide +kernel

-- n_number_U+FF11_fullwidth_digit_one.json
example : (validateJsonBytes (raw [91, 239, 188, 145, 93])).isErr = true := by decide +kernel

-- n_number_expression.json
example : (validateJsonBytes (b8 "[1+2]")).isErr = true := by decide +kernel

-- n_number_hex_1_digit.json
example : (validateJsonBytes (b8 "[0x1]")).isErr = true := by decide +kernel

-- n_number_hex_2_digits.json
example : (validateJsonBytes (b8 "[0x42]")).isErr = true := by decide +kernel

-- n_number_infinity.json
example : (validateJsonBytes (b8 "[Infinity]")).isErr = true := by decide +kernel

-- n_number_invalid+-.json
example : (validateJsonBytes (b8 "[0e+-1]")).isErr = true := by decide +kernel

-- n_number_invalid-negative-real.json
example : (validateJsonBytes (b8 "[-123.123foo]")).isErr = true := by decide +kernel

-- n_number_invalid-utf-8-in-bigger-int.json
example : (validateJsonBytes (raw [91, 49, 50, 51, 229, 93])).isErr = true := by decide +kernel

-- n_number_invalid-utf-8-in-exponent.json
example : (validateJsonBytes (raw [91, 49, 101, 49, 229, 93])).isErr = true := by decide +kernel

-- n_number_invalid-utf-8-in-int.json
example : (validateJsonBytes (raw [91, 48, 229, 93, 10])).isErr = true := by decide +kernel

-- n_number_minus_infinity.json
example : (validateJsonBytes (b8 "[-Infinity]")).isErr = true := by decide +kernel

-- n_number_minus_sign_with_trailing_garbage.json
example : (validateJsonBytes (b8 "[-foo]")).isErr = true := by decide +kernel

-- n_number_minus_space_1.json
example : (validateJsonBytes (b8 "[- 1]")).isErr = true := by decide +kernel

-- n_number_neg_int_starting_with_zero.json
example : (validateJsonBytes (b8 "[-012]")).isErr = true := by decide +kernel

-- n_number_neg_real_without_int_part.json
example : (validateJsonBytes (b8 "[-.123]")).isErr = true := by decide +kernel

-- n_number_neg_with_garbage_at_end.json
example : (validateJsonBytes (b8 "[-1x]")).isErr = true := by decide +kernel

-- n_number_real_garbage_after_e.json
example : (validateJsonBytes (b8 "[1ea]")).isErr = true := by decide +kernel

-- n_number_real_with_invalid_utf8_after_e.json
example : (validateJsonBytes (raw [91, 49, 101, 229, 93])).isErr = true := by decide +kernel

-- n_number_real_without_fractional_part.json
example : (validateJsonBytes (b8 "[1.]")).isErr = true := by decide +kernel

-- n_number_starting_with_dot.json
example : (validateJsonBytes (b8 "[.123]")).isErr = true := by decide +kernel

-- n_number_with_alpha.json
example : (validateJsonBytes (b8 "[1.2a-3]")).isErr = true := by decide +kernel

-- n_number_with_alpha_char.json
example : (validateJsonBytes (b8 "[1.8011670033376514H-308]")).isErr = true := by decide +kernel

-- n_number_with_leading_zero.json
example : (validateJsonBytes (b8 "[012]")).isErr = true := by decide +kernel

-- n_object_bad_value.json
example : (validateJsonBytes (b8 "[\"x\", truth]")).isErr = true := by decide +kernel

-- n_object_bracket_key.json
example : (validateJsonBytes (b8 "{[: \"x\"}\n")).isErr = true := by decide +kernel

-- n_object_comma_instead_of_colon.json
example : (validateJsonBytes (b8 "{\"x\", null}")).isErr = true := by decide +kernel

-- n_object_double_colon.json
example : (validateJsonBytes (b8 "{\"x\"::\"b\"}")).isErr = true := by decide +kernel

-- n_object_emoji.json
example : (validateJsonBytes (raw [123, 240, 159, 135, 168, 240, 159, 135, 173, 125])).isErr = true := by decide +kernel

-- n_object_garbage_at_end.json
example : (validateJsonBytes (b8 "{\"a\":\"a\" 123}")).isErr = true := by decide +kernel

-- n_object_key_with_single_quotes.json
example : (validateJsonBytes (b8 "{key: 'value'}")).isErr = true := by decide +kernel

-- n_object_lone_continuation_byte_in_key_and_trailing_comma.json
example : (validateJsonBytes (raw [123, 34, 185, 34, 58, 34, 48, 34, 44, 125])).isErr = true := by decide +kernel

-- n_object_missing_colon.json
example : (validateJsonBytes (b8 "{\"a\" b}")).isErr = true := by decide +kernel

-- n_object_missing_key.json
example : (validateJsonBytes (b8 "{:\"b\"}")).isErr = true := by decide +kernel

-- n_object_missing_semicolon.json
example : (validateJsonBytes (b8 "{\"a\" \"b\"}")).isErr = true := by decide +kernel

-- n_object_missing_value.json
example : (validateJsonBytes (b8 "{\"a\":")).isErr = true := by decide +kernel

-- n_object_no-colon.json
example : (validateJsonBytes (b8 "{\"a\"")).isErr = true := by decide +kernel

-- n_object_non_string_key.json
example : (validateJsonBytes (b8 "{1:1}")).isErr = true := by decide +kernel

-- n_object_non_string_key_but_huge_number_instead.json
example : (validateJsonBytes (b8 "{9999E9999:1}")).isErr = true := by decide +kernel

-- n_object_repeated_null_null.json
example : (validateJsonBytes (b8 "{null:null,null:null}")).isErr = true := by decide +kernel

-- n_object_several_trailing_commas.json
example : (validateJsonBytes (b8 "{\"id\":0,,,,,}")).isErr = true := by decide +kernel

-- n_object_single_quote.json
example : (validateJsonBytes (b8 "{'a':0}")).isErr = true := by decide +kernel

-- n_object_trailing_comma.json
example : (validateJsonBytes (b8 "{\"id\":0,}")).isErr = true := by decide +kernel

-- n_object_trailing_comment.json
example : (validateJsonBytes (b8 "{\"a\":\"b\"}/**/")).isErr = true := by decide +kernel

-- n_object_trailing_comment_open.json
example : (validateJsonBytes (b8 "{\"a\":\"b\"}/**//")).isErr = true := by decide +kernel

-- n_object_trailing_comment_slash_open.json
example : (validateJsonBytes (b8 "{\"a\":\"b\"}//")).isErr = true := by decide +kernel

-- n_object_trailing_comment_slash_open_incomplete.json
example : (validateJsonBytes (b8 "{\"a\":\"b\"}/")).isErr = true := by decide +kernel

-- n_object_two_commas_in_a_row.json
example : (validateJsonBytes (b8 "{\"a\":\"b\",,\"c\":\"d\"}")).isErr = true := by decide +kernel

-- n_object_unquoted_key.json
example : (validateJsonBytes (b8 "{a: \"b\"}")).isErr = true := by decide +kernel

-- n_object_unterminated-value.json
example : (validateJsonBytes (b8 "{\"a\":\"a")).isErr = true := by decide +kernel

-- n_object_with_single_string.json
example : (validateJsonBytes (b8 "{ \"foo\" : \"bar\", \"a\" }")).isErr = true := by decide +kernel

-- n_object_with_trailing_garbage.json
example : (validateJsonBytes (b8 "{\"a\":\"b\"}#")).isErr = true := by decide +kernel

-- n_single_space.json
example : (validateJsonBytes (b8 " ")).isErr = true := by decide +kernel

-- n_string_1_surrogate_then_escape.json
example : (validateJsonBytes (b8 "[\"\\uD800\\\"]")).isErr = true := by decide +kernel

-- n_string_1_surrogate_then_escape_u.json
example : (validateJsonBytes (b8 "[\"\\uD800\\u\"]")).isErr = true := by decide +kernel

-- n_string_1_surrogate_then_escape_u1.json
example : (validateJsonBytes (b8 "[\"\\uD800\\u1\"]")).isErr = true := by decide +kernel

-- n_string_1_surrogate_then_escape_u1x.json
example : (validateJsonBytes (b8 "[\"\\uD800\\u1x\"]")).isErr = true := by decide +kernel

-- n_string_accentuated_char_no_quotes.json
example : (validateJsonBytes (raw [91, 195, 169, 93])).isErr = true := by decide +kernel

-- n_string_backslash_00.json
example : (validateJsonBytes (raw [91, 34, 92, 0, 34, 93])).isErr = true := by decide +kernel

-- n_string_escape_x.json
example : (validateJsonBytes (b8 "[\"\\x00\"]")).isErr = true := by decide +kernel

-- n_string_escaped_backslash_bad.json
example : (validateJsonBytes (b8 "[\"\\\\\\\"]")).isErr = true := by decide +kernel

-- n_string_escaped_ctrl_char_tab.json
example : (validateJsonBytes (b8 "[\"\\\t\"]")).isErr = true := by decide +kernel

-- n_string_escaped_emoji.json
example : (validateJsonBytes (raw [91, 34, 92, 240, 159, 140, 128, 34, 93])).isErr = true := by decide +kernel

-- n_string_incomplete_escape.json
example : (validateJsonBytes (b8 "[\"\\\"]")).isErr = true := by decide +kernel

-- n_string_incomplete_escaped_character.json
example : (validateJsonBytes (b8 "[\"\\u00A\"]")).isErr = true := by decide +kernel

-- n_string_incomplete_surrogate.json
example : (validateJsonBytes (b8 "[\"\\uD834\\uDd\"]")).isErr = true := by decide +kernel

end
end JustJson
