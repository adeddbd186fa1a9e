import Verif.Model.Error
import Verif.Model.Utf8
/-! # Model of the `Display` impls of `src/error.rs` -/

namespace JustJson

/-- `Display` of `usize` and `u8` (core): decimal digits without leading zeros. Used by error.rs:32-39 and 330-374. -/
def showNat (n : Nat) : Str := Nat.toDigits 10 n

/-- `<ErrorKind<DelegateError> as Display>::fmt`, error.rs:330-377: the text written to a formatter that does not fail.
`shown` is `<DelegateError as Display>::fmt`. In a literal passed to `write_str` the braces of `'}}'` (error.rs:359) are
not an escape: both are written. -/
def ErrorKind.display {δ : Type} (shown : δ → Str) : ErrorKind δ → Str
  | .utf8 => "invalid utf-8".toList
  | .unexpectedEof => "unexpected end of file".toList
  | .expectedObjectKey => "expected object key".toList
  | .expectedColon => "expected colon (':')".toList
  | .expectedValue => "expected value".toList
  | .expectedCommaOrEndOfObject => "expected comma or end of object".toList
  | .expectedCommaOrEndOfArray => "expected comma or end of array".toList
  | .illegalTrailingComma => "trailing commas are not allowed".toList
  | .unexpected ch => "unexpected character: '".toList ++ (showNat ch.toNat ++ "'".toList)
  | .trailingNonWhitespace => "trailing non-whitespace data was encountered".toList
  | .objectKeysMustBeStrings => "object keys must be strings".toList
  | .expectedExponent => "expected exponent sign or digit for number literal".toList
  | .expectedDecimalDigit => "expected decimal digit for number literal".toList
  | .expectedDigit => "expected decimal digit for number literal".toList
  | .invalidHexadecimal => "invalid hexadecimal in unicode escape sequence".toList
  | .invalidEscape => "invalid escaped character".toList
  | .unclosedObject => "expected end of object ('}}')".toList
  | .unclosedArray => "expected end of array (']')".toList
  | .unclosedString => "expected end of string ('\"')".toList
  | .expectedString => "expected a string".toList
  | .expectedNumber => "expected a number".toList
  | .recursionLimitReached => "the recursion limit has been reached".toList
  | .payloadsShouldBeObjectOrArray => "JSON only allows objects or arrays at the root".toList
  | .paylodTooLarge => "the payload is too large to be parsed into the destination structure".toList
  | .errorFromDelegate err => "error from delegate: ".toList ++ shown err

/-- `<Error<DelegateError> as Display>::fmt`, error.rs:32-39. -/
def Error.display {δ : Type} (shown : δ → Str) (e : Error δ) : Str :=
  "error at ".toList ++ (showNat e.offset ++ (": ".toList ++ e.kind.display shown))

end JustJson
