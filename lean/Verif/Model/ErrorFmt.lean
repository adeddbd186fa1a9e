import Verif.Model.Display
import Verif.Model.Write
/-! # Model of the `Display` impls of `src/error.rs` on any formatter

`Model/Display.lean` has the text that they write. Here they are the calls that they make on the `fmt::Write` behind the
formatter, any of which may fail. -/

namespace JustJson

/-- The options of a `fmt::Formatter` (core), those of a `{:…}` in a format string: what `f` of error.rs:36 and 334 carries. -/
structure FmtOptions where
  fill : Char
  width : Option Nat
  precision : Option Nat
  alternate : Bool
  signPlus : Bool
  zeroPad : Bool
deriving DecidableEq

/-- The options of a plain `{}`, as in the format strings of error.rs:37, 344 and 372. -/
def FmtOptions.plain : FmtOptions := ⟨' ', none, none, false, false, false⟩

/-- An implementation of `Display` for `T`, on a writer: the `DelegateError: Display` of error.rs:34 and 332. It may look at
the options, make any calls, fail and panic. -/
abbrev DisplayImpl (F : Writer) (T : Type) := FmtOptions → T → F.W → Res (F.W × Bool)

section
variable (F : Writer)

/-- `?` between two parts of what is written, as `core::fmt::write` does for error.rs:37, 344 and 372. -/
def andWrite (a b : F.W → Res (F.W × Bool)) (w : F.W) : Res (F.W × Bool) :=
  match a w with
  | .ok (w', true) => b w'
  | .ok (w', false) => .ok (w', false)
  | .panic p => .panic p

/-- `Formatter::write_str`, which does not look at the options (core): error.rs:336-370, and a literal piece of a format
string of error.rs:37, 344, 372. -/
def writePiece (s : Str) (w : F.W) : Res (F.W × Bool) := .ok (F.writeStr w s)

/-- `Display` of `usize` and `u8` with the options of a plain `{}` (core: `pad_integral` without width or sign): one
`write_str` of the digits. error.rs:37 and 344. -/
def writeNat (n : Nat) (w : F.W) : Res (F.W × Bool) := .ok (F.writeStr w (showNat n))

/-- `<ErrorKind<DelegateError> as Display>::fmt`, error.rs:330-377, given a formatter with the options `opts`. An argument of
`write!(f, …)` gets a formatter with the options of its own `{}`. -/
def ErrorKind.fmt {δ : Type} (shown : DisplayImpl F δ) (_opts : FmtOptions) : ErrorKind δ → F.W → Res (F.W × Bool)
  | .utf8 => writePiece F "invalid utf-8".toList
  | .unexpectedEof => writePiece F "unexpected end of file".toList
  | .expectedObjectKey => writePiece F "expected object key".toList
  | .expectedColon => writePiece F "expected colon (':')".toList
  | .expectedValue => writePiece F "expected value".toList
  | .expectedCommaOrEndOfObject => writePiece F "expected comma or end of object".toList
  | .expectedCommaOrEndOfArray => writePiece F "expected comma or end of array".toList
  | .illegalTrailingComma => writePiece F "trailing commas are not allowed".toList
  | .unexpected ch =>
    andWrite F (writePiece F "unexpected character: '".toList) (andWrite F (writeNat F ch.toNat) (writePiece F "'".toList))
  | .trailingNonWhitespace => writePiece F "trailing non-whitespace data was encountered".toList
  | .objectKeysMustBeStrings => writePiece F "object keys must be strings".toList
  | .expectedExponent => writePiece F "expected exponent sign or digit for number literal".toList
  | .expectedDecimalDigit => writePiece F "expected decimal digit for number literal".toList
  | .expectedDigit => writePiece F "expected decimal digit for number literal".toList
  | .invalidHexadecimal => writePiece F "invalid hexadecimal in unicode escape sequence".toList
  | .invalidEscape => writePiece F "invalid escaped character".toList
  | .unclosedObject => writePiece F "expected end of object ('}}')".toList
  | .unclosedArray => writePiece F "expected end of array (']')".toList
  | .unclosedString => writePiece F "expected end of string ('\"')".toList
  | .expectedString => writePiece F "expected a string".toList
  | .expectedNumber => writePiece F "expected a number".toList
  | .recursionLimitReached => writePiece F "the recursion limit has been reached".toList
  | .payloadsShouldBeObjectOrArray => writePiece F "JSON only allows objects or arrays at the root".toList
  | .paylodTooLarge => writePiece F "the payload is too large to be parsed into the destination structure".toList
  | .errorFromDelegate err => andWrite F (writePiece F "error from delegate: ".toList) (shown .plain err)

/-- `<Error<DelegateError> as Display>::fmt`, error.rs:32-39, given a formatter with the options `opts`. -/
def Error.fmt {δ : Type} (shown : DisplayImpl F δ) (_opts : FmtOptions) (e : Error δ) : F.W → Res (F.W × Bool) :=
  andWrite F (writePiece F "error at ".toList)
    (andWrite F (writeNat F e.offset) (andWrite F (writePiece F ": ".toList) (e.kind.fmt F shown .plain)))

end
end JustJson
