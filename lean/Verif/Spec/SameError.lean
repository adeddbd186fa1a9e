import Verif.Model.Error
/-! # Specification: an error of the parser, among the errors of a delegate

Uses of the model only the types `Error` and `ErrorKind`. -/

namespace JustJson

/-- The kind of the same name, for a delegate with errors of type `δ`. -/
def sameKind {δ : Type} : ErrorKind Empty → ErrorKind δ
  | .utf8 => .utf8
  | .unexpectedEof => .unexpectedEof
  | .expectedObjectKey => .expectedObjectKey
  | .expectedColon => .expectedColon
  | .expectedValue => .expectedValue
  | .expectedCommaOrEndOfObject => .expectedCommaOrEndOfObject
  | .expectedCommaOrEndOfArray => .expectedCommaOrEndOfArray
  | .illegalTrailingComma => .illegalTrailingComma
  | .unexpected b => .unexpected b
  | .trailingNonWhitespace => .trailingNonWhitespace
  | .objectKeysMustBeStrings => .objectKeysMustBeStrings
  | .expectedExponent => .expectedExponent
  | .expectedDecimalDigit => .expectedDecimalDigit
  | .expectedDigit => .expectedDigit
  | .invalidHexadecimal => .invalidHexadecimal
  | .invalidEscape => .invalidEscape
  | .unclosedObject => .unclosedObject
  | .unclosedArray => .unclosedArray
  | .unclosedString => .unclosedString
  | .expectedString => .expectedString
  | .expectedNumber => .expectedNumber
  | .recursionLimitReached => .recursionLimitReached
  | .payloadsShouldBeObjectOrArray => .payloadsShouldBeObjectOrArray
  | .paylodTooLarge => .paylodTooLarge

/-- The error of the same kind at the same offset. -/
def sameError {δ : Type} (e : Error Empty) : Error δ := ⟨e.offset, sameKind e.kind⟩

end JustJson
