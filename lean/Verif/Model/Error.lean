import Verif.Model.Res
/-! # Model of `src/error.rs` -/

namespace JustJson

/-- `ErrorKind<DelegateError>`, error.rs:64-128. -/
inductive ErrorKind (δ : Type) where
  | utf8
  | unexpectedEof
  | expectedObjectKey
  | expectedColon
  | expectedValue
  | expectedCommaOrEndOfObject
  | expectedCommaOrEndOfArray
  | illegalTrailingComma
  | unexpected (b : UInt8)
  | trailingNonWhitespace
  | objectKeysMustBeStrings
  | expectedExponent
  | expectedDecimalDigit
  | expectedDigit
  | invalidHexadecimal
  | invalidEscape
  | unclosedObject
  | unclosedArray
  | unclosedString
  | expectedString
  | expectedNumber
  | recursionLimitReached
  | payloadsShouldBeObjectOrArray
  | paylodTooLarge
  | errorFromDelegate (e : δ)
deriving DecidableEq, Repr

/-- `Error<DelegateError>`, error.rs:6-9; its fields are what `kind()` and `offset()` return, error.rs:11-23. -/
structure Error (δ : Type) where
  offset : Nat
  kind : ErrorKind δ
deriving DecidableEq, Repr

/-- `ErrorKind::into_fallable`, error.rs:131-159. `Infallible` is `Empty`. -/
def ErrorKind.intoFallable {δ : Type} : ErrorKind Empty → ErrorKind δ
  | .utf8 => .utf8
  | .unexpectedEof => .unexpectedEof
  | .expectedObjectKey => .expectedObjectKey
  | .expectedColon => .expectedColon
  | .expectedValue => .expectedValue
  | .expectedCommaOrEndOfObject => .expectedCommaOrEndOfObject
  | .expectedCommaOrEndOfArray => .expectedCommaOrEndOfArray
  | .illegalTrailingComma => .illegalTrailingComma
  | .unexpected b => .unexpected b
  | .trailingNonWhitespace => .trailingNonWhitespace
  | .objectKeysMustBeStrings => .objectKeysMustBeStrings
  | .expectedExponent => .expectedExponent
  | .expectedDecimalDigit => .expectedDecimalDigit
  | .expectedDigit => .expectedDigit
  | .invalidHexadecimal => .invalidHexadecimal
  | .invalidEscape => .invalidEscape
  | .unclosedObject => .unclosedObject
  | .unclosedArray => .unclosedArray
  | .unclosedString => .unclosedString
  | .expectedString => .expectedString
  | .expectedNumber => .expectedNumber
  | .recursionLimitReached => .recursionLimitReached
  | .payloadsShouldBeObjectOrArray => .payloadsShouldBeObjectOrArray
  | .paylodTooLarge => .paylodTooLarge

/-- `ErrorKind::into_infallable`, error.rs:163-191. -/
def ErrorKind.intoInfallable : ErrorKind (ErrorKind Empty) → ErrorKind Empty
  | .utf8 => .utf8
  | .unexpectedEof => .unexpectedEof
  | .expectedObjectKey => .expectedObjectKey
  | .expectedColon => .expectedColon
  | .expectedValue => .expectedValue
  | .expectedCommaOrEndOfObject => .expectedCommaOrEndOfObject
  | .expectedCommaOrEndOfArray => .expectedCommaOrEndOfArray
  | .illegalTrailingComma => .illegalTrailingComma
  | .unexpected b => .unexpected b
  | .trailingNonWhitespace => .trailingNonWhitespace
  | .objectKeysMustBeStrings => .objectKeysMustBeStrings
  | .expectedExponent => .expectedExponent
  | .expectedDecimalDigit => .expectedDecimalDigit
  | .expectedDigit => .expectedDigit
  | .invalidHexadecimal => .invalidHexadecimal
  | .invalidEscape => .invalidEscape
  | .unclosedObject => .unclosedObject
  | .unclosedArray => .unclosedArray
  | .unclosedString => .unclosedString
  | .expectedString => .expectedString
  | .expectedNumber => .expectedNumber
  | .recursionLimitReached => .recursionLimitReached
  | .payloadsShouldBeObjectOrArray => .payloadsShouldBeObjectOrArray
  | .paylodTooLarge => .paylodTooLarge
  | .errorFromDelegate k => k

/-- `Error::into_fallable`, error.rs:43-48. -/
def Error.intoFallable {δ : Type} (e : Error Empty) : Error δ := ⟨e.offset, e.kind.intoFallable⟩

/-- `Error::into_infallable`, error.rs:53-58. -/
def Error.intoInfallable (e : Error (ErrorKind Empty)) : Error Empty :=
  ⟨e.offset, e.kind.intoInfallable⟩

end JustJson
