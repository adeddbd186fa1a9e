import Verif.Model.Value
import Verif.Model.Parser
/-! # Model of the derived `PartialEq` and `Hash` of tokens, errors, kinds and configurations

`derive(PartialEq)` on an enum compares the discriminants, that is the positions of the variants in the declaration, and then
the fields; on a struct the fields in order. `derive(Hash)` on an enum without fields is one `write_isize` of the position.
(core and rustc, as documented.) -/

namespace JustJson

/-- The discriminants of `Token`, parser.rs:13-34: the position in the declaration. -/
def Token.discriminant : Token → Nat
  | .null => 0
  | .bool _ => 1
  | .string _ => 2
  | .number _ => 3
  | .object => 4
  | .objectEnd => 5
  | .array => 6
  | .arrayEnd => 7
  | .colon => 8
  | .comma => 9

/-- The discriminants of `PeekableTokenKind`, parser.rs:40-88. -/
def PeekableTokenKind.discriminant : PeekableTokenKind → Nat
  | .null => 0
  | .true => 1
  | .false => 2
  | .string => 3
  | .number => 4
  | .object => 5
  | .objectEnd => 6
  | .array => 7
  | .arrayEnd => 8
  | .unrecognized => 9
  | .colon => 10
  | .comma => 11

/-- The discriminants of `JsonKind`, parser.rs:1163-1176. -/
def JsonKind.discriminant : JsonKind → Nat
  | .null => 0
  | .boolean => 1
  | .number => 2
  | .string => 3
  | .object => 4
  | .array => 5

/-- The discriminants of `ErrorKind`, error.rs:64-128. -/
def ErrorKind.discriminant {δ : Type} : ErrorKind δ → Nat
  | .utf8 => 0
  | .unexpectedEof => 1
  | .expectedObjectKey => 2
  | .expectedColon => 3
  | .expectedValue => 4
  | .expectedCommaOrEndOfObject => 5
  | .expectedCommaOrEndOfArray => 6
  | .illegalTrailingComma => 7
  | .unexpected _ => 8
  | .trailingNonWhitespace => 9
  | .objectKeysMustBeStrings => 10
  | .expectedExponent => 11
  | .expectedDecimalDigit => 12
  | .expectedDigit => 13
  | .invalidHexadecimal => 14
  | .invalidEscape => 15
  | .unclosedObject => 16
  | .unclosedArray => 17
  | .unclosedString => 18
  | .expectedString => 19
  | .expectedNumber => 20
  | .recursionLimitReached => 21
  | .payloadsShouldBeObjectOrArray => 22
  | .paylodTooLarge => 23
  | .errorFromDelegate _ => 24

/-- Derived `PartialEq for PeekableTokenKind`, parser.rs:39. -/
def PeekableTokenKind.eq (a b : PeekableTokenKind) : Bool := a.discriminant == b.discriminant

/-- Derived `PartialEq for JsonKind`, parser.rs:1162. -/
def JsonKind.eq (a b : JsonKind) : Bool := a.discriminant == b.discriminant

/-- Derived `PartialEq for ErrorKind`, error.rs:62; `eq` is `==` of the delegate's errors. -/
def ErrorKind.eq {δ : Type} (eq : δ → δ → Bool) (a b : ErrorKind δ) : Bool :=
  a.discriminant == b.discriminant && match a, b with
    | .unexpected x, .unexpected y => x == y
    | .errorFromDelegate x, .errorFromDelegate y => eq x y
    | _, _ => true

/-- Derived `PartialEq for Error`, error.rs:5: the offset, then the kind. -/
def Error.eq {δ : Type} (eq : δ → δ → Bool) (a b : Error δ) : Bool := a.offset == b.offset && a.kind.eq eq b.kind

/-- Derived `PartialEq for ParseConfig`, parser.rs:994. -/
def ParseConfig.eq (a b : ParseConfig) : Bool :=
  a.allowTrailingCommas == b.allowTrailingCommas && (a.recursionLimit == b.recursionLimit
    && a.allowAllTypesAtRoot == b.allowAllTypesAtRoot)

section
variable [Arch]

/-- Derived `PartialEq for Token`, parser.rs:12. -/
def Token.eq (a b : Token) : Res Bool :=
  if a.discriminant = b.discriminant then
    match a, b with
    | .bool x, .bool y => .ok (x == y)
    | .string s, .string t => s.eq t
    | .number m, .number n => .ok (m.eq n)
    | _, _ => .ok true
  else .ok false

/-- Derived `Hash for PeekableTokenKind`, parser.rs:39: `Hasher::write_isize` of the discriminant, whose provided method writes
the bytes in native order; `little` tells the target's byte order. -/
def PeekableTokenKind.hash (H : Hasher) (little : Bool) (k : PeekableTokenKind) (st : H.S) : H.S :=
  let bytes := (List.range (Arch.bits / 8)).map fun i => UInt8.ofNat (k.discriminant / 256 ^ i)
  H.write st (if little then bytes else bytes.reverse)

end
end JustJson
