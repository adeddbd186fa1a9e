import Verif.Spec.Json
import Verif.Model.Parser
/-! # Specification: what an error says about the source

Uses of the model only the types `ErrorKind`, `ParseConfig` and the UTF-8 decoder. -/

namespace JustJson
open Spec

/-- The bytes `p` stand immediately before offset `o`. -/
def Before (src : List UInt8) (o : Nat) (p : List UInt8) : Prop := p <:+ src.take o

/-- The bytes `p` stand at offset `o`. -/
def Here (src : List UInt8) (o : Nat) (p : List UInt8) : Prop := p <+: src.drop o

/-- `b` is the first byte at or after `o` that is not whitespace. -/
def NextSig (src : List UInt8) (o : Nat) (b : UInt8) : Prop :=
  ¬ Ws [b] ∧ ∃ w, Ws w ∧ Here src o (w ++ [b])

/-- No digit at `o`: another byte or the end of the source. -/
def NoDigit (src : List UInt8) (o : Nat) : Prop := ∀ b, Here src o [b] → ¬ IsDigit b

/-- The first bytes of the tokens of JSON: `{ } [ ] , : "`, `-`, digits and the first letters of the three literals. -/
def StartsToken (b : UInt8) : Prop :=
  b ∈ [0x7B, 0x7D, 0x5B, 0x5D, 0x2C, 0x3A, 0x22, 0x2D, 0x74, 0x66, 0x6E] ∨ IsDigit b

/-- The three literals. -/
def literals : List (List UInt8) := [[0x74, 0x72, 0x75, 0x65], [0x66, 0x61, 0x6C, 0x73, 0x65], [0x6E, 0x75, 0x6C, 0x6C]]

/-- `r` begins with the escape of a low surrogate. -/
def LowFollows (r : List UInt8) : Prop :=
  ∃ lo : Hex4, lo.Valid ∧ 0xDC00 ≤ lo.val ∧ lo.val ≤ 0xDFFF ∧ ([0x5C, 0x75] ++ lo.bytes) <+: r

/-- At `o` stands the `u` of an escape whose code is half of a surrogate pair, without the other half. -/
def LoneSurrogate (src : List UInt8) (o : Nat) : Prop :=
  Before src o [0x5C] ∧ ∃ (h : Hex4) (r : List UInt8), h.Valid ∧ src.drop o = 0x75 :: (h.bytes ++ r)
    ∧ ((0xDC00 ≤ h.val ∧ h.val ≤ 0xDFFF) ∨ (0xD800 ≤ h.val ∧ h.val ≤ 0xDBFF ∧ ¬ LowFollows r))

/-- At `o` begins a maximal run of bytes above `0x7F` that is not UTF-8. -/
def BadUtf8 (src : List UInt8) (o : Nat) : Prop :=
  (∃ c : UInt8, c.toNat < 0x80 ∧ Before src o [c])
  ∧ ∃ run r, src.drop o = run ++ r ∧ run ≠ [] ∧ (∀ x ∈ run, 0x80 ≤ x.toNat)
    ∧ (∀ x, r.head? = some x → x.toNat < 0x80) ∧ ¬ ∃ s : Str, utf8 s = run

/-- What the text must look like around the offset `o` of an error of each kind. -/
def ErrSpec {δ : Type} (cfg : ParseConfig) (src : List UInt8) (o : Nat) : ErrorKind δ → Prop
  -- the source ended
  | .unexpectedEof => o = src.length
  | .unclosedString => o = src.length
  | .unclosedArray => o = src.length
  | .unclosedObject => o = src.length
  -- a byte that starts no token, a control character (in a string), a deviation from a literal, or a
  -- punctuation token where a value is required
  | .unexpected b =>
      (Here src o [b] ∧ (¬ StartsToken b ∨ b.toNat < 0x20
        ∨ ∃ lit ∈ literals, ∃ p c r, lit = p ++ c :: r ∧ p ≠ [] ∧ c ≠ b ∧ Before src o p))
      ∨ (NextSig src o b ∧ b ∈ [0x7D, 0x5D, 0x3A, 0x2C])
  -- objects
  | .expectedObjectKey => ∃ b, NextSig src o b ∧ b ∈ [0x5D, 0x3A, 0x2C]
  | .objectKeysMustBeStrings => ∃ b, NextSig src o b ∧ (b ∈ [0x7B, 0x5B, 0x2D, 0x74, 0x66, 0x6E] ∨ IsDigit b)
  | .expectedColon => ∃ p, p ≤ o ∧ Before src p [0x22] ∧ ¬ NextSig src p 0x3A
  | .expectedCommaOrEndOfObject => ∃ b, NextSig src o b ∧ b ∉ [0x2C, 0x7D]
  | .expectedCommaOrEndOfArray => ∃ b, NextSig src o b ∧ b ∉ [0x2C, 0x5D]
  | .illegalTrailingComma => cfg.allowTrailingCommas = false ∧ Before src o [0x2C] ∧ ∃ b, NextSig src o b ∧ b ∈ [0x7D, 0x5D]
  -- numbers
  | .expectedDigit => Before src o [0x2D] ∧ NoDigit src o
  | .expectedDecimalDigit => Before src o [0x2E] ∧ NoDigit src o
  | .expectedExponent => (∃ b, Before src o [b] ∧ b ∈ [0x65, 0x45, 0x2B, 0x2D]) ∧ NoDigit src o
  -- strings
  | .invalidEscape => Before src o [0x5C] ∧ ∃ b, Here src o [b] ∧ b ∉ [0x22, 0x5C, 0x2F, 0x62, 0x66, 0x6E, 0x72, 0x74, 0x75]
  | .invalidHexadecimal => (∃ ds, ds.length < 4 ∧ (∀ d ∈ ds, (hexVal d).isSome) ∧ Before src o ([0x5C, 0x75] ++ ds))
      ∧ ∃ b, Here src o [b] ∧ hexVal b = none
  | .utf8 => LoneSurrogate src o ∨ BadUtf8 src o
  -- limits and the root
  | .recursionLimitReached => cfg.recursionLimit.isSome ∧ ∃ b, NextSig src o b ∧ b ∈ [0x7B, 0x5B]
  | .payloadsShouldBeObjectOrArray => o = 0 ∧ cfg.allowAllTypesAtRoot = false ∧ ∃ b, NextSig src 0 b ∧ b ∉ [0x7B, 0x5B]
  | .trailingNonWhitespace => ∃ b, Here src o [b] ∧ ¬ Ws [b]
  -- not syntax errors
  | .expectedValue => False
  | .expectedString => False
  | .expectedNumber => False
  | .paylodTooLarge => False
  | .errorFromDelegate _ => False

/-- `o` is not inside a multi-byte character: it is an end of the source, or the byte before it or the byte at it
is ASCII. -/
def Edge (src : List UInt8) (o : Nat) : Prop :=
  o = 0 ∨ o = src.length ∨ (∃ c : UInt8, c.toNat < 0x80 ∧ Before src o [c]) ∨ (∃ c : UInt8, c.toNat < 0x80 ∧ Here src o [c])

end JustJson
