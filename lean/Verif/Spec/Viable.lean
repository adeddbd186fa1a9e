import Verif.Spec.Accept
import Verif.Spec.Phrase
import Verif.Spec.Errors
/-! # Specification: where a parse gave up -/

namespace JustJson
open Spec

/-- Some text that the configuration admits, apart from what it demands of the root, begins with `p`. -/
def Completable (cfg : ParseConfig) (p : List UInt8) : Prop :=
  ∃ c j, Accepted { cfg with allowAllTypesAtRoot := true } (p ++ c) j

/-- The kinds of error that only a tokenizer gives. -/
def ErrorKind.Lexical {δ : Type} : ErrorKind δ → Prop
  | .unclosedString | .invalidEscape | .invalidHexadecimal | .utf8 | .expectedDigit | .expectedDecimalDigit | .expectedExponent => True
  | _ => False

/-- The kinds of error a tokenizer can give at all. -/
def ErrorKind.OfTokenizer {δ : Type} : ErrorKind δ → Prop
  | .unexpectedEof | .unexpected _ => True
  | k => k.Lexical

/-- The kinds of error that blame a token or what follows a value. -/
def ErrorKind.Misplaced {δ : Type} : ErrorKind δ → Prop
  | .expectedObjectKey | .objectKeysMustBeStrings | .expectedCommaOrEndOfObject | .expectedCommaOrEndOfArray
  | .illegalTrailingComma | .recursionLimitReached | .trailingNonWhitespace => True
  | _ => False

section
variable [Arch]

/-- The error kinds that a token in the wrong place gives rise to, and which tokens do. -/
def Blames (cfg : ParseConfig) : ErrorKind Empty → Token → Prop
  | .unexpected b, t => (t = .objectEnd ∧ b = 0x7D) ∨ (t = .arrayEnd ∧ b = 0x5D) ∨ (t = .colon ∧ b = 0x3A) ∨ (t = .comma ∧ b = 0x2C)
  | .expectedObjectKey, t => t = .arrayEnd ∨ t = .colon ∨ t = .comma
  | .objectKeysMustBeStrings, t => t.StartsValue ∧ ∀ s, t ≠ .string s
  | .expectedColon, t => t ≠ .colon
  | .expectedCommaOrEndOfObject, t => t ≠ .comma ∧ t ≠ .objectEnd
  | .expectedCommaOrEndOfArray, t => t ≠ .comma ∧ t ≠ .arrayEnd
  | .illegalTrailingComma, t => t.Closes ∧ cfg.allowTrailingCommas = false
  | .recursionLimitReached, t => (t = .object ∨ t = .array) ∧ cfg.recursionLimit.isSome
  | _, _ => False

/-- How an error `e` comes about when all is well up to offset `p`: by what a tokenizer says there, or by what the
configuration or the caller demands of a complete value. -/
inductive GaveUp (g : Bool) (src : List UInt8) (cfg : ParseConfig) (p : Nat) (e : Error Empty) : Prop where
  /-- there are no more tokens -/
  | ended : (Call.next.run src g p).1 = .none → e.offset = src.length →
      (e.kind = .unexpectedEof ∨ e.kind = .unclosedObject ∨ e.kind = .unclosedArray ∨ e.kind = .expectedColon) →
      GaveUp g src cfg p e
  /-- the next token is malformed: the tokenizer's error is passed on, except that in a container the end of the source
  is named after the container, and that where a colon is due its absence is what is reported -/
  | lexical (e' : Error Empty) : (Call.next.run src g p).1 = .error e' → e.offset = e'.offset →
      (e.kind = e'.kind ∨ (e'.kind = .unexpectedEof ∧ (e.kind = .unclosedObject ∨ e.kind = .unclosedArray))
        ∨ e.kind = .expectedColon) →
      GaveUp g src cfg p e
  /-- the next token is out of place: the error is at `p` or after the whitespace there -/
  | token (t : Token) (w : List UInt8) : (Call.next.run src g p).1 = .token t → Blames cfg e.kind t →
      Ws w → Here src p w → e.offset = p + w.length → GaveUp g src cfg p e
  /-- a whole text has been read, but its root is not what the configuration demands -/
  | root (j : Json) : Text cfg.allowTrailingCommas (src.take p) j → cfg.allowAllTypesAtRoot = false → ¬ j.IsContainer →
      e = ⟨0, .payloadsShouldBeObjectOrArray⟩ → GaveUp g src cfg p e
  /-- a whole text has been read, but something follows it -/
  | trailing (j : Json) (w : List UInt8) (b : UInt8) : Accepted cfg (src.take p) j → Ws w → ¬ Ws [b] →
      Here src p (w ++ [b]) → e = ⟨p + w.length, .trailingNonWhitespace⟩ → GaveUp g src cfg p e

end
end JustJson
