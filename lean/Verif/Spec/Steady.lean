import Verif.Spec.Errors
/-! # Specification: texts whose last token a continuation can change -/

namespace JustJson
open Spec

/-- `src` ends with a digit and `t` begins with a byte that can go on with a number: a digit, `.`, `e` or `E`. -/
def Glued (src t : List UInt8) : Prop :=
  (∃ i b, src = i ++ [b] ∧ IsDigit b) ∧ ∃ c r, t = c :: r ∧ (IsDigit c ∨ c = 0x2E ∨ c = 0x65 ∨ c = 0x45)

/-- `src` ends with a run of bytes above `0x7F` that is not UTF-8: further bytes may complete it. -/
def EndsMidCharacter (src : List UInt8) : Prop := ∃ o, BadUtf8 src o ∧ ∀ b ∈ src.drop o, 0x80 ≤ b.toNat

/-- The error of an outcome. -/
def Stopped {σ ε α : Type} (out : Out (PState σ) ε α) (e : ε) (d : σ) : Prop := ∃ s, out = .err e s ∧ s.delegate = d

end JustJson
