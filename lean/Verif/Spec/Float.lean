import Verif.Spec.Number
/-! # Specification: the number a literal stands for, and the float nearest to it -/

namespace JustJson

/-- A binary interchange format of IEEE 754: `p` bits of precision and `w` bits of exponent. -/
structure Ieee where
  p : Nat
  w : Nat

/-- binary32 -/
def binary32 : Ieee := ⟨24, 8⟩
/-- binary64 -/
def binary64 : Ieee := ⟨53, 11⟩

/-- The exponent bias. -/
def Ieee.bias (b : Ieee) : Int := 2 ^ (b.w - 1) - 1

/-- The bits of infinity without the sign: all ones in the exponent field, zeros in the fraction field. -/
def Ieee.top (b : Ieee) : Nat := (2 ^ b.w - 1) * 2 ^ (b.p - 1)

/-- The value of some bits without the sign. The exponent field is `k / 2 ^ (p - 1)` and the fraction field `k % 2 ^ (p - 1)`; numbers
with a zero exponent field have no hidden bit. The bits of infinity stand for the power of two that would come next. -/
def Ieee.value (b : Ieee) (k : Nat) : Rat :=
  let exponent := k / 2 ^ (b.p - 1)
  let fraction : Rat := (k % 2 ^ (b.p - 1) : Nat) / 2 ^ (b.p - 1)
  if exponent = 0 then fraction * 2 ^ (1 - b.bias) else (1 + fraction) * 2 ^ (exponent - b.bias)

/-- The bits `k` are nearest to `x`: no other bits are nearer, and if others are as near, `k` is even. -/
def Ieee.Nearest (b : Ieee) (x : Rat) (k : Nat) : Prop :=
  k ≤ b.top
  ∧ ∀ j ≤ b.top, (x - b.value k).abs ≤ (x - b.value j).abs
    ∧ ((x - b.value k).abs = (x - b.value j).abs → j ≠ k → k % 2 = 0)

namespace Spec

/-- The exponent of a literal. -/
def NumLit.exponent (n : NumLit) : Int :=
  match n.exp with
  | none => 0
  | some (_, s, ds) => if s = some 0x2D then -(digitsValue ds : Int) else digitsValue ds

/-- The digits of the fraction of a literal. -/
def NumLit.fraction (n : NumLit) : List UInt8 := n.frac.getD []

/-- The number a literal stands for, without the sign. -/
def NumLit.magnitude (n : NumLit) : Rat :=
  ((digitsValue n.int : Rat) + (digitsValue n.fraction : Rat) / 10 ^ n.fraction.length) * 10 ^ n.exponent

/-- Core cuts off exponents of many digits. That does not matter if the exponent is below 2 ^ 16, or the literal is not longer than
60000 bytes. -/
def NumLit.Readable (n : NumLit) : Prop :=
  (-0x10000 < n.exponent ∧ n.exponent < 0x10000) ∨ n.bytes.length ≤ 60000

end Spec
end JustJson
