import Verif.Spec.Json
/-! # Specification: the value of an integer literal -/

namespace JustJson.Spec

/-- Value of decimal digits, the most significant first. -/
def digitsValue : List UInt8 → Nat
  | [] => 0
  | b :: bs => (b.toNat - 48) * 10 ^ bs.length + digitsValue bs

/-- The literal has neither a fraction nor an exponent. -/
def NumLit.IsInteger (n : NumLit) : Prop := n.frac = none ∧ n.exp = none

/-- The value of an integer literal. -/
def NumLit.intValue (n : NumLit) : Int := if n.minus then -(digitsValue n.int : Int) else digitsValue n.int

end JustJson.Spec
