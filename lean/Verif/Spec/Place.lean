import Verif.Model.Value
/-!
# Specification: places within a value

A place is a list of numbers: which element of an array, or which entry of an object, to go into at each step.
-/

namespace JustJson.Spec
open JustJson

/-- The element of an array, or the value of the entry of an object, at index `i`. -/
def nth (i : Nat) : Value → Option Value
  | .array vs => vs[i]?
  | .object es => (es[i]?).map Prod.snd
  | _ => none

/-- The array or object with another value at index `i`; keys stay. -/
def setNth (i : Nat) (new : Value) : Value → Value
  | .array vs => .array (vs.set i new)
  | .object es => .object (es.modify i fun e => (e.1, new))
  | v => v

/-- The value at a place. -/
def partAt : List Nat → Value → Option Value
  | [], v => some v
  | i :: p, v => (nth i v).bind (partAt p)

/-- The value with another one put at a place. -/
def replaceAt : List Nat → Value → Value → Value
  | [], new, _ => new
  | i :: p, new, v =>
    match nth i v with
    | none => v
    | some u => setNth i (replaceAt p new u) v

/-- neither the first nor the last byte is whitespace, and there is one -/
def Tight (b : List UInt8) : Prop :=
  ∃ x y, b.head? = some x ∧ b.getLast? = some y ∧ x ∉ [0x20, 0x09, 0x0A, 0x0D] ∧ y ∉ [0x20, 0x09, 0x0A, 0x0D]

end JustJson.Spec
