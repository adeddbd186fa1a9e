import Verif.Spec.Write
/-! # Specification: dangling commas -/

namespace JustJson
open Spec

/-- a closing bracket -/
def isCloser (b : UInt8) : Bool := b = 0x5D || b = 0x7D

mutual
/-- A text without the commas, outside of string literals, that stand right before a closing bracket. -/
def undangle : List UInt8 → List UInt8
  | [] => []
  | b :: bs =>
    if b = 0x2C ∧ bs.head?.any isCloser then undangle bs
    else if b = 0x22 then b :: undangleString bs
    else b :: undangle bs
/-- The same, inside a string literal: all is kept, up to the first quote not preceded by an escaping backslash. -/
def undangleString : List UInt8 → List UInt8
  | [] => []
  | [b] => [b]
  | b :: c :: bs =>
    if b = 0x5C then b :: c :: undangleString bs
    else if b = 0x22 then b :: undangle (c :: bs)
    else b :: undangleString (c :: bs)
end

end JustJson
