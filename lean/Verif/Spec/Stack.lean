import Verif.Spec.Accept
/-! # Specification: how deep calls nest -/

namespace JustJson
section
variable [Arch]

mutual
/-- The height of a value as a tree whose nodes are the values in it: scalars and empty containers have height one. -/
def Value.height : Value → Nat
  | .array vs => 1 + Value.heightList vs
  | .object es => 1 + Value.heightEntries es
  | _ => 1
/-- maximum over the elements -/
def Value.heightList : List Value → Nat
  | [] => 0
  | v :: vs => max v.height (Value.heightList vs)
/-- maximum over the entries -/
def Value.heightEntries : List (JsonString × Value) → Nat
  | [] => 0
  | (_, v) :: es => max v.height (Value.heightEntries es)
end

end

/-- The number of `[` and `{` in a source, in strings and out of them. -/
def openers (src : List UInt8) : Nat := src.countP fun b => b = 0x5B || b = 0x7B

end JustJson
