import Verif.Spec.Write
/-! # How much the pretty form adds -/

namespace JustJson.Spec
variable [Arch]

mutual
/-- The line ends in the pretty form: one after the opening bracket of each container that is not empty, and one after each
of its elements or entries. -/
def lineBreaks : Value → Nat
  | .null | .boolean _ | .string _ | .number _ => 0
  | .array vs => (if vs = [] then 0 else 1 + vs.length) + lineBreaksElems vs
  | .object es => (if es = [] then 0 else 1 + es.length) + lineBreaksEntries es
/-- in the elements of an array -/
def lineBreaksElems : List Value → Nat
  | [] => 0
  | v :: vs => lineBreaks v + lineBreaksElems vs
/-- in the values of the entries of an object -/
def lineBreaksEntries : List (JsonString × Value) → Nat
  | [] => 0
  | (_, v) :: es => lineBreaks v + lineBreaksEntries es
end

mutual
/-- The indentations in the pretty form of a value that stands in `level` containers: the elements or entries of each
container that is not empty are one step further in than the line it ends on. -/
def steps (level : Nat) : Value → Nat
  | .null | .boolean _ | .string _ | .number _ => 0
  | .array vs => (if vs = [] then 0 else vs.length * (level + 1) + level) + stepsElems (level + 1) vs
  | .object es => (if es = [] then 0 else es.length * (level + 1) + level) + stepsEntries (level + 1) es
/-- in the elements of an array -/
def stepsElems (level : Nat) : List Value → Nat
  | [] => 0
  | v :: vs => steps level v + stepsElems level vs
/-- in the values of the entries of an object -/
def stepsEntries (level : Nat) : List (JsonString × Value) → Nat
  | [] => 0
  | (_, v) :: es => steps level v + stepsEntries level es
end

mutual
/-- The entries of all objects in a value. -/
def entryCount : Value → Nat
  | .null | .boolean _ | .string _ | .number _ => 0
  | .array vs => entryCountElems vs
  | .object es => es.length + entryCountEntries es
/-- in the elements of an array -/
def entryCountElems : List Value → Nat
  | [] => 0
  | v :: vs => entryCount v + entryCountElems vs
/-- in the values of the entries of an object -/
def entryCountEntries : List (JsonString × Value) → Nat
  | [] => 0
  | (_, v) :: es => entryCount v + entryCountEntries es
end

/-- The bytes of a text. -/
def byteLen (s : Str) : Nat := (utf8 s).length

end JustJson.Spec
