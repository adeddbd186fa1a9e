import Verif.Spec.Doc
import Verif.Model.Reserve
/-! # How many elements the containers of a value have; calls that ask for room -/

namespace JustJson.Spec
variable [Arch]

mutual
/-- The number of elements of each array, and of entries of each object, in a value, outermost first, from left to right. -/
def sizes : Value → List Nat
  | .null | .boolean _ | .string _ | .number _ => []
  | .object es => es.length :: sizesEntries es
  | .array vs => vs.length :: sizesElems vs
/-- in the values of the entries of an object -/
def sizesEntries : List (JsonString × Value) → List Nat
  | [] => []
  | (_, v) :: es => sizes v ++ sizesEntries es
/-- in the elements of an array -/
def sizesElems : List Value → List Nat
  | [] => []
  | v :: vs => sizes v ++ sizesElems vs
end

/-- What a series of calls on a `DocumentIter` returns (as `runDocCalls` says), and the room it asks for. -/
def runDocCallsR : List DocCall → List Node → Rsv (List DocSaw)
  | [], _ => return []
  | .next :: cs, nodes => do
    let saws ← runDocCallsR cs (docNext nodes).2
    return .node (docNext nodes).1 :: saws
  | .nextValue :: cs, nodes => do
    match ← nextValueR nodes with
    | none => do
      let saws ← runDocCallsR cs nodes
      return .value none :: saws
    | some (v, rest) => do
      let saws ← runDocCallsR cs rest
      return .value (some v) :: saws
  | .skipNextValue :: cs, nodes => do
    let rest ← (⟨[], JustJson.skipNextValue nodes⟩ : Rsv (List Node))
    let saws ← runDocCallsR cs rest
    return .unit :: saws

end JustJson.Spec
