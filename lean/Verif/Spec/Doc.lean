import Verif.Model.Doc
/-! # Specification: the pre-order listing of a value -/

namespace JustJson
section
variable [Arch]

mutual
/-- One node per scalar; an array with `n` elements is `Array { length: n }` followed by the listings of
its elements; an object with `n` entries is `Object { length: n }` followed, per entry, by the key as a
string node and the listing of the value. -/
def flatten : Value → List Node
  | .null => [.null]
  | .boolean b => [.boolean b]
  | .string s => [.string s]
  | .number n => [.number n]
  | .object es => .object es.length :: flattenEntries es
  | .array vs => .array vs.length :: flattenElems vs
/-- the entries of an object -/
def flattenEntries : List (JsonString × Value) → List Node
  | [] => []
  | (k, v) :: es => .string k :: (flatten v ++ flattenEntries es)
/-- the elements of an array -/
def flattenElems : List Value → List Node
  | [] => []
  | v :: vs => flatten v ++ flattenElems vs
end

/-- `At v i u`: position `i` of the listing of `v` is where its part `u` begins: `v` itself, a value nested in
it at any depth, or an object key (read as a string value). -/
inductive At : Value → Nat → Value → Prop where
  | here (v : Value) : At v 0 v
  | elem (before after : List Value) (x u : Value) (i : Nat) : At x i u →
      At (.array (before ++ x :: after)) (1 + (flattenElems before).length + i) u
  | key (before after : Object) (k : JsonString) (x : Value) :
      At (.object (before ++ (k, x) :: after)) (1 + (flattenEntries before).length) (.string k)
  | entry (before after : Object) (k : JsonString) (x u : Value) (i : Nat) : At x i u →
      At (.object (before ++ (k, x) :: after)) (1 + (flattenEntries before).length + 1 + i) u

/-- `n` nodes fit in a collection with capacity `cap` (`none`: unbounded). -/
def CapOk (cap : Option Nat) (n : Nat) : Prop := ∀ N, cap = some N → n ≤ N

/-! ## A client of `DocumentIter` -/

/-- A call on a `DocumentIter`. -/
inductive DocCall where
  /-- `next()` -/
  | next
  /-- `next_value()` -/
  | nextValue
  /-- `skip_next_value()` -/
  | skipNextValue

/-- What a call returns. -/
inductive DocSaw where
  | node (n : Option Node)
  | value (v : Option Value)
  | unit

/-- The calls, one after another, on the model: what each returned. -/
def runDocCalls : List DocCall → List Node → Res (List DocSaw)
  | [], _ => .ok []
  | .next :: cs, nodes => do
    let saws ← runDocCalls cs (docNext nodes).2
    return .node (docNext nodes).1 :: saws
  | .nextValue :: cs, nodes => do
    match ← JustJson.nextValue nodes with
    | none => do
      let saws ← runDocCalls cs nodes
      return .value none :: saws
    | some (v, rest) => do
      let saws ← runDocCalls cs rest
      return .value (some v) :: saws
  | .skipNextValue :: cs, nodes => do
    let rest ← JustJson.skipNextValue nodes
    let saws ← runDocCalls cs rest
    return .unit :: saws

/-- What the calls should return if the iterator stands before node `i` of the nodes `doc` of the value `v`. -/
inductive DocSees (v : Value) (doc : List Node) : Nat → List DocCall → List DocSaw → Prop where
  | done (i : Nat) : DocSees v doc i [] []
  /-- `next` returns the node and moves past it -/
  | next (i : Nat) (n : Node) (cs : List DocCall) (saws : List DocSaw) : doc[i]? = some n → DocSees v doc (i + 1) cs saws →
      DocSees v doc i (.next :: cs) (.node (some n) :: saws)
  /-- `next_value` returns the part of `v` that begins here and moves past all its nodes -/
  | nextValue (i : Nat) (u : Value) (cs : List DocCall) (saws : List DocSaw) : At v i u →
      DocSees v doc (i + (flatten u).length) cs saws → DocSees v doc i (.nextValue :: cs) (.value (some u) :: saws)
  /-- `skip_next_value` moves to the same place -/
  | skip (i : Nat) (u : Value) (cs : List DocCall) (saws : List DocSaw) : At v i u →
      DocSees v doc (i + (flatten u).length) cs saws → DocSees v doc i (.skipNextValue :: cs) (.unit :: saws)
  /-- at the end, nothing is returned and nothing moves -/
  | endNext (i : Nat) (cs : List DocCall) (saws : List DocSaw) : doc.length ≤ i → DocSees v doc i cs saws →
      DocSees v doc i (.next :: cs) (.node none :: saws)
  | endValue (i : Nat) (cs : List DocCall) (saws : List DocSaw) : doc.length ≤ i → DocSees v doc i cs saws →
      DocSees v doc i (.nextValue :: cs) (.value none :: saws)
  | endSkip (i : Nat) (cs : List DocCall) (saws : List DocSaw) : doc.length ≤ i → DocSees v doc i cs saws →
      DocSees v doc i (.skipNextValue :: cs) (.unit :: saws)

end
end JustJson
