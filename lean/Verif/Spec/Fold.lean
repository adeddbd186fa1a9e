import Verif.Model.Value
/-! # Specification: the callbacks a tree gives rise to -/

namespace JustJson
section
variable [Arch] (D : Delegate)

mutual
/-- The bracketed pre-order traversal of a value, as callbacks of `D`: for an array `begin_array`, then
per element the element's own callbacks followed by `array_value`, then `end_array`; for an object
`begin_object`, then per entry `object_key`, the value's callbacks, `object_value`, then `end_object`.
The first callback to fail ends the traversal. -/
def foldValue : Value → M D.σ D.Err D.Value
  | .null => D.null
  | .boolean b => D.boolean b
  | .number n => D.number n
  | .string s => D.string s
  | .object es => do
    let o ← D.beginObject
    let o ← foldEntries es o
    D.endObject o
  | .array vs => do
    let a ← D.beginArray
    let a ← foldElems vs a
    D.endArray a
/-- the entries of an object -/
def foldEntries : List (JsonString × Value) → D.Object → M D.σ D.Err D.Object
  | [], o => M.pure o
  | (k, v) :: es, o => do
    let (o, k) ← D.objectKey o k
    let v ← foldValue v
    let o ← D.objectValue o k v
    foldEntries es o
/-- the elements of an array -/
def foldElems : List Value → D.Array → M D.σ D.Err D.Array
  | [], a => M.pure a
  | v :: vs, a => do
    let v ← foldValue v
    let a ← D.arrayValue a v
    foldElems vs a
end

/-- The delegate answers `object_is_empty` / `array_is_empty` truthfully while a container is built. -/
structure Truthful : Prop where
  object : ∀ es d0 o0 d1 o d2, D.beginObject d0 = .ok o0 d1 → foldEntries D es o0 d1 = .ok o d2 →
    D.objectIsEmpty d2 o = .ok es.isEmpty
  array : ∀ vs d0 a0 d1 a d2, D.beginArray d0 = .ok a0 d1 → foldElems D vs a0 d1 = .ok a d2 →
    D.arrayIsEmpty d2 a = .ok vs.isEmpty

/-- The kind of a value. -/
def Value.kind : Value → JsonKind
  | .number _ => .number
  | .string _ => .string
  | .boolean _ => .boolean
  | .object _ => .object
  | .array _ => .array
  | .null => .null

/-- The delegate answers `kind_of` truthfully for a value it has just built. -/
def KindTruthful : Prop :=
  ∀ v d a d', foldValue D v d = .ok a d' → D.kindOf d' a = .ok v.kind

end
end JustJson
