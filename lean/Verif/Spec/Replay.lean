import Verif.Spec.Trace
import Verif.Model.Doc
/-! # Specification: a list of callbacks, made one after the other -/

namespace JustJson
section
variable (D : Delegate)

/-- What a delegate has returned and is yet to be given back: a value, an object or array being built, or an object with the
key whose value is to come. -/
inductive Frame where
  | value (v : D.Value)
  | object (o : D.Object)
  | entry (o : D.Object) (k : D.Key)
  | array (a : D.Array)

/-- Make one callback. What it takes is on top of the stack, what it returns is put there. -/
def Event.call : Event → List (Frame D) → M D.σ D.Err (List (Frame D))
  | .null, fs => do return .value (← D.null) :: fs
  | .boolean b, fs => do return .value (← D.boolean b) :: fs
  | .number n, fs => do return .value (← D.number n) :: fs
  | .string s, fs => do return .value (← D.string s) :: fs
  | .beginObject, fs => do return .object (← D.beginObject) :: fs
  | .objectKey k, .object o :: fs => do
    let p ← D.objectKey o k
    return .entry p.1 p.2 :: fs
  | .objectValue, .value v :: .entry o k :: fs => do return .object (← D.objectValue o k v) :: fs
  | .endObject, .object o :: fs => do return .value (← D.endObject o) :: fs
  | .beginArray, fs => do return .array (← D.beginArray) :: fs
  | .arrayValue, .value v :: .array a :: fs => do return .array (← D.arrayValue a v) :: fs
  | .endArray, .array a :: fs => do return .value (← D.endArray a) :: fs
  | _, _ => M.panic .unreachable

/-- Make callbacks one after the other, up to the first that fails. With each goes the offset that its failure is reported
with. -/
def replay : List (Nat × Event) → List (Frame D) → M D.σ (Error D.Err) (List (Frame D))
  | [], fs => M.pure fs
  | (off, e) :: l, fs => do
    let fs ← M.mapErr (fun x => ⟨off, .errorFromDelegate x⟩) (e.call D fs)
    replay l fs

end
end JustJson

namespace JustJson

/-! ## Calls on a collection of nodes -/

/-- A call on a collection. -/
inductive CollCall where
  | push (n : Node)
  | write (i : Nat) (n : Node)
deriving DecidableEq

/-- Make it. -/
def CollCall.make (K : NodeCollection) : CollCall → M K.C (ErrorKind Empty) Unit
  | .push n => K.push n
  | .write i n => fun c => .ok () (K.write c i n)

/-- Make calls one after the other, up to the first that fails. -/
def makeColl (K : NodeCollection) : List CollCall → M K.C (ErrorKind Empty) Unit
  | [] => M.pure ()
  | q :: qs => do q.make K; makeColl K qs

/-- The calls that list the nodes of a traversal in pre-order: every value and every key is pushed, an array or object as an
empty one; its node is written again, one larger, before each key and after each element. `n` nodes are there already, and
`st` has the index and the size so far of each container that is open, the innermost first. -/
def collCalls : List Event → Nat → List (Nat × Nat) → List CollCall
  | [], _, _ => []
  | .null :: es, n, st => .push .null :: collCalls es (n + 1) st
  | .boolean b :: es, n, st => .push (.boolean b) :: collCalls es (n + 1) st
  | .number x :: es, n, st => .push (.number x) :: collCalls es (n + 1) st
  | .string s :: es, n, st => .push (.string s) :: collCalls es (n + 1) st
  | .beginObject :: es, n, st => .push (.object 0) :: collCalls es (n + 1) ((n, 0) :: st)
  | .beginArray :: es, n, st => .push (.array 0) :: collCalls es (n + 1) ((n, 0) :: st)
  | .objectKey k :: es, n, (i, c) :: st => .write i (.object (c + 1)) :: .push (.string k) :: collCalls es (n + 1) ((i, c + 1) :: st)
  | .objectValue :: es, n, st => collCalls es n st
  | .arrayValue :: es, n, (i, c) :: st => .write i (.array (c + 1)) :: collCalls es n ((i, c + 1) :: st)
  | .endObject :: es, n, _ :: st => collCalls es n st
  | .endArray :: es, n, _ :: st => collCalls es n st
  | _ :: _, _, [] => []

end JustJson
