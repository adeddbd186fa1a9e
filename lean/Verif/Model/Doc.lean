import Verif.Model.Value
/-! # Model of `src/doc.rs` -/

namespace JustJson
section
variable [Arch]

/-- `Node`, doc.rs:175-194. -/
inductive Node where
  | null
  | boolean (b : Bool)
  | string (s : JsonString)
  | number (n : JsonNumber)
  | object (length : Nat)
  | array (length : Nat)
deriving DecidableEq

/-- `NodeCollection::push`: `Vec` (doc.rs:463-469) for `cap = none`, `heapless::Vec<_, N>`
(doc.rs:472-478) for `cap = some N`. -/
def pushNodeC (cap : Option Nat) (nodes : List Node) (n : Node) : Option (List Node) :=
  match cap with
  | none => some (nodes ++ [n])
  | some N => if nodes.length < N then some (nodes ++ [n]) else none

/-- `Nodes::push_node` and the `push_*` wrappers, doc.rs:206-234. -/
def pushNode (cap : Option Nat) (n : Node) : M (List Node) (ErrorKind Empty) Nat := fun nodes =>
  match pushNodeC cap nodes n with
  | some nodes' => .ok nodes.length nodes'
  | none => .err .paylodTooLarge nodes

/-- `Nodes::extend_object`, doc.rs:236-239. -/
def extendObject (i : Nat) : M (List Node) (ErrorKind Empty) Unit := fun nodes =>
  match nodes[i]? with
  | none => .panic .index
  | some (.object len) => .ok () (nodes.set i (.object (len + 1)))
  | some _ => .panic .unreachable

/-- `Nodes::extend_array`, doc.rs:241-244. -/
def extendArray (i : Nat) : M (List Node) (ErrorKind Empty) Unit := fun nodes =>
  match nodes[i]? with
  | none => .panic .index
  | some (.array len) => .ok () (nodes.set i (.array (len + 1)))
  | some _ => .panic .unreachable

/-- `ParseDelegate for &mut Nodes`, doc.rs:247-351. -/
@[reducible] def nodesDelegate (cap : Option Nat) : Delegate where
  σ := List Node
  Value := Nat
  Object := Nat
  Array := Nat
  Key := Unit
  Err := ErrorKind Empty
  null := pushNode cap .null
  boolean b := pushNode cap (.boolean b)
  number n := pushNode cap (.number n)
  string s := pushNode cap (.string s)
  beginObject := pushNode cap (.object 0)
  objectKey o key := do
    extendObject o
    let _ ← pushNode cap (.string key)
    return (o, ())
  objectValue o _ _ := M.pure o
  objectIsEmpty nodes o :=
    match nodes[o]? with
    | none => .panic .index
    | some (.object len) => .ok (len == 0)
    | some _ => .panic .unreachable
  endObject o := M.pure o
  beginArray := pushNode cap (.array 0)
  arrayValue a _ := do
    extendArray a
    return a
  arrayIsEmpty nodes a :=
    match nodes[a]? with
    | none => .panic .index
    | some (.array len) => .ok (len == 0)
    | some _ => .panic .unreachable
  endArray a := M.pure a
  kindOf nodes v :=
    match nodes[v]? with
    | none => .panic .index
    | some .null => .ok .null
    | some (.boolean _) => .ok .boolean
    | some (.string _) => .ok .string
    | some (.number _) => .ok .number
    | some (.object _) => .ok .object
    | some (.array _) => .ok .array

/-- `GenericDocument`, doc.rs:44-46: its nodes. -/
abbrev Document := List Node

/-- `GenericDocument::from_json_bytes_with_config` (`g = false`, doc.rs:69-77) and
`from_json_with_config` (`g = true`, doc.rs:96-104). `cap = none` is `Document`, `cap = some N` is
`HeaplessDocument<N>` (doc.rs:482-487). -/
def docFromJsonWithConfig (cap : Option Nat) (g : Bool) (src : List UInt8) (cfg : ParseConfig) :
    Outcome (Error Empty) Document :=
  match parseBytes g src cfg (nodesDelegate cap) [] with
  | .ok _ st => .ok st.delegate
  | .err e _ => .err e.intoInfallable
  | .panic p => .panic p

/-- `GenericDocument::from_json_bytes`, doc.rs:56-63. -/
def docFromJsonBytes (cap : Option Nat) (src : List UInt8) : Outcome (Error Empty) Document :=
  docFromJsonWithConfig cap false src .new

/-- `GenericDocument::from_json`, doc.rs:83-90. -/
def docFromJson (cap : Option Nat) (s : Str) : Outcome (Error Empty) Document :=
  docFromJsonWithConfig cap true (utf8 s) .new

/-! ### Other collections -/

/-- `NodeCollection`, doc.rs:454-460, as a client can implement it: a type with a default value, the slice of nodes
(`as_ref`), assignment through `as_mut()[i]`, and `push`, which may fail, or even panic, leaving the collection in any state. -/
structure NodeCollection where
  C : Type
  default : C
  nodes : C → List Node
  write : C → Nat → Node → C
  push : Node → M C (ErrorKind Empty) Unit

/-- `Nodes::push_node` and the `push_*` wrappers, doc.rs:206-234. -/
def collPush (K : NodeCollection) (n : Node) : M K.C (ErrorKind Empty) Nat := fun c =>
  (K.push n >>= fun _ => M.pure (K.nodes c).length) c

/-- `Nodes::extend_object`, doc.rs:236-239. -/
def collExtendObject (K : NodeCollection) (i : Nat) : M K.C (ErrorKind Empty) Unit := fun c =>
  match (K.nodes c)[i]? with
  | none => .panic .index
  | some (.object len) => .ok () (K.write c i (.object (len + 1)))
  | some _ => .panic .unreachable

/-- `Nodes::extend_array`, doc.rs:241-244. -/
def collExtendArray (K : NodeCollection) (i : Nat) : M K.C (ErrorKind Empty) Unit := fun c =>
  match (K.nodes c)[i]? with
  | none => .panic .index
  | some (.array len) => .ok () (K.write c i (.array (len + 1)))
  | some _ => .panic .unreachable

/-- `ParseDelegate for &mut Nodes`, doc.rs:247-351, on any collection. -/
@[reducible] def collDelegate (K : NodeCollection) : Delegate where
  σ := K.C
  Value := Nat
  Object := Nat
  Array := Nat
  Key := Unit
  Err := ErrorKind Empty
  null := collPush K .null
  boolean b := collPush K (.boolean b)
  number n := collPush K (.number n)
  string s := collPush K (.string s)
  beginObject := collPush K (.object 0)
  objectKey o key := do
    collExtendObject K o
    let _ ← collPush K (.string key)
    return (o, ())
  objectValue o _ _ := M.pure o
  objectIsEmpty c o :=
    match (K.nodes c)[o]? with
    | none => .panic .index
    | some (.object len) => .ok (len == 0)
    | some _ => .panic .unreachable
  endObject o := M.pure o
  beginArray := collPush K (.array 0)
  arrayValue a _ := do
    collExtendArray K a
    return a
  arrayIsEmpty c a :=
    match (K.nodes c)[a]? with
    | none => .panic .index
    | some (.array len) => .ok (len == 0)
    | some _ => .panic .unreachable
  endArray a := M.pure a
  kindOf c v :=
    match (K.nodes c)[v]? with
    | none => .panic .index
    | some .null => .ok .null
    | some (.boolean _) => .ok .boolean
    | some (.string _) => .ok .string
    | some (.number _) => .ok .number
    | some (.object _) => .ok .object
    | some (.array _) => .ok .array

/-- `GenericDocument::from_json_bytes_with_config` and `from_json_with_config`, doc.rs:69-77, 96-104, on any collection: the
collection made. -/
def genericDocument (K : NodeCollection) (g : Bool) (src : List UInt8) (cfg : ParseConfig) : Outcome (Error Empty) K.C :=
  match parseBytes g src cfg (collDelegate K) K.default with
  | .ok _ st => .ok st.delegate
  | .err e _ => .err e.intoInfallable
  | .panic p => .panic p

/-- `Vec` and `heapless::Vec` as such a collection. doc.rs:462-479. -/
def capCollection (cap : Option Nat) : NodeCollection where
  C := List Node
  default := []
  nodes ns := ns
  write ns i n := ns.set i n
  push n := fun ns => match pushNodeC cap ns n with
    | some ns' => .ok () ns'
    | none => .err .paylodTooLarge ns

/-! ### Reading values back. The iterator state is the list of remaining nodes. -/

mutual
/-- `hydrate_value_from_node`, doc.rs:126-157, with fuel. The loops `for _ in 0..len` are
`hydrateEntries` / `hydrateValues`. -/
def hydrate : Nat → Node → List Node → Res (Value × List Node)
  | 0, _, _ => .panic .fuel
  | _ + 1, .null, rest => .ok (.null, rest)
  | _ + 1, .boolean b, rest => .ok (.boolean b, rest)
  | _ + 1, .string s, rest => .ok (.string s, rest)
  | _ + 1, .number n, rest => .ok (.number n, rest)
  | fuel + 1, .object len, rest => do
    let (es, rest) ← hydrateEntries fuel len rest
    return (.object es, rest)
  | fuel + 1, .array len, rest => do
    let (vs, rest) ← hydrateValues fuel len rest
    return (.array vs, rest)
/-- doc.rs:137-145 -/
def hydrateEntries : Nat → Nat → List Node → Res (List (JsonString × Value) × List Node)
  | 0, _, _ => .panic .fuel
  | _ + 1, 0, rest => .ok ([], rest)
  | fuel + 1, len + 1, rest =>
    match rest with
    | [] => .panic .expect
    | .string key :: rest =>
      match rest with
      | [] => .panic .expect
      | node :: rest => do
        let (v, rest) ← hydrate fuel node rest
        let (es, rest) ← hydrateEntries fuel len rest
        return ((key, v) :: es, rest)
    | _ :: _ => .panic .unreachable
/-- doc.rs:150-153 -/
def hydrateValues : Nat → Nat → List Node → Res (List Value × List Node)
  | 0, _, _ => .panic .fuel
  | _ + 1, 0, rest => .ok ([], rest)
  | fuel + 1, len + 1, rest =>
    match rest with
    | [] => .panic .expect
    | node :: rest => do
      let (v, rest) ← hydrate fuel node rest
      let (vs, rest) ← hydrateValues fuel len rest
      return (v :: vs, rest)
end

/-- Fuel for the readers: each node costs at most two steps, plus one per loop end.
(No counterpart in doc.rs: it only bounds the recursion of the model.) -/
def nodesFuel (nodes : List Node) : Nat := 3 * nodes.length + 3

/-- `From<GenericDocument> for Value`, doc.rs:118-122. -/
def Value.fromDocument (doc : Document) : Res Value :=
  match doc with
  | [] => .panic .expect
  | root :: nodes => do
    let (v, _) ← hydrate (nodesFuel doc) root nodes
    return v

/-- `DocumentIter::next_value`, doc.rs:384-388: the value and the remaining nodes. -/
def nextValue (nodes : List Node) : Res (Option (Value × List Node)) :=
  match nodes with
  | [] => .ok none
  | node :: rest => do
    let r ← hydrate (nodesFuel nodes) node rest
    return some r

mutual
/-- `DocumentIter::skip_next_value`, doc.rs:391-411, with fuel: the remaining nodes. -/
def skipValue : Nat → List Node → Res (List Node)
  | 0, _ => .panic .fuel
  | _ + 1, [] => .ok []
  | fuel + 1, node :: rest =>
    match node with
    | .null | .boolean _ | .string _ | .number _ => .ok rest
    | .object len => skipN fuel (2 * len) rest
    | .array len => skipN fuel len rest
/-- The loops `for _ in 0..len`; an object runs two skips per round, doc.rs:396-408. -/
def skipN : Nat → Nat → List Node → Res (List Node)
  | 0, _, _ => .panic .fuel
  | _ + 1, 0, rest => .ok rest
  | fuel + 1, n + 1, rest => do
    let rest ← skipValue fuel rest
    skipN fuel n rest
end

/-- `DocumentIter::skip_next_value`, doc.rs:391-411. -/
def skipNextValue (nodes : List Node) : Res (List Node) := skipValue (nodesFuel nodes) nodes

/-- `Iterator::next for DocumentIter`, doc.rs:414-421. A `DocumentIter` is the list of the nodes still to come; `iter()` and
`into_iter()`, doc.rs:108-110, 166-170, start it with all nodes of the document. -/
def docNext (nodes : List Node) : Option Node × List Node := (nodes.head?, nodes.tail)

/-! ### Equality (derived `PartialEq`, doc.rs:43, 174, 196) -/

/-- Derived `PartialEq for Node`, doc.rs:174. -/
def Node.eq : Node → Node → Res Bool
  | .null, .null => .ok true
  | .boolean a, .boolean b => .ok (a == b)
  | .string a, .string b => a.eq b
  | .number a, .number b => .ok (a.eq b)
  | .object a, .object b => .ok (a == b)
  | .array a, .array b => .ok (a == b)
  | _, _ => .ok false

/-- Slice equality after the length check: element by element, stopping at the first difference. For doc.rs:43, 196. -/
def Document.eqAux : List Node → List Node → Res Bool
  | a :: as, b :: bs =>
    match Node.eq a b with
    | .ok true => Document.eqAux as bs
    | .ok false => .ok false
    | .panic p => .panic p
  | _, _ => .ok true

/-- Derived `PartialEq for GenericDocument` and `Nodes`, doc.rs:43, 196: equality of the collections of nodes, which for
`Vec` and `heapless::Vec` is slice equality. -/
def Document.eq (a b : Document) : Res Bool := if a.length = b.length then Document.eqAux a b else .ok false

end
end JustJson
