import Verif.Model.Doc
/-! # Reading values back from a document, with the reservations of memory recorded

`hydrate_value_from_node` asks for room before it reads: `Object::with_capacity(len)` (doc.rs:136, which is
`Vec::with_capacity`, value.rs:837-839) and `Vec::with_capacity(len)` (doc.rs:149), where `len` is the length written in
the node. The functions of `Model/Doc.lean` forget that; here each of them is written again and says how much room it asks
for, in order, also if it then panics. `Lemmas/Reserve.lean` proves that otherwise nothing has changed. -/

namespace JustJson

/-- A computation that may panic, and the capacities it asked for, in order. The plumbing of this file, for
doc.rs:118-157, 384-388. -/
structure Rsv (α : Type) where
  asked : List Nat
  res : Res α

namespace Rsv
/-- one computation after the other; after a panic nothing more is asked for (plumbing, as `Res`, for doc.rs:126-157) -/
def bind {α β : Type} (m : Rsv α) (f : α → Rsv β) : Rsv β :=
  match m.res with
  | .ok a => ⟨m.asked ++ (f a).asked, (f a).res⟩
  | .panic p => ⟨m.asked, .panic p⟩
instance : Monad Rsv where
  pure a := ⟨[], .ok a⟩
  bind := Rsv.bind
/-- a panic: `expect`, `unreachable!`, doc.rs:120, 138-140, 151 -/
def panic {α : Type} (p : Panic) : Rsv α := ⟨[], .panic p⟩
/-- `Vec::with_capacity(n)`, doc.rs:136 (by value.rs:837-839), 149 -/
def withCapacity (n : Nat) : Rsv Unit := ⟨[n], .ok ()⟩
end Rsv

section
variable [Arch]

mutual
/-- `hydrate_value_from_node`, doc.rs:126-157, with fuel, as `hydrate`. -/
def hydrateR : Nat → Node → List Node → Rsv (Value × List Node)
  | 0, _, _ => .panic .fuel
  | _ + 1, .null, rest => return (.null, rest)
  | _ + 1, .boolean b, rest => return (.boolean b, rest)
  | _ + 1, .string s, rest => return (.string s, rest)
  | _ + 1, .number n, rest => return (.number n, rest)
  | fuel + 1, .object len, rest => do
    Rsv.withCapacity len
    let (es, rest) ← hydrateEntriesR fuel len rest
    return (.object es, rest)
  | fuel + 1, .array len, rest => do
    Rsv.withCapacity len
    let (vs, rest) ← hydrateValuesR fuel len rest
    return (.array vs, rest)
/-- doc.rs:137-145 -/
def hydrateEntriesR : Nat → Nat → List Node → Rsv (List (JsonString × Value) × List Node)
  | 0, _, _ => .panic .fuel
  | _ + 1, 0, rest => return ([], rest)
  | fuel + 1, len + 1, rest =>
    match rest with
    | [] => .panic .expect
    | .string key :: rest =>
      match rest with
      | [] => .panic .expect
      | node :: rest => do
        let (v, rest) ← hydrateR fuel node rest
        let (es, rest) ← hydrateEntriesR fuel len rest
        return ((key, v) :: es, rest)
    | _ :: _ => .panic .unreachable
/-- doc.rs:150-153 -/
def hydrateValuesR : Nat → Nat → List Node → Rsv (List Value × List Node)
  | 0, _, _ => .panic .fuel
  | _ + 1, 0, rest => return ([], rest)
  | fuel + 1, len + 1, rest =>
    match rest with
    | [] => .panic .expect
    | node :: rest => do
      let (v, rest) ← hydrateR fuel node rest
      let (vs, rest) ← hydrateValuesR fuel len rest
      return (v :: vs, rest)
end

/-- `From<GenericDocument> for Value`, doc.rs:118-122. -/
def Value.fromDocumentR (doc : Document) : Rsv Value :=
  match doc with
  | [] => .panic .expect
  | root :: nodes => do
    let (v, _) ← hydrateR (nodesFuel doc) root nodes
    return v

/-- `DocumentIter::next_value`, doc.rs:384-388. -/
def nextValueR (nodes : List Node) : Rsv (Option (Value × List Node)) :=
  match nodes with
  | [] => return none
  | node :: rest => do
    let r ← hydrateR (nodesFuel nodes) node rest
    return some r

end
end JustJson
