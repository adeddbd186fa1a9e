import Verif.Spec.Content
/-! # Specification: editing a value, as editing a tree of plain data -/

namespace JustJson
open Spec

/-- What a `Value` stands for: a tree of plain data. Numbers are their source text, strings and keys their decoded text. -/
inductive Content where
  | null
  | boolean (b : Bool)
  | number (source : Str)
  | string (text : Str)
  | array (elems : List Content)
  | object (entries : List (Str × Content))

/-- One step from a value to a part of it. -/
inductive Step where
  /-- `get_mut(key)` (or `get`) -/
  | key (k : Str)
  /-- `get_index_mut(i)` (or `get_index`) -/
  | index (i : Nat)

/-- What a client does with the `&mut Value` `r` it has reached. `κ` are keys, `α` values. -/
inductive Edit (κ α : Type) where
  /-- `*r = v` -/
  | set (v : α)
  /-- `r.as_array_mut()?.push(v)` -/
  | push (v : α)
  /-- `r.as_array_mut()?.remove(i)`, if there is an element `i` -/
  | remove (i : Nat)
  /-- `r.as_object_mut()?.push(Entry { key, value })` -/
  | insert (k : κ) (v : α)
  /-- `r.as_object_mut()?.get_entry_mut(old)?.key = new` -/
  | rename (old : Str) (new : κ)
  /-- `r.as_object_mut()?.remove(i)`, if there is an entry `i` -/
  | removeEntry (i : Nat)

/-! ## On plain data -/

/-- The part a step leads to: of several entries with the same key, the first. -/
def Content.child : Content → Step → Option Content
  | .object es, .key k => (es.find? (fun e => e.1 = k)).map (·.2)
  | .array cs, .index i => cs[i]?
  | _, _ => none

/-- change the first entry with key `k` -/
def changeFirst (k : Str) (f : Str × Content → Str × Content) : List (Str × Content) → List (Str × Content)
  | [] => []
  | e :: es => if e.1 = k then f e :: es else e :: changeFirst k f es

/-- The part a step leads to is replaced by `d`. -/
def Content.put : Content → Step → Content → Content
  | .object es, .key k, d => .object (changeFirst k (fun e => (e.1, d)) es)
  | .array cs, .index i, d => .array (cs.set i d)
  | c, _, _ => c

/-- An edit in place; `none` if it does not apply. -/
def Content.apply : Edit Str Content → Content → Option Content
  | .set d, _ => some d
  | .push d, .array cs => some (.array (cs ++ [d]))
  | .remove i, .array cs => if i < cs.length then some (.array (cs.eraseIdx i)) else none
  | .insert k d, .object es => some (.object (es ++ [(k, d)]))
  | .rename k k', .object es => if ∃ e ∈ es, e.1 = k then some (.object (changeFirst k (fun e => (k', e.2)) es)) else none
  | .removeEntry i, .object es => if i < es.length then some (.object (es.eraseIdx i)) else none
  | _, _ => none

/-- The part at the end of a path. -/
def Content.readAt : List Step → Content → Option Content
  | [], c => some c
  | s :: p, c => match c.child s with
    | none => none
    | some u => Content.readAt p u

/-- An edit at the end of a path. -/
def Content.editAt (e : Edit Str Content) : List Step → Content → Option Content
  | [], c => c.apply e
  | s :: p, c => match c.child s with
    | none => none
    | some u => (Content.editAt e p u).map (c.put s)

/-- A series of edits: the result, and for each whether it took place. -/
def Content.session : List (List Step × Edit Str Content) → Content → Content × List Bool
  | [], c => (c, [])
  | (p, e) :: es, c => match c.editAt e p with
    | none => ((Content.session es c).1, false :: (Content.session es c).2)
    | some c' => ((Content.session es c').1, true :: (Content.session es c').2)

mutual
/-- The data a JSON text stands for, as the library reads it: every string element is the character of `Item.readAs` (what
RFC 8259 says, but for `\b` and some surrogate pairs). -/
def Spec.Json.data : Json → Content
  | .null => .null
  | .bool b => .boolean b
  | .num n => .number (n.bytes.map fun b => Char.ofNat b.toNat)
  | .str is => .string (is.map Item.readAs)
  | .arr js => .array (Spec.dataElems js)
  | .obj ms => .object (Spec.dataMembers ms)
/-- of elements -/
def Spec.dataElems : List Json → List Content
  | [] => []
  | j :: js => j.data :: Spec.dataElems js
/-- of members -/
def Spec.dataMembers : List (List Item × Json) → List (Str × Content)
  | [] => []
  | (k, j) :: ms => (k.map Item.readAs, j.data) :: Spec.dataMembers ms
end

/-! ## On values, by the calls of the library -/

section
variable [Arch]

/-- `get` and `get_index` -/
def Value.child (v : Value) : Step → Res (Option Value)
  | .key k => v.get k
  | .index i => .ok (v.getIndex i)

/-- `*v.get_mut(k)? = w`, `*v.get_index_mut(i)? = w` -/
def Value.put (v : Value) (w : Value) : Step → Res (Option Value)
  | .key k => v.modify (fun _ => w) k
  | .index i => .ok (v.modifyIndex (fun _ => w) i)

/-- The edit, by the calls named at `Edit`. `Vec::push` and `Vec::remove` (core) are list operations. -/
def Value.apply : Edit JsonString Value → Value → Res (Option Value)
  | .set w, _ => .ok (some w)
  | .push w, v => .ok (v.modifyArray (· ++ [w]))
  | .remove i, v => match v.asArray with
    | none => .ok none
    | some vs => .ok (if i < vs.length then v.modifyArray (·.eraseIdx i) else none)
  | .insert k w, v => .ok (v.modifyObject (· ++ [(k, w)]))
  | .rename k k', v => match v.asObject with
    | none => .ok none
    | some o => do return (← o.modifyEntry (fun e => (k', e.2)) k).map .object
  | .removeEntry i, v => match v.asObject with
    | none => .ok none
    | some o => .ok (if i < o.length then v.modifyObject (·.eraseIdx i) else none)

/-- A chain of `get`/`get_index`. -/
def Value.readAt : List Step → Value → Res (Option Value)
  | [], v => .ok (some v)
  | s :: p, v => do
    match ← v.child s with
    | none => return none
    | some u => Value.readAt p u

/-- A chain of `get_mut`/`get_index_mut`, and an edit through the reference at its end. A reference into a part of a value
is modelled as reading the part (`get_mut` refers to what `get` finds: `C30_value_get`, `C30_value_get_mut`), editing it, and
writing the result back through the reference. -/
def Value.editAt (e : Edit JsonString Value) : List Step → Value → Res (Option Value)
  | [], v => v.apply e
  | s :: p, v => do
    match ← v.child s with
    | none => return none
    | some u => match ← Value.editAt e p u with
      | none => return none
      | some u' => v.put u' s

/-- A series of edits of one value. An edit that does not take place leaves it as it is. -/
def Value.session : List (List Step × Edit JsonString Value) → Value → Res (Value × List Bool)
  | [], v => .ok (v, [])
  | (p, e) :: es, v => do
    match ← v.editAt e p with
    | none => do
      let r ← Value.session es v
      return (r.1, false :: r.2)
    | some v' => do
      let r ← Value.session es v'
      return (r.1, true :: r.2)

/-! ## What a value holds -/

mutual
/-- `Holds v c`: the value `v` stands for the data `c`. -/
inductive Holds : Value → Content → Prop where
  | null : Holds .null .null
  | boolean (b : Bool) : Holds (.boolean b) (.boolean b)
  | number (x : JsonNumber) : Holds (.number x) (.number x.sourceStr)
  | string (s : JsonString) (t : Str) : HasText s t → Holds (.string s) (.string t)
  | array (vs : List Value) (cs : List Content) : HoldsElems vs cs → Holds (.array vs) (.array cs)
  | object (es : Object) (cs : List (Str × Content)) : HoldsEntries es cs → Holds (.object es) (.object cs)
/-- element by element -/
inductive HoldsElems : List Value → List Content → Prop where
  | nil : HoldsElems [] []
  | cons (v : Value) (c : Content) (vs : List Value) (cs : List Content) : Holds v c → HoldsElems vs cs →
      HoldsElems (v :: vs) (c :: cs)
/-- entry by entry -/
inductive HoldsEntries : Object → List (Str × Content) → Prop where
  | nil : HoldsEntries [] []
  | cons (k : JsonString) (t : Str) (v : Value) (c : Content) (es : Object) (cs : List (Str × Content)) : HasText k t →
      Holds v c → HoldsEntries es cs → HoldsEntries ((k, v) :: es) ((t, c) :: cs)
end

/-- The edit `e`, made with values a client can have, means the edit `d` of plain data. -/
inductive EditMeans : Edit JsonString Value → Edit Str Content → Prop where
  | set (v : Value) (c : Content) : Built v → Holds v c → EditMeans (.set v) (.set c)
  | push (v : Value) (c : Content) : Built v → Holds v c → EditMeans (.push v) (.push c)
  | remove (i : Nat) : EditMeans (.remove i) (.remove i)
  | insert (k : JsonString) (t : Str) (v : Value) (c : Content) : Obtainable k → HasText k t → Built v → Holds v c →
      EditMeans (.insert k v) (.insert t c)
  | rename (old : Str) (k : JsonString) (t : Str) : Obtainable k → HasText k t → EditMeans (.rename old k) (.rename old t)
  | removeEntry (i : Nat) : EditMeans (.removeEntry i) (.removeEntry i)

/-- edit by edit, at the same places -/
inductive SessionMeans : List (List Step × Edit JsonString Value) → List (List Step × Edit Str Content) → Prop where
  | nil : SessionMeans [] []
  | cons (p : List Step) (e : Edit JsonString Value) (d : Edit Str Content) (es : List (List Step × Edit JsonString Value))
      (ds : List (List Step × Edit Str Content)) : EditMeans e d → SessionMeans es ds → SessionMeans ((p, e) :: es) ((p, d) :: ds)

end
end JustJson
