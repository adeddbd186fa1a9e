import Verif.Model.Parser
/-! # Model of `Value`, `Object`, `Entry` and `ValueParser` (src/value.rs) -/

namespace JustJson
section
variable [Arch]

/-- `Value`, value.rs:15-28. `Object` (value.rs:816) is its `Vec<Entry>`; an `Entry`
(value.rs:898-903) is the pair of its key and value. -/
inductive Value where
  | number (n : JsonNumber)
  | string (s : JsonString)
  | boolean (b : Bool)
  | object (entries : List (JsonString × Value))
  | array (values : List Value)
  | null

/-- `Object` / `Entry`, value.rs:816, 898-903; `Deref` and `DerefMut` to the `Vec` of entries, value.rs:866-880, are the
identity. -/
abbrev Object := List (JsonString × Value)

/-- `ValueParser`, value.rs:474-574. -/
@[reducible] def valueParser : Delegate where
  σ := Unit
  Value := Value
  Object := Object
  Array := List Value
  Key := JsonString
  Err := Empty
  null := M.pure .null
  boolean b := M.pure (.boolean b)
  number n := M.pure (.number n)
  string s := M.pure (.string s)
  beginObject := M.pure []
  objectKey o k := M.pure (o, k)
  objectValue o k v := M.pure (o ++ [(k, v)])
  objectIsEmpty _ o := .ok o.isEmpty
  endObject o := M.pure (.object o)
  beginArray := M.pure []
  arrayValue a v := M.pure (a ++ [v])
  arrayIsEmpty _ a := .ok a.isEmpty
  endArray a := M.pure (.array a)
  kindOf _ v := .ok (match v with
    | .number _ => .number
    | .string _ => .string
    | .boolean _ => .boolean
    | .object _ => .object
    | .array _ => .array
    | .null => .null)

/-- `Value::from_json_bytes_with_config` (`g = false`, value.rs:63-65) and
`Value::from_json_with_config` (`g = true`, value.rs:45-47). -/
def Value.parseWithConfig (g : Bool) (src : List UInt8) (cfg : ParseConfig) :
    Outcome (Error Empty) Value :=
  (parseBytes g src cfg valueParser ()).outcome

/-- `Value::from_json_bytes_with_config`, value.rs:63-65. -/
def Value.fromJsonBytesWithConfig (src : List UInt8) (cfg : ParseConfig) :
    Outcome (Error Empty) Value := Value.parseWithConfig false src cfg

/-- `Value::from_json_with_config`, value.rs:45-47. -/
def Value.fromJsonWithConfig (s : Str) (cfg : ParseConfig) : Outcome (Error Empty) Value :=
  Value.parseWithConfig true (utf8 s) cfg

/-- `Value::from_json_bytes`, value.rs:54-56. -/
def Value.fromJsonBytes (src : List UInt8) : Outcome (Error Empty) Value :=
  Value.fromJsonBytesWithConfig src .new

/-- `Value::from_json`, value.rs:36-38. -/
def Value.fromJson (s : Str) : Outcome (Error Empty) Value := Value.fromJsonWithConfig s .new

/-! ### Accessors -/

/-- `Value::as_object`, value.rs:71-77. -/
def Value.asObject : Value → Option Object
  | .object o => some o
  | _ => none
/-- `Value::as_string`, value.rs:137-143. -/
def Value.asString : Value → Option JsonString
  | .string s => some s
  | _ => none
/-- `Value::as_str`, value.rs:150-156. -/
def Value.asStr : Value → Option Str
  | .string s => s.asStr
  | _ => none
/-- `Value::as_number`, value.rs:162-168. -/
def Value.asNumber : Value → Option JsonNumber
  | .number n => some n
  | _ => none
/-- `Value::as_bool`, value.rs:194-200. -/
def Value.asBool : Value → Option Bool
  | .boolean b => some b
  | _ => none
/-- `Value::as_array`, value.rs:206-212. -/
def Value.asArray : Value → Option (List Value)
  | .array a => some a
  | _ => none
/-- `Value::is_null`, value.rs:249-251. -/
def Value.isNull : Value → Bool
  | .null => true
  | _ => false
/-- `Value::as_u8` .. `as_usize`, value.rs:395-417. -/
def Value.asUnsigned (bits : Nat) (v : Value) : Option Nat := v.asNumber.bind (·.asUnsigned bits)
/-- `Value::as_i8` .. `as_isize`, value.rs:395-423. -/
def Value.asSigned (bits : Nat) (v : Value) : Option Int := v.asNumber.bind (·.asSigned bits)
/-- `Value::as_f32` and `Value::as_f64`, value.rs:176-188. -/
def Value.asFloat (f : FloatFormat) (v : Value) : Option FloatBits := v.asNumber.bind (·.asFloat f)

/-- `Object::get`, value.rs:844-847: `find_map` over the entries. -/
def Object.get : Object → Str → Res (Option Value)
  | [], _ => .ok none
  | (k, v) :: es, key => do
    if ← k.eqStr key then return some v else Object.get es key

/-- `Object::get_entry_mut`, value.rs:861-863: a write of `f` through the reference returned by
`iter_mut().find(..)`; `none` when no entry is found. -/
def Object.modifyEntry (f : JsonString × Value → JsonString × Value) :
    Object → Str → Res (Option Object)
  | [], _ => .ok none
  | e :: es, key => do
    if ← e.1.eqStr key then return some (f e :: es)
    else return (← Object.modifyEntry f es key).map (e :: ·)

/-- `Object::get_mut`, value.rs:853-855: a write of `f` through the returned reference. -/
def Object.modify (f : Value → Value) (o : Object) (key : Str) : Res (Option Object) :=
  Object.modifyEntry (fun e => (e.1, f e.2)) o key

/-- `Value::get`, value.rs:107-110. -/
def Value.get (v : Value) (key : Str) : Res (Option Value) :=
  match v.asObject with
  | none => .ok none
  | some o => Object.get o key

/-- `Value::get_mut`, value.rs:128-131 with `as_object_mut`, value.rs:83-89: a write of `f`. -/
def Value.modify (f : Value → Value) (v : Value) (key : Str) : Res (Option Value) :=
  match v with
  | .object o => do return (← Object.modify f o key).map .object
  | _ => .ok none

/-- `Value::as_object_mut`, value.rs:83-89: a write of `f` to the object. -/
def Value.modifyObject (f : Object → Object) : Value → Option Value
  | .object o => some (.object (f o))
  | _ => none
/-- `Value::as_array_mut`, value.rs:218-224: a write of `f` to the `Vec`. -/
def Value.modifyArray (f : List Value → List Value) : Value → Option Value
  | .array a => some (.array (f a))
  | _ => none

/-- `Value::get_index`, value.rs:231-234. -/
def Value.getIndex (v : Value) (i : Nat) : Option Value := v.asArray.bind (·[i]?)

/-- `Value::get_index_mut`, value.rs:241-244 with `as_array_mut`, value.rs:218-224: a write of `f`. -/
def Value.modifyIndex (f : Value → Value) (v : Value) (i : Nat) : Option Value :=
  match v with
  | .array a => if i < a.length then some (.array (a.modify i f)) else none
  | _ => none

/-- `Index<usize>`, value.rs:675-677. -/
def Value.index (v : Value) (i : Nat) : Res Value := .orPanic .expect (v.getIndex i)
/-- `IndexMut<usize>`, value.rs:689-691: a write of `f`. -/
def Value.indexMut (f : Value → Value) (v : Value) (i : Nat) : Res Value :=
  .orPanic .expect (v.modifyIndex f i)
/-- `Index<&str>`, value.rs:716-718. -/
def Value.indexKey (v : Value) (key : Str) : Res Value := do .orPanic .expect (← v.get key)
/-- `IndexMut<&str>`, value.rs:741-743: a write of `f`. -/
def Value.indexKeyMut (f : Value → Value) (v : Value) (key : Str) : Res Value := do
  .orPanic .expect (← v.modify f key)

/-- `From<&str> for Value`, value.rs:767-772. -/
def Value.fromStr (s : Str) : Res Value := do return .string (← JsonString.fromStr s)
/-- `From<String> for Value`, value.rs:774-779. -/
def Value.fromString (s : Str) : Res Value := do return .string (← JsonString.fromString s)
/-- `From<bool> for Value`, value.rs:746-751. -/
def Value.ofBool (b : Bool) : Value := .boolean b
/-- `From<Object> for Value`, value.rs:753-758. -/
def Value.ofObject (o : Object) : Value := .object o
/-- `From<Vec<Value>> for Value`, value.rs:760-765. -/
def Value.ofVec (vs : List Value) : Value := .array vs
/-- `From<JsonString> for Value`, value.rs:781-786. -/
def Value.ofJsonString (s : JsonString) : Value := .string s
/-- `Object::new` and `Object::default`, value.rs:818-831; `with_capacity`, value.rs:837-839, differs only in what is
allocated. -/
def Object.new : Object := []
/-- `FromIterator<(JsonString, Value)>` and `FromIterator<Entry> for Object`, value.rs:882-894. An `Entry` is a pair in
this model; the iterator is the list of what it yields. -/
def Object.fromIter : List (JsonString × Value) → Object
  | [] => []
  | (key, value) :: it => (key, value) :: Object.fromIter it
/-- `Entry::new`, value.rs:908-913, with text for key and value. -/
def entryNew (key value : Str) : Res (JsonString × Value) := do return (← JsonString.fromStr key, ← Value.fromStr value)

/-! ### Equality (derived `PartialEq`, value.rs:14, 815, 897) -/

/-- `JsonNumber == JsonNumber` (derived, number.rs:8): `AnyStr` equality. -/
def JsonNumber.eq (a b : JsonNumber) : Bool := a.source.eq b.source

mutual
/-- Derived `PartialEq for Value`, value.rs:14. -/
def Value.eq : Value → Value → Res Bool
  | .number a, .number b => .ok (a.eq b)
  | .string a, .string b => a.eq b
  | .boolean a, .boolean b => .ok (a == b)
  | .object a, .object b => if a.length = b.length then Object.eqAux a b else .ok false
  | .array a, .array b => if a.length = b.length then Value.eqAux a b else .ok false
  | .null, .null => .ok true
  | _, _ => .ok false
/-- Slice equality after the length check: element by element, stopping at the first difference. For value.rs:14. -/
def Value.eqAux : List Value → List Value → Res Bool
  | a :: as, b :: bs =>
    match Value.eq a b with
    | .ok true => Value.eqAux as bs
    | .ok false => .ok false
    | .panic p => .panic p
  | _, _ => .ok true
/-- The same for entries: derived `PartialEq for Entry` compares the key, then the value. For value.rs:815, 897. -/
def Object.eqAux : List (JsonString × Value) → List (JsonString × Value) → Res Bool
  | (k, a) :: as, (k', b) :: bs =>
    match k.eq k' with
    | .ok true =>
      match Value.eq a b with
      | .ok true => Object.eqAux as bs
      | .ok false => .ok false
      | .panic p => .panic p
    | .ok false => .ok false
    | .panic p => .panic p
  | _, _ => .ok true
end

end
end JustJson
