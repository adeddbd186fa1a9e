import Verif.Model.Parser
import Verif.Model.Write
import Verif.Model.Doc
/-! # The recursive functions on a stack of bounded size

`Parser::read_tokens`, `Value::write_json_value`, `hydrate_value_from_node` and `DocumentIter::skip_next_value` are the
recursive functions of the crate (besides derived equality and dropping, which follow the nesting of a value too). Here
each takes the number of its calls that the stack has room for, `stk`; one call more is the outcome `Panic.stack`. All else is as
in `Model/Parser.lean`, `Model/Write.lean` and `Model/Doc.lean`.

`read_object` and `read_array` are called once by each `read_tokens` at most and call no other recursive function, so
counting the calls of `read_tokens` counts the stack up to a constant factor. The same holds for the helpers of the
other functions. -/

namespace JustJson
section
variable [Arch]
variable (g : Bool) (src : List UInt8) (cfg : ParseConfig) (D : Delegate)

mutual
/-- `Parser::read_tokens`, parser.rs:634-685. -/
def readTokensS : Nat → Nat → PM D D.Value
  | 0, _ => M.panic .fuel
  | _ + 1, 0 => M.panic .stack
  | fuel + 1, stk + 1 => do
    let offset ← tokOffset D
    let token ← liftTok D (nextOrEof src g)
    match token with
    | .null => liftD D offset D.null
    | .object =>
      beginNest cfg D offset
      M.mapErr (eofTo .unclosedObject) (readObjectS fuel stk)
    | .array =>
      beginNest cfg D offset
      M.mapErr (eofTo .unclosedArray) (readArrayS fuel stk)
    | .objectEnd => perr D offset (.unexpected 0x7D)
    | .arrayEnd => perr D offset (.unexpected 0x5D)
    | .colon => perr D offset (.unexpected 0x3A)
    | .comma => perr D offset (.unexpected 0x2C)
    | .bool b => liftD D offset (D.boolean b)
    | .string s => liftD D offset (D.string s)
    | .number n => liftD D offset (D.number n)

/-- `Parser::read_object`, parser.rs:688-782. -/
def readObjectS : Nat → Nat → PM D D.Value
  | 0, _ => M.panic .fuel
  | fuel + 1, stk => do
    let offset ← tokOffset D
    let object ← liftD D offset D.beginObject
    let object ← readObjectLoopS fuel stk object
    let offset ← tokOffset D
    let value ← liftD D offset (D.endObject object)
    endNest cfg D
    return value

/-- The `loop` of `read_object`, parser.rs:698-772. -/
def readObjectLoopS : Nat → Nat → D.Object → PM D D.Object
  | 0, _, _ => M.panic .fuel
  | fuel + 1, stk, object => do
    let offset ← tokOffset D
    let token ← liftTok D (nextOrEof src g)
    match token with
    | .objectEnd =>
      if cfg.allowTrailingCommas then return object
      else if ← liftQ D (D.objectIsEmpty · object) then return object
      else perr D offset .illegalTrailingComma
    | .string key =>
      let (object, key) ← liftD D offset (D.objectKey object key)
      let offset ← tokOffset D
      let token ← nextColon g src D
      if token ≠ .colon then perr D offset .expectedColon
      else
        let offset ← tokOffset D
        let value ← readTokensS fuel stk
        let object ← liftD D offset (D.objectValue object key value)
        let offset ← tokOffset D
        let token ← liftTok D (nextOrEof src g)
        if token = .objectEnd then return object
        else if token ≠ .comma then perr D offset .expectedCommaOrEndOfObject
        else readObjectLoopS fuel stk object
    | .array | .bool _ | .null | .number _ | .object => perr D offset .objectKeysMustBeStrings
    | _ => perr D offset .expectedObjectKey

/-- `Parser::read_array`, parser.rs:785-845. -/
def readArrayS : Nat → Nat → PM D D.Value
  | 0, _ => M.panic .fuel
  | fuel + 1, stk => do
    let offset ← tokOffset D
    let array ← liftD D offset D.beginArray
    let array ← readArrayLoopS fuel stk array
    let value ← liftD D offset (D.endArray array)
    endNest cfg D
    return value

/-- The `loop` of `read_array`, parser.rs:795-835. -/
def readArrayLoopS : Nat → Nat → D.Array → PM D D.Array
  | 0, _, _ => M.panic .fuel
  | fuel + 1, stk, array => do
    let offset ← tokOffset D
    if (← liftTok D (tokPeek src)) = some .arrayEnd then
      M.modify fun s => { s with offset := s.offset + 1 }
      if cfg.allowTrailingCommas then return array
      else if ← liftQ D (D.arrayIsEmpty · array) then return array
      else perr D offset .illegalTrailingComma
    else
      let value ← readTokensS fuel stk
      let offset ← tokOffset D
      let array ← liftD D offset (D.arrayValue array value)
      let offset ← tokOffset D
      let token ← liftTok D (nextOrEof src g)
      if token = .arrayEnd then return array
      else if token ≠ .comma then perr D offset .expectedCommaOrEndOfArray
      else readArrayLoopS fuel stk array
end

/-- `Parser::parse_bytes` on a running `ParseState`, parser.rs:599-620. -/
def parseMS (stk : Nat) : PM D D.Value := do
  let value ← readTokensS g src cfg D (parseFuel src) stk
  let reject ← if cfg.allowAllTypesAtRoot then M.pure false else do
    let k ← liftQ D (D.kindOf · value)
    M.pure (!(k == .object || k == .array))
  if reject then perr D 0 .payloadsShouldBeObjectOrArray
  else
    match ← liftTok D (nextNonWs src) with
    | none => return value
    | some (offset, _) => perr D offset .trailingNonWhitespace

/-- `Parser::parse_bytes`, parser.rs:587-620, where the stack has room for `stk` calls of `read_tokens`. -/
def parseBytesS (stk : Nat) (d : D.σ) : Out (PState D.σ) (Error D.Err) D.Value :=
  parseMS g src cfg D stk ⟨0, d, cfg.recursionLimit.getD USIZE_MAX⟩

end

section
variable [Arch] (F : Writer) (pretty : Bool) (indent lineEnding : Str)

mutual
/-- `Value::write_json_value` with `write_json_object` and `write_json_array`, value.rs:264-322. -/
def writeValueS : Nat → Value → WM F Unit
  | 0, _ => M.panic .stack
  | _ + 1, .string s => wWriteJson F pretty indent s
  | _ + 1, .number n => wWrite F pretty indent n.sourceStr
  | _ + 1, .boolean b => wWrite F pretty indent (if b then ['t', 'r', 'u', 'e'] else ['f', 'a', 'l', 's', 'e'])
  | _ + 1, .null => wWrite F pretty indent ['n', 'u', 'l', 'l']
  | stk + 1, .object es => do
    wBegin F pretty indent ['{']
    if es.isEmpty then M.pure () else do
      wNewLine F pretty indent lineEnding
      writeEntriesS stk es.length 0 es
    wEnd F pretty indent ['}']
  | stk + 1, .array vs => do
    wBegin F pretty indent ['[']
    if vs.isEmpty then M.pure () else do
      wNewLine F pretty indent lineEnding
      writeValuesS stk vs.length 0 vs
    wEnd F pretty indent [']']

/-- The `for (index, entry) in obj.0.iter().enumerate()` loop, value.rs:286-294. -/
def writeEntriesS (stk : Nat) (len index : Nat) : List (JsonString × Value) → WM F Unit
  | [] => M.pure ()
  | (k, v) :: es => do
    wWriteJson F pretty indent k
    wKeyEnd F pretty indent
    writeValueS stk v
    if index ≠ len - 1 then wWrite F pretty indent [','] else M.pure ()
    wNewLine F pretty indent lineEnding
    writeEntriesS stk len (index + 1) es

/-- The `for (index, value) in array.iter().enumerate()` loop, value.rs:308-314. -/
def writeValuesS (stk : Nat) (len index : Nat) : List Value → WM F Unit
  | [] => M.pure ()
  | v :: vs => do
    writeValueS stk v
    if index ≠ len - 1 then wWrite F pretty indent [','] else M.pure ()
    wNewLine F pretty indent lineEnding
    writeValuesS stk len (index + 1) vs
end

/-- `Value::write_json`, value.rs:253-262, where the stack has room for `stk` calls of `write_json_value`. -/
def Value.writeJsonS (stk : Nat) (v : Value) (w : F.W) : Res (F.W × Bool) :=
  match writeValueS F pretty indent lineEnding stk v ⟨w, 0, true⟩ with
  | .ok _ st => .ok (st.writer, true)
  | .err _ st => .ok (st.writer, false)
  | .panic p => .panic p

end

mutual
/-- `hydrate_value_from_node`, doc.rs:125-158. -/
def hydrateS : Nat → Nat → Node → List Node → Res (Value × List Node)
  | 0, _, _, _ => .panic .fuel
  | _ + 1, 0, _, _ => .panic .stack
  | _ + 1, _ + 1, .null, rest => .ok (.null, rest)
  | _ + 1, _ + 1, .boolean b, rest => .ok (.boolean b, rest)
  | _ + 1, _ + 1, .string s, rest => .ok (.string s, rest)
  | _ + 1, _ + 1, .number n, rest => .ok (.number n, rest)
  | fuel + 1, stk + 1, .object len, rest => do
    let (es, rest) ← hydrateEntriesS fuel stk len rest
    return (.object es, rest)
  | fuel + 1, stk + 1, .array len, rest => do
    let (vs, rest) ← hydrateValuesS fuel stk len rest
    return (.array vs, rest)
/-- doc.rs:137-145 -/
def hydrateEntriesS : Nat → Nat → Nat → List Node → Res (List (JsonString × Value) × List Node)
  | 0, _, _, _ => .panic .fuel
  | _ + 1, _, 0, rest => .ok ([], rest)
  | fuel + 1, stk, len + 1, rest =>
    match rest with
    | [] => .panic .expect
    | .string key :: rest =>
      match rest with
      | [] => .panic .expect
      | node :: rest => do
        let (v, rest) ← hydrateS fuel stk node rest
        let (es, rest) ← hydrateEntriesS fuel stk len rest
        return ((key, v) :: es, rest)
    | _ :: _ => .panic .unreachable
/-- doc.rs:150-153 -/
def hydrateValuesS : Nat → Nat → Nat → List Node → Res (List Value × List Node)
  | 0, _, _, _ => .panic .fuel
  | _ + 1, _, 0, rest => .ok ([], rest)
  | fuel + 1, stk, len + 1, rest =>
    match rest with
    | [] => .panic .expect
    | node :: rest => do
      let (v, rest) ← hydrateS fuel stk node rest
      let (vs, rest) ← hydrateValuesS fuel stk len rest
      return (v :: vs, rest)
end

mutual
/-- `DocumentIter::skip_next_value`, doc.rs:391-411. -/
def skipValueS : Nat → Nat → List Node → Res (List Node)
  | 0, _, _ => .panic .fuel
  | _ + 1, 0, _ => .panic .stack
  | _ + 1, _ + 1, [] => .ok []
  | fuel + 1, stk + 1, node :: rest =>
    match node with
    | .null | .boolean _ | .string _ | .number _ => .ok rest
    | .object len => skipNS fuel stk (2 * len) rest
    | .array len => skipNS fuel stk len rest
/-- The loops `for _ in 0..len`, doc.rs:396-408. -/
def skipNS : Nat → Nat → Nat → List Node → Res (List Node)
  | 0, _, _, _ => .panic .fuel
  | _ + 1, _, 0, rest => .ok rest
  | fuel + 1, stk, n + 1, rest => do
    let rest ← skipValueS fuel stk rest
    skipNS fuel stk n rest
end

/-- `DocumentIter::skip_next_value`, doc.rs:391-411, where the stack has room for `stk` calls of it. -/
def skipNextValueS (stk : Nat) (nodes : List Node) : Res (List Node) := skipValueS (nodesFuel nodes) stk nodes

/-- `From<GenericDocument> for Value`, doc.rs:118-122, where the stack has room for `stk` calls of
`hydrate_value_from_node`. -/
def Value.fromDocumentS (stk : Nat) (doc : Document) : Res Value :=
  match doc with
  | [] => .panic .expect
  | root :: nodes => do
    let (v, _) ← hydrateS (nodesFuel doc) stk root nodes
    return v

section
variable [Arch]
mutual
/-- Derived `PartialEq for Value`, value.rs:14, where the stack has room for `stk` nested calls of it. -/
def Value.eqS : Nat → Value → Value → Res Bool
  | 0, _, _ => .panic .stack
  | _ + 1, .number a, .number b => .ok (a.eq b)
  | _ + 1, .string a, .string b => a.eq b
  | _ + 1, .boolean a, .boolean b => .ok (a == b)
  | stk + 1, .object a, .object b => if a.length = b.length then Object.eqAuxS stk a b else .ok false
  | stk + 1, .array a, .array b => if a.length = b.length then Value.eqAuxS stk a b else .ok false
  | _ + 1, .null, .null => .ok true
  | _ + 1, _, _ => .ok false
/-- Slice equality after the length check, for value.rs:14. -/
def Value.eqAuxS (stk : Nat) : List Value → List Value → Res Bool
  | a :: as, b :: bs =>
    match Value.eqS stk a b with
    | .ok true => Value.eqAuxS stk as bs
    | .ok false => .ok false
    | .panic p => .panic p
  | _, _ => .ok true
/-- The same for entries, for value.rs:815, 897. -/
def Object.eqAuxS (stk : Nat) : List (JsonString × Value) → List (JsonString × Value) → Res Bool
  | (k, a) :: as, (k', b) :: bs =>
    match k.eq k' with
    | .ok true =>
      match Value.eqS stk a b with
      | .ok true => Object.eqAuxS stk as bs
      | .ok false => .ok false
      | .panic p => .panic p
    | .ok false => .ok false
    | .panic p => .panic p
  | _, _ => .ok true
end
end

mutual
/-- The code that the compiler generates to drop a `Value` (value.rs:15-29), where the stack has room for `stk` nested calls of it:
the elements of an array (value.rs:26) and the values of an object (value.rs:24, 816, 898-903) are dropped one after the other.
Releasing the memory is not modelled. -/
def Value.dropS : Nat → Value → Res Unit
  | 0, _ => .panic .stack
  | stk + 1, .array vs => Value.dropAllS stk vs
  | stk + 1, .object es => Object.dropAllS stk es
  | _ + 1, _ => .ok ()
/-- `Vec<Value>`, value.rs:26 -/
def Value.dropAllS (stk : Nat) : List Value → Res Unit
  | [] => .ok ()
  | v :: vs => do
    Value.dropS stk v
    Value.dropAllS stk vs
/-- `Vec<Entry>`, value.rs:816 -/
def Object.dropAllS (stk : Nat) : List (JsonString × Value) → Res Unit
  | [] => .ok ()
  | (_, v) :: es => do
    Value.dropS stk v
    Object.dropAllS stk es
end

end JustJson
