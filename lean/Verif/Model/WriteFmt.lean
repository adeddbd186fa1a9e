import Verif.Model.Write
/-! # Model of the JSON writers on a `fmt::Write` that has a `write_fmt` of its own (src/value.rs:253-322, 576-663)

`Model/Write.lean` takes `write!(self.writer, "\"{}\"", str.as_json())` (value.rs:620) to be what core's provided
`write_fmt` makes of it. Here it is one call of the writer's third method, whatever that does. All the other calls of
`WriteState` are of `write_str`, and are those of `Model/Write.lean`. -/

namespace JustJson
section
variable [Arch]

/-- The `fmt::Arguments` of `format_args!("\"{}\"", str.as_json())`, value.rs:620: two literal pieces and the string whose
`as_json()` is displayed between them. -/
structure FmtArgs where
  before : Str
  arg : JsonString
  after : Str
deriving DecidableEq

/-- An implementation of all three methods of `fmt::Write`, the `W: fmt::Write` of value.rs:253. A `write_fmt` need not
write what it is given; it may panic, as may the `Display` it calls. -/
structure FmtWriter extends Writer where
  writeFmt : W → FmtArgs → Res (W × Bool)

/-- The calls of core's provided `write_fmt` (`core::fmt::write`) for value.rs:620: a `write_str` for each piece, and
`Display for AsJson`, string.rs:757-765, in between. -/
def fmtDefault (F : Writer) (a : FmtArgs) : WM F Unit := do
  wStr F a.before
  wAsJson F (6 * (AsJson.new a.arg.source a.arg.info).chars.length + 7) (AsJson.new a.arg.source a.arg.info)
  wStr F a.after

/-- A `fmt::Write` that has the provided `write_fmt`: the one of value.rs:620 for such writers. -/
@[reducible] def Writer.withDefault (F : Writer) : FmtWriter where
  toWriter := F
  writeFmt w a :=
    match fmtDefault F a ⟨w, 0, false⟩ with
    | .ok _ st => .ok (st.writer, true)
    | .err _ st => .ok (st.writer, false)
    | .panic p => .panic p

variable (G : FmtWriter) (pretty : Bool) (indent lineEnding : Str)

/-- `write!(self.writer, "\"{}\"", str.as_json())`, value.rs:620. -/
def fFmt (a : FmtArgs) : WM G.toWriter Unit := fun st =>
  match G.writeFmt st.writer a with
  | .ok (w, true) => .ok () { st with writer := w }
  | .ok (w, false) => .err () { st with writer := w }
  | .panic p => .panic p

/-- `WriteState::write_json`, value.rs:611-621. -/
def fWriteJson (s : JsonString) : WM G.toWriter Unit := do
  wPrologue G.toWriter pretty indent
  fFmt G ⟨['"'], s, ['"']⟩

mutual
/-- `Value::write_json_value` with `write_json_object` and `write_json_array`, value.rs:264-322. -/
def fmtValue : Value → WM G.toWriter Unit
  | .string s => fWriteJson G pretty indent s
  | .number n => wWrite G.toWriter pretty indent n.sourceStr
  | .boolean b => wWrite G.toWriter pretty indent (if b then ['t', 'r', 'u', 'e'] else ['f', 'a', 'l', 's', 'e'])
  | .null => wWrite G.toWriter pretty indent ['n', 'u', 'l', 'l']
  | .object es => do
    wBegin G.toWriter pretty indent ['{']
    if es.isEmpty then M.pure () else do
      wNewLine G.toWriter pretty indent lineEnding
      fmtEntries es.length 0 es
    wEnd G.toWriter pretty indent ['}']
  | .array vs => do
    wBegin G.toWriter pretty indent ['[']
    if vs.isEmpty then M.pure () else do
      wNewLine G.toWriter pretty indent lineEnding
      fmtValues vs.length 0 vs
    wEnd G.toWriter pretty indent [']']

/-- The `for (index, entry) in obj.0.iter().enumerate()` loop, value.rs:286-294. -/
def fmtEntries (len index : Nat) : List (JsonString × Value) → WM G.toWriter Unit
  | [] => M.pure ()
  | (k, v) :: es => do
    fWriteJson G pretty indent k
    wKeyEnd G.toWriter pretty indent
    fmtValue v
    if index ≠ len - 1 then wWrite G.toWriter pretty indent [','] else M.pure ()
    wNewLine G.toWriter pretty indent lineEnding
    fmtEntries len (index + 1) es

/-- The `for (index, value) in array.iter().enumerate()` loop, value.rs:308-314. -/
def fmtValues (len index : Nat) : List Value → WM G.toWriter Unit
  | [] => M.pure ()
  | v :: vs => do
    fmtValue v
    if index ≠ len - 1 then wWrite G.toWriter pretty indent [','] else M.pure ()
    wNewLine G.toWriter pretty indent lineEnding
    fmtValues len (index + 1) vs
end

/-- `Value::write_json`, value.rs:253-262. -/
def Value.fmtJson (v : Value) (w : G.W) : Res (G.W × Bool) :=
  match fmtValue G pretty indent lineEnding v ⟨w, 0, true⟩ with
  | .ok _ st => .ok (st.writer, true)
  | .err _ st => .ok (st.writer, false)
  | .panic p => .panic p

/-- `Value::write_json_to`, value.rs:369-371. -/
def Value.fmtJsonTo (v : Value) (w : G.W) : Res (G.W × Bool) := v.fmtJson G false [] [] w

/-- `Value::pretty_write_json_to_custom`, value.rs:385-392. -/
def Value.prettyFmtJsonToCustom (v : Value) (indentation lineEnding : Str) (w : G.W) :
    Res (G.W × Bool) := v.fmtJson G true indentation lineEnding w

/-- `Value::pretty_write_json_to`, value.rs:379-381. -/
def Value.prettyFmtJsonTo (v : Value) (w : G.W) : Res (G.W × Bool) :=
  v.prettyFmtJsonToCustom G [' ', ' '] ['\n'] w

end
end JustJson
