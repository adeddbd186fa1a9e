import Verif.Model.Value
/-! # Model of `WriteState` and the JSON writers of `Value` (src/value.rs:253-393, 464-472, 576-663) -/

namespace JustJson
section
variable [Arch]

/-- An implementation of `fmt::Write`: the flag is `false` for `Err(fmt::Error)`. The `W: fmt::Write` of value.rs:253. -/
structure Writer where
  W : Type
  writeStr : W → Str → W × Bool
  writeChar : W → Char → W × Bool

/-- `String` as `fmt::Write` (alloc): never fails. For value.rs:332-365. -/
@[reducible] def stringWriter : Writer where
  W := Str
  writeStr w s := (w ++ s, true)
  writeChar w c := (w ++ [c], true)

/-- `WriteState`, value.rs:576-582; the const generic `PRETTY`, `indent_per_level` and `line_ending`
never change and are parameters. -/
structure WState (W : Type) where
  writer : W
  level : Nat
  isAtLineStart : Bool

variable (F : Writer) (pretty : Bool) (indent lineEnding : Str)

/-- `fmt::Result`-returning calls on `&mut WriteState`. value.rs:264-322, 575-660. -/
abbrev WM (α : Type) := M (WState F.W) Unit α

/-- `self.writer.write_str(s)?`, value.rs:603, 607, 616. -/
def wStr (s : Str) : WM F Unit := fun st =>
  match F.writeStr st.writer s with
  | (w, true) => .ok () { st with writer := w }
  | (w, false) => .err () { st with writer := w }

/-- `f.write_char(c)?`, string.rs:743, 760. -/
def wChar (c : Char) : WM F Unit := fun st =>
  match F.writeChar st.writer c with
  | (w, true) => .ok () { st with writer := w }
  | (w, false) => .err () { st with writer := w }

/-- `for _ in 0..self.level { self.writer.write_str(self.indent_per_level)?; }`, value.rs:602-604. -/
def wIndent : Nat → WM F Unit
  | 0 => M.pure ()
  | n + 1 => do
    wStr F indent
    wIndent n

/-- The common prologue of `write` and `write_json`, value.rs:599-605 and 612-618. -/
def wPrologue : WM F Unit := do
  let st ← M.get
  if pretty && st.isAtLineStart then
    M.modify fun st => { st with isAtLineStart := false }
    wIndent F indent st.level
  else return ()

/-- `WriteState::write`, value.rs:598-609. -/
def wWrite (s : Str) : WM F Unit := do
  wPrologue F pretty indent
  wStr F s

/-- `Display for AsJson`, string.rs:757-765, with fuel: writes each character as the iterator
produces it. -/
def wAsJson : Nat → AsJson → WM F Unit
  | 0, _ => M.panic .fuel
  | n + 1, a =>
    match a.next with
    | .panic p => M.panic p
    | .ok none => M.pure ()
    | .ok (some (c, a')) => do
      wChar F c
      wAsJson n a'

/-- `WriteState::write_json`, value.rs:611-621: `write!(self.writer, "\"{}\"", str.as_json())` is a
`write_str`, the characters of `as_json()` one by one, and a `write_str`. -/
def wWriteJson (s : JsonString) : WM F Unit := do
  wPrologue F pretty indent
  wStr F ['"']
  let a := AsJson.new s.source s.info
  wAsJson F (6 * a.chars.length + 7) a
  wStr F ['"']

/-- `WriteState::new_line`, value.rs:623-629. -/
def wNewLine : WM F Unit :=
  if pretty then do
    wWrite F pretty indent lineEnding
    M.modify fun st => { st with isAtLineStart := true }
  else M.pure ()

/-- `self.level += 1` after the opening bracket: `begin_object` (value.rs:631-635) and `begin_array`
(value.rs:652-656). -/
def wBegin (s : Str) : WM F Unit := do
  wWrite F pretty indent s
  M.modify fun st => { st with level := st.level + 1 }

/-- `write_object_key_end`, value.rs:637-644. -/
def wKeyEnd : WM F Unit := wWrite F pretty indent (if pretty then [':', ' '] else [':'])

/-- `self.level -= 1` (a checked subtraction), then the closing bracket: `end_object`
(value.rs:646-650) and `end_array` (value.rs:658-662). -/
def wEnd (s : Str) : WM F Unit := do
  let st ← M.get
  if st.level = 0 then M.panic .overflow
  else
    M.modify fun st => { st with level := st.level - 1 }
    wWrite F pretty indent s

mutual
/-- `Value::write_json_value` with `write_json_object` and `write_json_array`, value.rs:264-322. -/
def writeValue : Value → WM F Unit
  | .string s => wWriteJson F pretty indent s
  | .number n => wWrite F pretty indent n.sourceStr
  | .boolean b => wWrite F pretty indent (if b then ['t', 'r', 'u', 'e'] else ['f', 'a', 'l', 's', 'e'])
  | .null => wWrite F pretty indent ['n', 'u', 'l', 'l']
  | .object es => do
    wBegin F pretty indent ['{']
    if es.isEmpty then M.pure () else do
      wNewLine F pretty indent lineEnding
      writeEntries es.length 0 es
    wEnd F pretty indent ['}']
  | .array vs => do
    wBegin F pretty indent ['[']
    if vs.isEmpty then M.pure () else do
      wNewLine F pretty indent lineEnding
      writeValues vs.length 0 vs
    wEnd F pretty indent [']']

/-- The `for (index, entry) in obj.0.iter().enumerate()` loop, value.rs:286-294. -/
def writeEntries (len index : Nat) : List (JsonString × Value) → WM F Unit
  | [] => M.pure ()
  | (k, v) :: es => do
    wWriteJson F pretty indent k
    wKeyEnd F pretty indent
    writeValue v
    if index ≠ len - 1 then wWrite F pretty indent [','] else M.pure ()
    wNewLine F pretty indent lineEnding
    writeEntries len (index + 1) es

/-- The `for (index, value) in array.iter().enumerate()` loop, value.rs:308-314. -/
def writeValues (len index : Nat) : List Value → WM F Unit
  | [] => M.pure ()
  | v :: vs => do
    writeValue v
    if index ≠ len - 1 then wWrite F pretty indent [','] else M.pure ()
    wNewLine F pretty indent lineEnding
    writeValues len (index + 1) vs
end

/-- `Value::write_json`, value.rs:253-262 with `WriteState::new`, value.rs:588-596: the final writer and
whether the call returned `Ok`. -/
def Value.writeJson (v : Value) (w : F.W) : Res (F.W × Bool) :=
  match writeValue F pretty indent lineEnding v ⟨w, 0, true⟩ with
  | .ok _ st => .ok (st.writer, true)
  | .err _ st => .ok (st.writer, false)
  | .panic p => .panic p

/-- `Value::write_json_to`, value.rs:369-371. -/
def Value.writeJsonTo (v : Value) (w : F.W) : Res (F.W × Bool) := v.writeJson F false [] [] w

/-- `Value::pretty_write_json_to_custom`, value.rs:385-392. -/
def Value.prettyWriteJsonToCustom (v : Value) (indentation lineEnding : Str) (w : F.W) :
    Res (F.W × Bool) := v.writeJson F true indentation lineEnding w

/-- `Value::pretty_write_json_to`, value.rs:379-381. -/
def Value.prettyWriteJsonTo (v : Value) (w : F.W) : Res (F.W × Bool) :=
  v.prettyWriteJsonToCustom F [' ', ' '] ['\n'] w

/-- `let mut out = String::new(); write(&mut out).expect("out of memory"); out`, value.rs:332-336, 346-351, 361-365. -/
def intoString (f : stringWriter.W → Res (stringWriter.W × Bool)) : Res Str :=
  match f ([] : Str) with
  | .ok (out, true) => .ok out
  | .ok (_, false) => .panic .expect
  | .panic p => .panic p

/-- `Value::to_json`, value.rs:361-365. -/
def Value.toJson (v : Value) : Res Str := intoString (v.writeJsonTo stringWriter)

/-- `Value::to_json_pretty`, value.rs:332-336. -/
def Value.toJsonPretty (v : Value) : Res Str := intoString (v.prettyWriteJsonTo stringWriter)

/-- `Value::to_json_pretty_custom`, value.rs:346-351. -/
def Value.toJsonPrettyCustom (v : Value) (indentation lineEnding : Str) : Res Str :=
  intoString (v.prettyWriteJsonToCustom stringWriter indentation lineEnding)

/-- `Display for Value`, value.rs:464-472: `alternate` is the `#` flag of the format string. -/
def Value.display (v : Value) (alternate : Bool) (w : F.W) : Res (F.W × Bool) :=
  if alternate then v.prettyWriteJsonTo F w else v.writeJsonTo F w

end
end JustJson
