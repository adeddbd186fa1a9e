import Verif.Model.Number
import Verif.Model.Error
/-! # Model of `ByteIterator` and `Tokenizer` (src/parser.rs:11-470, 531-539, 911-991)

`g` is the const generic `GUARANTEED_UTF8`, `src` the byte slice, and the state is
`ByteIterator::offset`. -/

namespace JustJson

/-- `Token`, parser.rs:13-34. -/
inductive Token where
  | null
  | bool (b : Bool)
  | string (s : JsonString)
  | number (n : JsonNumber)
  | object
  | objectEnd
  | array
  | arrayEnd
  | colon
  | comma
deriving DecidableEq, Repr

/-- `PeekableTokenKind`, parser.rs:40-88. -/
inductive PeekableTokenKind where
  | null | true | false | string | number | object | objectEnd | array | arrayEnd
  | unrecognized | colon | comma
deriving DecidableEq, Repr

/-- The tokenizer monad: the state is the offset, the error type `Error<Infallible>`.
The methods of `Tokenizer` and `ByteIterator`, parser.rs:95-470, 911-991. -/
abbrev TokM (α : Type) := M Nat (Error Empty) α

/-- `return Err(Error { offset, kind })`, as in parser.rs:350-353. -/
def tokErr {α : Type} (offset : Nat) (kind : ErrorKind Empty) : TokM α := M.throw ⟨offset, kind⟩

/-- Length of the longest prefix whose bytes satisfy `p`: what a loop
`while let Some(b) = peek() { if !p(b) { break } next(); }` advances by. parser.rs:337-347, 363-369, 391-397, 964-975. -/
def runLen (p : UInt8 → Bool) : List UInt8 → Nat
  | [] => 0
  | b :: bs => if p b then runLen p bs + 1 else 0

/-- `b' ' | b'\n' | b'\t' | b'\r'`, parser.rs:967. -/
def isWs (b : UInt8) : Bool := b == 0x20 || b == 0x0A || b == 0x09 || b == 0x0D

/-- `u8::is_ascii_digit`, `b'0'..=b'9'`. parser.rs:341, 364, 392. -/
def isDigit (b : UInt8) : Bool := 0x30 ≤ b && b ≤ 0x39

/-- `&bytes[a..b]`; `none` is the panic. parser.rs:196, 217, 412. -/
def sliceBytes (src : List UInt8) (a b : Nat) : Option (List UInt8) :=
  if a ≤ b ∧ b ≤ src.length then some ((src.drop a).take (b - a)) else none

section
variable (src : List UInt8)

/-- `ByteIterator::next`, parser.rs:916-933. -/
def nextByte : TokM (Option (Nat × UInt8)) := fun off =>
  match src[off]? with
  | none => .ok none off
  | some b => .ok (some (off, b)) (off + 1)

/-- `ByteIterator::peek`, parser.rs:945-947. -/
def peekByte : TokM (Option UInt8) := fun off => .ok src[off]? off

/-- `ByteIterator::skip_ws`, parser.rs:964-975. -/
def skipWs : TokM Unit := fun off => .ok () (off + runLen isWs (src.drop off))

/-- `next().ok_or(Error { offset, kind })?`, as in `ByteIterator::read` (parser.rs:978-983, kind
`UnexpectedEof`), parser.rs:182-185 (`UnclosedString`) and parser.rs:420-423 (`UnexpectedEof`). -/
def readOr (kind : ErrorKind Empty) : TokM (Nat × UInt8) := do
  match ← nextByte src with
  | some r => return r
  | none => tokErr (← M.get) kind

/-- `ByteIterator::read`, parser.rs:978-983. -/
def read : TokM (Nat × UInt8) := readOr src .unexpectedEof

/-- `ByteIterator::next_non_ws`, parser.rs:950-954. -/
def nextNonWs : TokM (Option (Nat × UInt8)) := do
  skipWs src
  nextByte src

/-- `ByteIterator::read_non_ws`, parser.rs:957-961. -/
def readNonWs : TokM (Nat × UInt8) := do
  skipWs src
  read src

/-- The loop `for _ in 0..4` reading hexadecimal digits, parser.rs:250-261 and 272-283;
`decoded << 4 | nibble` is `u32` arithmetic that cannot overflow. -/
def readHex : Nat → Nat → TokM Nat
  | 0, decoded => M.pure decoded
  | n + 1, decoded => do
    let (offset, digit) ← read src
    let nibble := hexOffset digit
    if nibble = 255 then tokErr offset .invalidHexadecimal
    else readHex n (decoded <<< 4 ||| nibble.toNat)

/-- parser.rs:266-290: after a code that is not a scalar value, try to read a second `\u` escape.
The result is the merged code point when there is a valid surrogate pair. The two `read()?` of
parser.rs:271 are joined by a short-circuiting `&&`. -/
def readLowSurrogate (decoded : Nat) : TokM (Option Nat) :=
  if HIGH_SURROGATE_MIN ≤ decoded ∧ decoded ≤ HIGH_SURROGATE_MAX then do
    let (_, b1) ← read src
    if b1 = 0x5C then
      let (_, b2) ← read src
      if b2 = 0x75 then
        let second ← readHex src 4 0
        if LOW_SURROGATE_MIN ≤ second ∧ second ≤ LOW_SURROGATE_MAX then
          let merged ← M.orPanic .overflow (mergeSurrogatePair decoded second)
          return some merged
        else return none
      else return none
    else return none
  else return none

section
variable [Arch]

/-- `Tokenizer::read_string_escape`, parser.rs:243-314; returns the updated `string_info`. -/
def readStringEscape (info : JsonStringInfo) : TokM JsonStringInfo := do
  let (offset, b) ← read src
  if b = 0x22 ∨ b = 0x5C ∨ b = 0x2F ∨ b = 0x62 ∨ b = 0x66 ∨ b = 0x72 ∨ b = 0x6E ∨ b = 0x74 then
    M.orPanic .overflow (info.addBytesFromEscape 1)
  else if b = 0x75 then
    let decoded ← readHex src 4 0
    match charFromU32 decoded with
    | some ch => M.orPanic .overflow (info.addBytesFromEscape (lenUtf8 ch))
    | none =>
      match ← readLowSurrogate src decoded with
      | some merged => do
        let ch ← M.ofRes (charFromU32Unchecked merged)
        M.orPanic .overflow (info.addBytesFromEscape (lenUtf8 ch))
      | none => tokErr offset .utf8
  else tokErr offset .invalidEscape

/-- The `loop` of `Tokenizer::read_string_from_source`, parser.rs:181-238. -/
def readStringLoop (g : Bool) (start : Nat) : Nat → JsonStringInfo → TokM JsonString
  | 0, _ => M.panic .fuel
  | fuel + 1, info => do
    let (offset, b) ← readOr src .unclosedString
    if safeLookup (if g then SAFE_STRING_BYTES else SAFE_STRING_BYTES_VERIFY_UTF8) b then
      let info ← M.orPanic .overflow (info.addBytes 1)
      readStringLoop g start fuel info
    else if b = 0x22 then
      let body ← M.orPanic .index (sliceBytes src (start + 1) offset)
      let s ← M.orPanic .ub (utf8Decode body)
      return ⟨.json (.borrowed s), info⟩
    else if b = 0x5C then
      let info ← readStringEscape src info
      readStringLoop g start fuel info
    else if 128 ≤ b then
      let utf8Start := offset
      M.modify fun off => off + runLen (fun b => 128 ≤ b) (src.drop off)
      let unicodeEnd ← M.get
      let info ← M.orPanic .overflow (info.addBytes (unicodeEnd - utf8Start))
      let run ← M.orPanic .index (sliceBytes src utf8Start unicodeEnd)
      match utf8Decode run with
      | none => tokErr offset .utf8
      | some _ => readStringLoop g start fuel info
    else if b ≤ 31 then tokErr offset (.unexpected b)
    else M.panic .unreachable

/-- `Tokenizer::read_string_from_source`, parser.rs:173-239. Each iteration consumes a byte. -/
def readString (g : Bool) (start : Nat) : TokM JsonString :=
  readStringLoop src g start (src.length + 1) .NONE

end

/-- `InitialNumberState`, parser.rs:986-991. -/
inductive InitialNumberState where
  | zero | digit | sign
deriving DecidableEq

/-- The `while let` loop over integer digits, parser.rs:331-347: the new `read_integer_digit` and
the number of bytes consumed. -/
def intLoop : List UInt8 → Bool → Bool × Nat
  | [], rd => (rd, 0)
  | b :: bs, rd =>
    if b = 0x30 ∧ rd = false then (true, 1)
    else if isDigit b then
      let r := intLoop bs true
      (r.1, r.2 + 1)
    else (rd, 0)

/-- One or more digits, else `Err(kind)` at the current offset: parser.rs:361-377 and 389-405. -/
def readDigits1 (kind : ErrorKind Empty) : TokM Unit := do
  let n := runLen isDigit (src.drop (← M.get))
  M.modify (· + n)
  if n = 0 then tokErr (← M.get) kind else return ()

/-- parser.rs:330-355: the integer part. -/
def readInt (st : InitialNumberState) : TokM Unit :=
  if st = .zero then M.pure ()
  else do
    let r := intLoop (src.drop (← M.get)) (st == .digit)
    M.modify (· + r.2)
    if r.1 then return () else tokErr (← M.get) .expectedDigit

/-- parser.rs:358-378: the fraction. -/
def readFrac : TokM Unit := do
  if (← peekByte src) = some 0x2E then
    let _ ← nextByte src
    readDigits1 src .expectedDecimalDigit
  else return ()

/-- parser.rs:381-406: the exponent. -/
def readExp : TokM Unit := do
  let b ← peekByte src
  if b = some 0x65 ∨ b = some 0x45 then
    let _ ← nextByte src
    let s ← peekByte src
    if s = some 0x2D ∨ s = some 0x2B then
      let _ ← nextByte src
    readDigits1 src .expectedExponent
  else return ()

/-- `Tokenizer::read_number_from_source`, parser.rs:318-415. -/
def readNumber (st : InitialNumberState) (start : Nat) : TokM JsonNumber := do
  readInt src st
  readFrac src
  readExp src
  let lit ← M.orPanic .index (sliceBytes src start (← M.get))
  let s ← M.orPanic .ub (utf8Decode lit)
  return ⟨.borrowed s⟩

/-- `Tokenizer::read_literal_from_source`, parser.rs:418-434. -/
def readLiteral : List UInt8 → TokM Unit
  | [] => M.pure ()
  | expected :: rest => do
    let (offset, received) ← readOr src .unexpectedEof
    if received ≠ expected then tokErr offset (.unexpected received)
    else readLiteral rest

section
variable [Arch]

/-- `Tokenizer::read_peek`, parser.rs:139-169. -/
def readPeek (g : Bool) (offset : Nat) (first : UInt8) : TokM Token :=
  if first = 0x7B then M.pure .object
  else if first = 0x7D then M.pure .objectEnd
  else if first = 0x5B then M.pure .array
  else if first = 0x5D then M.pure .arrayEnd
  else if first = 0x2C then M.pure .comma
  else if first = 0x3A then M.pure .colon
  else if first = 0x22 then do return .string (← readString src g offset)
  else if first = 0x2D then do return .number (← readNumber src .sign offset)
  else if first = 0x30 then do return .number (← readNumber src .zero offset)
  else if 0x31 ≤ first ∧ first ≤ 0x39 then do return .number (← readNumber src .digit offset)
  else if first = 0x74 then do
    readLiteral src [0x72, 0x75, 0x65]
    return .bool true
  else if first = 0x66 then do
    readLiteral src [0x61, 0x6C, 0x73, 0x65]
    return .bool false
  else if first = 0x6E then do
    readLiteral src [0x75, 0x6C, 0x6C]
    return .null
  else tokErr offset (.unexpected first)

/-- `Tokenizer::next_or_eof`, parser.rs:133-136. -/
def nextOrEof (g : Bool) : TokM Token := do
  let (offset, b) ← readNonWs src
  readPeek src g offset b

/-- `Iterator::next for Tokenizer`, parser.rs:531-539: the item (`Some(Ok(token))` is
`ok (some token)`, `Some(Err(e))` is `err e`, `None` is `ok none`). -/
def tokNext (g : Bool) : TokM (Option Token) := do
  match ← nextNonWs src with
  | none => return none
  | some (offset, b) => return some (← readPeek src g offset b)

end

/-- The `match token { .. }` of `Tokenizer::peek`, parser.rs:447-460. -/
def peekKind (b : UInt8) : PeekableTokenKind :=
  if b = 0x7B then .object
  else if b = 0x7D then .objectEnd
  else if b = 0x5B then .array
  else if b = 0x5D then .arrayEnd
  else if b = 0x2C then .comma
  else if b = 0x3A then .colon
  else if b = 0x22 then .string
  else if b = 0x2D ∨ (0x30 ≤ b ∧ b ≤ 0x39) then .number
  else if b = 0x74 then .true
  else if b = 0x66 then .false
  else if b = 0x6E then .null
  else .unrecognized

/-- `Tokenizer::peek`, parser.rs:442-463. It cannot fail. -/
def tokPeek : TokM (Option PeekableTokenKind) := do
  skipWs src
  let b ← peekByte src
  return b.map peekKind

end
end JustJson
