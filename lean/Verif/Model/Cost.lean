import Verif.Model.Parser
/-! # The tokenizer and the parser with the accesses to the source counted

A second model of `ByteIterator`, `Tokenizer` and `Parser` (src/parser.rs), closer to the code: each loop is written
as it is in the code, one byte at a time, and the state carries the number of times a byte of the source was
looked at (`self.bytes.get(..)`, and each byte that `core::str::from_utf8` is given). `Lemmas/Cost.lean` proves that
forgetting the counter gives exactly the functions of `Model/Tokenizer.lean` and `Model/Parser.lean`.

Loops get `src.length + 1` as fuel; `Lemmas/Cost.lean` shows that it does not run out. -/

namespace JustJson

/-- `ByteIterator::offset`, and the number of accesses to `ByteIterator::bytes` so far. parser.rs:911-914. -/
structure Meter where
  offset : Nat
  reads : Nat
deriving DecidableEq

/-- The tokenizer monad with the counter. The methods of `Tokenizer` and `ByteIterator`, parser.rs:95-470, 911-991. -/
abbrev TokC (α : Type) := M Meter (Error Empty) α

/-- `return Err(Error { offset, kind })`, as in parser.rs:350-353. -/
def tokErrC {α : Type} (offset : Nat) (kind : ErrorKind Empty) : TokC α := M.throw ⟨offset, kind⟩

/-- `self.source.offset`, parser.rs:183, 469. -/
def offsetC : TokC Nat := fun s => .ok s.offset s

/-- `self.offset += 1`, parser.rs:927, 968. -/
def bumpC : TokC Unit := M.modify fun s => { s with offset := s.offset + 1 }

/-- `core::str::from_utf8(&bytes[..])` looks at each of its bytes once. parser.rs:217. -/
def chargeC (n : Nat) : TokC Unit := M.modify fun s => { s with reads := s.reads + n }

section
variable (src : List UInt8)

/-- `self.bytes.get(self.offset)`: one access. This is `ByteIterator::peek`, parser.rs:945-947. -/
def peekByteC : TokC (Option UInt8) := fun s => .ok src[s.offset]? { s with reads := s.reads + 1 }

/-- `ByteIterator::next`, parser.rs:916-933. -/
def nextByteC : TokC (Option (Nat × UInt8)) := do
  match ← peekByteC src with
  | none => return none
  | some b =>
    let offset ← offsetC
    bumpC
    return some (offset, b)

/-- The `loop` of `ByteIterator::skip_ws`, parser.rs:964-975. -/
def skipWsLoopC : Nat → TokC Unit
  | 0 => M.panic .fuel
  | fuel + 1 => do
    match ← peekByteC src with
    | some b =>
      if isWs b then
        bumpC
        skipWsLoopC fuel
      else return ()
    | none => return ()

/-- `ByteIterator::skip_ws`, parser.rs:964-975. -/
def skipWsC : TokC Unit := skipWsLoopC src (src.length + 1)

/-- `next().ok_or(Error { offset, kind })?`, parser.rs:978-983, 182-185, 420-423. -/
def readOrC (kind : ErrorKind Empty) : TokC (Nat × UInt8) := do
  match ← nextByteC src with
  | some r => return r
  | none => tokErrC (← offsetC) kind

/-- `ByteIterator::read`, parser.rs:978-983. -/
def readC : TokC (Nat × UInt8) := readOrC src .unexpectedEof

/-- `ByteIterator::next_non_ws`, parser.rs:950-954. -/
def nextNonWsC : TokC (Option (Nat × UInt8)) := do
  skipWsC src
  nextByteC src

/-- `ByteIterator::read_non_ws`, parser.rs:957-961. -/
def readNonWsC : TokC (Nat × UInt8) := do
  skipWsC src
  readC src

/-- `for _ in 0..4`, parser.rs:250-261 and 272-283. -/
def readHexC : Nat → Nat → TokC Nat
  | 0, decoded => M.pure decoded
  | n + 1, decoded => do
    let (offset, digit) ← readC src
    let nibble := hexOffset digit
    if nibble = 255 then tokErrC offset .invalidHexadecimal
    else readHexC n (decoded <<< 4 ||| nibble.toNat)

/-- parser.rs:266-290. -/
def readLowSurrogateC (decoded : Nat) : TokC (Option Nat) :=
  if HIGH_SURROGATE_MIN ≤ decoded ∧ decoded ≤ HIGH_SURROGATE_MAX then do
    let (_, b1) ← readC src
    if b1 = 0x5C then
      let (_, b2) ← readC src
      if b2 = 0x75 then
        let second ← readHexC src 4 0
        if LOW_SURROGATE_MIN ≤ second ∧ second ≤ LOW_SURROGATE_MAX then
          let merged ← M.orPanic .overflow (mergeSurrogatePair decoded second)
          return some merged
        else return none
      else return none
    else return none
  else return none

/-- `while let Some(byte) = self.source.peek() { if byte < &128 { break; } self.source.next(); }`, parser.rs:207-213. -/
def highLoopC : Nat → TokC Unit
  | 0 => M.panic .fuel
  | fuel + 1 => do
    match ← peekByteC src with
    | some b =>
      if b < 128 then return ()
      else
        let _ ← nextByteC src
        highLoopC fuel
    | none => return ()

section
variable [Arch]

/-- `Tokenizer::read_string_escape`, parser.rs:243-314. -/
def readStringEscapeC (info : JsonStringInfo) : TokC JsonStringInfo := do
  let (offset, b) ← readC src
  if b = 0x22 ∨ b = 0x5C ∨ b = 0x2F ∨ b = 0x62 ∨ b = 0x66 ∨ b = 0x72 ∨ b = 0x6E ∨ b = 0x74 then
    M.orPanic .overflow (info.addBytesFromEscape 1)
  else if b = 0x75 then
    let decoded ← readHexC src 4 0
    match charFromU32 decoded with
    | some ch => M.orPanic .overflow (info.addBytesFromEscape (lenUtf8 ch))
    | none =>
      match ← readLowSurrogateC src decoded with
      | some merged => do
        let ch ← M.ofRes (charFromU32Unchecked merged)
        M.orPanic .overflow (info.addBytesFromEscape (lenUtf8 ch))
      | none => tokErrC offset .utf8
  else tokErrC offset .invalidEscape

/-- The `loop` of `Tokenizer::read_string_from_source`, parser.rs:181-238. -/
def readStringLoopC (g : Bool) (start : Nat) : Nat → JsonStringInfo → TokC JsonString
  | 0, _ => M.panic .fuel
  | fuel + 1, info => do
    let (offset, b) ← readOrC src .unclosedString
    if safeLookup (if g then SAFE_STRING_BYTES else SAFE_STRING_BYTES_VERIFY_UTF8) b then
      let info ← M.orPanic .overflow (info.addBytes 1)
      readStringLoopC g start fuel info
    else if b = 0x22 then
      let body ← M.orPanic .index (sliceBytes src (start + 1) offset)
      let s ← M.orPanic .ub (utf8Decode body)
      return ⟨.json (.borrowed s), info⟩
    else if b = 0x5C then
      let info ← readStringEscapeC src info
      readStringLoopC g start fuel info
    else if 128 ≤ b then
      let utf8Start := offset
      highLoopC src (src.length + 1)
      let unicodeEnd ← offsetC
      let info ← M.orPanic .overflow (info.addBytes (unicodeEnd - utf8Start))
      let run ← M.orPanic .index (sliceBytes src utf8Start unicodeEnd)
      chargeC run.length
      match utf8Decode run with
      | none => tokErrC offset .utf8
      | some _ => readStringLoopC g start fuel info
    else if b ≤ 31 then tokErrC offset (.unexpected b)
    else M.panic .unreachable

/-- `Tokenizer::read_string_from_source`, parser.rs:173-239. -/
def readStringC (g : Bool) (start : Nat) : TokC JsonString :=
  readStringLoopC src g start (src.length + 1) .NONE

end

/-- `while let Some(byte) = self.source.peek() { .. }`, parser.rs:331-347; the result is `read_integer_digit`. -/
def intLoopC : Nat → Bool → TokC Bool
  | 0, _ => M.panic .fuel
  | fuel + 1, rd => do
    match ← peekByteC src with
    | some b =>
      if b = 0x30 ∧ rd = false then
        let _ ← readC src
        return true
      else if isDigit b then
        let _ ← readC src
        intLoopC fuel true
      else return rd
    | none => return rd

/-- `while let Some(byte) = self.source.peek() { .. }`, parser.rs:363-370 and 391-398; the result is
`read_decimal_digit` (`read_exponent_digit`). -/
def digitLoopC : Nat → Bool → TokC Bool
  | 0, _ => M.panic .fuel
  | fuel + 1, rd => do
    match ← peekByteC src with
    | some b =>
      if isDigit b then
        let _ ← nextByteC src
        digitLoopC fuel true
      else return rd
    | none => return rd

/-- parser.rs:361-377 and 389-405. -/
def readDigits1C (kind : ErrorKind Empty) : TokC Unit := do
  let rd ← digitLoopC src (src.length + 1) false
  if rd then return () else tokErrC (← offsetC) kind

/-- parser.rs:330-355: the integer part. -/
def readIntC (st : InitialNumberState) : TokC Unit :=
  if st = .zero then M.pure ()
  else do
    let rd ← intLoopC src (src.length + 1) (st == .digit)
    if rd then return () else tokErrC (← offsetC) .expectedDigit

/-- parser.rs:358-378: the fraction. -/
def readFracC : TokC Unit := do
  if (← peekByteC src) = some 0x2E then
    let _ ← nextByteC src
    readDigits1C src .expectedDecimalDigit
  else return ()

/-- parser.rs:381-406: the exponent. -/
def readExpC : TokC Unit := do
  let b ← peekByteC src
  if b = some 0x65 ∨ b = some 0x45 then
    let _ ← nextByteC src
    let s ← peekByteC src
    if s = some 0x2D ∨ s = some 0x2B then
      let _ ← nextByteC src
    readDigits1C src .expectedExponent
  else return ()

/-- `Tokenizer::read_number_from_source`, parser.rs:318-415. -/
def readNumberC (st : InitialNumberState) (start : Nat) : TokC JsonNumber := do
  readIntC src st
  readFracC src
  readExpC src
  let lit ← M.orPanic .index (sliceBytes src start (← offsetC))
  let s ← M.orPanic .ub (utf8Decode lit)
  return ⟨.borrowed s⟩

/-- `Tokenizer::read_literal_from_source`, parser.rs:418-434. -/
def readLiteralC : List UInt8 → TokC Unit
  | [] => M.pure ()
  | expected :: rest => do
    let (offset, received) ← readOrC src .unexpectedEof
    if received ≠ expected then tokErrC offset (.unexpected received)
    else readLiteralC rest

section
variable [Arch]

/-- `Tokenizer::read_peek`, parser.rs:139-169. -/
def readPeekC (g : Bool) (offset : Nat) (first : UInt8) : TokC Token :=
  if first = 0x7B then M.pure .object
  else if first = 0x7D then M.pure .objectEnd
  else if first = 0x5B then M.pure .array
  else if first = 0x5D then M.pure .arrayEnd
  else if first = 0x2C then M.pure .comma
  else if first = 0x3A then M.pure .colon
  else if first = 0x22 then do return .string (← readStringC src g offset)
  else if first = 0x2D then do return .number (← readNumberC src .sign offset)
  else if first = 0x30 then do return .number (← readNumberC src .zero offset)
  else if 0x31 ≤ first ∧ first ≤ 0x39 then do return .number (← readNumberC src .digit offset)
  else if first = 0x74 then do
    readLiteralC src [0x72, 0x75, 0x65]
    return .bool true
  else if first = 0x66 then do
    readLiteralC src [0x61, 0x6C, 0x73, 0x65]
    return .bool false
  else if first = 0x6E then do
    readLiteralC src [0x75, 0x6C, 0x6C]
    return .null
  else tokErrC offset (.unexpected first)

/-- `Tokenizer::next_or_eof`, parser.rs:133-136. -/
def nextOrEofC (g : Bool) : TokC Token := do
  let (offset, b) ← readNonWsC src
  readPeekC src g offset b

/-- `Iterator::next for Tokenizer`, parser.rs:531-539. -/
def tokNextC (g : Bool) : TokC (Option Token) := do
  match ← nextNonWsC src with
  | none => return none
  | some (offset, b) => return some (← readPeekC src g offset b)

end

/-- `Tokenizer::peek`, parser.rs:442-463. -/
def tokPeekC : TokC (Option PeekableTokenKind) := do
  skipWsC src
  let b ← peekByteC src
  return b.map peekKind

end

section
variable [Arch]

/-- Tokenizer (with the counter) together with `ParseState`, parser.rs:1112-1120. -/
structure PStateC (σ : Type) where
  meter : Meter
  delegate : σ
  remainingDepth : Nat

variable (g : Bool) (src : List UInt8) (cfg : ParseConfig) (D : Delegate)

/-- The parser monad with the counter. The methods of `Parser`, parser.rs:587-845. -/
abbrev PC (α : Type) := M (PStateC D.σ) (Error D.Err) α

/-- `return Err(Error { offset, kind })`, as in parser.rs:724-727. -/
def perrC {α : Type} (offset : Nat) (kind : ErrorKind D.Err) : PC D α := M.throw ⟨offset, kind⟩

/-- A tokenizer call with `.map_err(Error::into_fallable)?`, parser.rs:639, 700, 762, 825. -/
def liftTokC {α : Type} (m : TokC α) : PC D α := fun s =>
  match m s.meter with
  | .ok a t => .ok a { s with meter := t }
  | .err e t => .err e.intoFallable { s with meter := t }
  | .panic p => .panic p

/-- A delegate callback with `.map_err(|e| Error { offset, kind: ErrorFromDelegate(e) })?`,
parser.rs:641-683, 692-697, 774-781, 819-823. -/
def liftDC {α : Type} (offset : Nat) (m : M D.σ D.Err α) : PC D α := fun s =>
  match m s.delegate with
  | .ok a d => .ok a { s with delegate := d }
  | .err e d => .err ⟨offset, .errorFromDelegate e⟩ { s with delegate := d }
  | .panic p => .panic p

/-- A pure delegate query (`&self`), parser.rs:704, 804. -/
def liftQC {α : Type} (q : D.σ → Res α) : PC D α := fun s =>
  match q s.delegate with
  | .ok a => .ok a s
  | .panic p => .panic p

/-- `self.tokenizer.offset()`, parser.rs:638, 699, 737. -/
def tokOffsetC : PC D Nat := fun s => .ok s.meter.offset s

/-- `ParseState::begin_nest().map_err(|kind| Error { offset, kind })?`, parser.rs:1127-1137. -/
def beginNestC (offset : Nat) : PC D Unit := fun s =>
  if cfg.recursionLimit.isSome then
    if s.remainingDepth > 0 then .ok () { s with remainingDepth := s.remainingDepth - 1 }
    else .err ⟨offset, .recursionLimitReached⟩ s
  else .ok () s

/-- `ParseState::end_nest`, parser.rs:1140-1144. -/
def endNestC : PC D Unit := fun s =>
  if cfg.recursionLimit.isSome then .ok () { s with remainingDepth := s.remainingDepth + 1 }
  else .ok () s

/-- `next_or_eof().map_err(|mut error| { error.kind = ExpectedColon; .. })?`, parser.rs:738-742. -/
def nextColonC : PC D Token := fun s =>
  match nextOrEofC src g s.meter with
  | .ok a t => .ok a { s with meter := t }
  | .err e t => .err (toExpectedColon e) { s with meter := t }
  | .panic p => .panic p

mutual
/-- `Parser::read_tokens`, parser.rs:634-685. -/
def readTokensC : Nat → PC D D.Value
  | 0 => M.panic .fuel
  | fuel + 1 => do
    let offset ← tokOffsetC D
    let token ← liftTokC D (nextOrEofC src g)
    match token with
    | .null => liftDC D offset D.null
    | .object =>
      beginNestC cfg D offset
      M.mapErr (eofTo .unclosedObject) (readObjectC fuel)
    | .array =>
      beginNestC cfg D offset
      M.mapErr (eofTo .unclosedArray) (readArrayC fuel)
    | .objectEnd => perrC D offset (.unexpected 0x7D)
    | .arrayEnd => perrC D offset (.unexpected 0x5D)
    | .colon => perrC D offset (.unexpected 0x3A)
    | .comma => perrC D offset (.unexpected 0x2C)
    | .bool b => liftDC D offset (D.boolean b)
    | .string s => liftDC D offset (D.string s)
    | .number n => liftDC D offset (D.number n)

/-- `Parser::read_object`, parser.rs:688-782. -/
def readObjectC : Nat → PC D D.Value
  | 0 => M.panic .fuel
  | fuel + 1 => do
    let offset ← tokOffsetC D
    let object ← liftDC D offset D.beginObject
    let object ← readObjectLoopC fuel object
    let offset ← tokOffsetC D
    let value ← liftDC D offset (D.endObject object)
    endNestC cfg D
    return value

/-- The `loop` of `read_object`, parser.rs:698-772. -/
def readObjectLoopC : Nat → D.Object → PC D D.Object
  | 0, _ => M.panic .fuel
  | fuel + 1, object => do
    let offset ← tokOffsetC D
    let token ← liftTokC D (nextOrEofC src g)
    match token with
    | .objectEnd =>
      if cfg.allowTrailingCommas then return object
      else if ← liftQC D (D.objectIsEmpty · object) then return object
      else perrC D offset .illegalTrailingComma
    | .string key =>
      let (object, key) ← liftDC D offset (D.objectKey object key)
      let offset ← tokOffsetC D
      let token ← nextColonC g src D
      if token ≠ .colon then perrC D offset .expectedColon
      else
        let offset ← tokOffsetC D
        let value ← readTokensC fuel
        let object ← liftDC D offset (D.objectValue object key value)
        let offset ← tokOffsetC D
        let token ← liftTokC D (nextOrEofC src g)
        if token = .objectEnd then return object
        else if token ≠ .comma then perrC D offset .expectedCommaOrEndOfObject
        else readObjectLoopC fuel object
    | .array | .bool _ | .null | .number _ | .object => perrC D offset .objectKeysMustBeStrings
    | _ => perrC D offset .expectedObjectKey

/-- `Parser::read_array`, parser.rs:785-845. -/
def readArrayC : Nat → PC D D.Value
  | 0 => M.panic .fuel
  | fuel + 1 => do
    let offset ← tokOffsetC D
    let array ← liftDC D offset D.beginArray
    let array ← readArrayLoopC fuel array
    let value ← liftDC D offset (D.endArray array)
    endNestC cfg D
    return value

/-- The `loop` of `read_array`, parser.rs:795-835. -/
def readArrayLoopC : Nat → D.Array → PC D D.Array
  | 0, _ => M.panic .fuel
  | fuel + 1, array => do
    let offset ← tokOffsetC D
    if (← liftTokC D (tokPeekC src)) = some .arrayEnd then
      liftTokC D bumpC
      if cfg.allowTrailingCommas then return array
      else if ← liftQC D (D.arrayIsEmpty · array) then return array
      else perrC D offset .illegalTrailingComma
    else
      let value ← readTokensC fuel
      let offset ← tokOffsetC D
      let array ← liftDC D offset (D.arrayValue array value)
      let offset ← tokOffsetC D
      let token ← liftTokC D (nextOrEofC src g)
      if token = .arrayEnd then return array
      else if token ≠ .comma then perrC D offset .expectedCommaOrEndOfArray
      else readArrayLoopC fuel array
end

/-- `Parser::parse_bytes` on a running `ParseState`, parser.rs:599-620. -/
def parseMC : PC D D.Value := do
  let value ← readTokensC g src cfg D (parseFuel src)
  let reject ← if cfg.allowAllTypesAtRoot then M.pure false else do
    let k ← liftQC D (D.kindOf · value)
    M.pure (!(k == .object || k == .array))
  if reject then perrC D 0 .payloadsShouldBeObjectOrArray
  else
    match ← liftTokC D (nextNonWsC src) with
    | none => return value
    | some (offset, _) => perrC D offset .trailingNonWhitespace

/-- `Parser::parse_bytes`, parser.rs:587-620, with the accesses to the source counted. -/
def parseBytesC (d : D.σ) : Out (PStateC D.σ) (Error D.Err) D.Value :=
  parseMC g src cfg D ⟨⟨0, 0⟩, d, cfg.recursionLimit.getD USIZE_MAX⟩

end
end JustJson
