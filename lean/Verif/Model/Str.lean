import Verif.Model.Utf8
import Verif.Model.Res
/-! # Model of `src/string.rs` and `src/anystr.rs` -/

namespace JustJson

/-! ## `AnyStr` (anystr.rs) -/

/-- `AnyStr`, anystr.rs:12-18; `From<&str>` is `borrowed`, anystr.rs:110-115, `From<String>` is `owned`, anystr.rs:118-123. -/
inductive AnyStr where
  | owned (s : Str)
  | borrowed (s : Str)
deriving DecidableEq, Repr

/-- `AnyStr::as_str` (also `AsRef`, `Borrow`, `Deref`), anystr.rs:28-34, 37-49, 94-101. -/
def AnyStr.asStr : AnyStr → Str
  | .owned s => s
  | .borrowed s => s

/-- `PartialEq<AnyStr> for AnyStr`, anystr.rs:53-58 (`str` equality is equality of the characters). -/
def AnyStr.eq (a b : AnyStr) : Bool := a.asStr == b.asStr

/-- `PartialEq<str> for AnyStr`, anystr.rs:60-72. -/
def AnyStr.eqStr (a : AnyStr) (s : Str) : Bool := a.asStr == s

/-- `PartialOrd<str> for AnyStr`, anystr.rs:81-92. -/
def AnyStr.partialCmpStr (a : AnyStr) (s : Str) : Option Ordering := some (cmpStr a.asStr s)

/-- `PartialOrd<AnyStr> for AnyStr`, anystr.rs:74-79. -/
def AnyStr.partialCmp (a b : AnyStr) : Option Ordering := a.partialCmpStr b.asStr

/-- A `core::hash::Hasher`: its state and its two methods used here. `write_str` is its provided
method: `write(bytes)` then `write_u8(0xff)`. For string.rs:480-496, anystr.rs:103-108. -/
structure Hasher where
  S : Type
  write : S → List UInt8 → S
  writeU8 : S → UInt8 → S

/-- `Hash for str`: `Hasher::write_str` (core). For anystr.rs:103-108. -/
def hashStr (H : Hasher) (s : Str) (st : H.S) : H.S := H.writeU8 (H.write st (utf8 s)) 0xff

/-- `Hash for AnyStr`, anystr.rs:103-108. -/
def AnyStr.hash (H : Hasher) (a : AnyStr) (st : H.S) : H.S := hashStr H a.asStr st

/-! ## Lookup tables (string.rs:890-965) -/

/-- `u8::MAX`, the error marker of `HEX_OFFSET_TABLE`, string.rs:892. -/
def ERR : UInt8 := 255

/-- a row of sixteen `ERR`, string.rs:894-909. -/
def errRow : List UInt8 := List.replicate 16 ERR

/-- the rows `4` and `6` of the table, string.rs:898 and 900 -/
def hexRow : List UInt8 := [ERR, 10, 11, 12, 13, 14, 15, ERR, ERR, ERR, ERR, ERR, ERR, ERR, ERR, ERR]

/-- `HEX_OFFSET_TABLE`, string.rs:891-911 (rows 0 to F). -/
def HEX_OFFSET_TABLE : List UInt8 :=
  errRow ++ errRow ++ errRow
  ++ [0, 1, 2, 3, 4, 5, 6, 7, 8, 9, ERR, ERR, ERR, ERR, ERR, ERR]
  ++ hexRow ++ errRow ++ hexRow
  ++ errRow ++ errRow ++ errRow ++ errRow ++ errRow ++ errRow ++ errRow ++ errRow ++ errRow

/-- `HEX_OFFSET_TABLE[usize::from(b)]`, parser.rs:253, 275. -/
def hexOffset (b : UInt8) : UInt8 := HEX_OFFSET_TABLE.getD b.toNat ERR

/-- The first eight rows (ASCII) shared by both safe-byte tables, string.rs:921-928, 948-955:
`ER` for controls, `QU` at 0x22, `BS` at 0x5C, `__` elsewhere. -/
def safeAsciiRows : List Bool :=
  List.replicate 32 false
  ++ [true, true, false] ++ List.replicate 13 true
  ++ List.replicate 32 true
  ++ List.replicate 12 true ++ [false] ++ List.replicate 3 true
  ++ List.replicate 32 true

/-- `SAFE_STRING_BYTES`, string.rs:913-938 (`UC = true`). -/
def SAFE_STRING_BYTES : List Bool := safeAsciiRows ++ List.replicate 128 true

/-- `SAFE_STRING_BYTES_VERIFY_UTF8`, string.rs:940-965 (`UC = false`). -/
def SAFE_STRING_BYTES_VERIFY_UTF8 : List Bool := safeAsciiRows ++ List.replicate 128 false

/-- table lookup `table[usize::from(b)]` (both tables have 256 entries, so it cannot panic), parser.rs:174-187, string.rs:805. -/
def safeLookup (table : List Bool) (b : UInt8) : Bool := table.getD b.toNat false

/-! ## Surrogates (string.rs:1034-1043) -/

/-- string.rs:1034 -/
def HIGH_SURROGATE_MIN : Nat := 0xD800
/-- string.rs:1035 -/
def HIGH_SURROGATE_MAX : Nat := 0xDBFF
/-- string.rs:1036 -/
def LOW_SURROGATE_MIN : Nat := 0xDC00
/-- string.rs:1037 -/
def LOW_SURROGATE_MAX : Nat := 0xDFFF
/-- string.rs:1038 -/
def DECODED_SURROGATE_BASE : Nat := 0x10000

/-- `merge_surrogate_pair`, string.rs:1041-1043. Note the `|` where RFC 8259/UTF-16 needs `+`.
`none`: `u32` subtraction underflow. -/
def mergeSurrogatePair (high low : Nat) : Option Nat :=
  if high < HIGH_SURROGATE_MIN ∨ low < LOW_SURROGATE_MIN then none
  else some (DECODED_SURROGATE_BASE ||| ((high - HIGH_SURROGATE_MIN) * 0x400)
    ||| (low - LOW_SURROGATE_MIN))

section
variable [Arch]

/-! ## `JsonStringInfo` (string.rs:596-655) -/

/-- `JsonStringInfo(usize)`, string.rs:597. -/
structure JsonStringInfo where
  word : Nat
deriving DecidableEq, Repr

/-- `UNESCAPED_BYTES_MASK`, string.rs:603-606: `0x7FFF_FFFF` or `0x7FFF_FFFF_FFFF_FFFF`. -/
def UNESCAPED_BYTES_MASK : Nat := 2 ^ (Arch.bits - 1) - 1

/-- `usize::MAX`, string.rs:600, parser.rs:1154. -/
def USIZE_MAX : Nat := 2 ^ Arch.bits - 1

/-- `HAS_ESCAPES_MASK`, string.rs:600. -/
def HAS_ESCAPES_MASK : Nat := USIZE_MAX ^^^ UNESCAPED_BYTES_MASK

/-- `JsonStringInfo::new`, string.rs:610-623. -/
def JsonStringInfo.new (hasEscapes : Bool) (unescapedLength : Nat) : JsonStringInfo :=
  if hasEscapes then ⟨HAS_ESCAPES_MASK ||| unescapedLength⟩ else ⟨unescapedLength⟩

/-- `JsonStringInfo::NONE`, string.rs:602. -/
def JsonStringInfo.NONE : JsonStringInfo := .new false 0

/-- `JsonStringInfo::has_escapes`, string.rs:627-629. -/
def JsonStringInfo.hasEscapes (i : JsonStringInfo) : Bool := (i.word &&& HAS_ESCAPES_MASK) != 0

/-- `JsonStringInfo::expected_length`, string.rs:633-635. -/
def JsonStringInfo.expectedLength (i : JsonStringInfo) : Nat := i.word &&& UNESCAPED_BYTES_MASK

/-- `usize::checked_add(..).expect(..)`; `none` is the panic. string.rs:638, 643-644. -/
def checkedAdd (a b : Nat) : Option Nat := if a + b ≤ USIZE_MAX then some (a + b) else none

/-- `JsonStringInfo::add_bytes`, string.rs:637-639. -/
def JsonStringInfo.addBytes (i : JsonStringInfo) (n : Nat) : Option JsonStringInfo :=
  (checkedAdd i.word n).map JsonStringInfo.mk

/-- `JsonStringInfo::add_bytes_from_escape`, string.rs:641-645. -/
def JsonStringInfo.addBytesFromEscape (i : JsonStringInfo) (n : Nat) : Option JsonStringInfo :=
  (checkedAdd (HAS_ESCAPES_MASK ||| i.word) n).map JsonStringInfo.mk

/-! ## `JsonString` -/

/-- `StringContents`, string.rs:1029-1032. -/
inductive StringContents where
  | json (s : AnyStr)
  | raw (s : AnyStr)
deriving DecidableEq, Repr

/-- `JsonString`, string.rs:41-45. -/
structure JsonString where
  source : StringContents
  info : JsonStringInfo
deriving DecidableEq, Repr

/-! ### `Decoded` (string.rs:668-748) -/

/-- `Decoded`, string.rs:669-673. -/
structure Decoded where
  needsDecoding : Bool
  source : Str
  chars : List (Nat × Char)

/-- `Decoded::new`, string.rs:676-689. -/
def Decoded.new (source : StringContents) (info : JsonStringInfo) : Decoded :=
  match source with
  | .json s => ⟨info.hasEscapes, s.asStr, charIndicesFrom 0 s.asStr⟩
  | .raw s => ⟨false, s.asStr, charIndicesFrom 0 s.asStr⟩

/-- `char::from_u32_unchecked`: undefined behaviour on a non-scalar. parser.rs:295, string.rs:730. -/
def charFromU32Unchecked (n : Nat) : Res Char := .orPanic .ub (charFromU32 n)

/-- The `\u` arm of `Decoded::next`, string.rs:706-731. `rest` are the `CharIndices` after the `u`,
`offset` the byte offset of the `u`. -/
def Decoded.nextUnicode (d : Decoded) (offset : Nat) (rest : List (Nat × Char)) :
    Res (Option (Char × Decoded)) := do
  let rest := rest.drop 4
  let hex ← .orPanic .index (sliceStr d.source (offset + 1) (offset + 5))
  let codepoint ← .orPanic .expect (fromStrRadix16 hex)
  if HIGH_SURROGATE_MIN ≤ codepoint ∧ codepoint ≤ HIGH_SURROGATE_MAX then
    let rest := rest.drop 6
    let hex ← .orPanic .index (sliceStr d.source (offset + 7) (offset + 11))
    let second ← .orPanic .expect (fromStrRadix16 hex)
    let codepoint ← .orPanic .overflow (mergeSurrogatePair codepoint second)
    let ch ← charFromU32Unchecked codepoint
    return some (ch, { d with chars := rest })
  else
    let ch ← charFromU32Unchecked codepoint
    return some (ch, { d with chars := rest })

/-- `Decoded::next`, string.rs:697-737. Note `'b'` maps to U+0007. -/
def Decoded.next (d : Decoded) : Res (Option (Char × Decoded)) :=
  match d.chars with
  | [] => .ok none
  | (_, ch) :: rest =>
    if d.needsDecoding && ch == '\\' then
      match rest with
      | [] => .panic .expect
      | (offset, e) :: rest =>
        if e = 'r' then .ok (some ('\r', { d with chars := rest }))
        else if e = 'n' then .ok (some ('\n', { d with chars := rest }))
        else if e = 't' then .ok (some ('\t', { d with chars := rest }))
        else if e = 'b' then .ok (some ('\x07', { d with chars := rest }))
        else if e = 'f' then .ok (some ('\x0c', { d with chars := rest }))
        else if e = 'u' then d.nextUnicode offset rest
        else .ok (some (e, { d with chars := rest }))
    else .ok (some (ch, { d with chars := rest }))

/-- Exhausting the iterator (`collect`, `for ch in ..`), with fuel. string.rs:487-489, 742-744. -/
def Decoded.collectFuel : Nat → Decoded → Res Str
  | 0, _ => .panic .fuel
  | n + 1, d =>
    match d.next with
    | .panic p => .panic p
    | .ok none => .ok []
    | .ok (some (c, d')) =>
      match Decoded.collectFuel n d' with
      | .ok cs => .ok (c :: cs)
      | .panic p => .panic p

/-- `Decoded::collect` / `Display for Decoded` (string.rs:740-748): each `next` consumes at least one
of the remaining characters, so one more than their number suffices as fuel. -/
def Decoded.collect (d : Decoded) : Res Str := d.collectFuel (d.chars.length + 1)

/-- `JsonString::decoded()` collected, string.rs:100-102. -/
def JsonString.decoded (j : JsonString) : Res Str := (Decoded.new j.source j.info).collect

/-- `Display for JsonString`, string.rs:517-521: the characters written. -/
def JsonString.display (j : JsonString) : Res Str := j.decoded

/-! ### `AsJson` (string.rs:750-888) -/

/-- `EscapeState`, string.rs:768-776. -/
inductive EscapeState where
  | alreadyEscaped
  | none
  | single (b : UInt8)
  | unicode (currentNibble : Option Nat) (codepoint : Nat)

/-- `AsJson`, string.rs:751-755. -/
structure AsJson where
  chars : Str
  state : EscapeState
  info : JsonStringInfo

/-- `AsJson::new`, string.rs:779-792. -/
def AsJson.new (source : StringContents) (info : JsonStringInfo) : AsJson :=
  match source with
  | .json s => ⟨s.asStr, .alreadyEscaped, info⟩
  | .raw s => ⟨s.asStr, .none, info⟩

/-- `b as char` for a `u8`. string.rs:860, 875. -/
def byteChar (b : UInt8) : Char := Char.ofNat b.toNat

/-- The arm `EscapeState::None` of `AsJson::next` once a character is taken, string.rs:804-855.
Note `u8::try_from(ch)` succeeds for U+0000..U+00FF, and all of 0x80..0xFF are "safe" in the table. -/
def AsJson.nextChar (a : AsJson) (ch : Char) : Res (Option (Char × AsJson)) :=
  let esc (st : EscapeState) (n : Nat) : Res (Option (Char × AsJson)) := do
    let info ← .orPanic .overflow (a.info.addBytesFromEscape n)
    return some ('\\', { a with state := st, info := info })
  if ch.toNat ≤ 0xFF then
    let b : UInt8 := UInt8.ofNat ch.toNat
    if safeLookup SAFE_STRING_BYTES b then do
      let info ← .orPanic .overflow (a.info.addBytes 1)
      return some (ch, { a with info := info })
    else if b = 0x22 ∨ b = 0x5C ∨ b = 0x2F then esc (.single b) 2
    else if b = 0x07 then esc (.single 0x62) 2
    else if b = 0x0A then esc (.single 0x6E) 2
    else if b = 0x0D then esc (.single 0x72) 2
    else if b = 0x09 then esc (.single 0x74) 2
    else if b = 0x0C then esc (.single 0x66) 2
    else if b ≤ 31 then esc (.unicode Option.none b.toNat) 6
    else .panic .unreachable
  else do
    let info ← .orPanic .overflow (a.info.addBytes (lenUtf8 ch))
    return some (ch, { a with info := info })

/-- `AsJson::next`, string.rs:799-883. Note the least significant nibble comes first, and digits above
nine are `bits + b'a'`. -/
def AsJson.next (a : AsJson) : Res (Option (Char × AsJson)) :=
  match a.state with
  | .alreadyEscaped =>
    match a.chars with
    | [] => .ok Option.none
    | c :: cs => .ok (some (c, { a with chars := cs }))
  | .none =>
    match a.chars with
    | [] => .ok Option.none
    | c :: cs => AsJson.nextChar { a with chars := cs } c
  | .single b => .ok (some (byteChar b, { a with state := .none }))
  | .unicode (some nib) cp =>
    let bits := cp % 256 &&& 0xF
    let cp' := cp >>> 4
    let ch : UInt8 := if bits < 10 then UInt8.ofNat (bits + 48) else UInt8.ofNat (bits + 97)
    if nib + 1 = 4 then .ok (some (byteChar ch, { a with state := .none }))
    else .ok (some (byteChar ch, { a with state := .unicode (some (nib + 1)) cp' }))
  | .unicode Option.none cp => .ok (some ('u', { a with state := .unicode (some 0) cp }))

/-- Exhausting an `AsJson`: the characters produced and the final iterator, with fuel. string.rs:759-761. -/
def AsJson.collectFuel : Nat → AsJson → Res (Str × AsJson)
  | 0, _ => .panic .fuel
  | n + 1, a =>
    match a.next with
    | .panic p => .panic p
    | .ok none => .ok ([], a)
    | .ok (some (c, a')) =>
      match AsJson.collectFuel n a' with
      | .ok (cs, af) => .ok (c :: cs, af)
      | .panic p => .panic p

/-- `collect` / `for _ in &mut escaped {}` / `Display for AsJson` (string.rs:757-765): a character
yields at most six outputs. -/
def AsJson.collect (a : AsJson) : Res (Str × AsJson) := a.collectFuel (6 * a.chars.length + 7)

/-- `AsJson::size_hint`, string.rs:885-887: that of the remaining `Chars`, which core computes from the
number `n` of remaining bytes as `((n + 3) / 4, Some(n))`. -/
def AsJson.sizeHint (a : AsJson) : Nat × Option Nat := ((Str.len a.chars + 3) / 4, some (Str.len a.chars))

/-- `JsonString::as_json()` collected, string.rs:106-108. -/
def JsonString.asJson (j : JsonString) : Res Str := do
  let r ← (AsJson.new j.source j.info).collect
  return r.1

/-! ### Conversions and views -/

/-- `From<&str> for JsonString`, string.rs:162-182. -/
def JsonString.fromStr (value : Str) : Res JsonString := do
  let source := StringContents.raw (.borrowed value)
  let r ← (AsJson.new source .NONE).collect
  if r.2.info.hasEscapes then return ⟨source, r.2.info⟩
  else return ⟨.json (.borrowed value), r.2.info⟩

/-- `From<String> for JsonString`, string.rs:185-205. -/
def JsonString.fromString (value : Str) : Res JsonString := do
  let borrowed := StringContents.raw (.borrowed value)
  let r ← (AsJson.new borrowed .NONE).collect
  if r.2.info.hasEscapes then return ⟨.raw (.owned value), r.2.info⟩
  else return ⟨.json (.owned value), r.2.info⟩

/-- `JsonString::decode_if_needed`, string.rs:67-78. -/
def JsonString.decodeIfNeeded (j : JsonString) : Res AnyStr :=
  match j.source with
  | .json source =>
    if j.info.hasEscapes then do
      let s ← j.decoded
      return .owned s
    else .ok source
  | .raw raw => .ok raw

/-- `JsonString::escape_if_needed`, string.rs:85-96. -/
def JsonString.escapeIfNeeded (j : JsonString) : Res AnyStr :=
  match j.source with
  | .json source => .ok source
  | .raw _ => do
    let r ← (AsJson.new j.source j.info).collect
    return .owned r.1

/-- `JsonString::as_json_str`, string.rs:117-123. -/
def JsonString.asJsonStr (j : JsonString) : Option AnyStr :=
  match j.source with
  | .json s => some s
  | .raw _ => none

/-- `JsonString::len`, string.rs:127-132. -/
def JsonString.len (j : JsonString) : Nat :=
  match j.source with
  | .json s => Str.len s.asStr
  | .raw _ => j.info.expectedLength

/-- `JsonString::is_empty`, string.rs:136-138. -/
def JsonString.isEmpty (j : JsonString) : Bool := j.len == 0

/-- `JsonString::decoded_len`, string.rs:142-147. -/
def JsonString.decodedLen (j : JsonString) : Nat :=
  match j.source with
  | .json _ => j.info.expectedLength
  | .raw raw => Str.len raw.asStr

/-- `JsonString::as_str`, string.rs:153-159. -/
def JsonString.asStr (j : JsonString) : Option Str :=
  match j.source with
  | .json s => if !j.info.hasEscapes then some s.asStr else none
  | .raw s => some s.asStr

/-! ### Equality -/

/-- `a.zip(b).all(|(a, b)| a == b)`: compares up to the shorter. string.rs:223-225, 243-245. -/
def zipAllEq : Str → Str → Bool
  | a :: as, b :: bs => a == b && zipAllEq as bs
  | _, _ => true

/-- `PartialEq<str> for JsonString`, string.rs:213-234, and `PartialEq<&str>`, string.rs:207-211, which calls it. The iterator `Decoded` is collected before the
comparison; the code compares while decoding, which is `JsonString.eqStrLazy`, proved equal in `Props/Lazy.lean`. -/
def JsonString.eqStr (j : JsonString) (other : Str) : Res Bool :=
  match j.source with
  | .json source =>
    if j.info.hasEscapes then
      if j.info.expectedLength != Str.len other then .ok false
      else do
        let d ← (Decoded.new j.source j.info).collect
        return zipAllEq d other
    else .ok (source.eqStr other)
  | .raw source => .ok (source.eqStr other)

/-- `PartialEq<JsonString> for JsonString`, string.rs:236-272. -/
def JsonString.eq (j other : JsonString) : Res Bool :=
  match j.source, other.source with
  | .json a, .json b =>
    match j.info.hasEscapes, other.info.hasEscapes with
    | true, true =>
      if j.info.expectedLength = other.info.expectedLength then do
        let x ← (Decoded.new j.source j.info).collect
        let y ← (Decoded.new other.source j.info).collect
        return zipAllEq x y
      else .ok false
    | true, false => j.eqStr b.asStr
    | false, true => other.eqStr a.asStr
    | false, false => .ok (a.asStr == b.asStr)
  | .raw a, .raw b => .ok (a.asStr == b.asStr)
  | .json _, .raw b =>
    if other.info.expectedLength = j.len then j.eqStr b.asStr else .ok false
  | .raw a, .json _ =>
    if j.info.expectedLength = other.len then other.eqStr a.asStr else .ok false

/-! ### Ordering -/

/-- The `loop { match (left.next(), right.next()) .. }` of string.rs:354-365 and 397-408:
`char` comparison is comparison of code points. -/
def cmpChars : Str → Str → Ordering
  | a :: as, b :: bs =>
    match compare a.toNat b.toNat with
    | .eq => cmpChars as bs
    | .lt => .lt
    | .gt => .gt
  | _ :: _, [] => .gt
  | [], _ :: _ => .lt
  | [], [] => .eq

/-- `PartialOrd<str> for JsonString`, string.rs:348-376. -/
def JsonString.partialCmpStr (j : JsonString) (other : Str) : Res (Option Ordering) :=
  match j.source with
  | .json left =>
    if j.info.hasEscapes then do
      let l ← j.decoded
      return some (cmpChars l other)
    else .ok (some (cmpStr left.asStr other))
  | .raw left => .ok (some (cmpStr left.asStr other))

/-- `Ord for JsonString`, string.rs:378-412. -/
def JsonString.cmp (j other : JsonString) : Res Ordering :=
  match j.source, other.source with
  | .json left, .json right =>
    if !j.info.hasEscapes && !other.info.hasEscapes then .ok (cmpStr left.asStr right.asStr)
    else do
      let l ← j.decoded
      let r ← other.decoded
      return cmpChars l r
  | .raw left, .raw right => .ok (cmpStr left.asStr right.asStr)
  | .json _, .raw right => do
    let o ← j.partialCmpStr right.asStr
    .orPanic .expect o
  | .raw left, .json _ => do
    let o ← other.partialCmpStr left.asStr
    let o ← .orPanic .expect o
    return o.swap

/-- `PartialOrd<JsonString> for JsonString`, string.rs:413-417. -/
def JsonString.partialCmp (j other : JsonString) : Res (Option Ordering) := do
  let o ← j.cmp other
  return some o

/-! ### Hash -/

/-- `Hash for JsonString`, string.rs:480-496. -/
def JsonString.hash (H : Hasher) (j : JsonString) (st : H.S) : Res H.S :=
  match j.source with
  | .json str =>
    if j.info.hasEscapes then do
      let cs ← j.decoded
      return H.writeU8 (cs.foldl (fun st ch => H.write st (encodeChar ch)) st) 0xff
    else .ok (str.hash H st)
  | .raw str => .ok (str.hash H st)

end
end JustJson
