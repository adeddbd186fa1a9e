/-!
# The parts of Rust's `core::str` / `core::char` that justjson relies on

Nothing in this file models code of /repo; it models the standard library functions called from
there.  A Rust `str` is modelled as the list of its `char`s (`List Char`; Lean's `Char` is the type of
Unicode scalar values, as Rust's `char` is), a byte slice as `List UInt8`.
-/

namespace JustJson

/-- A Rust `str`, as the list of its characters. For parser.rs:95-104, anystr.rs:12-17. -/
abbrev Str := List Char

/-- `char::encode_utf8` (Lean core's own definition). For string.rs:489. -/
abbrev encodeChar (c : Char) : List UInt8 := String.utf8EncodeChar c

/-- `str::as_bytes`: the UTF-8 encoding of a string. For parser.rs:103, 567. -/
def utf8 (s : Str) : List UInt8 := s.flatMap encodeChar

/-- `str::len`: number of bytes. For string.rs:129, 145, 219. -/
def Str.len (s : Str) : Nat := (utf8 s).length

/-- `char::len_utf8`. parser.rs:304, string.rs:851. -/
def lenUtf8 (c : Char) : Nat := (encodeChar c).length

/-- `char::from_u32`. parser.rs:263. -/
def charFromU32 (n : Nat) : Option Char :=
  if n.isValidChar then some (Char.ofNat n) else none

/-- A UTF-8 continuation byte (`(b as i8) < -64` in core's validator). For parser.rs:217. -/
def isCont (b : UInt8) : Bool := 0x80 ≤ b.toNat && b.toNat ≤ 0xBF

/-- Validity of a second byte of a three byte sequence, core/src/str/validations.rs. -/
def ok3 (b0 b1 : UInt8) : Bool :=
  (b0.toNat == 0xE0 && 0xA0 ≤ b1.toNat && b1.toNat ≤ 0xBF)
  || (0xE1 ≤ b0.toNat && b0.toNat ≤ 0xEC && 0x80 ≤ b1.toNat && b1.toNat ≤ 0xBF)
  || (b0.toNat == 0xED && 0x80 ≤ b1.toNat && b1.toNat ≤ 0x9F)
  || (0xEE ≤ b0.toNat && b0.toNat ≤ 0xEF && 0x80 ≤ b1.toNat && b1.toNat ≤ 0xBF)

/-- Validity of a second byte of a four byte sequence, core/src/str/validations.rs. -/
def ok4 (b0 b1 : UInt8) : Bool :=
  (b0.toNat == 0xF0 && 0x90 ≤ b1.toNat && b1.toNat ≤ 0xBF)
  || (0xF1 ≤ b0.toNat && b0.toNat ≤ 0xF3 && 0x80 ≤ b1.toNat && b1.toNat ≤ 0xBF)
  || (b0.toNat == 0xF4 && 0x80 ≤ b1.toNat && b1.toNat ≤ 0x8F)

/-- Code point of a two byte sequence. For parser.rs:217. -/
def cp2 (b0 b1 : UInt8) : Nat := (b0.toNat - 0xC0) * 64 + (b1.toNat - 0x80)
/-- Code point of a three byte sequence. For parser.rs:217. -/
def cp3 (b0 b1 b2 : UInt8) : Nat :=
  (b0.toNat - 0xE0) * 4096 + (b1.toNat - 0x80) * 64 + (b2.toNat - 0x80)
/-- Code point of a four byte sequence. For parser.rs:217. -/
def cp4 (b0 b1 b2 b3 : UInt8) : Nat :=
  (b0.toNat - 0xF0) * 262144 + (b1.toNat - 0x80) * 4096 + (b2.toNat - 0x80) * 64 + (b3.toNat - 0x80)

/-- `core::str::from_utf8`: `some` of the characters for valid UTF-8, `none` for invalid
(Unicode table 3-7, as in core's `run_utf8_validation`). parser.rs:217. -/
def utf8Decode : List UInt8 → Option Str
  | [] => some []
  | b0 :: t0 =>
    if b0.toNat < 0x80 then (utf8Decode t0).map (Char.ofNat b0.toNat :: ·)
    else match t0 with
    | [] => none
    | b1 :: t1 =>
      if 0xC2 ≤ b0.toNat && b0.toNat ≤ 0xDF && isCont b1 then
        (utf8Decode t1).map (Char.ofNat (cp2 b0 b1) :: ·)
      else match t1 with
      | [] => none
      | b2 :: t2 =>
        if ok3 b0 b1 && isCont b2 then
          (utf8Decode t2).map (Char.ofNat (cp3 b0 b1 b2) :: ·)
        else match t2 with
        | [] => none
        | b3 :: t3 =>
          if ok4 b0 b1 && isCont b2 && isCont b3 then
            (utf8Decode t3).map (Char.ofNat (cp4 b0 b1 b2 b3) :: ·)
          else none

/-- `str::char_indices`, starting at byte offset `off`. string.rs:681, 686. -/
def charIndicesFrom (off : Nat) : Str → List (Nat × Char)
  | [] => []
  | c :: cs => (off, c) :: charIndicesFrom (off + lenUtf8 c) cs

/-- `&s[n..]` by byte offset; `none` is the panic "not a char boundary / out of range". For string.rs:713, 722. -/
def dropBytes : Str → Nat → Option Str
  | s, 0 => some s
  | [], _ + 1 => none
  | c :: cs, n + 1 => if lenUtf8 c ≤ n + 1 then dropBytes cs (n + 1 - lenUtf8 c) else none

/-- `&s[..n]` by byte offset; `none` is the panic "not a char boundary / out of range". For string.rs:713, 722. -/
def takeBytes : Str → Nat → Option Str
  | _, 0 => some []
  | [], _ + 1 => none
  | c :: cs, n + 1 =>
    if lenUtf8 c ≤ n + 1 then (takeBytes cs (n + 1 - lenUtf8 c)).map (c :: ·) else none

/-- `&s[a..b]` by byte offsets; `none` is the panic. string.rs:713, 722. -/
def sliceStr (s : Str) (a b : Nat) : Option Str :=
  if a ≤ b then (dropBytes s a).bind (takeBytes · (b - a)) else none

/-- `Ord::cmp` on byte slices: lexicographic, a proper prefix is less. For string.rs:348-412. -/
def cmpBytes : List UInt8 → List UInt8 → Ordering
  | [], [] => .eq
  | [], _ :: _ => .lt
  | _ :: _, [] => .gt
  | a :: as, b :: bs => (compare a.toNat b.toNat).then (cmpBytes as bs)

/-- `str::cmp`: byte-wise comparison of the UTF-8 encodings. For string.rs:348-412, anystr.rs:74-92. -/
def cmpStr (a b : Str) : Ordering := cmpBytes (utf8 a) (utf8 b)

/-- `u32::from_str_radix(s, 16)`: an optional `+`, then at least one hexadecimal digit
(`None` for the error cases; overflow cannot happen with the 4 digits used here). For string.rs:714, 724. -/
def hexDigitVal (c : Char) : Option Nat :=
  if 48 ≤ c.toNat ∧ c.toNat ≤ 57 then some (c.toNat - 48)
  else if 97 ≤ c.toNat ∧ c.toNat ≤ 102 then some (c.toNat - 87)
  else if 65 ≤ c.toNat ∧ c.toNat ≤ 70 then some (c.toNat - 55)
  else none

/-- Digits part of `u32::from_str_radix(s, 16)`. For string.rs:714, 724. -/
def hexDigits : Str → Nat → Option Nat
  | [], acc => some acc
  | c :: cs, acc => (hexDigitVal c).bind fun d => hexDigits cs (acc * 16 + d)

/-- `u32::from_str_radix(s, 16)`. string.rs:714, 724. -/
def fromStrRadix16 (s : Str) : Option Nat :=
  match s with
  | [] => none
  | ['+'] => none
  | '+' :: cs => hexDigits cs 0
  | cs => hexDigits cs 0

end JustJson
