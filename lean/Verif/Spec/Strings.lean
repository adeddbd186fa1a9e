import Verif.Spec.Accept
import Verif.Spec.Tok
import Verif.Spec.Doc
/-! # Specification: the strings a client can get, and the order of texts -/

namespace JustJson
open Spec

section
variable [Arch]

mutual
/-- All strings of a value: string values and object keys, in document order. -/
def Value.strings : Value → List JsonString
  | .string s => [s]
  | .array vs => Value.stringsElems vs
  | .object es => Value.stringsEntries es
  | _ => []
/-- of the elements -/
def Value.stringsElems : List Value → List JsonString
  | [] => []
  | v :: vs => v.strings ++ Value.stringsElems vs
/-- of the entries -/
def Value.stringsEntries : List (JsonString × Value) → List JsonString
  | [] => []
  | (k, v) :: es => k :: (v.strings ++ Value.stringsEntries es)
end

/-- The strings the library makes from JSON source: in a parsed `Value` (values and keys), by
`JsonString::from_json`, as a token of a `Tokenizer` after any series of calls, or as a node of a parsed
document. -/
inductive Parsed : JsonString → Prop where
  | inValue (g : Bool) (src : List UInt8) (cfg : ParseConfig) (v : Value) (j : JsonString) : Input g src →
      Value.parseWithConfig g src cfg = .ok v → j ∈ v.strings → Parsed j
  | single (s : Str) (j : JsonString) : SliceFits (utf8 s) → JsonString.fromJson s = .ok j → Parsed j
  | token (g : Bool) (src : List UInt8) (cs : List Call) (c : Call) (j : JsonString) : Input g src →
      (c.run src g (offsetAfter src g cs)).1 = .token (.string j) → Parsed j
  | node (cap : Option Nat) (g : Bool) (src : List UInt8) (cfg : ParseConfig) (ns : List Node) (j : JsonString) :
      Input g src → docFromJsonWithConfig cap g src cfg = .ok ns → .string j ∈ ns → Parsed j

/-- Every `JsonString` a client can get hold of: parsed, or converted from a `&str` or a `String`. -/
inductive Obtainable : JsonString → Prop where
  | parsed (j : JsonString) : Parsed j → Obtainable j
  | fromStr (s : Str) (j : JsonString) : SliceFits (utf8 s) → JsonString.fromStr s = .ok j → Obtainable j
  | fromString (s : Str) (j : JsonString) : SliceFits (utf8 s) → JsonString.fromString s = .ok j → Obtainable j

/-- What a client sees as the text of `j`: collecting `j.decoded()` gives `t`. -/
def HasText (j : JsonString) (t : Str) : Prop := j.decoded = .ok t

end

/-- The lexicographic order of texts by code point, a proper prefix being less. -/
inductive CpLt : Str → Str → Prop where
  | nil (c : Char) (t : Str) : CpLt [] (c :: t)
  | head (c d : Char) (s t : Str) : c.toNat < d.toNat → CpLt (c :: s) (d :: t)
  | tail (c : Char) (s t : Str) : CpLt s t → CpLt (c :: s) (c :: t)

/-- `o` says how the texts compare. -/
def Compares (o : Ordering) (s t : Str) : Prop :=
  (o = .lt ↔ CpLt s t) ∧ (o = .eq ↔ s = t) ∧ (o = .gt ↔ CpLt t s)

/-- A text whose characters may stand in a JSON string as they are. -/
def NeedsNoEscape (s : Str) : Prop := ∀ c ∈ s, 0x20 ≤ c.toNat ∧ c ≠ '"' ∧ c ≠ '\\'

/-- A hasher that sees only the bytes, not how they are split into `write` calls. -/
structure Hasher.Chunkless (H : Hasher) : Prop where
  nil : ∀ st, H.write st [] = st
  append : ∀ st a b, H.write (H.write st a) b = H.write st (a ++ b)

/-- A hasher that records each call it gets. -/
@[reducible] def recordingHasher : Hasher where
  S := List (List UInt8)
  write st bs := st ++ [bs]
  writeU8 st b := st ++ [[b]]

/-- The items the library decodes to something else than RFC 8259 says: `\b`, and surrogate pairs whose
20 payload bits have bit 16 set. -/
def Spec.Item.Misread : Item → Prop
  | .esc e => e = 0x62
  | .pair hi _ => (hi.val - 0xD800) / 64 % 2 = 1
  | _ => False

/-- The character the library reads an item as: U+0007 for `\b`; the code point less 0x10000 for the
surrogate pairs above; what RFC 8259 says otherwise. -/
def Spec.Item.readAs : Item → Char
  | .esc e => if e = 0x62 then Char.ofNat 0x07 else (Item.esc e).rfcChar
  | .pair hi lo =>
    if (hi.val - 0xD800) / 64 % 2 = 1 then Char.ofNat ((hi.val - 0xD800) * 0x400 + (lo.val - 0xDC00))
    else (Item.pair hi lo).rfcChar
  | i => i.rfcChar

/-- A string body with its quotes. -/
def quoted (body : Str) : Str := '"' :: (body ++ ['"'])

/-- The characters the library renders so that they are read back as themselves: all from U+0020 on, and of
the control characters only U+0000, U+0007, tab, line feed, form feed and carriage return. -/
def Renderable (c : Char) : Prop := 0x20 ≤ c.toNat ∨ c.toNat ∈ [0x00, 0x07, 0x09, 0x0A, 0x0C, 0x0D]

/-- U+0080 – U+00FF: two bytes in UTF-8, but a `char` that converts to a `u8`. -/
def Latin1 (c : Char) : Prop := 0x80 ≤ c.toNat ∧ c.toNat ≤ 0xFF

/-- A text without an unescaped quote, a control character, or a backslash that does not start an escape: put
between quotes, the closing quote is the first unescaped one. -/
inductive SafeBody : Str → Prop where
  | nil : SafeBody []
  | plain (c : Char) (s : Str) : 0x20 ≤ c.toNat → c ≠ '"' → c ≠ '\\' → SafeBody s → SafeBody (c :: s)
  | esc (c : Char) (s : Str) : 0x20 ≤ c.toNat → SafeBody s → SafeBody ('\\' :: c :: s)

end JustJson
