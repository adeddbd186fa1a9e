import Verif.Model.Str
import Verif.Model.Display
/-! # Model of `Debug for JsonStringInfo` (src/string.rs) -/

namespace JustJson
section
variable [Arch]

/-- `Debug` of `bool` (core). For string.rs:651. -/
def showBool (b : Bool) : Str := if b then "true".toList else "false".toList

/-- `Debug for JsonStringInfo`, string.rs:648-655: the text of `{:?}`, or, if `alternate`, of `{:#?}`. The layout of
`debug_struct` is that of core. -/
def JsonStringInfo.debug (i : JsonStringInfo) (alternate : Bool) : Str :=
  if alternate then
    "EscapeInfo {\n    has_escapes: ".toList ++ showBool i.hasEscapes ++ ",\n    unescaped_length: ".toList
      ++ showNat i.expectedLength ++ ",\n}".toList
  else
    "EscapeInfo { has_escapes: ".toList ++ showBool i.hasEscapes ++ ", unescaped_length: ".toList
      ++ showNat i.expectedLength ++ " }".toList

/-- Derived `PartialEq for JsonStringInfo`, string.rs:596: equality of the word. -/
def JsonStringInfo.eq (i j : JsonStringInfo) : Bool := i.word == j.word

/-- Derived `Hash for JsonStringInfo`, string.rs:596: `Hasher::write_usize` of the word, whose provided method writes the
bytes in native order; `little` tells the target's byte order. -/
def JsonStringInfo.hash (H : Hasher) (little : Bool) (i : JsonStringInfo) (st : H.S) : H.S :=
  let bytes := (List.range (Arch.bits / 8)).map fun k => UInt8.ofNat (i.word / 256 ^ k)
  H.write st (if little then bytes else bytes.reverse)

end
end JustJson
