import Verif.Model.Utf8
/-!
# Specification: RFC 8259 texts and the trees they denote

Independent of the model of the code: the only things used are bytes, Lean's `Char` and its UTF-8
encoding `encodeChar`.
-/

namespace JustJson.Spec
open JustJson

/-! ## Strings -/

/-- Value of a hexadecimal digit (RFC 8259 `HEXDIG`, both cases). -/
def hexVal (b : UInt8) : Option Nat :=
  if 0x30 ≤ b.toNat ∧ b.toNat ≤ 0x39 then some (b.toNat - 0x30)
  else if 0x41 ≤ b.toNat ∧ b.toNat ≤ 0x46 then some (b.toNat - 0x41 + 10)
  else if 0x61 ≤ b.toNat ∧ b.toNat ≤ 0x66 then some (b.toNat - 0x61 + 10)
  else none

/-- Four hexadecimal digits. -/
structure Hex4 where
  a : UInt8
  b : UInt8
  c : UInt8
  d : UInt8
deriving DecidableEq, Repr

/-- all four are hexadecimal digits -/
def Hex4.Valid (h : Hex4) : Prop :=
  (hexVal h.a).isSome ∧ (hexVal h.b).isSome ∧ (hexVal h.c).isSome ∧ (hexVal h.d).isSome

/-- the number they denote -/
def Hex4.val (h : Hex4) : Nat :=
  (hexVal h.a).getD 0 * 4096 + (hexVal h.b).getD 0 * 256 + (hexVal h.c).getD 0 * 16
    + (hexVal h.d).getD 0

/-- the four bytes -/
def Hex4.bytes (h : Hex4) : List UInt8 := [h.a, h.b, h.c, h.d]

/-- One element of a string body: an unescaped character, a two-character escape, `\uXXXX`, or a
surrogate pair `\uXXXX\uXXXX`. -/
inductive Item where
  | plain (c : Char)
  | esc (e : UInt8)
  | uni (h : Hex4)
  | pair (hi lo : Hex4)
deriving DecidableEq, Repr

/-- RFC 8259 section 7. `plain`: `%x20-21 / %x23-5B / %x5D-10FFFF`. `uni`: not a surrogate. `pair`: a
high and a low surrogate (lone surrogates are not accepted by this library: they denote no text). -/
def Item.Valid : Item → Prop
  | .plain c => 0x20 ≤ c.toNat ∧ c ≠ '"' ∧ c ≠ '\\'
  | .esc e => e ∈ [0x22, 0x5C, 0x2F, 0x62, 0x66, 0x6E, 0x72, 0x74]
  | .uni h => h.Valid ∧ (h.val < 0xD800 ∨ 0xDFFF < h.val)
  | .pair hi lo => hi.Valid ∧ lo.Valid ∧ 0xD800 ≤ hi.val ∧ hi.val ≤ 0xDBFF
      ∧ 0xDC00 ≤ lo.val ∧ lo.val ≤ 0xDFFF

/-- Source bytes of an item. -/
def Item.bytes : Item → List UInt8
  | .plain c => encodeChar c
  | .esc e => [0x5C, e]
  | .uni h => [0x5C, 0x75] ++ h.bytes
  | .pair hi lo => [0x5C, 0x75] ++ hi.bytes ++ [0x5C, 0x75] ++ lo.bytes

/-- Is it an escape sequence? -/
def Item.isEscape : Item → Bool
  | .plain _ => false
  | _ => true

/-- The character an item denotes according to RFC 8259. -/
def Item.rfcChar : Item → Char
  | .plain c => c
  | .esc e =>
    if e = 0x62 then Char.ofNat 0x08
    else if e = 0x66 then Char.ofNat 0x0C
    else if e = 0x6E then Char.ofNat 0x0A
    else if e = 0x72 then Char.ofNat 0x0D
    else if e = 0x74 then Char.ofNat 0x09
    else Char.ofNat e.toNat
  | .uni h => Char.ofNat h.val
  | .pair hi lo => Char.ofNat (0x10000 + (hi.val - 0xD800) * 0x400 + (lo.val - 0xDC00))

/-- A string body. -/
def bodyBytes (is : List Item) : List UInt8 := is.flatMap Item.bytes

/-- A string literal with its quotes. -/
def strBytes (is : List Item) : List UInt8 := 0x22 :: (bodyBytes is ++ [0x22])

/-- All items valid. -/
def ItemsValid (is : List Item) : Prop := ∀ i ∈ is, i.Valid

/-- The text a string denotes according to RFC 8259. -/
def rfcText (is : List Item) : Str := is.map Item.rfcChar

/-! ## Numbers -/

/-- an ASCII digit -/
def IsDigit (b : UInt8) : Prop := 0x30 ≤ b.toNat ∧ b.toNat ≤ 0x39

/-- one or more digits -/
def Digits (ds : List UInt8) : Prop := ds ≠ [] ∧ ∀ b ∈ ds, IsDigit b

/-- A number literal by its parts. -/
structure NumLit where
  minus : Bool
  int : List UInt8
  frac : Option (List UInt8)
  exp : Option (UInt8 × Option UInt8 × List UInt8)
deriving DecidableEq, Repr

/-- `int = zero / ( digit1-9 *DIGIT )` -/
def IntPart (ds : List UInt8) : Prop := Digits ds ∧ (ds.head? = some 0x30 → ds = [0x30])

/-- `number = [ minus ] int [ frac ] [ exp ]` -/
def NumLit.Valid (n : NumLit) : Prop :=
  IntPart n.int
  ∧ (∀ ds, n.frac = some ds → Digits ds)
  ∧ (∀ e s ds, n.exp = some (e, s, ds) →
      (e = 0x65 ∨ e = 0x45) ∧ (∀ c, s = some c → c = 0x2B ∨ c = 0x2D) ∧ Digits ds)

/-- Source bytes of the fraction. -/
def fracBytes : Option (List UInt8) → List UInt8
  | none => []
  | some ds => 0x2E :: ds

/-- Source bytes of the exponent. -/
def expBytes : Option (UInt8 × Option UInt8 × List UInt8) → List UInt8
  | none => []
  | some (e, s, ds) => e :: (s.toList ++ ds)

/-- Source bytes of a number. -/
def NumLit.bytes (n : NumLit) : List UInt8 :=
  (if n.minus then [0x2D] else []) ++ n.int ++ fracBytes n.frac ++ expBytes n.exp

/-! ## Trees and texts -/

/-- A JSON value as denoted by a text: numbers and strings keep their spelling, objects keep all
members in order. -/
inductive Json where
  | null
  | bool (b : Bool)
  | num (n : NumLit)
  | str (s : List Item)
  | arr (elems : List Json)
  | obj (members : List (List Item × Json))

/-- insignificant whitespace -/
def Ws (w : List UInt8) : Prop := ∀ b ∈ w, b = 0x20 ∨ b = 0x09 ∨ b = 0x0A ∨ b = 0x0D

mutual
/-- `GValue tc bytes j`: `bytes` is a JSON value (without surrounding whitespace) denoting `j`;
`tc` allows one trailing comma in a non-empty array or object. -/
inductive GValue (tc : Bool) : List UInt8 → Json → Prop where
  | null : GValue tc [0x6E, 0x75, 0x6C, 0x6C] .null
  | true : GValue tc [0x74, 0x72, 0x75, 0x65] (.bool true)
  | false : GValue tc [0x66, 0x61, 0x6C, 0x73, 0x65] (.bool false)
  | num (n : NumLit) : n.Valid → GValue tc n.bytes (.num n)
  | str (s : List Item) : ItemsValid s → GValue tc (strBytes s) (.str s)
  | emptyArr (w : List UInt8) : Ws w → GValue tc (0x5B :: (w ++ [0x5D])) (.arr [])
  | arr (body : List UInt8) (js : List Json) :
      GElems tc body js → GValue tc (0x5B :: (body ++ [0x5D])) (.arr js)
  | emptyObj (w : List UInt8) : Ws w → GValue tc (0x7B :: (w ++ [0x7D])) (.obj [])
  | obj (body : List UInt8) (ms : List (List Item × Json)) :
      GMembers tc body ms → GValue tc (0x7B :: (body ++ [0x7D])) (.obj ms)

/-- What stands between the brackets of a non-empty array. -/
inductive GElems (tc : Bool) : List UInt8 → List Json → Prop where
  | one (w b w' : List UInt8) (j : Json) : Ws w → GValue tc b j → Ws w' →
      GElems tc (w ++ b ++ w') [j]
  | trailing (w b w' w'' : List UInt8) (j : Json) : tc = true → Ws w → GValue tc b j → Ws w' → Ws w'' →
      GElems tc (w ++ b ++ w' ++ 0x2C :: w'') [j]
  | cons (w b w' rest : List UInt8) (j : Json) (js : List Json) : Ws w → GValue tc b j → Ws w' →
      GElems tc rest js → GElems tc (w ++ b ++ w' ++ 0x2C :: rest) (j :: js)

/-- What stands between the braces of a non-empty object. -/
inductive GMembers (tc : Bool) : List UInt8 → List (List Item × Json) → Prop where
  | one (w w1 w2 b w' : List UInt8) (k : List Item) (j : Json) :
      Ws w → ItemsValid k → Ws w1 → Ws w2 → GValue tc b j → Ws w' →
      GMembers tc (w ++ strBytes k ++ w1 ++ 0x3A :: (w2 ++ b ++ w')) [(k, j)]
  | trailing (w w1 w2 b w' w'' : List UInt8) (k : List Item) (j : Json) : tc = true →
      Ws w → ItemsValid k → Ws w1 → Ws w2 → GValue tc b j → Ws w' → Ws w'' →
      GMembers tc (w ++ strBytes k ++ w1 ++ 0x3A :: (w2 ++ b ++ w' ++ 0x2C :: w'')) [(k, j)]
  | cons (w w1 w2 b w' rest : List UInt8) (k : List Item) (j : Json)
      (ms : List (List Item × Json)) :
      Ws w → ItemsValid k → Ws w1 → Ws w2 → GValue tc b j → Ws w' → GMembers tc rest ms →
      GMembers tc (w ++ strBytes k ++ w1 ++ 0x3A :: (w2 ++ b ++ w' ++ 0x2C :: rest)) ((k, j) :: ms)
end

/-- `Text tc s j`: the byte string `s` is a JSON text denoting `j`. -/
def Text (tc : Bool) (s : List UInt8) (j : Json) : Prop :=
  ∃ w b w', Ws w ∧ GValue tc b j ∧ Ws w' ∧ s = w ++ b ++ w'

mutual
/-- Nesting depth of arrays and objects. -/
def Json.depth : Json → Nat
  | .arr js => 1 + depthList js
  | .obj ms => 1 + depthMembers ms
  | _ => 0
/-- maximum over the elements -/
def depthList : List Json → Nat
  | [] => 0
  | j :: js => max j.depth (depthList js)
/-- maximum over the members -/
def depthMembers : List (List Item × Json) → Nat
  | [] => 0
  | (_, j) :: ms => max j.depth (depthMembers ms)
end

/-- the root is an array or an object -/
def Json.IsContainer : Json → Prop
  | .arr _ => True
  | .obj _ => True
  | _ => False

end JustJson.Spec
