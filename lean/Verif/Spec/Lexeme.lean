import Verif.Spec.Accept
import Verif.Spec.Tok
/-! # Specification: lexemes, and the token sequence of a value -/

namespace JustJson
open Spec
section
variable [Arch]

/-- `Lexeme b t`: the bytes `b` are one lexeme of JSON and `t` is the token for it. A number or string token
holds the bytes of the literal (for a string: those between the quotes). -/
inductive Lexeme : List UInt8 → Token → Prop where
  | objectOpen : Lexeme [0x7B] .object
  | objectClose : Lexeme [0x7D] .objectEnd
  | arrayOpen : Lexeme [0x5B] .array
  | arrayClose : Lexeme [0x5D] .arrayEnd
  | comma : Lexeme [0x2C] .comma
  | colon : Lexeme [0x3A] .colon
  | null : Lexeme [0x6E, 0x75, 0x6C, 0x6C] .null
  | true : Lexeme [0x74, 0x72, 0x75, 0x65] (.bool true)
  | false : Lexeme [0x66, 0x61, 0x6C, 0x73, 0x65] (.bool false)
  | number (n : NumLit) (x : JsonNumber) : n.Valid → NumDenotes x n → Lexeme n.bytes (.number x)
  | string (is : List Item) (s : JsonString) : ItemsValid is → StrDenotes s is → Lexeme (strBytes is) (.string s)

/-- `Spelled src ts`: `src` is the lexemes of the tokens `ts` in order, with whitespace between them. -/
inductive Spelled : List UInt8 → List Token → Prop where
  | nil (w : List UInt8) : Ws w → Spelled w []
  | cons (w b r : List UInt8) (t : Token) (ts : List Token) : Ws w → Lexeme b t → Spelled r ts →
      Spelled (w ++ (b ++ r)) (t :: ts)

mutual
/-- The tokens of a value, without trailing commas. -/
def Value.tokens : Value → List Token
  | .null => [.null]
  | .boolean b => [.bool b]
  | .number n => [.number n]
  | .string s => [.string s]
  | .array vs => .array :: (elemTokens vs ++ [.arrayEnd])
  | .object es => .object :: (entryTokens es ++ [.objectEnd])
/-- the elements, with commas between them -/
def elemTokens : List Value → List Token
  | [] => []
  | v :: vs => v.tokens ++ (if vs.isEmpty then [] else .comma :: elemTokens vs)
/-- the entries, with commas between them -/
def entryTokens : List (JsonString × Value) → List Token
  | [] => []
  | (k, v) :: es => .string k :: .colon :: (v.tokens ++ (if es.isEmpty then [] else .comma :: entryTokens es))
end

/-- `next`, called once per token of `ts`, returns them and ends at `off'`. -/
def TokYields (src : List UInt8) (g : Bool) (off : Nat) (ts : List Token) (off' : Nat) : Prop :=
  history src g (List.replicate ts.length .next) off = (ts.map (fun t => (.next, .token t)), off')

end
end JustJson
