import Verif.Model.Doc
import Verif.Spec.Tok
import Verif.Spec.Trace
/-! # Specification: text held by parse results is the source's own -/

namespace JustJson

/-- A piece of text that a result holds: a number or a string (or key). -/
inductive Literal where
  | num (x : JsonNumber)
  | str (s : JsonString)

/-- The literal is a reference to these bytes: nothing was copied. Strings refer to what is between their quotes. -/
inductive Borrows : Literal → List UInt8 → Prop where
  | num (x : JsonNumber) (t : Str) : x.source = .borrowed t → Borrows (.num x) (utf8 t)
  | str (s : JsonString) (t : Str) : s.source = .json (.borrowed t) → Borrows (.str s) (0x22 :: (utf8 t ++ [0x22]))

/-- The literals refer to parts of `src` that do not overlap and stand in this order. -/
inductive BorrowsFrom : List UInt8 → List Literal → Prop where
  | nil (src : List UInt8) : BorrowsFrom src []
  | cons (a p r : List UInt8) (l : Literal) (ls : List Literal) : Borrows l p → BorrowsFrom r ls →
      BorrowsFrom (a ++ (p ++ r)) (l :: ls)

/-- Bytes of text a literal holds. -/
def Literal.size : Literal → Nat
  | .num x => (utf8 x.source.asStr).length
  | .str s => match s.source with
    | .json t => (utf8 t.asStr).length
    | .raw t => (utf8 t.asStr).length

mutual
/-- The literals of a value, in order. -/
def Value.literals : Value → List Literal
  | .number x => [.num x]
  | .string s => [.str s]
  | .object es => Value.literalsEntries es
  | .array vs => Value.literalsElems vs
  | _ => []
/-- of the entries: key, then value -/
def Value.literalsEntries : List (JsonString × Value) → List Literal
  | [] => []
  | (k, v) :: es => .str k :: (v.literals ++ Value.literalsEntries es)
/-- of the elements -/
def Value.literalsElems : List Value → List Literal
  | [] => []
  | v :: vs => v.literals ++ Value.literalsElems vs
end

/-- The literal in a node. -/
def Node.literal? : Node → Option Literal
  | .number x => some (.num x)
  | .string s => some (.str s)
  | _ => none

/-- The literal in a token. -/
def Token.literal? : Token → Option Literal
  | .number x => some (.num x)
  | .string s => some (.str s)
  | _ => none

/-- The literal in an answer of the tokenizer. -/
def Reply.literal? : Reply → Option Literal
  | .token t => t.literal?
  | _ => .none

/-- The literal given to a callback. -/
def Event.literal? : Event → Option Literal
  | .number x => some (.num x)
  | .string s => some (.str s)
  | .objectKey k => some (.str k)
  | _ => none

end JustJson
