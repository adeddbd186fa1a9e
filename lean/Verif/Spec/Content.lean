import Verif.Spec.Strings
/-! # Specification: what a `Value` stands for, and the values a client can build -/

namespace JustJson
open Spec

section
variable [Arch]

mutual
/-- All numbers of a value, in document order. -/
def Value.numbers : Value → List JsonNumber
  | .number n => [n]
  | .array vs => Value.numbersElems vs
  | .object es => Value.numbersEntries es
  | _ => []
/-- of the elements -/
def Value.numbersElems : List Value → List JsonNumber
  | [] => []
  | v :: vs => v.numbers ++ Value.numbersElems vs
/-- of the entries -/
def Value.numbersEntries : List (JsonString × Value) → List JsonNumber
  | [] => []
  | (_, v) :: es => v.numbers ++ Value.numbersEntries es
end

/-- The numbers a client can get hold of, all of them parsed: in a parsed `Value`, by `JsonNumber::from_json`, as a token
of a `Tokenizer` after any series of calls, or as a node of a parsed document. -/
inductive ParsedNumber : JsonNumber → Prop where
  | inValue (g : Bool) (src : List UInt8) (cfg : ParseConfig) (v : Value) (x : JsonNumber) : Input g src →
      Value.parseWithConfig g src cfg = .ok v → x ∈ v.numbers → ParsedNumber x
  | single (s : Str) (x : JsonNumber) : SliceFits (utf8 s) → JsonNumber.fromJson s = .ok x → ParsedNumber x
  | token (g : Bool) (src : List UInt8) (cs : List Call) (c : Call) (x : JsonNumber) : Input g src →
      (c.run src g (offsetAfter src g cs)).1 = .token (.number x) → ParsedNumber x
  | node (cap : Option Nat) (g : Bool) (src : List UInt8) (cfg : ParseConfig) (ns : List Node) (x : JsonNumber) :
      Input g src → docFromJsonWithConfig cap g src cfg = .ok ns → .number x ∈ ns → ParsedNumber x

/-- The source of the number is a JSON number literal. (`parsed_number`: this holds of every number a client can get hold
of.) -/
def JsonNumber.WellFormed (x : JsonNumber) : Prop := ∃ n : NumLit, n.Valid ∧ NumDenotes x n

mutual
/-- The values a client can put together: from strings parsed or converted from text, numbers parsed, in any
arrangement. -/
inductive Built : Value → Prop where
  | null : Built .null
  | boolean (b : Bool) : Built (.boolean b)
  | number (x : JsonNumber) : x.WellFormed → Built (.number x)
  | string (s : JsonString) : Obtainable s → Built (.string s)
  | array (vs : List Value) : BuiltElems vs → Built (.array vs)
  | object (es : Object) : BuiltEntries es → Built (.object es)
/-- all elements -/
inductive BuiltElems : List Value → Prop where
  | nil : BuiltElems []
  | cons (v : Value) (vs : List Value) : Built v → BuiltElems vs → BuiltElems (v :: vs)
/-- all entries -/
inductive BuiltEntries : Object → Prop where
  | nil : BuiltEntries []
  | cons (k : JsonString) (v : Value) (es : Object) : Obtainable k → Built v → BuiltEntries es → BuiltEntries ((k, v) :: es)
end

/-- The same text. -/
def SameText (s t : JsonString) : Prop := ∃ x, HasText s x ∧ HasText t x

mutual
/-- The same content: equal shape and order, numbers with the same source, strings and keys that decode to the same
text, however they are spelled. -/
inductive SameContent : Value → Value → Prop where
  | null : SameContent .null .null
  | boolean (b : Bool) : SameContent (.boolean b) (.boolean b)
  | number (x y : JsonNumber) : x.sourceStr = y.sourceStr → SameContent (.number x) (.number y)
  | string (s t : JsonString) : SameText s t → SameContent (.string s) (.string t)
  | array (vs ws : List Value) : SameElems vs ws → SameContent (.array vs) (.array ws)
  | object (es fs : Object) : SameEntries es fs → SameContent (.object es) (.object fs)
/-- element by element -/
inductive SameElems : List Value → List Value → Prop where
  | nil : SameElems [] []
  | cons (v w : Value) (vs ws : List Value) : SameContent v w → SameElems vs ws → SameElems (v :: vs) (w :: ws)
/-- entry by entry -/
inductive SameEntries : Object → Object → Prop where
  | nil : SameEntries [] []
  | cons (k l : JsonString) (v w : Value) (es fs : Object) : SameText k l → SameContent v w → SameEntries es fs →
      SameEntries ((k, v) :: es) ((l, w) :: fs)
end

end
end JustJson
