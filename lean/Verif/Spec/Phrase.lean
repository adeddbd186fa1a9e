import Verif.Spec.Accept
import Verif.Spec.Tok
/-! # Specification: JSON as a grammar over tokens -/

namespace JustJson
section
variable [Arch]

mutual
/-- `Phrase tc ts v`: the tokens `ts` are those of one value, which is `v`; `tc` permits a comma after the last element or
entry of a container that is not empty. -/
inductive Phrase (tc : Bool) : List Token → Value → Prop where
  | null : Phrase tc [.null] .null
  | bool (b : Bool) : Phrase tc [.bool b] (.boolean b)
  | number (n : JsonNumber) : Phrase tc [.number n] (.number n)
  | string (s : JsonString) : Phrase tc [.string s] (.string s)
  | emptyArray : Phrase tc [.array, .arrayEnd] (.array [])
  | array (ts : List Token) (vs : List Value) : PhraseElems tc ts vs → Phrase tc (.array :: (ts ++ [.arrayEnd])) (.array vs)
  | emptyObject : Phrase tc [.object, .objectEnd] (.object [])
  | object (ts : List Token) (es : Object) : PhraseEntries tc ts es → Phrase tc (.object :: (ts ++ [.objectEnd])) (.object es)
/-- one or more elements -/
inductive PhraseElems (tc : Bool) : List Token → List Value → Prop where
  | one (ts : List Token) (v : Value) : Phrase tc ts v → PhraseElems tc ts [v]
  | trailing (ts : List Token) (v : Value) : tc = true → Phrase tc ts v → PhraseElems tc (ts ++ [.comma]) [v]
  | cons (ts rest : List Token) (v : Value) (vs : List Value) : Phrase tc ts v → PhraseElems tc rest vs →
      PhraseElems tc (ts ++ .comma :: rest) (v :: vs)
/-- one or more entries -/
inductive PhraseEntries (tc : Bool) : List Token → Object → Prop where
  | one (ts : List Token) (k : JsonString) (v : Value) : Phrase tc ts v → PhraseEntries tc (.string k :: .colon :: ts) [(k, v)]
  | trailing (ts : List Token) (k : JsonString) (v : Value) : tc = true → Phrase tc ts v →
      PhraseEntries tc (.string k :: .colon :: (ts ++ [.comma])) [(k, v)]
  | cons (ts rest : List Token) (k : JsonString) (v : Value) (es : Object) : Phrase tc ts v → PhraseEntries tc rest es →
      PhraseEntries tc (.string k :: .colon :: (ts ++ .comma :: rest)) ((k, v) :: es)
end

/-- Iterating a tokenizer over `src` yields the tokens `ts`, no error, and then `None`. -/
def Stream (g : Bool) (src : List UInt8) (ts : List Token) : Prop :=
  (history src g (List.replicate (ts.length + 1) .next) 0).1.map Prod.snd = ts.map .token ++ [.none]

/-- A token with which a value can start. -/
def Token.StartsValue : Token → Prop
  | .null | .bool _ | .number _ | .string _ | .object | .array => True
  | _ => False

/-- A token with which a value can end. -/
def Token.EndsValue : Token → Prop
  | .null | .bool _ | .number _ | .string _ | .objectEnd | .arrayEnd => True
  | _ => False

/-- A token that closes a container. -/
def Token.Closes : Token → Prop
  | .objectEnd | .arrayEnd => True
  | _ => False

end
end JustJson
