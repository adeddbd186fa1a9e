import Verif.Spec.Content
import Verif.Spec.Phrase
import Verif.Model.Compare
/-! # Specification: when two tokens, or two series of tokens, say the same -/

namespace JustJson
open Spec

section
variable [Arch]

/-- The same token but for the spelling of strings: the same kind, the same boolean, numbers with the same source, strings that
decode to the same text. -/
inductive SameToken : Token → Token → Prop where
  | null : SameToken .null .null
  | bool (b : Bool) : SameToken (.bool b) (.bool b)
  | string (s t : JsonString) : SameText s t → SameToken (.string s) (.string t)
  | number (m n : JsonNumber) : m.sourceStr = n.sourceStr → SameToken (.number m) (.number n)
  | object : SameToken .object .object
  | objectEnd : SameToken .objectEnd .objectEnd
  | array : SameToken .array .array
  | arrayEnd : SameToken .arrayEnd .arrayEnd
  | colon : SameToken .colon .colon
  | comma : SameToken .comma .comma

/-- What `Iterator::eq` finds on two iterators that yield these tokens: `==` returns `true` for each pair, and both end
together. -/
inductive EqStreams : List Token → List Token → Prop where
  | nil : EqStreams [] []
  | cons (a b : Token) (as bs : List Token) : a.eq b = .ok true → EqStreams as bs → EqStreams (a :: as) (b :: bs)

/-- A token some tokenizer returned, after any series of calls. -/
def Yielded (t : Token) : Prop := ∃ (g : Bool) (src : List UInt8) (cs : List Call) (c : Call),
  Input g src ∧ (c.run src g (offsetAfter src g cs)).1 = .token t

end
end JustJson
