import Verif.Spec.Content
/-! # Specification: what is read where a text was written

The library writes some control characters of raw text wrongly (`C24`, `C49`). This says what each of them is read back as. -/

namespace JustJson
section
variable [Arch]

/-- The control characters that are written as `\u` and a letter past `f`, which no JSON reader accepts. -/
def Illegible (c : Char) : Prop := c.toNat ∈ [0x0B, 0x0E, 0x0F, 0x1A, 0x1B, 0x1C, 0x1D, 0x1E, 0x1F]

instance (c : Char) : Decidable (Illegible c) := inferInstanceAs (Decidable (_ ∈ _))

/-- What any other character of raw text is read back as: itself, but the control characters other than U+0000, U+0007, tab, line
feed, form feed and carriage return are written with their two digits first and in the wrong order, as in `\u1000` for U+0001 and
`\u9100` for U+0019. -/
def readBack (c : Char) : Char :=
  if 0x20 ≤ c.toNat ∨ c.toNat ∈ [0x00, 0x07, 0x09, 0x0A, 0x0C, 0x0D] then c
  else Char.ofNat (c.toNat % 16 * 0x1000 + c.toNat / 16 * 0x100)

/-- `t` is read where `s` was written: if `s` is kept as JSON source, the same source with the same text; if it is kept as raw
text, the text of `s` with each character as it is read back. -/
def ReadFor (s t : JsonString) : Prop :=
  (∀ a, s.asJsonStr = some a → (∃ b, t.asJsonStr = some b ∧ b.asStr = a.asStr) ∧ ∃ x, HasText s x ∧ HasText t x)
  ∧ (s.asJsonStr = none → ∃ x, HasText s x ∧ HasText t (x.map readBack))

mutual
/-- The same structure: the same arrays and objects with as many elements and entries in the same order, the same `null`s, booleans
and numbers, and strings and keys at the same places, which are related by `R`. -/
inductive SameShape (R : JsonString → JsonString → Prop) : Value → Value → Prop where
  | null : SameShape R .null .null
  | boolean (b : Bool) : SameShape R (.boolean b) (.boolean b)
  | number (x y : JsonNumber) : x.sourceStr = y.sourceStr → SameShape R (.number x) (.number y)
  | string (s t : JsonString) : R s t → SameShape R (.string s) (.string t)
  | array (vs ws : List Value) : SameShapeElems R vs ws → SameShape R (.array vs) (.array ws)
  | object (es fs : Object) : SameShapeEntries R es fs → SameShape R (.object es) (.object fs)
/-- element by element -/
inductive SameShapeElems (R : JsonString → JsonString → Prop) : List Value → List Value → Prop where
  | nil : SameShapeElems R [] []
  | cons (v w : Value) (vs ws : List Value) : SameShape R v w → SameShapeElems R vs ws → SameShapeElems R (v :: vs) (w :: ws)
/-- entry by entry -/
inductive SameShapeEntries (R : JsonString → JsonString → Prop) : Object → Object → Prop where
  | nil : SameShapeEntries R [] []
  | cons (k l : JsonString) (v w : Value) (es fs : Object) : R k l → SameShape R v w → SameShapeEntries R es fs →
      SameShapeEntries R ((k, v) :: es) ((l, w) :: fs)
end

end
end JustJson
