import Verif.Spec.Content
/-! # Specification: which entry of an object a key addresses, and writes of one place -/

namespace JustJson

section
variable [Arch]

/-- Entry number `i` is the first one whose key has the text `key`. -/
def FirstAt (o : Object) (key : Str) (i : Nat) : Prop :=
  (∃ e, o[i]? = some e ∧ HasText e.1 key) ∧ ∀ j, j < i → ∀ e, o[j]? = some e → ¬ HasText e.1 key

/-- No entry has a key with the text `key`. -/
def NoKey (o : Object) (key : Str) : Prop := ∀ e ∈ o, ¬ HasText e.1 key

end

/-- `ys` is `xs` with place `i` (which exists) changed by `f`, and nothing else. -/
structure ChangedAt {α : Type} (xs : List α) (i : Nat) (f : α → α) (ys : List α) : Prop where
  inside : i < xs.length
  length : ys.length = xs.length
  at_i : ∀ x, xs[i]? = some x → ys[i]? = some (f x)
  elsewhere : ∀ j, j ≠ i → ys[j]? = xs[j]?

end JustJson
