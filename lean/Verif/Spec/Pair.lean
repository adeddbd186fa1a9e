import Verif.Model.Parser
/-! # Specification: two delegates in one

Uses of the model only `Delegate` and `M`, the type of a callback. -/

namespace JustJson
section
variable (D E : Delegate)

/-- The two callbacks, one after the other, each on its own delegate; if the first fails, the second is not made. -/
def oneThenOther {α β : Type} (m : M D.σ D.Err α) (n : M E.σ E.Err β) : M (D.σ × E.σ) (D.Err ⊕ E.Err) (α × β) := fun s =>
  match m s.1 with
  | .ok a d =>
    match n s.2 with
    | .ok b e => .ok (a, b) (d, e)
    | .err y e => .err (.inr y) (d, e)
    | .panic p => .panic p
  | .err x d => .err (.inl x) (d, s.2)
  | .panic p => .panic p

/-- The delegate that passes every callback on to `D` and then to `E`, and asks `D` whether a container is empty and of what
kind a value is. -/
@[reducible] def bothDelegates : Delegate where
  σ := D.σ × E.σ
  Value := D.Value × E.Value
  Object := D.Object × E.Object
  Array := D.Array × E.Array
  Key := D.Key × E.Key
  Err := D.Err ⊕ E.Err
  null := oneThenOther D E D.null E.null
  boolean b := oneThenOther D E (D.boolean b) (E.boolean b)
  number n := oneThenOther D E (D.number n) (E.number n)
  string s := oneThenOther D E (D.string s) (E.string s)
  beginObject := oneThenOther D E D.beginObject E.beginObject
  objectKey o k := do
    let p ← oneThenOther D E (D.objectKey o.1 k) (E.objectKey o.2 k)
    return ((p.1.1, p.2.1), (p.1.2, p.2.2))
  objectValue o k v := oneThenOther D E (D.objectValue o.1 k.1 v.1) (E.objectValue o.2 k.2 v.2)
  objectIsEmpty s o := D.objectIsEmpty s.1 o.1
  endObject o := oneThenOther D E (D.endObject o.1) (E.endObject o.2)
  beginArray := oneThenOther D E D.beginArray E.beginArray
  arrayValue a v := oneThenOther D E (D.arrayValue a.1 v.1) (E.arrayValue a.2 v.2)
  arrayIsEmpty s a := D.arrayIsEmpty s.1 a.1
  endArray a := oneThenOther D E (D.endArray a.1) (E.endArray a.2)
  kindOf s v := D.kindOf s.1 v.1

end
end JustJson
