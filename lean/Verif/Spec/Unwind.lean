import Verif.Spec.Opaque
/-! # Specification: callbacks that panic

A panic of a callback loses, in the model, what the callbacks have done until then. To say what that is, take a delegate that
returns an error instead: an error keeps the state. -/

namespace JustJson
section
variable [Arch]

/-- A callback that panics for the errors that `f` says are panics, and returns the others. -/
def thrown {σ ε δ α : Type} (f : δ → ε ⊕ Panic) (m : M σ δ α) : M σ ε α := fun s =>
  match m s with
  | .ok a s' => .ok a s'
  | .err x s' =>
    match f x with
    | .inl y => .err y s'
    | .inr p => .panic p
  | .panic p => .panic p

/-- A delegate like `D`, but that panics in callbacks where `D` returns an error that `f` says is a panic. -/
@[reducible] def panicking (D : Delegate) {ε : Type} (f : D.Err → ε ⊕ Panic) : Delegate where
  σ := D.σ
  Value := D.Value
  Object := D.Object
  Array := D.Array
  Key := D.Key
  Err := ε
  null := thrown f D.null
  boolean b := thrown f (D.boolean b)
  number n := thrown f (D.number n)
  string s := thrown f (D.string s)
  beginObject := thrown f D.beginObject
  objectKey o k := thrown f (D.objectKey o k)
  objectValue o k v := thrown f (D.objectValue o k v)
  objectIsEmpty s o := D.objectIsEmpty s o
  endObject o := thrown f (D.endObject o)
  beginArray := thrown f D.beginArray
  arrayValue a v := thrown f (D.arrayValue a v)
  arrayIsEmpty s a := D.arrayIsEmpty s a
  endArray a := thrown f (D.endArray a)
  kindOf s v := D.kindOf s v

/-- A callback that returns a panic as an error; the state is the one before the call. -/
def caughtCall {σ ε α : Type} (m : M σ ε α) : M σ (ε ⊕ Panic) α := fun s =>
  match m s with
  | .ok a s' => .ok a s'
  | .err x s' => .err (.inl x) s'
  | .panic p => .err (.inr p) s

/-- A delegate whose callbacks catch their panics and return them as errors. -/
@[reducible] def caught (D : Delegate) : Delegate where
  σ := D.σ
  Value := D.Value
  Object := D.Object
  Array := D.Array
  Key := D.Key
  Err := D.Err ⊕ Panic
  null := caughtCall D.null
  boolean b := caughtCall (D.boolean b)
  number n := caughtCall (D.number n)
  string s := caughtCall (D.string s)
  beginObject := caughtCall D.beginObject
  objectKey o k := caughtCall (D.objectKey o k)
  objectValue o k v := caughtCall (D.objectValue o k v)
  objectIsEmpty s o := D.objectIsEmpty s o
  endObject o := caughtCall (D.endObject o)
  beginArray := caughtCall D.beginArray
  arrayValue a v := caughtCall (D.arrayValue a v)
  arrayIsEmpty s a := D.arrayIsEmpty s a
  endArray a := caughtCall (D.endArray a)
  kindOf s v := D.kindOf s v

/-- A delegate that answers what it is asked: none of its three queries panics. -/
structure Answers (D : Delegate) : Prop where
  object : ∀ d o p, D.objectIsEmpty d o ≠ .panic p
  array : ∀ d a p, D.arrayIsEmpty d a ≠ .panic p
  kind : ∀ d v p, D.kindOf d v ≠ .panic p

end
end JustJson
