import Verif.Spec.Fold
/-! # Specification: delegates that keep a record -/

namespace JustJson
section
variable [Arch]

/-- A callback whose outcome is recorded: `none` for `Ok`, `some e` for `Err(e)`. -/
def recorded {σ ε α : Type} (m : M σ ε α) : M (σ × List (Option ε)) ε α := fun s =>
  match m s.1 with
  | .ok a d => .ok a (d, s.2 ++ [none])
  | .err e d => .err e (d, s.2 ++ [some e])
  | .panic p => .panic p

/-- Any delegate, with the outcome of each callback recorded in order. -/
@[reducible] def traced (D : Delegate) : Delegate where
  σ := D.σ × List (Option D.Err)
  Value := D.Value
  Object := D.Object
  Array := D.Array
  Key := D.Key
  Err := D.Err
  null := recorded D.null
  boolean b := recorded (D.boolean b)
  number n := recorded (D.number n)
  string s := recorded (D.string s)
  beginObject := recorded D.beginObject
  objectKey o k := recorded (D.objectKey o k)
  objectValue o k v := recorded (D.objectValue o k v)
  objectIsEmpty s o := D.objectIsEmpty s.1 o
  endObject o := recorded (D.endObject o)
  beginArray := recorded D.beginArray
  arrayValue a v := recorded (D.arrayValue a v)
  arrayIsEmpty s a := D.arrayIsEmpty s.1 a
  endArray a := recorded (D.endArray a)
  kindOf s v := D.kindOf s.1 v

/-- A run of `traced D` with the record forgotten. -/
def forget {σ ε α β : Type} : Out (PState (σ × List β)) ε α → Out (PState σ) ε α
  | .ok a s => .ok a ⟨s.offset, s.delegate.1, s.remainingDepth⟩
  | .err e s => .err e ⟨s.offset, s.delegate.1, s.remainingDepth⟩
  | .panic p => .panic p

/-! ## The callbacks themselves -/

/-- A callback with its arguments. -/
inductive Event where
  | null
  | boolean (b : Bool)
  | number (n : JsonNumber)
  | string (s : JsonString)
  | beginObject
  | objectKey (k : JsonString)
  | objectValue
  | endObject
  | beginArray
  | arrayValue
  | endArray
deriving DecidableEq

/-- Append an event and return `a`. -/
def note {α : Type} (e : Event) (a : α) : M (List Event) Empty α := fun log => .ok a (log ++ [e])

/-- A delegate that does nothing but list the callbacks it receives. Its containers count their entries so
that it can answer `object_is_empty` and `array_is_empty`. -/
@[reducible] def recorder : Delegate where
  σ := List Event
  Value := JsonKind
  Object := Nat
  Array := Nat
  Key := Unit
  Err := Empty
  null := note .null .null
  boolean b := note (.boolean b) .boolean
  number n := note (.number n) .number
  string s := note (.string s) .string
  beginObject := note .beginObject 0
  objectKey o k := note (.objectKey k) (o, ())
  objectValue o _ _ := note .objectValue (o + 1)
  objectIsEmpty _ o := .ok (o == 0)
  endObject _ := note .endObject .object
  beginArray := note .beginArray 0
  arrayValue a _ := note .arrayValue (a + 1)
  arrayIsEmpty _ a := .ok (a == 0)
  endArray _ := note .endArray .array
  kindOf _ v := .ok v

mutual
/-- The bracketed pre-order sequence of callbacks for a value. -/
def events : Value → List Event
  | .null => [.null]
  | .boolean b => [.boolean b]
  | .number n => [.number n]
  | .string s => [.string s]
  | .object es => .beginObject :: (entryEvents es ++ [.endObject])
  | .array vs => .beginArray :: (elemEvents vs ++ [.endArray])
/-- per entry: the key, the value's callbacks, `object_value` -/
def entryEvents : List (JsonString × Value) → List Event
  | [] => []
  | (k, v) :: es => .objectKey k :: (events v ++ .objectValue :: entryEvents es)
/-- per element: the element's callbacks, `array_value` -/
def elemEvents : List Value → List Event
  | [] => []
  | v :: vs => events v ++ .arrayValue :: elemEvents vs
end

/-! ## Any delegate, with the callbacks it receives listed -/

/-- A callback that is listed, whether it succeeds or fails. -/
def listed {σ ε α : Type} (e : Event) (m : M σ ε α) : M (σ × List Event) ε α := fun s =>
  match m s.1 with
  | .ok a d => .ok a (d, s.2 ++ [e])
  | .err x d => .err x (d, s.2 ++ [e])
  | .panic p => .panic p

/-- Any delegate, with every callback it receives appended to a list. -/
@[reducible] def logged (D : Delegate) : Delegate where
  σ := D.σ × List Event
  Value := D.Value
  Object := D.Object
  Array := D.Array
  Key := D.Key
  Err := D.Err
  null := listed .null D.null
  boolean b := listed (.boolean b) (D.boolean b)
  number n := listed (.number n) (D.number n)
  string s := listed (.string s) (D.string s)
  beginObject := listed .beginObject D.beginObject
  objectKey o k := listed (.objectKey k) (D.objectKey o k)
  objectValue o k v := listed .objectValue (D.objectValue o k v)
  objectIsEmpty s o := D.objectIsEmpty s.1 o
  endObject o := listed .endObject (D.endObject o)
  beginArray := listed .beginArray D.beginArray
  arrayValue a v := listed .arrayValue (D.arrayValue a v)
  arrayIsEmpty s a := D.arrayIsEmpty s.1 a
  endArray a := listed .endArray (D.endArray a)
  kindOf s v := D.kindOf s.1 v

/-- How many `begin_*` callbacks a list holds. -/
def begins (l : List Event) : Nat := l.countP fun e => e == .beginObject || e == .beginArray

/-- How many `end_*` callbacks a list holds. -/
def ends (l : List Event) : Nat := l.countP fun e => e == .endObject || e == .endArray

/-- The callbacks a run has made, if it did not panic. -/
def heard {σ ε α : Type} : Out (PState (σ × List Event)) ε α → Option (List Event)
  | .ok _ s => some s.delegate.2
  | .err _ s => some s.delegate.2
  | .panic _ => none

/-- The run ended because a callback failed. -/
def delegateFailed {σ ε α : Type} : Out σ (Error ε) α → Prop
  | .err e _ => ∃ x, e.kind = .errorFromDelegate x
  | _ => False

/-- A delegate none of whose callbacks ever fails. -/
structure Unfailing (F : Delegate) : Prop where
  null : ∀ d, ∃ a d', F.null d = .ok a d'
  boolean : ∀ b d, ∃ a d', F.boolean b d = .ok a d'
  number : ∀ b d, ∃ a d', F.number b d = .ok a d'
  string : ∀ b d, ∃ a d', F.string b d = .ok a d'
  beginObject : ∀ d, ∃ a d', F.beginObject d = .ok a d'
  objectKey : ∀ o k d, ∃ a d', F.objectKey o k d = .ok a d'
  objectValue : ∀ o k v d, ∃ a d', F.objectValue o k v d = .ok a d'
  endObject : ∀ o d, ∃ a d', F.endObject o d = .ok a d'
  beginArray : ∀ d, ∃ a d', F.beginArray d = .ok a d'
  arrayValue : ∀ o v d, ∃ a d', F.arrayValue o v d = .ok a d'
  endArray : ∀ o d, ∃ a d', F.endArray o d = .ok a d'

/-- The token a callback reports, if it reports one. -/
def Event.token? : Event → Option Token
  | .null => some .null
  | .boolean b => some (.bool b)
  | .number n => some (.number n)
  | .string s => some (.string s)
  | .beginObject => some .object
  | .objectKey k => some (.string k)
  | .objectValue => none
  | .endObject => some .objectEnd
  | .beginArray => some .array
  | .arrayValue => none
  | .endArray => some .arrayEnd

/-- The tokens reported by a list of callbacks. -/
def told (l : List Event) : List Token := l.filterMap Event.token?

/-- The tokens other than commas and colons. -/
def notes (ts : List Token) : List Token := ts.filter fun t => decide (t ≠ .comma ∧ t ≠ .colon)

end
end JustJson
