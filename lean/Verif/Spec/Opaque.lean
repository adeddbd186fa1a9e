import Verif.Spec.Trace
import Verif.Spec.SameError
/-! # Specification: delegates that answer alike

A `Tie` relates the states of two delegates, and what they return, such that every callback on related arguments has related results,
and the questions that the parser asks under a configuration have the same answers. -/

namespace JustJson
section
variable [Arch]

/-- Two outcomes are alike: both succeed, or both fail, with related results, errors and states; or both panic in the same way. -/
def Akin {σ τ ε δ α β : Type} (S : σ → τ → Prop) (Q : ε → δ → Prop) (R : α → β → Prop) : Out σ ε α → Out τ δ β → Prop
  | .ok a s, .ok b t => R a b ∧ S s t
  | .err x s, .err y t => Q x y ∧ S s t
  | .panic p, .panic q => p = q
  | _, _ => False


/-- Two delegates tied together for parsing with a configuration. Whether an object or array is empty is asked only if trailing
commas are not allowed, the kind of the root only if not all kinds are allowed there. -/
structure Tie (cfg : ParseConfig) (D E : Delegate) where
  state : D.σ → E.σ → Prop
  value : D.Value → E.Value → Prop
  object : D.Object → E.Object → Prop
  array : D.Array → E.Array → Prop
  key : D.Key → E.Key → Prop
  error : D.Err → E.Err → Prop
  null : ∀ d e, state d e → Akin state error value (D.null d) (E.null e)
  boolean : ∀ b d e, state d e → Akin state error value (D.boolean b d) (E.boolean b e)
  number : ∀ n d e, state d e → Akin state error value (D.number n d) (E.number n e)
  string : ∀ s d e, state d e → Akin state error value (D.string s d) (E.string s e)
  beginObject : ∀ d e, state d e → Akin state error object (D.beginObject d) (E.beginObject e)
  objectKey : ∀ o o' s d e, object o o' → state d e →
    Akin state error (fun a b => object a.1 b.1 ∧ key a.2 b.2) (D.objectKey o s d) (E.objectKey o' s e)
  objectValue : ∀ o o' k k' v v' d e, object o o' → key k k' → value v v' → state d e →
    Akin state error object (D.objectValue o k v d) (E.objectValue o' k' v' e)
  objectIsEmpty : cfg.allowTrailingCommas = false → ∀ o o' d e, object o o' → state d e → D.objectIsEmpty d o = E.objectIsEmpty e o'
  endObject : ∀ o o' d e, object o o' → state d e → Akin state error value (D.endObject o d) (E.endObject o' e)
  beginArray : ∀ d e, state d e → Akin state error array (D.beginArray d) (E.beginArray e)
  arrayValue : ∀ a a' v v' d e, array a a' → value v v' → state d e →
    Akin state error array (D.arrayValue a v d) (E.arrayValue a' v' e)
  arrayIsEmpty : cfg.allowTrailingCommas = false → ∀ a a' d e, array a a' → state d e → D.arrayIsEmpty d a = E.arrayIsEmpty e a'
  endArray : ∀ a a' d e, array a a' → state d e → Akin state error value (D.endArray a d) (E.endArray a' e)
  kindOf : cfg.allowAllTypesAtRoot = false → ∀ v v' d e, value v v' → state d e → D.kindOf d v = E.kindOf e v'

/-- Two errors are alike: the same error of the parser, or errors of the delegates that are related, at the same offset. -/
def Tie.parseError {cfg : ParseConfig} {D E : Delegate} (T : Tie cfg D E) (x : Error D.Err) (y : Error E.Err) : Prop :=
  (∃ z : Error Empty, x = sameError z ∧ y = sameError z)
  ∨ ∃ off a b, x = ⟨off, .errorFromDelegate a⟩ ∧ y = ⟨off, .errorFromDelegate b⟩ ∧ T.error a b

/-! ## Two ways to wrap a delegate -/

/-- A delegate whose errors are converted. -/
@[reducible] def convertErrors (D : Delegate) {ε : Type} (f : D.Err → ε) : Delegate where
  σ := D.σ
  Value := D.Value
  Object := D.Object
  Array := D.Array
  Key := D.Key
  Err := ε
  null := M.mapErr f D.null
  boolean b := M.mapErr f (D.boolean b)
  number n := M.mapErr f (D.number n)
  string s := M.mapErr f (D.string s)
  beginObject := M.mapErr f D.beginObject
  objectKey o k := M.mapErr f (D.objectKey o k)
  objectValue o k v := M.mapErr f (D.objectValue o k v)
  objectIsEmpty s o := D.objectIsEmpty s o
  endObject o := M.mapErr f (D.endObject o)
  beginArray := M.mapErr f D.beginArray
  arrayValue a v := M.mapErr f (D.arrayValue a v)
  arrayIsEmpty s a := D.arrayIsEmpty s a
  endArray a := M.mapErr f (D.endArray a)
  kindOf s v := D.kindOf s v

/-- The kind of an error, with the delegate's error, if it is one, converted. -/
def ErrorKind.convert {ε δ : Type} (f : ε → δ) : ErrorKind ε → ErrorKind δ
  | .errorFromDelegate x => .errorFromDelegate (f x)
  | .utf8 => .utf8
  | .unexpectedEof => .unexpectedEof
  | .expectedObjectKey => .expectedObjectKey
  | .expectedColon => .expectedColon
  | .expectedValue => .expectedValue
  | .expectedCommaOrEndOfObject => .expectedCommaOrEndOfObject
  | .expectedCommaOrEndOfArray => .expectedCommaOrEndOfArray
  | .illegalTrailingComma => .illegalTrailingComma
  | .unexpected b => .unexpected b
  | .trailingNonWhitespace => .trailingNonWhitespace
  | .objectKeysMustBeStrings => .objectKeysMustBeStrings
  | .expectedExponent => .expectedExponent
  | .expectedDecimalDigit => .expectedDecimalDigit
  | .expectedDigit => .expectedDigit
  | .invalidHexadecimal => .invalidHexadecimal
  | .invalidEscape => .invalidEscape
  | .unclosedObject => .unclosedObject
  | .unclosedArray => .unclosedArray
  | .unclosedString => .unclosedString
  | .expectedString => .expectedString
  | .expectedNumber => .expectedNumber
  | .recursionLimitReached => .recursionLimitReached
  | .payloadsShouldBeObjectOrArray => .payloadsShouldBeObjectOrArray
  | .paylodTooLarge => .paylodTooLarge

/-- An outcome with the delegate's error, if there is one, converted. -/
def convertOut {σ ε δ α : Type} (f : ε → δ) : Out σ (Error ε) α → Out σ (Error δ) α
  | .ok a s => .ok a s
  | .err e s => .err ⟨e.offset, e.kind.convert f⟩ s
  | .panic p => .panic p

/-- A callback during which an observer, who sees the call and whether it succeeded, changes a state of its own. -/
def watched {σ ω ε α : Type} (see : Bool → ω → ω) (m : M σ ε α) : M (σ × ω) ε α := fun s =>
  match m s.1 with
  | .ok a d => .ok a (d, see true s.2)
  | .err x d => .err x (d, see false s.2)
  | .panic p => .panic p

/-- A delegate whose callbacks an observer is told of: each with its arguments and whether it succeeded. -/
@[reducible] def observed (D : Delegate) {ω : Type} (see : Event → Bool → ω → ω) : Delegate where
  σ := D.σ × ω
  Value := D.Value
  Object := D.Object
  Array := D.Array
  Key := D.Key
  Err := D.Err
  null := watched (see .null) D.null
  boolean b := watched (see (.boolean b)) (D.boolean b)
  number n := watched (see (.number n)) (D.number n)
  string s := watched (see (.string s)) (D.string s)
  beginObject := watched (see .beginObject) D.beginObject
  objectKey o k := watched (see (.objectKey k)) (D.objectKey o k)
  objectValue o k v := watched (see .objectValue) (D.objectValue o k v)
  objectIsEmpty s o := D.objectIsEmpty s.1 o
  endObject o := watched (see .endObject) (D.endObject o)
  beginArray := watched (see .beginArray) D.beginArray
  arrayValue a v := watched (see .arrayValue) (D.arrayValue a v)
  arrayIsEmpty s a := D.arrayIsEmpty s.1 a
  endArray a := watched (see .endArray) (D.endArray a)
  kindOf s v := D.kindOf s.1 v

/-- An outcome without the observer. -/
def unwatched {σ ω ε α : Type} : Out (σ × ω) ε α → Out σ ε α
  | .ok a s => .ok a s.1
  | .err e s => .err e s.1
  | .panic p => .panic p

end
end JustJson
