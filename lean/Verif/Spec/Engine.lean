import Verif.Spec.Machine
import Verif.Spec.SameError
/-! # Specification: a parser without recursion, for any delegate

The engine takes the tokens one after the other (`scans`, `Spec/Machine.lean`). It holds what is to be taken next and a stack of the
arrays and objects that are open, with what the delegate returned for them, and asks the delegate where the outcome depends on it. -/

namespace JustJson
section
variable [Arch]

/-- What is to be taken next. -/
inductive Task where
  /-- a value: at the root or after a colon -/
  | value
  /-- an element or the end of the array -/
  | element
  /-- a key or the end of the object -/
  | key
  /-- the colon after a key -/
  | colon
  /-- a comma or the end of the innermost array or object -/
  | separator
deriving DecidableEq

/-- An object that waits for a key or a separator; one that waits for the value of a key, with the offset after the colon; an
array, with the offset after its bracket. -/
inductive Pending (D : Delegate) where
  | object (o : D.Object)
  | entry (colon : Nat) (o : D.Object) (k : D.Key)
  | array (bracket : Nat) (a : D.Array)

/-- Tokens are to be taken, or the root value is complete. -/
inductive Mode (D : Delegate) where
  | take (w : Task) (st : List (Pending D))
  | root (v : D.Value)

variable (cfg : ParseConfig) (D : Delegate)

/-- A callback; its failure is reported at an offset. -/
def attempt {α : Type} (off : Nat) (m : M D.σ D.Err α) : M D.σ (Error D.Err) α := fun d =>
  match m d with
  | .ok a d => .ok a d
  | .err x d => .err ⟨off, .errorFromDelegate x⟩ d
  | .panic p => .panic p

/-- A question, which changes nothing. -/
def ask {α : Type} (q : D.σ → Res α) : M D.σ (Error D.Err) α := fun d =>
  match q d with
  | .ok a => .ok a d
  | .panic p => .panic p

/-- The text is refused. -/
def refuse {α : Type} (off : Nat) (kind : ErrorKind D.Err) : M D.σ (Error D.Err) α := M.throw ⟨off, kind⟩

/-- A value that ends at an offset is given to what it is in. At the root it may have to be refused. -/
def handOver (after : Nat) (v : D.Value) : List (Pending D) → M D.σ (Error D.Err) (Mode D)
  | [] => do
    if cfg.allowAllTypesAtRoot then return .root v
    match ← ask D (D.kindOf · v) with
    | .object => return .root v
    | .array => return .root v
    | _ => refuse D 0 .payloadsShouldBeObjectOrArray
  | .array bracket a :: st => do
    let a ← attempt D after (D.arrayValue a v)
    return .take .separator (.array bracket a :: st)
  | .entry colon o k :: st => do
    let o ← attempt D colon (D.objectValue o k v)
    return .take .separator (.object o :: st)
  | .object o :: st => return .take .separator (.object o :: st)

/-- A value without parts. -/
def takeLeaf (st : List (Pending D)) (off after : Nat) (m : M D.σ D.Err D.Value) : M D.σ (Error D.Err) (Mode D) := do
  let v ← attempt D off m
  handOver cfg D after v st

/-- As many containers are open as may be. -/
def fullUp (st : List (Pending D)) : Bool :=
  match cfg.recursionLimit with
  | some n => n ≤ st.length
  | none => false

/-- A token where a value is to be taken. -/
def takeStart (st : List (Pending D)) (off after : Nat) : Token → M D.σ (Error D.Err) (Mode D)
  | .null => takeLeaf cfg D st off after D.null
  | .bool b => takeLeaf cfg D st off after (D.boolean b)
  | .number n => takeLeaf cfg D st off after (D.number n)
  | .string s => takeLeaf cfg D st off after (D.string s)
  | .object => do
    if fullUp cfg D st then refuse D off .recursionLimitReached
    else
      let o ← attempt D after D.beginObject
      return .take .key (.object o :: st)
  | .array => do
    if fullUp cfg D st then refuse D off .recursionLimitReached
    else
      let a ← attempt D after D.beginArray
      return .take .element (.array after a :: st)
  | .objectEnd => refuse D off (.unexpected 0x7D)
  | .arrayEnd => refuse D off (.unexpected 0x5D)
  | .colon => refuse D off (.unexpected 0x3A)
  | .comma => refuse D off (.unexpected 0x2C)

/-- The end of an array. -/
def leaveArray (bracket after : Nat) (a : D.Array) (st : List (Pending D)) : M D.σ (Error D.Err) (Mode D) := do
  let v ← attempt D bracket (D.endArray a)
  handOver cfg D after v st

/-- The end of an object. -/
def leaveObject (after : Nat) (o : D.Object) (st : List (Pending D)) : M D.σ (Error D.Err) (Mode D) := do
  let v ← attempt D after (D.endObject o)
  handOver cfg D after v st

/-- One token. Where an array or object may end, the delegate is asked whether it is empty, unless trailing commas are allowed. -/
def engineStep (x : Scan) : Task → List (Pending D) → Token → M D.σ (Error D.Err) (Mode D)
  | .element, .array bracket a :: st, .arrayEnd => do
    if cfg.allowTrailingCommas then leaveArray cfg D bracket x.after a st
    else if ← ask D (D.arrayIsEmpty · a) then leaveArray cfg D bracket x.after a st
    else refuse D x.before .illegalTrailingComma
  | .element, st, t => takeStart cfg D st x.start x.after t
  | .key, .object o :: st, .objectEnd => do
    if cfg.allowTrailingCommas then leaveObject cfg D x.after o st
    else if ← ask D (D.objectIsEmpty · o) then leaveObject cfg D x.after o st
    else refuse D x.before .illegalTrailingComma
  | .key, .object o :: st, .string s => do
    let (o, k) ← attempt D x.before (D.objectKey o s)
    return .take .colon (.entry 0 o k :: st)
  | .key, _, .array => refuse D x.before .objectKeysMustBeStrings
  | .key, _, .object => refuse D x.before .objectKeysMustBeStrings
  | .key, _, .bool _ => refuse D x.before .objectKeysMustBeStrings
  | .key, _, .null => refuse D x.before .objectKeysMustBeStrings
  | .key, _, .number _ => refuse D x.before .objectKeysMustBeStrings
  | .key, _, _ => refuse D x.before .expectedObjectKey
  | .colon, .entry _ o k :: st, .colon => return .take .value (.entry x.after o k :: st)
  | .colon, _, _ => refuse D x.before .expectedColon
  | .separator, .array bracket a :: st, .arrayEnd => leaveArray cfg D bracket x.after a st
  | .separator, .array bracket a :: st, .comma => return .take .element (.array bracket a :: st)
  | .separator, .array _ _ :: _, _ => refuse D x.before .expectedCommaOrEndOfArray
  | .separator, .object o :: st, .objectEnd => leaveObject cfg D x.after o st
  | .separator, .object o :: st, .comma => return .take .key (.object o :: st)
  | .separator, _, _ => refuse D x.before .expectedCommaOrEndOfObject
  | .value, st, t => takeStart cfg D st x.before x.after t

/-- An error of the tokenizer: the end of input is named after the innermost open container, and any error is a missing colon
where a colon is to be taken. -/
def blame (w : Task) (st : List (Pending D)) (e : Error Empty) : Error D.Err :=
  match w, st, e.kind with
  | .colon, _, _ => ⟨e.offset, .expectedColon⟩
  | _, .array _ _ :: _, .unexpectedEof => ⟨e.offset, .unclosedArray⟩
  | _, _ :: _, .unexpectedEof => ⟨e.offset, .unclosedObject⟩
  | _, _, _ => sameError e

/-- All tokens of a source of `len` bytes. (The list of a source always ends with an error, so the first case does not come up.) -/
def engine (len : Nat) : List Scan → Mode D → M D.σ (Error D.Err) D.Value
  | [], _ => M.panic .fuel
  | x :: _, .root v => if x.start = len then return v else refuse D x.start .trailingNonWhitespace
  | x :: xs, .take w st =>
    match x.item with
    | .error e => M.throw (blame D w st e)
    | .ok t => do
      let m ← engineStep cfg D x w st t
      engine len xs m

/-- A parse by the engine. -/
def engineParse (g : Bool) (src : List UInt8) : M D.σ (Error D.Err) D.Value :=
  engine cfg D src.length (scans g src) (.take .value [])

/-- An outcome of the parser with the final state of the delegate. -/
def onlyDelegate {σ ε α : Type} : Out (PState σ) ε α → Out σ ε α
  | .ok a s => .ok a s.delegate
  | .err e s => .err e s.delegate
  | .panic p => .panic p

end
end JustJson
