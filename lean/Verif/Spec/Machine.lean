import Verif.Spec.Replay
/-! # Specification: the parser as a machine over the items of the tokenizer

The machine takes one token at a time. It knows what is wanted next and which arrays and objects are open; it says which callbacks
to make, each with the offset that its failure is reported with, and when to give up with which error. -/

namespace JustJson
section
variable [Arch]

/-- One call of `next_or_eof`: `offset()` before it, where the token begins (`offset()` after `peek`), the result, and `offset()`
after it. -/
structure Scan where
  before : Nat
  start : Nat
  item : Except (Error Empty) Token
  after : Nat

/-- Calls of `next_or_eof` up to the first that returns an error, from an offset on; at most `n`. -/
def scansFrom (g : Bool) (src : List UInt8) : Nat → Nat → List Scan
  | 0, _ => []
  | n + 1, off =>
    let start := off + ((src.drop off).takeWhile (fun b => decide (b ∈ [0x20, 0x09, 0x0A, 0x0D]))).length
    match nextOrEof src g off with
    | .ok t after => ⟨off, start, .ok t, after⟩ :: scansFrom g src n after
    | .err e after => [⟨off, start, .error e, after⟩]
    | .panic _ => []

/-- The tokens of a source, and the error that ends them (at least that of the end of input). -/
def scans (g : Bool) (src : List UInt8) : List Scan := scansFrom g src (src.length + 2) 0

/-- What is wanted next. -/
inductive Want where
  /-- a value: at the root or after a colon -/
  | value
  /-- an element or the end of the array, the first after `[` or one after a comma -/
  | element (first : Bool)
  /-- a key or the end of the object, the first after `{` or one after a comma -/
  | key (first : Bool)
  /-- the colon after a key -/
  | colon
  /-- what follows a value: a comma or the end of the innermost container, or the end of the input -/
  | separator
deriving DecidableEq

/-- An object that is open, with the offset after its latest colon, or an array, with the offset after its bracket. -/
inductive Nest where
  | object (colon : Nat)
  | array (bracket : Nat)

/-- A value is given to the container it is in. -/
def delivered (after : Nat) : List Nest → List (Nat × Event)
  | [] => []
  | .array _ :: _ => [(after, .arrayValue)]
  | .object colon :: _ => [(colon, .objectValue)]

/-- No further container may be opened. -/
def crowded (cfg : ParseConfig) (st : List Nest) : Bool :=
  match cfg.recursionLimit with
  | some n => n ≤ st.length
  | none => false

/-- Callbacks, and then an error, or what is wanted next and which containers are open. -/
abbrev Turn := List (Nat × Event) × Except (Error Empty) (Want × List Nest)

/-- A value without parts. At the root it may have to be refused. -/
def takeScalar (cfg : ParseConfig) (st : List Nest) (off after : Nat) (e : Event) : Turn :=
  ((off, e) :: delivered after st,
    if st.isEmpty && !cfg.allowAllTypesAtRoot then .error ⟨0, .payloadsShouldBeObjectOrArray⟩ else .ok (.separator, st))

/-- A token where a value is wanted. -/
def takeValue (cfg : ParseConfig) (st : List Nest) (off after : Nat) : Token → Turn
  | .null => takeScalar cfg st off after .null
  | .bool b => takeScalar cfg st off after (.boolean b)
  | .number n => takeScalar cfg st off after (.number n)
  | .string s => takeScalar cfg st off after (.string s)
  | .object =>
    if crowded cfg st then ([], .error ⟨off, .recursionLimitReached⟩) else ([(after, .beginObject)], .ok (.key true, .object 0 :: st))
  | .array =>
    if crowded cfg st then ([], .error ⟨off, .recursionLimitReached⟩) else ([(after, .beginArray)], .ok (.element true, .array after :: st))
  | .objectEnd => ([], .error ⟨off, .unexpected 0x7D⟩)
  | .arrayEnd => ([], .error ⟨off, .unexpected 0x5D⟩)
  | .colon => ([], .error ⟨off, .unexpected 0x3A⟩)
  | .comma => ([], .error ⟨off, .unexpected 0x2C⟩)

/-- The end of an array: failure of `end_array` is reported where the array begins. -/
def closeArray (bracket after : Nat) (st : List Nest) : Turn := ((bracket, .endArray) :: delivered after st, .ok (.separator, st))

/-- The end of an object. -/
def closeObject (after : Nat) (st : List Nest) : Turn := ((after, .endObject) :: delivered after st, .ok (.separator, st))

/-- One token. An element that fails is reported where it begins, other values and keys where the token before ended. -/
def takeToken (cfg : ParseConfig) (x : Scan) : Want → List Nest → Token → Turn
  | .value, st, t => takeValue cfg st x.before x.after t
  | .element first, .array bracket :: st, .arrayEnd =>
    if first || cfg.allowTrailingCommas then closeArray bracket x.after st else ([], .error ⟨x.before, .illegalTrailingComma⟩)
  | .element _, st, t => takeValue cfg st x.start x.after t
  | .key first, _ :: st, .objectEnd =>
    if first || cfg.allowTrailingCommas then closeObject x.after st else ([], .error ⟨x.before, .illegalTrailingComma⟩)
  | .key _, st, .string k => ([(x.before, .objectKey k)], .ok (.colon, st))
  | .key _, _, .array => ([], .error ⟨x.before, .objectKeysMustBeStrings⟩)
  | .key _, _, .object => ([], .error ⟨x.before, .objectKeysMustBeStrings⟩)
  | .key _, _, .bool _ => ([], .error ⟨x.before, .objectKeysMustBeStrings⟩)
  | .key _, _, .null => ([], .error ⟨x.before, .objectKeysMustBeStrings⟩)
  | .key _, _, .number _ => ([], .error ⟨x.before, .objectKeysMustBeStrings⟩)
  | .key _, _, _ => ([], .error ⟨x.before, .expectedObjectKey⟩)
  | .colon, _ :: st, .colon => ([], .ok (.value, .object x.after :: st))
  | .colon, _, _ => ([], .error ⟨x.before, .expectedColon⟩)
  | .separator, .array bracket :: st, .arrayEnd => closeArray bracket x.after st
  | .separator, .array bracket :: st, .comma => ([], .ok (.element false, .array bracket :: st))
  | .separator, .array _ :: _, _ => ([], .error ⟨x.before, .expectedCommaOrEndOfArray⟩)
  | .separator, .object _ :: st, .objectEnd => closeObject x.after st
  | .separator, .object colon :: st, .comma => ([], .ok (.key false, .object colon :: st))
  | .separator, _, _ => ([], .error ⟨x.before, .expectedCommaOrEndOfObject⟩)

/-- An error of the tokenizer as the parser reports it: the end of input is named after the innermost open container, and any
error is a missing colon where a colon is wanted. -/
def report (w : Want) (st : List Nest) (e : Error Empty) : Error Empty :=
  match w, st, e.kind with
  | .colon, _, _ => ⟨e.offset, .expectedColon⟩
  | _, .object _ :: _, .unexpectedEof => ⟨e.offset, .unclosedObject⟩
  | _, .array _ :: _, .unexpectedEof => ⟨e.offset, .unclosedArray⟩
  | _, _, _ => e

/-- All tokens of a source of `len` bytes, one after the other: the callbacks, and the error if there is one. -/
def drive (cfg : ParseConfig) (len : Nat) : List Scan → Want → List Nest → List (Nat × Event) × Option (Error Empty)
  | [], _, _ => ([], none)
  | x :: _, .separator, [] => ([], if x.start = len then none else some ⟨x.start, .trailingNonWhitespace⟩)
  | x :: xs, w, st =>
    match x.item with
    | .error e => ([], some (report w st e))
    | .ok t =>
      match takeToken cfg x w st t with
      | (l, .error e) => (l, some e)
      | (l, .ok (w, st)) =>
        match drive cfg len xs w st with
        | (l', e) => (l ++ l', e)

/-- The callbacks of a parse and its error, if no callback fails. -/
def plan (g : Bool) (src : List UInt8) (cfg : ParseConfig) : List (Nat × Event) × Option (Error Empty) :=
  drive cfg src.length (scans g src) .value []

end
end JustJson
