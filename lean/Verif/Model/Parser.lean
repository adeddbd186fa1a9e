import Verif.Model.Tokenizer
/-! # Model of `Parser`, `ParseDelegate`, `ParseConfig` (src/parser.rs:472-910, 993-1256) and of the
delegates `()` (parser.rs), `StringParser` (string.rs) and `NumberParser` (number.rs) -/

namespace JustJson

/-- `JsonKind`, parser.rs:1162-1176. -/
inductive JsonKind where
  | null | boolean | number | string | object | array
deriving DecidableEq, Repr

/-- `ParseConfig`, parser.rs:997-1010. -/
structure ParseConfig where
  allowTrailingCommas : Bool
  recursionLimit : Option Nat
  allowAllTypesAtRoot : Bool
deriving DecidableEq, Repr

/-- `ParseConfig::new` (and `Default`), parser.rs:1012-1016, 1027-1033. -/
def ParseConfig.new : ParseConfig := ⟨false, some 128, true⟩
/-- `ParseConfig::strict`, parser.rs:1044-1050. -/
def ParseConfig.strict : ParseConfig := ⟨false, some 128, false⟩
/-- `ParseConfig::without_recursion_limit`, parser.rs:1056-1059. -/
def ParseConfig.withoutRecursionLimit (c : ParseConfig) : ParseConfig := { c with recursionLimit := none }
/-- `ParseConfig::with_recursion_limit`, parser.rs:1062-1065. -/
def ParseConfig.withRecursionLimit (c : ParseConfig) (n : Nat) : ParseConfig :=
  { c with recursionLimit := some n }
/-- `ParseConfig::allowing_all_types_at_root`, parser.rs:1070-1073. -/
def ParseConfig.allowingAllTypesAtRoot (c : ParseConfig) (b : Bool) : ParseConfig :=
  { c with allowAllTypesAtRoot := b }
/-- `ParseConfig::allowing_trailing_commas`, parser.rs:1089-1092. -/
def ParseConfig.allowingTrailingCommas (c : ParseConfig) : ParseConfig :=
  { c with allowTrailingCommas := true }

section
variable [Arch]

/-- A `ParseDelegate` implementation, parser.rs:851-909. `σ` is the type of `self`; a callback with
`&mut self` is `M σ Err _`; one that also takes `&mut Object` (`&mut Array`) returns the updated one.
Callbacks may panic. -/
structure Delegate where
  σ : Type
  Value : Type
  Object : Type
  Array : Type
  Key : Type
  Err : Type
  null : M σ Err Value
  boolean : Bool → M σ Err Value
  number : JsonNumber → M σ Err Value
  string : JsonString → M σ Err Value
  beginObject : M σ Err Object
  objectKey : Object → JsonString → M σ Err (Object × Key)
  objectValue : Object → Key → Value → M σ Err Object
  objectIsEmpty : σ → Object → Res Bool
  endObject : Object → M σ Err Value
  beginArray : M σ Err Array
  arrayValue : Array → Value → M σ Err Array
  arrayIsEmpty : σ → Array → Res Bool
  endArray : Array → M σ Err Value
  kindOf : σ → Value → Res JsonKind

/-- Tokenizer offset together with `ParseState` (parser.rs:1112-1120; the config is a parameter). -/
structure PState (σ : Type) where
  offset : Nat
  delegate : σ
  remainingDepth : Nat

variable (g : Bool) (src : List UInt8) (cfg : ParseConfig) (D : Delegate)

/-- The parser monad. The methods of `Parser`, parser.rs:587-845. -/
abbrev PM (α : Type) := M (PState D.σ) (Error D.Err) α

/-- `return Err(Error { offset, kind })`, as in parser.rs:724-727. -/
def perr {α : Type} (offset : Nat) (kind : ErrorKind D.Err) : PM D α := M.throw ⟨offset, kind⟩

/-- A tokenizer call with `.map_err(Error::into_fallable)?`, parser.rs:639, 700, 762, 825. -/
def liftTok {α : Type} (m : TokM α) : PM D α := fun s =>
  match m s.offset with
  | .ok a off => .ok a { s with offset := off }
  | .err e off => .err e.intoFallable { s with offset := off }
  | .panic p => .panic p

/-- A delegate callback with `.map_err(|e| Error { offset, kind: ErrorFromDelegate(e) })?`,
parser.rs:641-683, 692-697, 774-781, 819-823. -/
def liftD {α : Type} (offset : Nat) (m : M D.σ D.Err α) : PM D α := fun s =>
  match m s.delegate with
  | .ok a d => .ok a { s with delegate := d }
  | .err e d => .err ⟨offset, .errorFromDelegate e⟩ { s with delegate := d }
  | .panic p => .panic p

/-- A pure delegate query (`&self`), parser.rs:704, 804. -/
def liftQ {α : Type} (q : D.σ → Res α) : PM D α := fun s =>
  match q s.delegate with
  | .ok a => .ok a s
  | .panic p => .panic p

/-- `self.tokenizer.offset()`, parser.rs:638, 699, 737. -/
def tokOffset : PM D Nat := fun s => .ok s.offset s

/-- `ParseState::begin_nest().map_err(|kind| Error { offset, kind })?`, parser.rs:1127-1137. -/
def beginNest (offset : Nat) : PM D Unit := fun s =>
  if cfg.recursionLimit.isSome then
    if s.remainingDepth > 0 then .ok () { s with remainingDepth := s.remainingDepth - 1 }
    else .err ⟨offset, .recursionLimitReached⟩ s
  else .ok () s

/-- `ParseState::end_nest`, parser.rs:1140-1144. -/
def endNest : PM D Unit := fun s =>
  if cfg.recursionLimit.isSome then .ok () { s with remainingDepth := s.remainingDepth + 1 }
  else .ok () s

/-- The `map_err` closures of parser.rs:658-664 and 669-675. -/
def eofTo {δ : Type} (k : ErrorKind δ) (e : Error δ) : Error δ :=
  match e.kind with
  | .unexpectedEof => { e with kind := k }
  | _ => e

/-- The `map_err` closure of parser.rs:738-742. -/
def toExpectedColon {δ : Type} (e : Error Empty) : Error δ := ⟨e.offset, .expectedColon⟩

/-- `next_or_eof().map_err(|mut error| { error.kind = ExpectedColon; .. })?`, parser.rs:738-742. -/
def nextColon : PM D Token := fun s =>
  match nextOrEof src g s.offset with
  | .ok a off => .ok a { s with offset := off }
  | .err e off => .err (toExpectedColon e) { s with offset := off }
  | .panic p => .panic p

mutual
/-- `Parser::read_tokens`, parser.rs:634-685 (also `read_from_source`, parser.rs:623-631). -/
def readTokens : Nat → PM D D.Value
  | 0 => M.panic .fuel
  | fuel + 1 => do
    let offset ← tokOffset D
    let token ← liftTok D (nextOrEof src g)
    match token with
    | .null => liftD D offset D.null
    | .object =>
      beginNest cfg D offset
      M.mapErr (eofTo .unclosedObject) (readObject fuel)
    | .array =>
      beginNest cfg D offset
      M.mapErr (eofTo .unclosedArray) (readArray fuel)
    | .objectEnd => perr D offset (.unexpected 0x7D)
    | .arrayEnd => perr D offset (.unexpected 0x5D)
    | .colon => perr D offset (.unexpected 0x3A)
    | .comma => perr D offset (.unexpected 0x2C)
    | .bool b => liftD D offset (D.boolean b)
    | .string s => liftD D offset (D.string s)
    | .number n => liftD D offset (D.number n)

/-- `Parser::read_object`, parser.rs:688-782. -/
def readObject : Nat → PM D D.Value
  | 0 => M.panic .fuel
  | fuel + 1 => do
    let offset ← tokOffset D
    let object ← liftD D offset D.beginObject
    let object ← readObjectLoop fuel object
    let offset ← tokOffset D
    let value ← liftD D offset (D.endObject object)
    endNest cfg D
    return value

/-- The `loop` of `read_object`, parser.rs:698-772. -/
def readObjectLoop : Nat → D.Object → PM D D.Object
  | 0, _ => M.panic .fuel
  | fuel + 1, object => do
    let offset ← tokOffset D
    let token ← liftTok D (nextOrEof src g)
    match token with
    | .objectEnd =>
      if cfg.allowTrailingCommas then return object
      else if ← liftQ D (D.objectIsEmpty · object) then return object
      else perr D offset .illegalTrailingComma
    | .string key =>
      let (object, key) ← liftD D offset (D.objectKey object key)
      let offset ← tokOffset D
      let token ← nextColon g src D
      if token ≠ .colon then perr D offset .expectedColon
      else
        let offset ← tokOffset D
        let value ← readTokens fuel
        let object ← liftD D offset (D.objectValue object key value)
        let offset ← tokOffset D
        let token ← liftTok D (nextOrEof src g)
        if token = .objectEnd then return object
        else if token ≠ .comma then perr D offset .expectedCommaOrEndOfObject
        else readObjectLoop fuel object
    | .array | .bool _ | .null | .number _ | .object => perr D offset .objectKeysMustBeStrings
    | _ => perr D offset .expectedObjectKey

/-- `Parser::read_array`, parser.rs:785-845. Note `end_array` errors carry the offset at the start of
the array. -/
def readArray : Nat → PM D D.Value
  | 0 => M.panic .fuel
  | fuel + 1 => do
    let offset ← tokOffset D
    let array ← liftD D offset D.beginArray
    let array ← readArrayLoop fuel array
    let value ← liftD D offset (D.endArray array)
    endNest cfg D
    return value

/-- The `loop` of `read_array`, parser.rs:795-835. -/
def readArrayLoop : Nat → D.Array → PM D D.Array
  | 0, _ => M.panic .fuel
  | fuel + 1, array => do
    let offset ← tokOffset D
    if (← liftTok D (tokPeek src)) = some .arrayEnd then
      M.modify fun s => { s with offset := s.offset + 1 }
      if cfg.allowTrailingCommas then return array
      else if ← liftQ D (D.arrayIsEmpty · array) then return array
      else perr D offset .illegalTrailingComma
    else
      let value ← readTokens fuel
      let offset ← tokOffset D
      let array ← liftD D offset (D.arrayValue array value)
      let offset ← tokOffset D
      let token ← liftTok D (nextOrEof src g)
      if token = .arrayEnd then return array
      else if token ≠ .comma then perr D offset .expectedCommaOrEndOfArray
      else readArrayLoop fuel array
end

/-- Fuel given to the parser: recursion needs at most three steps per consumed byte.
(No counterpart in parser.rs: it only bounds the recursion of the model.) -/
def parseFuel : Nat := 3 * src.length + 4

/-- `Parser::parse_bytes` on a running `ParseState`, parser.rs:599-620. -/
def parseM : PM D D.Value := do
  let value ← readTokens g src cfg D (parseFuel src)
  let reject ← if cfg.allowAllTypesAtRoot then M.pure false else do
    let k ← liftQ D (D.kindOf · value)
    M.pure (!(k == .object || k == .array))
  if reject then perr D 0 .payloadsShouldBeObjectOrArray
  else
    match ← liftTok D (nextNonWs src) with
    | none => return value
    | some (offset, _) => perr D offset .trailingNonWhitespace

/-- `Parser::parse_bytes`, parser.rs:587-620 (`ParseState::new`, parser.rs:1151-1158,
`Tokenizer::new`, parser.rs:121-125). The final parser state is kept so that a `&mut` delegate can be
looked at. -/
def parseBytes (d : D.σ) : Out (PState D.σ) (Error D.Err) D.Value :=
  parseM g src cfg D ⟨0, d, cfg.recursionLimit.getD USIZE_MAX⟩

/-- What a caller of a parse function gets back: `Ok`, `Err`, or a panic. The `Result` of parser.rs:587-592. -/
inductive Outcome (ε α : Type) where
  | ok (a : α)
  | err (e : ε)
  | panic (p : Panic)
deriving DecidableEq

/-- Forget the final state. The state is dropped at the end of parser.rs:587-620. -/
def Out.outcome {σ ε α : Type} : Out σ ε α → Outcome ε α
  | .ok a _ => .ok a
  | .err e _ => .err e
  | .panic p => .panic p

/-- `.map_err(f)` on an outcome. string.rs:55, number.rs:22. -/
def Outcome.mapErr {ε ε' α : Type} (f : ε → ε') : Outcome ε α → Outcome ε' α
  | .ok a => .ok a
  | .err e => .err (f e)
  | .panic p => .panic p

/-- The delegate `()`, parser.rs:1178-1255. -/
@[reducible] def unitDelegate : Delegate where
  σ := Unit
  Value := JsonKind
  Object := Nat
  Array := Nat
  Key := Unit
  Err := Empty
  null := M.pure .null
  boolean _ := M.pure .boolean
  number _ := M.pure .number
  string _ := M.pure .string
  beginObject := M.pure 0
  objectKey o _ := M.pure (o, ())
  objectValue o _ _ := M.pure (o + 1)
  objectIsEmpty _ o := .ok (o == 0)
  endObject _ := M.pure .object
  beginArray := M.pure 0
  arrayValue a _ := M.pure (a + 1)
  arrayIsEmpty _ a := .ok (a == 0)
  endArray _ := M.pure .array
  kindOf _ v := .ok v

/-- `Parser::validate_json_bytes_with_config` (`g = false`, parser.rs:523-528) and
`Parser::validate_json_with_config` (`g = true`, parser.rs:578-583). -/
def validateWithConfig (g : Bool) (src : List UInt8) (cfg : ParseConfig) :
    Outcome (Error Empty) JsonKind :=
  (parseBytes g src cfg unitDelegate ()).outcome

/-- `Parser::validate_json_bytes`, parser.rs:517-519. -/
def validateJsonBytes (src : List UInt8) : Outcome (Error Empty) JsonKind :=
  validateWithConfig false src .new

/-- `Parser::validate_json`, parser.rs:572-574. -/
def validateJson (s : Str) : Outcome (Error Empty) JsonKind := validateWithConfig true (utf8 s) .new

/-- `StringParser`, string.rs:1044-1121. -/
@[reducible] def stringParser : Delegate where
  σ := Unit
  Value := JsonString
  Object := Unit
  Array := Unit
  Key := Unit
  Err := ErrorKind Empty
  null := M.throw .expectedString
  boolean _ := M.throw .expectedString
  number _ := M.throw .expectedString
  string s := M.pure s
  beginObject := M.throw .expectedString
  objectKey _ _ := M.panic .unreachable
  objectValue _ _ _ := M.panic .unreachable
  objectIsEmpty _ _ := .panic .unreachable
  endObject _ := M.panic .unreachable
  beginArray := M.throw .expectedString
  arrayValue _ _ := M.panic .unreachable
  arrayIsEmpty _ _ := .panic .unreachable
  endArray _ := M.panic .unreachable
  kindOf _ _ := .panic .unreachable

/-- `NumberParser`, number.rs:87-164. -/
@[reducible] def numberParser : Delegate where
  σ := Unit
  Value := JsonNumber
  Object := Unit
  Array := Unit
  Key := Unit
  Err := ErrorKind Empty
  null := M.throw .expectedNumber
  boolean _ := M.throw .expectedNumber
  number n := M.pure n
  string _ := M.throw .expectedNumber
  beginObject := M.throw .expectedNumber
  objectKey _ _ := M.panic .unreachable
  objectValue _ _ _ := M.panic .unreachable
  objectIsEmpty _ _ := .panic .unreachable
  endObject _ := M.panic .unreachable
  beginArray := M.throw .expectedNumber
  arrayValue _ _ := M.panic .unreachable
  arrayIsEmpty _ _ := .panic .unreachable
  endArray _ := M.panic .unreachable
  kindOf _ _ := .panic .unreachable

/-- `JsonString::from_json`, string.rs:54-56. -/
def JsonString.fromJson (s : Str) : Outcome (Error Empty) JsonString :=
  ((parseBytes true (utf8 s) .new stringParser ()).outcome).mapErr Error.intoInfallable

/-- `JsonNumber::from_json`, number.rs:21-23. -/
def JsonNumber.fromJson (s : Str) : Outcome (Error Empty) JsonNumber :=
  ((parseBytes true (utf8 s) .new numberParser ()).outcome).mapErr Error.intoInfallable

end
end JustJson
