import Verif.Tests.Suite1
import Verif.Model.Write
import Verif.Model.Iter
import Verif.Model.Display
import Verif.Spec.Tok
/-! # The project's unit tests, run on the model (the `#[test]` functions in /repo/src)

Tests, not proofs: they show that the model behaves as the project's tests say the code does. Left out: the tests of the
values of `as_f32` and `as_f64`, of `RandomState`, `HashSet` and `Debug`, and those that only say that printing an error
does not panic. -/

namespace JustJson
open Spec

section
attribute [local instance] arch64

/-- `assert!` of something that may panic -/
def yes (r : Res Bool) : Bool := match r with | .ok b => b | .panic _ => false
/-- `assert_ne!` -/
def no (r : Res Bool) : Bool := match r with | .ok b => !b | .panic _ => false
/-- `.unwrap()` -/
def Outcome.get {ε α : Type} : Outcome ε α → Res α
  | .ok a => .ok a
  | _ => .panic .expect
/-- `JsonString::from_json(..).unwrap()` -/
def js (s : String) : Res JsonString := (JsonString.fromJson s.toList).get
/-- `JsonString::from(..)` -/
def jraw (s : String) : Res JsonString := JsonString.fromStr s.toList
/-- a string token -/
def jborrowed (s : String) (esc : Bool) (n : Nat) : JsonString := ⟨.json (.borrowed s.toList), .new esc n⟩
/-- a number token -/
def jnum (s : String) : Value := .number ⟨.borrowed s.toList⟩

/-! ## src/tests.rs -/

/-- `test_json_parse` -/
def testJsonParse (src : List UInt8) (value : Res Value) : Bool := yes do
  let parsed ← (Value.fromJsonBytes src).get
  let v ← value
  let a ← parsed.eq v
  let doc ← (docFromJsonBytes none src).get
  let w ← Value.fromDocument doc
  let b ← w.eq parsed
  return a && b

example : testJsonParse (b8 "true") (.ok (.ofBool true)) = true := by decide +kernel
example : testJsonParse (b8 "false") (.ok (.ofBool false)) = true := by decide +kernel
example : testJsonParse (b8 "null") (.ok .null) = true := by decide +kernel
example : testJsonParse (b8 "[]") (.ok (.array [])) = true := by decide +kernel
example : testJsonParse (b8 "[true]") (.ok (.array [.ofBool true])) = true := by decide +kernel
example : testJsonParse (b8 "[true,false]") (.ok (.array [.ofBool true, .ofBool false])) = true := by decide +kernel
example : testJsonParse (b8 " [ true , false ] ") (.ok (.array [.ofBool true, .ofBool false])) = true := by decide +kernel
example : testJsonParse (b8 " \t\n\rnull") (.ok .null) = true := by decide +kernel
example : testJsonParse (b8 "\"hello\"") (.ok (.string (jborrowed "hello" false 5))) = true := by decide +kernel
example : testJsonParse (b8 "\"\"") (.ok (.string (jborrowed "" false 0))) = true := by decide +kernel
example : testJsonParse (b8 "\"\\\"\\\\\\/\\b\\f\\n\\r\\t\\u25eF\"")
    (.ok (.string (jborrowed "\\\"\\\\\\/\\b\\f\\n\\r\\t\\u25eF" true 11))) = true := by decide +kernel
-- and the tracked lengths are the ones in the test
example : (Value.fromJsonBytes (b8 "\"\\\"\\\\\\/\\b\\f\\n\\r\\t\\u25eF\"")).get.value?.any
    (Value.same (.string (jborrowed "\\\"\\\\\\/\\b\\f\\n\\r\\t\\u25eF" true 11))) = true := by decide +kernel
example : testJsonParse (b8 "\"\\ud83d\\ude39\\ud83d\\udc8d\"") (do return .string (← js "\"😹💍\"")) = true := by decide +kernel
example : yes (do (← js "\"\\ud83d\\ude39\\ud83d\\udc8d\"").eqStr "😹💍".toList) = true := by decide +kernel
example : testJsonParse (b8 "{}") (.ok (.object Object.new)) = true := by decide +kernel
example : testJsonParse (b8 "{\"hello\":true}") (.ok (.object [(jborrowed "hello" false 5, .ofBool true)])) = true := by decide +kernel
example : testJsonParse (b8 "{\"hello\":true,\"world\":null}")
    (.ok (.object [(jborrowed "hello" false 5, .ofBool true), (jborrowed "world" false 5, .null)])) = true := by decide +kernel
example : testJsonParse (b8 " { \"hello\" : true , \"world\" : null } ")
    (do return .object [(← js "\"hello\"", .ofBool true), (← js "\"world\"", .null)]) = true := by decide +kernel
example : (["0", "1", "2", "3", "4", "5", "6", "7", "8", "9", "-1", "-1.0", "-1.0e1", "-1.0E-1"].all fun s =>
    testJsonParse (b8 s) (.ok (jnum s))) = true := by decide +kernel
example : testJsonParse (b8 "{\"a\":1,\"b\":true,\"c\":\"hello\",\"d\":[],\"e\":{}}")
    (do return .object [(← js "\"a\"", jnum "1"), (← js "\"b\"", .ofBool true), (← js "\"c\"", .string (← js "\"hello\"")),
      (← js "\"d\"", .array []), (← js "\"e\"", .object [])]) = true := by decide +kernel
example : testJsonParse (b8 "[1,true,\"hello\",[],{}]")
    (do return .array [jnum "1", .ofBool true, .string (← js "\"hello\""), .array [], .object []]) = true := by decide +kernel

/-- `assert_json_error_kind_matches!` -/
def errorIs (s : String) (offset : Nat) (kind : ErrorKind Empty) : Bool :=
  decide ((Value.fromJson s.toList).error? = some ⟨offset, kind⟩)

-- object_errors
example : errorIs "{1:true}" 1 .objectKeysMustBeStrings = true := by decide +kernel
example : errorIs "{\"a\": true,}" 11 .illegalTrailingComma = true := by decide +kernel
example : errorIs "{\"a\": true,:" 11 .expectedObjectKey = true := by decide +kernel
example : errorIs "{\"a\"}" 4 .expectedColon = true := by decide +kernel
example : errorIs "{\"a\"" 4 .expectedColon = true := by decide +kernel
example : errorIs "{\"a\":}" 5 (.unexpected 0x7D) = true := by decide +kernel
example : errorIs "{\"a\":1]" 6 .expectedCommaOrEndOfObject = true := by decide +kernel
example : errorIs "{\"a\": true," 11 .unclosedObject = true := by decide +kernel
-- array_errors
example : errorIs "[1,]" 3 .illegalTrailingComma = true := by decide +kernel
example : errorIs "[1}" 2 .expectedCommaOrEndOfArray = true := by decide +kernel
example : errorIs "[1,,}" 3 (.unexpected 0x2C) = true := by decide +kernel
example : errorIs "[1," 3 .unclosedArray = true := by decide +kernel
example : errorIs "[" 1 .unclosedArray = true := by decide +kernel
-- keyword_errors
example : errorIs "tru " 3 (.unexpected 0x20) = true := by decide +kernel
example : errorIs "tru" 3 .unexpectedEof = true := by decide +kernel
-- json_errors
example : errorIs "true true" 5 .trailingNonWhitespace = true := by decide +kernel
example : errorIs "," 0 (.unexpected 0x2C) = true := by decide +kernel
example : errorIs "#" 0 (.unexpected 0x23) = true := by decide +kernel
example : errorIs "" 0 .unexpectedEof = true := by decide +kernel
-- string_errors
example : errorIs "\"" 1 .unclosedString = true := by decide +kernel
example : errorIs "\"\x00\"" 1 (.unexpected 0) = true := by decide +kernel
example : errorIs "\"\\?" 2 .invalidEscape = true := by decide +kernel
example : errorIs "\"\\udddd " 2 .utf8 = true := by decide +kernel
example : errorIs "\"\\udda1 " 2 .utf8 = true := by decide +kernel
example : errorIs "\"\\uG" 3 .invalidHexadecimal = true := by decide +kernel
example : ((Value.fromJsonBytes (raw [0x22, 0xdd, 0xdd, 0x22])).error?.map (·.kind)) = some .utf8 := by decide +kernel
-- number_errors
example : errorIs "- " 1 .expectedDigit = true := by decide +kernel
example : errorIs "1. " 2 .expectedDecimalDigit = true := by decide +kernel
example : errorIs "1.0E " 4 .expectedExponent = true := by decide +kernel
example : errorIs "1.0E- " 5 .expectedExponent = true := by decide +kernel
example : errorIs "-" 1 .expectedDigit = true := by decide +kernel
example : errorIs "1." 2 .expectedDecimalDigit = true := by decide +kernel
example : errorIs "1.0E" 4 .expectedExponent = true := by decide +kernel
example : errorIs "1.0E-" 5 .expectedExponent = true := by decide +kernel

/-- `test_roundtrip_encoding` and its variants -/
def encodes (f : Value → Res Str) (s : String) : Bool := yes do
  let v ← (Value.fromJson s.toList).get
  let out ← f v
  return decide (out = s.toList)

-- json_formatting
example : encodes Value.toJson "[1,true,\"hello\",[],{}]" = true := by decide +kernel
example : encodes Value.toJson "{\"a\":1,\"b\":true,\"c\":\"hello\",\"d\":[],\"e\":{}}" = true := by decide +kernel
example : encodes Value.toJsonPretty "[\n  1,\n  true,\n  \"hello\",\n  [],\n  {}\n]" = true := by decide +kernel
example : encodes Value.toJsonPretty "{\n  \"a\": 1,\n  \"b\": true,\n  \"c\": \"hello\",\n  \"d\": [],\n  \"e\": {}\n}" = true := by decide +kernel
example : encodes (·.toJsonPrettyCustom ['\t'] ['\r'])
    "{\r\t\"a\": 1,\r\t\"b\": true,\r\t\"c\": \"hello\",\r\t\"d\": [],\r\t\"e\": {}\r}" = true := by decide +kernel
example : encodes Value.toJson "\"\\u0000\"" = true := by decide +kernel
-- value_display
example : encodes (fun v => intoString (v.display stringWriter false)) "{\"a\":1,\"b\":true,\"c\":\"hello\",\"d\":[],\"e\":{}}" = true := by decide +kernel
example : encodes (fun v => intoString (v.display stringWriter true))
    "{\n  \"a\": 1,\n  \"b\": true,\n  \"c\": \"hello\",\n  \"d\": [],\n  \"e\": {}\n}" = true := by decide +kernel

/-- `ErrorOn` -/
inductive ErrorOn where
  | none | null | boolean (b : Bool) | number (s : String) | string | beginObject | objectKey | objectValue | endObject
  | beginArray | arrayValue | endArray
deriving DecidableEq

/-- fail with `MyError`, or do as `ValueParser` does -/
def failIf {α : Type} (b : Bool) (m : M Unit Empty α) : M Unit Unit α :=
  if b then M.throw () else M.mapErr (fun e => nomatch e) m

/-- `ErroringDelegate` -/
@[reducible] def erroringDelegate (on : ErrorOn) : Delegate where
  σ := Unit
  Err := Unit
  Value := Value
  Object := valueParser.Object
  Array := valueParser.Array
  Key := valueParser.Key
  null := failIf (on == .null) valueParser.null
  boolean b := failIf (on == .boolean b) (valueParser.boolean b)
  number n := failIf (match on with | .number s => n.sourceStr == s.toList | _ => false) (valueParser.number n)
  string s := failIf (on == .string) (valueParser.string s)
  beginObject := failIf (on == .beginObject) valueParser.beginObject
  objectKey o k := failIf (on == .objectKey) (valueParser.objectKey o k)
  objectValue o k v := failIf (on == .objectValue) (valueParser.objectValue o k v)
  objectIsEmpty d o := valueParser.objectIsEmpty d o
  endObject o := failIf (on == .endObject) (valueParser.endObject o)
  beginArray := failIf (on == .beginArray) valueParser.beginArray
  arrayValue a v := failIf (on == .arrayValue) (valueParser.arrayValue a v)
  arrayIsEmpty d a := valueParser.arrayIsEmpty d a
  endArray a := failIf (on == .endArray) (valueParser.endArray a)
  kindOf d v := valueParser.kindOf d v

/-- the payload of `parse_delegate_error` -/
def payload : List UInt8 := b8 "{\"a\":1,\"b\":true,\"c\":\"hello\",\"d\":[null, -1, 0, false, []],\"e\":{},\"f\":\"error\"}"

/-- the error is `ErrorFromDelegate(MyError)` -/
def fromDelegate {α : Type} (o : Outcome (Error Unit) α) : Bool :=
  match o.error? with | some ⟨_, .errorFromDelegate ()⟩ => true | _ => false

example : (parseBytes false payload .strict (erroringDelegate .none) ()).outcome.isOk = true := by decide +kernel
example : ([ErrorOn.null, .boolean false, .number "1", .number "-1", .number "0", .string, .beginObject, .objectKey, .objectValue,
    .endObject, .beginArray, .arrayValue, .endArray].all fun on =>
      fromDelegate (parseBytes false payload .new (erroringDelegate on) ()).outcome) = true := by decide +kernel

-- illegal_types_at_root
example : (["null", "true", "1", "\"\""].all fun s =>
    ((docFromJsonWithConfig none true (b8 s) .strict).error?.map (·.kind)) == some .payloadsShouldBeObjectOrArray
    && ((Value.fromJsonWithConfig s.toList .strict).error?.map (·.kind)) == some .payloadsShouldBeObjectOrArray) = true := by decide +kernel

/-! ## src/string.rs -/

-- json_string_eq
example : yes (do (← js "\"Hello, World!\"").eqStr "Hello, World!".toList) = true := by decide +kernel
example : yes (do (← js "\"\\\"\\\\\\/\\b\\f\\n\\r\\t\\u25eF\"").eqStr "\"\\/\x07\x0c\n\r\t◯".toList) = true := by decide +kernel
example : yes (do (← js "\"◯\"").eqStr "◯".toList) = true := by decide +kernel
example : no (do (← js "\"\\n\"").eqStr []) = true := by decide +kernel
example : no (do (← js "\"\\n\"").eqStr ['x']) = true := by decide +kernel
example : no (do (← js "\"\\na\"").eqStr ['\n', 'x']) = true := by decide +kernel
example : no (do (← js "\"\\u0000\"").eq (← js "\"\\u0000\\u0000\"")) = true := by decide +kernel
example : no (do (← js "\"ab\"").eq (← js "\"\\u0000\"")) = true := by decide +kernel
example : yes (do (← jraw "a").eqStr ['a']) = true := by decide +kernel
example : yes (do (← jraw "a").eq (← jraw "a")) = true := by decide +kernel
example : yes (do (← js "\"a\"").eq (← jraw "a")) = true := by decide +kernel
example : yes (do (← jraw "a").eq (← js "\"a\"")) = true := by decide +kernel
example : yes (do (← jraw "\x00").eqStr ['\x00']) = true := by decide +kernel
example : yes (do (← jraw "\x00").eq (← jraw "\x00")) = true := by decide +kernel
example : yes (do (← js "\"\\u0000\"").eq (← jraw "\x00")) = true := by decide +kernel
example : yes (do (← jraw "\x00").eq (← js "\"\\u0000\"")) = true := by decide +kernel
example : no (do (← js "\"\\u0000\"").eq (← jraw "\x00 ")) = true := by decide +kernel
example : no (do (← jraw "\x00 ").eq (← js "\"\\u0000\"")) = true := by decide +kernel

/-- compare with a `&str` -/
def cmpS (a : Res JsonString) (s : String) : Option Ordering := (do (← a).partialCmpStr s.toList : Res _).value?.join
/-- compare two `JsonString`s -/
def cmpJ (a b : Res JsonString) : Option Ordering := (do (← a).partialCmp (← b) : Res _).value?.join

-- json_string_cmp
example : cmpS (js "\"a\"") "b" = some .lt := by decide +kernel
example : cmpS (js "\"b\"") "a" = some .gt := by decide +kernel
example : cmpS (js "\"a\"") "a" = some .eq := by decide +kernel
example : cmpS (jraw "\n") "\n" = some .eq := by decide +kernel
example : cmpS (js "\"\\u0061\"") "b" = some .lt := by decide +kernel
example : cmpS (js "\"\\u0062\"") "a" = some .gt := by decide +kernel
example : cmpS (js "\"\\u0061\"") "a" = some .eq := by decide +kernel
example : cmpS (js "\"\\u0061\"") "aa" = some .lt := by decide +kernel
example : cmpS (js "\"\\u0061a\"") "a" = some .gt := by decide +kernel
example : cmpJ (js "\"\\u0061\"") (jraw "b") = some .lt := by decide +kernel
example : cmpJ (js "\"\\u0062\"") (jraw "a") = some .gt := by decide +kernel
example : cmpJ (js "\"\\u0061\"") (jraw "a") = some .eq := by decide +kernel
example : cmpJ (js "\"\\u0061\"") (jraw "aa") = some .lt := by decide +kernel
example : cmpJ (js "\"\\u0061a\"") (jraw "a") = some .gt := by decide +kernel
example : cmpJ (jraw "\n") (jraw "\n") = some .eq := by decide +kernel
example : cmpJ (js "\"\\n\"") (jraw "\na") = some .lt := by decide +kernel
example : cmpJ (jraw "\na") (js "\"\\n\"") = some .gt := by decide +kernel
example : cmpJ (js "\"a\"") (jraw "b") = some .lt := by decide +kernel

-- display
example : (do (← js "\"hello, world!\"").display : Res Str) = .ok "hello, world!".toList := by decide +kernel
-- json_string_from_json
example : js "\"Hello, World!\"" = .ok (jborrowed "Hello, World!" false 13) := by decide +kernel
-- from_json_bad_types
example : (["true", "1", "null", "[]", "{}"].all fun s =>
    (JsonString.fromJson s.toList).error?.map (·.kind) == some .expectedString) = true := by decide +kernel
-- as_str
example : (do return (← js "\"\\n\"").asStr : Res (Option Str)) = .ok none := by decide +kernel
example : (do return (← js "\"hi\"").asStr : Res (Option Str)) = .ok (some ['h', 'i']) := by decide +kernel
example : (do return (← jraw "hi").asStr : Res (Option Str)) = .ok (some ['h', 'i']) := by decide +kernel
-- json_string_from_raw
example : yes (do (← JsonString.fromString ['a']).eq (← jraw "a")) = true := by decide +kernel
-- decode_if_needed
example : (do (← js "\"\"").decodeIfNeeded : Res AnyStr) = .ok (.borrowed []) := by decide +kernel
example : (do (← js "\"\\r\"").decodeIfNeeded : Res AnyStr) = .ok (.owned ['\r']) := by decide +kernel
example : (do (← js "\"\\r\"").decoded : Res Str) = .ok ['\r'] := by decide +kernel
example : (do (← jraw "raw string").decodeIfNeeded : Res AnyStr) = .ok (.borrowed "raw string".toList) := by decide +kernel
example : (do (← jraw "raw string").decoded : Res Str) = .ok "raw string".toList := by decide +kernel
-- is_empty
example : yes (do return (← jraw "").isEmpty) = true := by decide +kernel
example : yes (do return (← js "\"\"").isEmpty) = true := by decide +kernel
example : no (do return (← jraw " ").isEmpty) = true := by decide +kernel
example : no (do return (← js "\" \"").isEmpty) = true := by decide +kernel

/-- the checks of the test `escape` -/
def escapes (raw : JsonString) (original escaped : String) (asJsonStr : Option Str) : Bool := yes do
  let d ← raw.decoded
  let e ← raw.eqStr original.toList
  let n ← raw.decodeIfNeeded
  let j ← raw.asJson
  let x ← raw.escapeIfNeeded
  return raw.len == escaped.utf8ByteSize && raw.decodedLen == original.utf8ByteSize && e && d == original.toList
    && n.eqStr original.toList && j == escaped.toList && x.eqStr escaped.toList && raw.asJsonStr.map AnyStr.asStr == asJsonStr

example : yes (do return escapes (← jraw "\"\\/\x07\t\n\r\x0c\x00◯") "\"\\/\x07\t\n\r\x0c\x00◯" "\\\"\\\\/\\b\\t\\n\\r\\f\\u0000◯" none) = true := by decide +kernel
example : yes (do return escapes (← JsonString.fromString "\"\\/\x07\t\n\r\x0c\x00◯".toList) "\"\\/\x07\t\n\r\x0c\x00◯" "\\\"\\\\/\\b\\t\\n\\r\\f\\u0000◯" none) = true := by decide +kernel
example : yes (do return escapes (← jraw "hello") "hello" "hello" (some "hello".toList)) = true := by decide +kernel

/-! ## src/number.rs -/

example : (JsonNumber.fromJson ['1']).value? = some ⟨.borrowed ['1']⟩ := by decide +kernel
example : (["true", "\"\"", "null", "[]", "{}"].all fun s =>
    (JsonNumber.fromJson s.toList).error?.map (·.kind) == some .expectedNumber) = true := by decide +kernel
example : ([8, 16, 32, 64, 128].all fun bits =>
    ((JsonNumber.fromJson ['1']).value?.bind (·.asUnsigned bits)) == some 1
    && ((JsonNumber.fromJson ['1']).value?.bind (·.asSigned bits)) == some 1) = true := by decide +kernel

/-! ## src/doc.rs -/

/-- the source of `document_iteration` -/
def docSource : String := "{\"a\":1,\"b\":true,\"c\":\"hello\",\"d\":[null],\"e\":{}}"

example : yes (do
    let doc ← (docFromJson none docSource.toList).get
    Document.eq doc [.object 5, .string (← js "\"a\""), .number ⟨.borrowed ['1']⟩, .string (← js "\"b\""), .boolean true,
      .string (← js "\"c\""), .string (← js "\"hello\""), .string (← js "\"d\""), .array 1, .null, .string (← js "\"e\""),
      .object 0]) = true := by decide +kernel
example : yes (do
    let doc ← (docFromJson none docSource.toList).get
    match ← nextValue doc with
    | some (v, _) => v.eq (← (Value.fromJson docSource.toList).get)
    | none => return false) = true := by decide +kernel
example : yes (do
    let doc ← (docFromJson none docSource.toList).get
    let rest ← skipNextValue doc
    return (docNext rest).1.isNone) = true := by decide +kernel

/-! ## src/parser.rs -/

-- config_test
example : (ParseConfig.strict.allowingTrailingCommas.withoutRecursionLimit.allowingAllTypesAtRoot true) = ⟨true, none, true⟩ := by decide +kernel
-- validates
example : validateJson "{\"a\":1,\"b\":true,\"c\":\"hello\",\"d\":[],\"e\":{}}".toList = .ok .object := by decide +kernel
example : validateJsonBytes (b8 "{\"a\":1,\"b\":true,\"c\":\"hello\",\"d\":[],\"e\":{}}") = .ok .object := by decide +kernel
-- tokenizes
example : (history (b8 "true") true [.next, .next] 0).1 = [(.next, .token (.bool true)), (.next, .none)] := by decide +kernel
example : (history (b8 "false") false [.next, .next] 0).1 = [(.next, .token (.bool false)), (.next, .none)] := by decide +kernel
-- tokenizer_peek_tests
example : ((history (b8 "{\"a\": [1, true, false, null]} ") true (List.replicate 14 [Call.peek, .next]).flatten 0).1.filterMap fun r =>
      match r with | (.peek, .peeked k) => some k | _ => none)
    = [some .object, some .string, some .colon, some .array, some .number, some .comma, some .true, some .comma, some .false,
      some .comma, some .null, some .arrayEnd, some .objectEnd, none] := by decide +kernel
example : ((history (b8 "{\"a\": [1, true, false, null]} ") true (List.replicate 14 [Call.peek, .next]).flatten 0).1.map fun r =>
      match r with | (.next, .token _) => true | _ => false)
    = (List.replicate 13 [false, true]).flatten ++ [false, false] := by decide +kernel
example : (history (b8 "{\"a\": [1, true, false, null]} ") true (List.replicate 14 [Call.peek, .next]).flatten 0).1.getLast?
    = some (.next, .none) := by decide +kernel
example : (history (b8 "<") true [.peek] 0).1 = [(.peek, .peeked (some .unrecognized))] := by decide +kernel

/-! ## src/value.rs -/

-- value_ases
example : (Value.ofBool true).asBool = some true := by decide +kernel
example : yes (do match (Value.string (← js "\"\"")).asString with | some s => s.eqStr [] | none => return false) = true := by decide +kernel
example : (do return (Value.string (← js "\"\"")).asStr : Res (Option Str)) = .ok (some []) := by decide +kernel
example : ((jnum "1").asNumber.bind (·.asUnsigned 64)) = some 1 := by decide +kernel
example : ((Value.object []).asObject.map (·.length)) = some 0 := by decide +kernel
example : ((Value.array []).asArray.map (·.length)) = some 0 := by decide +kernel
example : Value.null.isNull = true ∧ (Value.ofBool true).isNull = false := by decide +kernel
example : Value.null.asBool = none ∧ Value.null.asNumber = none ∧ Value.null.asString = none ∧ Value.null.asStr = none
    ∧ Value.null.asObject.isNone = true ∧ Value.null.asArray.isNone = true := by decide +kernel
-- primitive_values, objects
example : testJsonParse (b8 "{\"hello\":\"world\"}") (do return .object [(← js "\"hello\"", .string (← js "\"world\""))]) = true := by decide +kernel
example : testJsonParse (b8 " { \"hello\" : \"world\" , \"another\" : \"value\" }")
    (do return .object [(← js "\"hello\"", .string (← js "\"world\"")), (← js "\"another\"", .string (← js "\"value\""))]) = true := by decide +kernel
-- cow
example : yes (do
    let value ← (Value.fromJsonBytes (b8 "{\"a\":1,\"b\":true,\"c\":\"hello\",\"d\":[],\"e\":{}}")).get
    let value ← value.indexKeyMut (fun _ => .ofBool false) ['b']
    let newa ← jraw "newa"
    let a ← Value.fromStr ['a']
    let value ← .orPanic .expect (value.modifyObject fun root => root.set 0 (newa, a))
    let value ← .orPanic .expect (value.modifyObject fun root => List.modify root 3 fun (e : JsonString × Value) =>
      (e.1, (e.2.modifyArray (· ++ [.null])).getD e.2))
    let d ← value.indexKey ['d']
    let d ← d.indexMut (fun _ => .ofBool false) 0
    let value ← value.indexKeyMut (fun _ => d) ['d']
    let generated ← value.toJson
    return decide (generated = "{\"newa\":\"a\",\"b\":false,\"c\":\"hello\",\"d\":[false],\"e\":{}}".toList)) = true := by decide +kernel
-- index
example : yes (do
    let value ← (Value.fromJsonBytes (b8 "{\"b\":true,\"a\":[false]}")).get
    let b ← (← value.indexKey ['b']).eq (.ofBool true)
    let a ← value.indexKey ['a']
    let a0 ← (← a.index 0).eq (.ofBool false)
    let none1 := (value.modifyIndex id 0).isNone
    let none2 := (← a.modify id ['a']).isNone
    return b && a0 && none1 && none2) = true := by decide +kernel
-- froms
example : yes (do (← Value.fromString ['a']).eq (.string (← jraw "a"))) = true := by decide +kernel
example : yes (do (← Value.fromStr ['a']).eq (.string (← jraw "a"))) = true := by decide +kernel
-- as_es
example : ([8, 16, 32, 64, 128].all fun bits => (jnum "1").asUnsigned bits == some 1 && (jnum "1").asSigned bits == some 1) = true := by decide +kernel

/-! ## src/anystr.rs -/

example : (AnyStr.borrowed ['a']).partialCmpStr ['b'] = some .lt := by decide +kernel
example : (AnyStr.borrowed ['a']).partialCmp (.borrowed ['b']) = some .lt := by decide +kernel

/-! ## examples/ -/

-- borrowed-value.rs
example : yes (do
    let value ← (Value.fromJson "{\"hello\":\"world\"}".toList).get
    match value.asObject with
    | some ((k, _) :: _) => k.eqStr "hello".toList
    | _ => return false) = true := by decide +kernel
-- heapless.rs: three nodes are enough
example : (docFromJson (some 3) "{\"hello\": \"world\"}".toList).isOk = true := by decide +kernel
example : yes (do
    let doc ← (docFromJson (some 3) "{\"hello\": \"world\"}".toList).get
    match doc with
    | [a, b, c] =>
      let x ← a.eq (.object 1)
      let y ← b.eq (.string (← jraw "hello"))
      let z ← c.eq (.string (← jraw "world"))
      return x && y && z
    | _ => return false) = true := by decide +kernel
example : (docFromJson (some 3) "[1, 2, 3, 4]".toList).error?.map (·.kind) = some .paylodTooLarge := by decide +kernel

end
end JustJson
