import Verif.Tests.Suite1
/-! # The project's own conformance tests, run on the model (tests/jsonorg.rs but for pass1.json, which is too large for the kernel, and tests/roundtrip.rs)

Tests, not proofs: each evaluates the model in Lean's kernel on one file. They show that the model behaves as the
project's tests say the code does. Generated from the files in /repo/tests. -/

namespace JustJson
open Spec

section
attribute [local instance] arch64

/-- `ParseConfig::strict().with_recursion_limit(19)` -/
abbrev cfg19 : ParseConfig := ParseConfig.strict.withRecursionLimit 19

/-- all entry points accept -/
def passes (src : List UInt8) : Bool :=
  (validateWithConfig false src cfg19).isOk && (validateWithConfig true src cfg19).isOk
  && (Value.parseWithConfig false src cfg19).isOk && (Value.parseWithConfig true src cfg19).isOk
  && (docFromJsonWithConfig none false src cfg19).isOk && (docFromJsonWithConfig none true src cfg19).isOk

/-- all entry points reject -/
def fails (src : List UInt8) : Bool :=
  (validateWithConfig false src cfg19).isErr && (validateWithConfig true src cfg19).isErr
  && (Value.parseWithConfig false src cfg19).isErr && (Value.parseWithConfig true src cfg19).isErr
  && (docFromJsonWithConfig none false src cfg19).isErr && (docFromJsonWithConfig none true src cfg19).isErr

-- fail1.json
example : fails (b8 "\"A JSON payload should be an object or array, not a string.\"") = true := by decide +kernel

-- fail2.json
example : fails (b8 "[\"Unclosed array\"") = true := by decide +kernel

-- fail3.json
example : fails (b8 "{unquoted_key: \"keys must be quoted\"}") = true := by decide +kernel

-- fail4.json
example : fails (b8 "[\"extra comma\",]") = true := by decide +kernel

-- fail5.json
example : fails (b8 "[\"double extra comma\",,]") = true := by decide +kernel

-- fail6.json
example : fails (b8 "[   , \"<-- missing value\"]") = true := by decide +kernel

-- fail7.json
example : fails (b8 "[\"Comma after the close\"],") = true := by decide +kernel

-- fail8.json
example : fails (b8 "[\"Extra close\"]]") = true := by decide +kernel

-- fail9.json
example : fails (b8 "{\"Extra comma\": true,}") = true := by decide +kernel

-- fail10.json
example : fails (b8 "{\"Extra value after close\": true} \"misplaced quoted value\"") = true := by decide +kernel

-- fail11.json
example : fails (b8 "{\"Illegal expression\": 1 + 2}") = true := by decide +kernel

-- fail12.json
example : fails (b8 "{\"Illegal invocation\": alert()}") = true := by decide +kernel

-- fail13.json
example : fails (b8 "{\"Numbers cannot have leading zeroes\": 013}") = true := by decide +kernel

-- fail14.json
example : fails (b8 "{\"Numbers cannot be hex\": 0x14}") = true := by decide +kernel

-- fail15.json
example : fails (b8 "[\"Illegal backslash escape: \\x15\"]") = true := by decide +kernel

-- fail16.json
example : fails (b8 "[\\naked]") = true := by decide +kernel

-- fail17.json
example : fails (b8 "[\"Illegal backslash escape: \\017\"]") = true := by decide +kernel

-- fail18.json
example : fails (b8 "[[[[[[[[[[[[[[[[[[[[\"Too deep\"]]]]]]]]]]]]]]]]]]]]") = true := by decide +kernel

-- fail19.json
example : fails (b8 "{\"Missing colon\" null}") = true := by decide +kernel

-- fail20.json
example : fails (b8 "{\"Double colon\":: null}") = true := by decide +kernel

-- fail21.json
example : fails (b8 "{\"Comma instead of colon\", null}") = true := by decide +kernel

-- fail22.json
example : fails (b8 "[\"Colon instead of comma\": false]") = true := by decide +kernel

-- fail23.json
example : fails (b8 "[\"Bad value\", truth]") = true := by decide +kernel

-- fail24.json
example : fails (b8 "['single quote']") = true := by decide +kernel

-- fail25.json
example : fails (b8 "[\"\ttab\tcharacter\tin\tstring\t\"]") = true := by decide +kernel

-- fail26.json
example : fails (b8 "[\"tab\\   character\\   in\\  string\\  \"]") = true := by decide +kernel

-- fail27.json
example : fails (b8 "[\"line\nbreak\"]") = true := by decide +kernel

-- fail28.json
example : fails (b8 "[\"line\\\nbreak\"]") = true := by decide +kernel

-- fail29.json
example : fails (b8 "[0e]") = true := by decide +kernel

-- fail30.json
example : fails (b8 "[0e+]") = true := by decide +kernel

-- fail31.json
example : fails (b8 "[0e+-1]") = true := by decide +kernel

-- fail32.json
example : fails (b8 "{\"Comma instead if closing brace\": true,") = true := by decide +kernel

-- fail33.json
example : fails (b8 "[\"mismatch\"}") = true := by decide +kernel

-- pass2.json
example : passes (b8 "[[[[[[[[[[[[[[[[[[[\"Not too deep\"]]]]]]]]]]]]]]]]]]]") = true := by decide +kernel

-- pass3.json
example : passes (b8 "{\n    \"JSON Test Pattern pass3\": {\n        \"The outermost value\": \"must be an object or array.\",\n        \"In this test\": \"It is an object.\"\n    }\n}\n") = true := by decide +kernel

/-! ## tests/roundtrip.rs -/

/-- `to_json` gives the source back, and the document converts to the value -/
def roundtrips (src : List UInt8) : Bool :=
  match Value.fromJsonBytes src, docFromJsonBytes none src with
  | .ok v, .ok doc =>
    (match v.toJson with | .ok s => decide (utf8 s = src) | .panic _ => false)
    && (match Value.fromDocument doc with | .ok w => (match w.eq v with | .ok b => b | .panic _ => false) | .panic _ => false)
  | _, _ => false

-- roundtrip01.json
example : roundtrips (b8 "[null]") = true := by decide +kernel

-- roundtrip02.json
example : roundtrips (b8 "[true]") = true := by decide +kernel

-- roundtrip03.json
example : roundtrips (b8 "[false]") = true := by decide +kernel

-- roundtrip04.json
example : roundtrips (b8 "[0]") = true := by decide +kernel

-- roundtrip05.json
example : roundtrips (b8 "[\"foo\"]") = true := by decide +kernel

-- roundtrip06.json
example : roundtrips (b8 "[]") = true := by decide +kernel

-- roundtrip07.json
example : roundtrips (b8 "{}") = true := by decide +kernel

-- roundtrip08.json
example : roundtrips (b8 "[0,1]") = true := by decide +kernel

-- roundtrip09.json
example : roundtrips (b8 "{\"foo\":\"bar\"}") = true := by decide +kernel

-- roundtrip10.json
example : roundtrips (b8 "{\"a\":null,\"foo\":\"bar\"}") = true := by decide +kernel

-- roundtrip11.json
example : roundtrips (b8 "[-1]") = true := by decide +kernel

-- roundtrip12.json
example : roundtrips (b8 "[-2147483648]") = true := by decide +kernel

-- roundtrip13.json
example : roundtrips (b8 "[-1234567890123456789]") = true := by decide +kernel

-- roundtrip14.json
example : roundtrips (b8 "[-9223372036854775808]") = true := by decide +kernel

-- roundtrip15.json
example : roundtrips (b8 "[1]") = true := by decide +kernel

-- roundtrip16.json
example : roundtrips (b8 "[2147483647]") = true := by decide +kernel

-- roundtrip17.json
example : roundtrips (b8 "[4294967295]") = true := by decide +kernel

-- roundtrip18.json
example : roundtrips (b8 "[1234567890123456789]") = true := by decide +kernel

-- roundtrip19.json
example : roundtrips (b8 "[9223372036854775807]") = true := by decide +kernel

-- roundtrip20.json
example : roundtrips (b8 "[0.0]") = true := by decide +kernel

-- roundtrip21.json
example : roundtrips (b8 "[-0.0]") = true := by decide +kernel

-- roundtrip22.json
example : roundtrips (b8 "[1.2345]") = true := by decide +kernel

-- roundtrip23.json
example : roundtrips (b8 "[-1.2345]") = true := by decide +kernel

-- roundtrip24.json
example : roundtrips (b8 "[5e-324]") = true := by decide +kernel

-- roundtrip25.json
example : roundtrips (b8 "[2.225073858507201e-308]") = true := by decide +kernel

-- roundtrip26.json
example : roundtrips (b8 "[2.2250738585072014e-308]") = true := by decide +kernel

-- roundtrip27.json
example : roundtrips (b8 "[1.7976931348623157e308]") = true := by decide +kernel

end
end JustJson
