import Verif.Spec.Strings
import Verif.Model.Doc
/-! # What `Debug` prints, in both forms

`a` tells the form: `{:?}` if it is `false` and `{:#?}` if it is `true`; `l` is the level of indentation, in steps of four
spaces. -/

namespace JustJson.Spec

/-- In `{:#?}` a new line at the level; in `{:?}` what stands there otherwise. -/
def breakOr (a : Bool) (l : Nat) (otherwise : String) : Str :=
  if a then "\n".toList ++ List.replicate (4 * l) ' ' else otherwise.toList

/-- Parts between brackets: `{:?}` puts `", "` between them and `pad` inside the brackets; `{:#?}` puts each on a line of its
own, one step further in, with a comma after it, and the closing bracket on the next. -/
def enclosed (a : Bool) (l : Nat) (opening : String) (pad : String) (parts : List Str) (closing : String) : Str :=
  opening.toList ++ breakOr a (l + 1) pad ++ (parts.intersperse (",".toList ++ breakOr a (l + 1) " ")).flatten
    ++ (if a then ",".toList else []) ++ breakOr a l pad ++ closing.toList

/-- `name(x)` -/
def applied (a : Bool) (l : Nat) (name : String) (x : Nat → Str) : Str := enclosed a l (name ++ "(") "" [x (l + 1)] ")"

/-- `name { field: x, .. }` -/
def record (a : Bool) (l : Nat) (name : String) (fields : List (String × (Nat → Str))) : Str :=
  enclosed a l (name ++ " {") " " (fields.map fun f => f.1.toList ++ ": ".toList ++ f.2 (l + 1)) "}"

/-- `[x, ..]`; brackets with nothing between them stay on one line -/
def bracketed (a : Bool) (l : Nat) (items : List Str) : Str :=
  if items.isEmpty then "[]".toList else enclosed a l "[" "" items "]"

/-- the letters of the escapes -/
def escapeLetters : List (Char × Char) :=
  [('"', '"'), ('\\', '\\'), ('\n', 'n'), ('\r', 'r'), ('\t', 't'), (Char.ofNat 0, '0')]

/-- A text in quotes: a backslash and a letter for six characters, the code in hexadecimal for those that are not `plain`. -/
def quotedText (plain : Char → Bool) (s : Str) : Str :=
  "\"".toList ++ s.flatMap (fun c =>
    match escapeLetters.lookup c with
    | some letter => ['\\', letter]
    | none => if plain c then [c] else "\\u{".toList ++ Nat.toDigits 16 c.toNat ++ "}".toList) ++ "\"".toList

section
variable (plain : Char → Bool) (a : Bool)

/-- `true` and `false` -/
def boolWord : Bool → Str
  | true => "true".toList
  | false => "false".toList

/-- a number in decimal -/
def natWord (n : Nat) : Str := Nat.toDigits 10 n

/-- whether the text is owned, and the text -/
def anyStrText (l : Nat) : AnyStr → Str
  | .borrowed s => applied a l "Borrowed" fun _ => quotedText plain s
  | .owned s => applied a l "Owned" fun _ => quotedText plain s

/-- a number -/
def numberText (l : Nat) (n : JsonNumber) : Str := record a l "JsonNumber" [("source", fun l => anyStrText plain a l n.source)]

section
variable [Arch]

/-- the info of a string -/
def infoText (l : Nat) (i : JsonStringInfo) : Str :=
  record a l "EscapeInfo" [("has_escapes", fun _ => boolWord i.hasEscapes), ("unescaped_length", fun _ => natWord i.expectedLength)]

/-- a string -/
def stringText (l : Nat) (s : JsonString) : Str :=
  record a l "JsonString" [
    ("source", fun l => match s.source with
      | .raw t => applied a l "Raw" fun l => anyStrText plain a l t
      | .json t => applied a l "Json" fun l => anyStrText plain a l t),
    ("info", fun l => infoText a l s.info)]

mutual
/-- a value -/
def valueText (l : Nat) : Value → Str
  | .null => "Null".toList
  | .boolean b => applied a l "Boolean" fun _ => boolWord b
  | .string s => applied a l "String" fun l => stringText plain a l s
  | .number n => applied a l "Number" fun l => numberText plain a l n
  | .array vs => applied a l "Array" fun l => bracketed a l (elemTexts (l + 1) vs)
  | .object es => applied a l "Object" fun l => applied a l "Object" fun l => bracketed a l (entryTexts (l + 1) es)
/-- the elements of an array -/
def elemTexts (l : Nat) : List Value → List Str
  | [] => []
  | v :: vs => valueText l v :: elemTexts l vs
/-- the entries of an object -/
def entryTexts (l : Nat) : List (JsonString × Value) → List Str
  | [] => []
  | (k, v) :: es => record a l "Entry" [("key", fun l => stringText plain a l k), ("value", fun l => valueText l v)] :: entryTexts l es
end

/-- a node of a document -/
def nodeText (l : Nat) : Node → Str
  | .null => "Null".toList
  | .boolean b => applied a l "Boolean" fun _ => boolWord b
  | .string s => applied a l "String" fun l => stringText plain a l s
  | .number n => applied a l "Number" fun l => numberText plain a l n
  | .array n => record a l "Array" [("length", fun _ => natWord n)]
  | .object n => record a l "Object" [("length", fun _ => natWord n)]

/-- a token -/
def tokenText (l : Nat) : Token → Str
  | .bool b => applied a l "Bool" fun _ => boolWord b
  | .string s => applied a l "String" fun l => stringText plain a l s
  | .number n => applied a l "Number" fun l => numberText plain a l n
  | .comma => "Comma".toList
  | .colon => "Colon".toList
  | .arrayEnd => "ArrayEnd".toList
  | .array => "Array".toList
  | .objectEnd => "ObjectEnd".toList
  | .object => "Object".toList
  | .null => "Null".toList
end
end

/-- The kinds of error that have no contents, and their names. -/
def errorNames (δ : Type) : List (ErrorKind δ × String) :=
  [(.expectedColon, "ExpectedColon"), (.expectedCommaOrEndOfArray, "ExpectedCommaOrEndOfArray"),
   (.expectedCommaOrEndOfObject, "ExpectedCommaOrEndOfObject"), (.expectedDecimalDigit, "ExpectedDecimalDigit"),
   (.expectedDigit, "ExpectedDigit"), (.expectedExponent, "ExpectedExponent"), (.expectedNumber, "ExpectedNumber"),
   (.expectedObjectKey, "ExpectedObjectKey"), (.expectedString, "ExpectedString"), (.expectedValue, "ExpectedValue"),
   (.illegalTrailingComma, "IllegalTrailingComma"), (.invalidEscape, "InvalidEscape"),
   (.invalidHexadecimal, "InvalidHexadecimal"), (.objectKeysMustBeStrings, "ObjectKeysMustBeStrings"),
   (.payloadsShouldBeObjectOrArray, "PayloadsShouldBeObjectOrArray"), (.paylodTooLarge, "PaylodTooLarge"),
   (.recursionLimitReached, "RecursionLimitReached"), (.trailingNonWhitespace, "TrailingNonWhitespace"),
   (.unclosedArray, "UnclosedArray"), (.unclosedObject, "UnclosedObject"), (.unclosedString, "UnclosedString"),
   (.unexpectedEof, "UnexpectedEof"), (.utf8, "Utf8")]

/-- What `Debug` prints for a kind of error without a delegate's payload. -/
inductive KindText (a : Bool) (l : Nat) : ErrorKind Empty → Str → Prop
  | named {k : ErrorKind Empty} {name : String} (h : (k, name) ∈ errorNames Empty) : KindText a l k name.toList
  | unexpected (b : UInt8) : KindText a l (.unexpected b) (applied a l "Unexpected" fun _ => natWord b.toNat)

/-- a configuration -/
def configText (a : Bool) (l : Nat) (c : ParseConfig) : Str :=
  record a l "ParseConfig" [
    ("allow_trailing_commas", fun _ => boolWord c.allowTrailingCommas),
    ("recursion_limit", fun l => match c.recursionLimit with
      | some n => applied a l "Some" fun _ => natWord n
      | none => "None".toList),
    ("allow_all_types_at_root", fun _ => boolWord c.allowAllTypesAtRoot)]

/-- The names of the kinds of value. -/
def jsonKindNames : List (JsonKind × String) :=
  [(.array, "Array"), (.object, "Object"), (.string, "String"), (.number, "Number"), (.boolean, "Boolean"), (.null, "Null")]

/-- The names of the kinds of token. -/
def tokenKindNames : List (PeekableTokenKind × String) :=
  [(.comma, "Comma"), (.colon, "Colon"), (.unrecognized, "Unrecognized"), (.arrayEnd, "ArrayEnd"), (.array, "Array"),
   (.objectEnd, "ObjectEnd"), (.object, "Object"), (.number, "Number"), (.string, "String"), (.false, "False"), (.true, "True"),
   (.null, "Null")]

end JustJson.Spec
