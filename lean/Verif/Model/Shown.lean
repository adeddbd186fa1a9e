import Verif.Model.Debug
import Verif.Model.Doc
/-! # Model of the derived `Debug` implementations

`#[derive(Debug)]` calls the builders of `core::fmt`; a tree of these calls is a `Shown`, and what they write to a
formatter that does not fail, without options other than `#`, is its text. -/

namespace JustJson

/-- What a `Debug` implementation asks its `Formatter` to write: a text, or one of the builders `debug_tuple`,
`debug_struct` and `debug_list` (core). For the derives cited below, anystr.rs:11 to value.rs:897. -/
inductive Shown where
  | text (s : Str)
  | tuple (name : Str) (fields : List Shown)
  | struct (name : Str) (fields : List (Str × Shown))
  | list (items : List Shown)

/-! ## `{:?}` -/

mutual
/-- `{:?}` of core's builders, for the derives cited below (anystr.rs:11 and others). -/
def Shown.flat : Shown → Str
  | .text s => s
  | .tuple name fields => name ++ '(' :: (Shown.flatItems fields ++ [')'])
  | .struct name fields => name ++ [' ', '{', ' '] ++ Shown.flatFields fields ++ [' ', '}']
  | .list items => '[' :: (Shown.flatItems items ++ [']'])
/-- Items with `", "` between them (`DebugInner::entry`, `DebugTuple::field`, core), for value.rs:14-26. -/
def Shown.flatItems : List Shown → Str
  | [] => []
  | [s] => s.flat
  | s :: ss => s.flat ++ [',', ' '] ++ Shown.flatItems ss
/-- Named fields with `", "` between them (`DebugStruct::field`, core), for string.rs:40-45. -/
def Shown.flatFields : List (Str × Shown) → Str
  | [] => []
  | [(n, s)] => n ++ [':', ' '] ++ s.flat
  | (n, s) :: fs => n ++ [':', ' '] ++ s.flat ++ [',', ' '] ++ Shown.flatFields fs
end

/-! ## `{:#?}` -/

/-- Core's `PadAdapter`: four spaces before the first character of each line; `atStart` is its `on_newline`. For the
derives cited below (anystr.rs:11 and others). -/
def padText (atStart : Bool) : Str → Str
  | [] => []
  | c :: cs => (if atStart then [' ', ' ', ' ', ' '] else []) ++ c :: padText (c == '\n') cs

mutual
/-- `{:#?}` of core's builders: every field and item goes through a `PadAdapter` of its own and ends in `",\n"`. For the
derives cited below (anystr.rs:11 and others). -/
def Shown.lines : Shown → Str
  | .text s => s
  | .tuple name fields => name ++ ['(', '\n'] ++ Shown.linesItems fields ++ [')']
  | .struct name fields => name ++ [' ', '{', '\n'] ++ Shown.linesFields fields ++ ['}']
  | .list [] => ['[', ']']
  | .list (s :: ss) => ['[', '\n'] ++ Shown.linesItems (s :: ss) ++ [']']
/-- Items, for value.rs:14-26. -/
def Shown.linesItems : List Shown → Str
  | [] => []
  | s :: ss => padText true (s.lines ++ [',', '\n']) ++ Shown.linesItems ss
/-- Named fields, for string.rs:40-45. -/
def Shown.linesFields : List (Str × Shown) → Str
  | [] => []
  | (n, s) :: fs => padText true (n ++ [':', ' '] ++ s.lines ++ [',', '\n']) ++ Shown.linesFields fs
end

/-- The text of `{:?}` or, if `alternate`, of `{:#?}`; for the derives cited below (anystr.rs:11 and others). -/
def Shown.render (alternate : Bool) (s : Shown) : Str := if alternate then s.lines else s.flat

/-! ## Strings

`plain` tells which characters core writes as themselves (those that are printable and do not extend a grapheme, by the
Unicode tables of core); the theorems hold whatever it is. -/

/-- `char::escape_debug_ext` as `Debug for str` calls it (core), for anystr.rs:11-17. -/
def escapeDebug (plain : Char → Bool) (c : Char) : Str :=
  if c = Char.ofNat 0 then ['\\', '0']
  else if c = '\t' then ['\\', 't']
  else if c = '\r' then ['\\', 'r']
  else if c = '\n' then ['\\', 'n']
  else if c = '\\' then ['\\', '\\']
  else if c = '"' then ['\\', '"']
  else if plain c then [c]
  else ['\\', 'u', '{'] ++ Nat.toDigits 16 c.toNat ++ ['}']

/-- `Debug for str` (core), for anystr.rs:11-17. -/
def quoteDebug (plain : Char → Bool) (s : Str) : Str := '"' :: (s.flatMap (escapeDebug plain) ++ ['"'])

section
variable (plain : Char → Bool)

/-- `#[derive(Debug)] enum AnyStr`, anystr.rs:11-17. -/
def AnyStr.shown : AnyStr → Shown
  | .owned s => .tuple "Owned".toList [.text (quoteDebug plain s)]
  | .borrowed s => .tuple "Borrowed".toList [.text (quoteDebug plain s)]

/-- `#[derive(Debug)] struct JsonNumber`, number.rs:8-12. -/
def JsonNumber.shown (n : JsonNumber) : Shown := .struct "JsonNumber".toList [("source".toList, n.source.shown plain)]

/-- `#[derive(Debug)] enum StringContents`, string.rs:1028-1032. -/
def StringContents.shown : StringContents → Shown
  | .json s => .tuple "Json".toList [s.shown plain]
  | .raw s => .tuple "Raw".toList [s.shown plain]

section
variable [Arch]

/-- `Debug for JsonStringInfo`, string.rs:648-655 (see `JsonStringInfo.debug`). -/
def JsonStringInfo.shown (i : JsonStringInfo) : Shown :=
  .struct "EscapeInfo".toList [("has_escapes".toList, .text (showBool i.hasEscapes)),
    ("unescaped_length".toList, .text (showNat i.expectedLength))]

/-- `#[derive(Debug)] struct JsonString`, string.rs:40-45. -/
def JsonString.shown (s : JsonString) : Shown :=
  .struct "JsonString".toList [("source".toList, s.source.shown plain), ("info".toList, s.info.shown)]

mutual
/-- `#[derive(Debug)] enum Value`, value.rs:14-29; `Object` is a tuple struct around a `Vec` (value.rs:815-816). -/
def Value.shown : Value → Shown
  | .number n => .tuple "Number".toList [n.shown plain]
  | .string s => .tuple "String".toList [s.shown plain]
  | .boolean b => .tuple "Boolean".toList [.text (showBool b)]
  | .object es => .tuple "Object".toList [.tuple "Object".toList [.list (Value.shownEntries es)]]
  | .array vs => .tuple "Array".toList [.list (Value.shownElems vs)]
  | .null => .text "Null".toList
/-- `Vec<Value>`, value.rs:26. -/
def Value.shownElems : List Value → List Shown
  | [] => []
  | v :: vs => v.shown :: Value.shownElems vs
/-- `#[derive(Debug)] struct Entry`, value.rs:897-903. -/
def Value.shownEntries : List (JsonString × Value) → List Shown
  | [] => []
  | (k, v) :: es => .struct "Entry".toList [("key".toList, k.shown plain), ("value".toList, v.shown)] :: Value.shownEntries es
end

/-- `#[derive(Debug)] enum Node`, doc.rs:174-194. -/
def Node.shown : Node → Shown
  | .null => .text "Null".toList
  | .boolean b => .tuple "Boolean".toList [.text (showBool b)]
  | .string s => .tuple "String".toList [s.shown plain]
  | .number n => .tuple "Number".toList [n.shown plain]
  | .object n => .struct "Object".toList [("length".toList, .text (showNat n))]
  | .array n => .struct "Array".toList [("length".toList, .text (showNat n))]

/-- `#[derive(Debug)] enum Token`, parser.rs:12-34. -/
def Token.shown : Token → Shown
  | .null => .text "Null".toList
  | .bool b => .tuple "Bool".toList [.text (showBool b)]
  | .string s => .tuple "String".toList [s.shown plain]
  | .number n => .tuple "Number".toList [n.shown plain]
  | .object => .text "Object".toList
  | .objectEnd => .text "ObjectEnd".toList
  | .array => .text "Array".toList
  | .arrayEnd => .text "ArrayEnd".toList
  | .colon => .text "Colon".toList
  | .comma => .text "Comma".toList

/-- `format!("{:?}", value)`, and with `#` if `alternate`; value.rs:14. -/
def Value.debug (alternate : Bool) (v : Value) : Str := (v.shown plain).render alternate
/-- The same for `JsonString`, string.rs:40. -/
def JsonString.debug (alternate : Bool) (s : JsonString) : Str := (s.shown plain).render alternate
/-- The same for `Node`, doc.rs:174. -/
def Node.debug (alternate : Bool) (n : Node) : Str := (n.shown plain).render alternate
/-- The same for `Token`, parser.rs:12. -/
def Token.debug (alternate : Bool) (t : Token) : Str := (t.shown plain).render alternate
end

/-- The same for `JsonNumber`, number.rs:8. -/
def JsonNumber.debug (alternate : Bool) (n : JsonNumber) : Str := (n.shown plain).render alternate
end

/-- `#[derive(Debug)] enum ErrorKind`, error.rs:62-128; `shown` is `<DelegateError as Debug>::fmt`. -/
def ErrorKind.shown {δ : Type} (shown : δ → Shown) : ErrorKind δ → Shown
  | .utf8 => .text "Utf8".toList
  | .unexpectedEof => .text "UnexpectedEof".toList
  | .expectedObjectKey => .text "ExpectedObjectKey".toList
  | .expectedColon => .text "ExpectedColon".toList
  | .expectedValue => .text "ExpectedValue".toList
  | .expectedCommaOrEndOfObject => .text "ExpectedCommaOrEndOfObject".toList
  | .expectedCommaOrEndOfArray => .text "ExpectedCommaOrEndOfArray".toList
  | .illegalTrailingComma => .text "IllegalTrailingComma".toList
  | .unexpected b => .tuple "Unexpected".toList [.text (showNat b.toNat)]
  | .trailingNonWhitespace => .text "TrailingNonWhitespace".toList
  | .objectKeysMustBeStrings => .text "ObjectKeysMustBeStrings".toList
  | .expectedExponent => .text "ExpectedExponent".toList
  | .expectedDecimalDigit => .text "ExpectedDecimalDigit".toList
  | .expectedDigit => .text "ExpectedDigit".toList
  | .invalidHexadecimal => .text "InvalidHexadecimal".toList
  | .invalidEscape => .text "InvalidEscape".toList
  | .unclosedObject => .text "UnclosedObject".toList
  | .unclosedArray => .text "UnclosedArray".toList
  | .unclosedString => .text "UnclosedString".toList
  | .expectedString => .text "ExpectedString".toList
  | .expectedNumber => .text "ExpectedNumber".toList
  | .recursionLimitReached => .text "RecursionLimitReached".toList
  | .payloadsShouldBeObjectOrArray => .text "PayloadsShouldBeObjectOrArray".toList
  | .paylodTooLarge => .text "PaylodTooLarge".toList
  | .errorFromDelegate d => .tuple "ErrorFromDelegate".toList [shown d]

/-- `#[derive(Debug)] struct Error`, error.rs:5-9. -/
def Error.shown {δ : Type} (shown : δ → Shown) (e : Error δ) : Shown :=
  .struct "Error".toList [("offset".toList, .text (showNat e.offset)), ("kind".toList, e.kind.shown shown)]

/-- `format!("{:?}", error)`, and with `#` if `alternate`; error.rs:5. -/
def Error.debug {δ : Type} (shown : δ → Shown) (alternate : Bool) (e : Error δ) : Str := (e.shown shown).render alternate

/-- `#[derive(Debug)] struct ParseConfig`, parser.rs:994-1010; `Debug for Option` is that of core. -/
def ParseConfig.shown (c : ParseConfig) : Shown :=
  .struct "ParseConfig".toList [("allow_trailing_commas".toList, .text (showBool c.allowTrailingCommas)),
    ("recursion_limit".toList, match c.recursionLimit with
      | none => .text "None".toList
      | some n => .tuple "Some".toList [.text (showNat n)]),
    ("allow_all_types_at_root".toList, .text (showBool c.allowAllTypesAtRoot))]

/-- `format!("{:?}", config)`, and with `#` if `alternate`; parser.rs:994. -/
def ParseConfig.debug (alternate : Bool) (c : ParseConfig) : Str := c.shown.render alternate

/-- `#[derive(Debug)] enum JsonKind`, parser.rs:1162-1176: the same with and without `#`. -/
def JsonKind.debug : JsonKind → Str
  | .null => "Null".toList
  | .boolean => "Boolean".toList
  | .number => "Number".toList
  | .string => "String".toList
  | .object => "Object".toList
  | .array => "Array".toList

/-- `#[derive(Debug)] enum PeekableTokenKind`, parser.rs:39-93: the same with and without `#`. -/
def PeekableTokenKind.debug : PeekableTokenKind → Str
  | .null => "Null".toList
  | .true => "True".toList
  | .false => "False".toList
  | .string => "String".toList
  | .number => "Number".toList
  | .object => "Object".toList
  | .objectEnd => "ObjectEnd".toList
  | .array => "Array".toList
  | .arrayEnd => "ArrayEnd".toList
  | .unrecognized => "Unrecognized".toList
  | .colon => "Colon".toList
  | .comma => "Comma".toList

section
variable [Arch] (plain : Char → Bool)

/-- `#[derive(Debug)] struct GenericDocument` and `struct Nodes`, doc.rs:43-46, 196-200. `phantom` is the text of
`PhantomData<&()>`, which is not the same in every version of core. The collection prints as a list, as `Vec` and
`heapless::Vec` do; other collections are not modelled. -/
def Document.shown (phantom : Str) (d : Document) : Shown :=
  .struct "GenericDocument".toList [("nodes".toList,
    .struct "Nodes".toList [("collection".toList, .list (d.map (Node.shown plain))), ("_phantom".toList, .text phantom)])]

/-- `#[derive(Debug)] struct DocumentIter`, doc.rs:354-357: core's `Cloned` derives `Debug`, and `Debug for slice::Iter`
shows the nodes that are left. -/
def DocumentIter.shown (left : List Node) : Shown :=
  .struct "DocumentIter".toList [("nodes".toList,
    .struct "Cloned".toList [("it".toList, .tuple "Iter".toList [.list (left.map (Node.shown plain))])])]

/-- `format!("{:?}", document)`, and with `#` if `alternate`; doc.rs:43. -/
def Document.debug (phantom : Str) (alternate : Bool) (d : Document) : Str := (Document.shown plain phantom d).render alternate
/-- The same for `DocumentIter`, doc.rs:354. -/
def DocumentIter.debug (alternate : Bool) (left : List Node) : Str := (DocumentIter.shown plain left).render alternate
end

section
variable [Arch] (plain : Char → Bool)

/-- `format!("{:?}", string)` of an `AnyStr`, and with `#` if `alternate`; anystr.rs:11. -/
def AnyStr.debug (alternate : Bool) (s : AnyStr) : Str := (s.shown plain).render alternate
/-- The same for `Object`, value.rs:815-816: the entries of an object are its `Vec`. -/
def Object.debug (alternate : Bool) (es : List (JsonString × Value)) : Str :=
  (Shown.tuple "Object".toList [.list (Value.shownEntries plain es)]).render alternate
/-- The same for `Entry`, value.rs:897-903. -/
def Entry.debug (alternate : Bool) (e : JsonString × Value) : Str :=
  (Shown.struct "Entry".toList [("key".toList, e.1.shown plain), ("value".toList, e.2.shown plain)]).render alternate
end

/-- The same for `ErrorKind`, error.rs:62. -/
def ErrorKind.debug {δ : Type} (shown : δ → Shown) (alternate : Bool) (k : ErrorKind δ) : Str := (k.shown shown).render alternate

end JustJson
