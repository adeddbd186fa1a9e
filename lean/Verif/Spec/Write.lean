import Verif.Model.Write
import Verif.Spec.Strings
/-! # Specification: minified texts, layouts, and what a `fmt::Write` implementation sees -/

namespace JustJson
open Spec

/-! ## Minification -/

/-- a byte of insignificant whitespace -/
def isBlank (b : UInt8) : Bool := b = 0x20 || b = 0x09 || b = 0x0A || b = 0x0D

mutual
/-- A JSON text without its whitespace outside string literals: scans for quotes. -/
def minify : List UInt8 → List UInt8
  | [] => []
  | b :: bs => if isBlank b then minify bs else if b = 0x22 then b :: minifyString bs else b :: minify bs
/-- The same, inside a string literal: all is kept, up to the first quote not preceded by an escaping backslash. -/
def minifyString : List UInt8 → List UInt8
  | [] => []
  | [b] => [b]
  | b :: c :: bs =>
    if b = 0x5C then b :: c :: minifyString bs
    else if b = 0x22 then b :: minify (c :: bs)
    else b :: minifyString (c :: bs)
end

/-! ## Layouts -/

section
variable [Arch]

/-- `n` levels of indentation. -/
def indented (indent : Str) (n : Nat) : Str := (List.replicate n indent).flatten

/-- The items of a list with a separator between any two. -/
def joined (sep : Str) : List Str → Str
  | [] => []
  | [a] => a
  | a :: b :: rest => a ++ sep ++ joined sep (b :: rest)

variable (body : JsonString → Str)

mutual
/-- A value without any whitespace; `body s` is what stands between the quotes for the string `s`. -/
def compact : Value → Str
  | .null => "null".toList
  | .boolean b => (if b then "true" else "false").toList
  | .number n => n.sourceStr
  | .string s => quoted (body s)
  | .array vs => ['['] ++ joined [','] (compactElems vs) ++ [']']
  | .object es => ['{'] ++ joined [','] (compactEntries es) ++ ['}']
/-- of each element -/
def compactElems : List Value → List Str
  | [] => []
  | v :: vs => compact v :: compactElems vs
/-- of each entry -/
def compactEntries : List (JsonString × Value) → List Str
  | [] => []
  | (k, v) :: es => (quoted (body k) ++ [':'] ++ compact v) :: compactEntries es
end

variable (indent lineEnding : Str)

mutual
/-- A value that starts in a line at nesting depth `depth`: the elements of a container stand each on a line of its
own, at one more level of indentation, the closing bracket on a line of its own; an empty container is just
its brackets. -/
def layout (depth : Nat) : Value → Str
  | .null => "null".toList
  | .boolean b => (if b then "true" else "false").toList
  | .number n => n.sourceStr
  | .string s => quoted (body s)
  | .array [] => "[]".toList
  | .array (v :: vs) =>
    ['['] ++ lineEnding ++ joined (',' :: lineEnding) (layoutElems (depth + 1) (v :: vs)) ++ lineEnding
      ++ indented indent depth ++ [']']
  | .object [] => "{}".toList
  | .object (e :: es) =>
    ['{'] ++ lineEnding ++ joined (',' :: lineEnding) (layoutEntries (depth + 1) (e :: es)) ++ lineEnding
      ++ indented indent depth ++ ['}']
/-- the line of each element -/
def layoutElems (depth : Nat) : List Value → List Str
  | [] => []
  | v :: vs => (indented indent depth ++ layout depth v) :: layoutElems depth vs
/-- the line of each entry -/
def layoutEntries (depth : Nat) : List (JsonString × Value) → List Str
  | [] => []
  | (k, v) :: es => (indented indent depth ++ quoted (body k) ++ ": ".toList ++ layout depth v) :: layoutEntries depth es
end

end

/-! ## Writers -/

/-- A call on a `fmt::Write`. -/
inductive WCall where
  | str (s : Str)
  | char (c : Char)
deriving DecidableEq

/-- What a call asks to be written. -/
def WCall.text : WCall → Str
  | .str s => s
  | .char c => [c]

/-- The text of a series of calls. -/
def WCall.texts (cs : List WCall) : Str := cs.flatMap WCall.text

section
variable (F : Writer)

/-- Make one call. -/
def WCall.make (w : F.W) : WCall → F.W × Bool
  | .str s => F.writeStr w s
  | .char c => F.writeChar w c

/-- Make calls one after the other until one fails; whether all succeeded. -/
def makeCalls (w : F.W) : List WCall → F.W × Bool
  | [] => (w, true)
  | c :: cs =>
    match c.make F w with
    | (w', true) => makeCalls w' cs
    | (w', false) => (w', false)

end

/-- A writer that records the calls it is given with their outcome: `fails i` says whether the `i`-th call is to fail. -/
@[reducible] def logger (fails : Nat → Bool) : Writer where
  W := List (WCall × Bool)
  writeStr w s := (w ++ [(.str s, !fails w.length)], !fails w.length)
  writeChar w c := (w ++ [(.char c, !fails w.length)], !fails w.length)

end JustJson
