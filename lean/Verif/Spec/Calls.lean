import Verif.Spec.Write
/-! # Specification: the calls made on a `fmt::Write` when a value is written

Tokens other than strings are one `write_str` each; a string is a `write_str` of each quote and a `write_char` of each
character between them; a line ending is one `write_str`, and so is each level of indentation. -/

namespace JustJson
open Spec

section
variable [Arch]

/-- Series of calls, with the calls `sep` between any two. -/
def seriesOf (sep : List WCall) : List (List WCall) → List WCall
  | [] => []
  | [a] => a
  | a :: b :: rest => a ++ sep ++ seriesOf sep (b :: rest)

/-- The calls for a string literal with the text `t` between its quotes. -/
def literalCalls (t : Str) : List WCall := [.str ['"']] ++ t.map .char ++ [.str ['"']]

variable (body : JsonString → Str)

mutual
/-- The calls for a value in compact form; `body s` is what stands between the quotes for the string `s`. -/
def compactCalls : Value → List WCall
  | .null => [.str "null".toList]
  | .boolean b => [.str (if b then "true" else "false").toList]
  | .number n => [.str n.sourceStr]
  | .string s => literalCalls (body s)
  | .array vs => [.str ['[']] ++ seriesOf [.str [',']] (compactElemCalls vs) ++ [.str [']']]
  | .object es => [.str ['{']] ++ seriesOf [.str [',']] (compactEntryCalls es) ++ [.str ['}']]
/-- for each element -/
def compactElemCalls : List Value → List (List WCall)
  | [] => []
  | v :: vs => compactCalls v :: compactElemCalls vs
/-- for each entry -/
def compactEntryCalls : List (JsonString × Value) → List (List WCall)
  | [] => []
  | (k, v) :: es => (literalCalls (body k) ++ [.str [':']] ++ compactCalls v) :: compactEntryCalls es
end

variable (indent lineEnding : Str)

mutual
/-- The calls for a value in pretty form that starts in a line at nesting depth `depth`. -/
def prettyCalls (depth : Nat) : Value → List WCall
  | .null => [.str "null".toList]
  | .boolean b => [.str (if b then "true" else "false").toList]
  | .number n => [.str n.sourceStr]
  | .string s => literalCalls (body s)
  | .array [] => [.str ['['], .str [']']]
  | .array (v :: vs) =>
    [.str ['['], .str lineEnding] ++ seriesOf [.str [','], .str lineEnding] (prettyElemCalls (depth + 1) (v :: vs))
      ++ [.str lineEnding] ++ List.replicate depth (.str indent) ++ [.str [']']]
  | .object [] => [.str ['{'], .str ['}']]
  | .object (e :: es) =>
    [.str ['{'], .str lineEnding] ++ seriesOf [.str [','], .str lineEnding] (prettyEntryCalls (depth + 1) (e :: es))
      ++ [.str lineEnding] ++ List.replicate depth (.str indent) ++ [.str ['}']]
/-- for the line of each element -/
def prettyElemCalls (depth : Nat) : List Value → List (List WCall)
  | [] => []
  | v :: vs => (List.replicate depth (.str indent) ++ prettyCalls depth v) :: prettyElemCalls depth vs
/-- for the line of each entry -/
def prettyEntryCalls (depth : Nat) : List (JsonString × Value) → List (List WCall)
  | [] => []
  | (k, v) :: es =>
    (List.replicate depth (.str indent) ++ literalCalls (body k) ++ [.str ": ".toList] ++ prettyCalls depth v)
      :: prettyEntryCalls depth es
end

mutual
/-- How many lines the pretty form ends: in a container that is not empty, that of the opening bracket and that of each
element or entry. -/
def Value.lineEnds : Value → Nat
  | .array [] => 0
  | .array (v :: vs) => 1 + (v :: vs).length + lineEndsElems (v :: vs)
  | .object [] => 0
  | .object (e :: es) => 1 + (e :: es).length + lineEndsEntries (e :: es)
  | _ => 0
/-- of the elements -/
def lineEndsElems : List Value → Nat
  | [] => 0
  | v :: vs => v.lineEnds + lineEndsElems vs
/-- of the entries -/
def lineEndsEntries : List (JsonString × Value) → Nat
  | [] => 0
  | (_, v) :: es => v.lineEnds + lineEndsEntries es
end

mutual
/-- How many levels of indentation are written for a value at nesting depth `depth`, not counting those before it: the
sum, over the lines it takes, of the depth of each. -/
def Value.levels (depth : Nat) : Value → Nat
  | .array [] => 0
  | .array (v :: vs) => levelsElems (depth + 1) (v :: vs) + depth
  | .object [] => 0
  | .object (e :: es) => levelsEntries (depth + 1) (e :: es) + depth
  | _ => 0
/-- of the lines of the elements -/
def levelsElems (depth : Nat) : List Value → Nat
  | [] => 0
  | v :: vs => depth + v.levels depth + levelsElems depth vs
/-- of the lines of the entries -/
def levelsEntries (depth : Nat) : List (JsonString × Value) → Nat
  | [] => 0
  | (_, v) :: es => depth + v.levels depth + levelsEntries depth es
end

end
end JustJson
