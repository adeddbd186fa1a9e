import Verif.Model.Tokenizer
/-! # Specification: a client of a `Tokenizer`, making any calls in any order -/

namespace JustJson
section
variable [Arch]

/-- The calls a client can make on a `Tokenizer`. -/
inductive Call where
  /-- `Iterator::next` -/
  | next
  /-- `next_or_eof` -/
  | nextOrEof
  /-- `peek` -/
  | peek
deriving DecidableEq

/-- What the client sees. -/
inductive Reply where
  /-- `Some(Ok(token))` or `Ok(token)` -/
  | token (t : Token)
  /-- `Some(Err(e))` or `Err(e)` -/
  | error (e : Error Empty)
  /-- `None` from `next` -/
  | none
  /-- the result of `peek` -/
  | peeked (k : Option PeekableTokenKind)
  /-- the call panicked -/
  | panicked (p : Panic)
deriving DecidableEq

/-- One call on a tokenizer whose `offset()` is `off`: the reply and the new `offset()`. -/
def Call.run (src : List UInt8) (g : Bool) (off : Nat) : Call → Reply × Nat
  | .next =>
    match tokNext src g off with
    | .ok (some t) off' => (.token t, off')
    | .ok Option.none off' => (.none, off')
    | .err e off' => (.error e, off')
    | .panic p => (.panicked p, off)
  | .nextOrEof =>
    match JustJson.nextOrEof src g off with
    | .ok t off' => (.token t, off')
    | .err e off' => (.error e, off')
    | .panic p => (.panicked p, off)
  | .peek =>
    match tokPeek src off with
    | .ok k off' => (.peeked k, off')
    | .err e off' => (.error e, off')
    | .panic p => (.panicked p, off)

/-- A series of calls: each call with its reply, and `offset()` at the end. -/
def history (src : List UInt8) (g : Bool) : List Call → Nat → List (Call × Reply) × Nat
  | [], off => ([], off)
  | c :: cs, off =>
    let r := c.run src g off
    let rest := history src g cs r.2
    ((c, r.1) :: rest.1, rest.2)

/-- `offset()` after a series of calls on a fresh tokenizer. -/
def offsetAfter (src : List UInt8) (g : Bool) (cs : List Call) : Nat := (history src g cs 0).2

/-- An item of the iterator: `next` returned a token or an error. -/
def isItem : Call × Reply → Bool
  | (.next, .token _) => true
  | (.next, .error _) => true
  | _ => false

/-- The kind `peek` should announce for a token. -/
def Token.kind : Token → PeekableTokenKind
  | .null => .null
  | .bool true => .true
  | .bool false => .false
  | .string _ => .string
  | .number _ => .number
  | .object => .object
  | .objectEnd => .objectEnd
  | .array => .array
  | .arrayEnd => .arrayEnd
  | .colon => .colon
  | .comma => .comma

end
end JustJson
