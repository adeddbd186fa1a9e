import Verif.Spec.Lexeme
/-! # Specification: tokenizers on parts of a source, and texts one after the other -/

namespace JustJson
open Spec
section
variable [Arch]

/-- The same error `k` bytes further on. -/
def laterError (k : Nat) (e : Error Empty) : Error Empty := ⟨e.offset + k, e.kind⟩

/-- The same reply `k` bytes further on. -/
def Reply.later (k : Nat) : Reply → Reply
  | .error e => .error (laterError k e)
  | r => r

/-- The same history `k` bytes further on: calls and replies, and `offset()` at the end. -/
def laterHistory (k : Nat) (h : List (Call × Reply) × Nat) : List (Call × Reply) × Nat :=
  (h.1.map fun x => (x.1, x.2.later k), h.2 + k)

/-- A text that begins with a byte a number can go on with. -/
def GoesOn (t : List UInt8) : Prop := ∃ b r, t = b :: r ∧ (IsDigit b ∨ b = 0x2E ∨ b = 0x65 ∨ b = 0x45)

/-- The replies of `next` called until the end: these tokens, then `None`. -/
def Streams (src : List UInt8) (g : Bool) (ts : List Token) : Prop :=
  (history src g (List.replicate (ts.length + 1) .next) 0).1.map Prod.snd = ts.map .token ++ [.none]

/-- Texts, each followed by a line feed. -/
def linesText : List (List UInt8) → List UInt8
  | [] => []
  | x :: xs => x ++ (0x0A :: linesText xs)

end
end JustJson
