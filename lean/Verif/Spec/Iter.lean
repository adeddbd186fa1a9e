import Verif.Spec.Write
/-! # Specification: what a client of an iterator of characters sees -/

namespace JustJson

/-- The answers of an iterator to `k` calls of `next`, and what it is then. After `None` it is what it was. -/
def nextCalls {σ : Type} (next : σ → Res (Option (Char × σ))) : Nat → σ → Res (List (Option Char) × σ)
  | 0, s => .ok ([], s)
  | k + 1, s => do
    match ← next s with
    | none => let r ← nextCalls next k s; return (none :: r.1, r.2)
    | some (c, s') => let r ← nextCalls next k s'; return (some c :: r.1, r.2)

/-- The answers of an iterator over the text `t` to `k` calls: its characters, then `None` for ever. -/
def answersOf (t : Str) (k : Nat) : List (Option Char) := (List.range k).map fun i => t[i]?

/-- How many characters the JSON form of a character of text has: two for a short escape, six for another control
character, one for the others. -/
def writtenLen (c : Char) : Nat :=
  if c ∈ ['"', '\\', Char.ofNat 7, '\n', '\r', '\t', Char.ofNat 12] then 2 else if c.toNat < 0x20 then 6 else 1

/-- The characters of a text whose JSON form has not been begun after `k` characters of the JSON form of the text. -/
def notBegun : Str → Nat → Str
  | s, 0 => s
  | [], _ + 1 => []
  | c :: s, k + 1 => notBegun s (k + 1 - writtenLen c)

end JustJson
