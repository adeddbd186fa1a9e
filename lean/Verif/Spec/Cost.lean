import Verif.Model.Cost
import Verif.Spec.Tok
/-! # Specification: what it means to count the accesses to the source -/

namespace JustJson
section
variable [Arch]

/-- A result, with the state it ends in seen through `f`. -/
def Out.mapState {τ σ ε α : Type} (f : τ → σ) : Out τ ε α → Out σ ε α
  | .ok a t => .ok a (f t)
  | .err e t => .err e (f t)
  | .panic p => .panic p

/-- The state a function that returned left behind. -/
def Out.state? {σ ε α : Type} : Out σ ε α → Option σ
  | .ok _ s => some s
  | .err _ s => some s
  | .panic _ => none

/-- How many times a parse that returned looked at a byte of the source. -/
def Out.reads? {σ ε α : Type} (o : Out (PStateC σ) ε α) : Option Nat := o.state?.map (·.meter.reads)

/-- `Call.run` with the accesses counted. -/
def Call.runC (src : List UInt8) (g : Bool) (t : Meter) : Call → Reply × Meter
  | .next =>
    match tokNextC src g t with
    | .ok (some k) t' => (.token k, t')
    | .ok Option.none t' => (.none, t')
    | .err e t' => (.error e, t')
    | .panic p => (.panicked p, t)
  | .nextOrEof =>
    match JustJson.nextOrEofC src g t with
    | .ok k t' => (.token k, t')
    | .err e t' => (.error e, t')
    | .panic p => (.panicked p, t)
  | .peek =>
    match tokPeekC src t with
    | .ok k t' => (.peeked k, t')
    | .err e t' => (.error e, t')
    | .panic p => (.panicked p, t)

/-- `history` with the accesses counted. -/
def historyC (src : List UInt8) (g : Bool) : List Call → Meter → List (Call × Reply) × Meter
  | [], t => ([], t)
  | c :: cs, t =>
    let r := c.runC src g t
    let rest := historyC src g cs r.2
    ((c, r.1) :: rest.1, rest.2)

/-- The accesses to the source made by a series of calls on a fresh tokenizer. -/
def readsAfter (src : List UInt8) (g : Bool) (cs : List Call) : Nat := (historyC src g cs ⟨0, 0⟩).2.reads

/-- A call that consumed something: a token, or an item of the iterator. -/
def consumed : Call × Reply → Bool
  | (_, .token _) => true
  | (.next, .error _) => true
  | _ => false

end
end JustJson
