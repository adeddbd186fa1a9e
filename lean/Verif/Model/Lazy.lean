import Verif.Model.Str
/-! # `JsonString` comparisons and hashing as the code runs them, one `next` at a time (src/string.rs)

`Model/Str.lean` decodes a string completely before it compares or hashes it. Here the loops are the code's own: both
iterators advance together and the loop ends at the first difference. The two are proved equal in `Props/Lazy.lean`. -/

namespace JustJson
section
variable [Arch]

/-- `Iterator::next` of an iterator of characters that may panic: what it yields, and itself afterwards.
For string.rs:692-738 and the `Chars` of string.rs:224, 351. -/
abbrev CharIter (S : Type) := S → Res (Option (Char × S))

/-- `Chars::next` (core), as used in string.rs:224, 351. -/
def strNext : CharIter Str
  | [] => .ok none
  | c :: cs => .ok (some (c, cs))

/-- `left.zip(right).all(|(a, b)| a == b)`, string.rs:223-225 and 243-245, with fuel. `Zip::next` asks `left` first and
`right` only if `left` has yielded; `all` ends at the first pair that differs. -/
def zipAllFuel {S T : Type} (left : CharIter S) (right : CharIter T) : Nat → S → T → Res Bool
  | 0, _, _ => .panic .fuel
  | n + 1, s, t =>
    match left s with
    | .panic p => .panic p
    | .ok none => .ok true
    | .ok (some (a, s')) =>
      match right t with
      | .panic p => .panic p
      | .ok none => .ok true
      | .ok (some (b, t')) => if a == b then zipAllFuel left right n s' t' else .ok false

/-- `loop { match (left_chars.next(), right_chars.next()) { .. } }`, string.rs:354-365 and 397-408, with fuel. -/
def cmpLoopFuel {S T : Type} (left : CharIter S) (right : CharIter T) : Nat → S → T → Res Ordering
  | 0, _, _ => .panic .fuel
  | n + 1, s, t =>
    match left s with
    | .panic p => .panic p
    | .ok l =>
      match right t with
      | .panic p => .panic p
      | .ok r =>
        match l, r with
        | some (a, s'), some (b, t') =>
          match compare a.toNat b.toNat with
          | .eq => cmpLoopFuel left right n s' t'
          | .lt => .ok .lt
          | .gt => .ok .gt
        | some _, none => .ok .gt
        | none, some _ => .ok .lt
        | none, none => .ok .eq

/-- `for ch in self.decoded() { state.write(..) }`, string.rs:487-489, with fuel. -/
def hashLoopFuel (H : Hasher) {S : Type} (next : CharIter S) : Nat → S → H.S → Res H.S
  | 0, _, _ => .panic .fuel
  | n + 1, s, st =>
    match next s with
    | .panic p => .panic p
    | .ok none => .ok st
    | .ok (some (c, s')) => hashLoopFuel H next n s' (H.write st (encodeChar c))

/-- fuel for a loop that advances `d` in each turn: each `next` takes at least one of the remaining characters.
(No counterpart in string.rs: it only bounds the recursion of the model.) -/
def Decoded.fuel (d : Decoded) : Nat := d.chars.length + 1

/-- `PartialEq<str> for JsonString`, string.rs:213-234. -/
def JsonString.eqStrLazy (j : JsonString) (other : Str) : Res Bool :=
  match j.source with
  | .json source =>
    if j.info.hasEscapes then
      if j.info.expectedLength != Str.len other then .ok false
      else
        let d := Decoded.new j.source j.info
        zipAllFuel Decoded.next strNext d.fuel d other
    else .ok (source.eqStr other)
  | .raw source => .ok (source.eqStr other)

/-- `PartialEq<JsonString> for JsonString`, string.rs:236-272. -/
def JsonString.eqLazy (j other : JsonString) : Res Bool :=
  match j.source, other.source with
  | .json a, .json b =>
    match j.info.hasEscapes, other.info.hasEscapes with
    | true, true =>
      if j.info.expectedLength = other.info.expectedLength then
        let d := Decoded.new j.source j.info
        zipAllFuel Decoded.next Decoded.next d.fuel d (Decoded.new other.source j.info)
      else .ok false
    | true, false => j.eqStrLazy b.asStr
    | false, true => other.eqStrLazy a.asStr
    | false, false => .ok (a.asStr == b.asStr)
  | .raw a, .raw b => .ok (a.asStr == b.asStr)
  | .json _, .raw b =>
    if other.info.expectedLength = j.len then j.eqStrLazy b.asStr else .ok false
  | .raw a, .json _ =>
    if j.info.expectedLength = other.len then other.eqStrLazy a.asStr else .ok false

/-- `PartialOrd<str> for JsonString`, string.rs:348-376. -/
def JsonString.partialCmpStrLazy (j : JsonString) (other : Str) : Res (Option Ordering) :=
  match j.source with
  | .json left =>
    if j.info.hasEscapes then do
      let d := Decoded.new j.source j.info
      let o ← cmpLoopFuel Decoded.next strNext d.fuel d other
      return some o
    else .ok (some (cmpStr left.asStr other))
  | .raw left => .ok (some (cmpStr left.asStr other))

/-- `Ord for JsonString`, string.rs:378-412. -/
def JsonString.cmpLazy (j other : JsonString) : Res Ordering :=
  match j.source, other.source with
  | .json left, .json right =>
    if !j.info.hasEscapes && !other.info.hasEscapes then .ok (cmpStr left.asStr right.asStr)
    else
      let d := Decoded.new j.source j.info
      cmpLoopFuel Decoded.next Decoded.next d.fuel d (Decoded.new other.source other.info)
  | .raw left, .raw right => .ok (cmpStr left.asStr right.asStr)
  | .json _, .raw right => do
    let o ← j.partialCmpStrLazy right.asStr
    .orPanic .expect o
  | .raw left, .json _ => do
    let o ← other.partialCmpStrLazy left.asStr
    let o ← .orPanic .expect o
    return o.swap

/-- `Hash for JsonString`, string.rs:480-496. -/
def JsonString.hashLazy (H : Hasher) (j : JsonString) (st : H.S) : Res H.S :=
  match j.source with
  | .json str =>
    if j.info.hasEscapes then do
      let d := Decoded.new j.source j.info
      let st ← hashLoopFuel H Decoded.next d.fuel d st
      return H.writeU8 st 0xff
    else .ok (str.hash H st)
  | .raw str => .ok (str.hash H st)

end
end JustJson
