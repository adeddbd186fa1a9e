import Verif.Model.Shown
import Verif.Model.Stack
/-! # Model of derived `Debug for Value` on a bounded stack (src/value.rs) -/

namespace JustJson
section
variable [Arch] (plain : Char → Bool)

mutual
/-- Derived `Debug for Value`, value.rs:14-29, where the stack has room for `stk` nested calls of it: the calls for the
elements and the values of entries are made from within core's builders. The calls of the builders themselves, a fixed
number for each level, are not counted. -/
def Value.shownS : Nat → Value → Res Shown
  | 0, _ => .panic .stack
  | stk + 1, .object es => do
    let items ← Value.shownEntriesS stk es
    .ok (.tuple "Object".toList [.tuple "Object".toList [.list items]])
  | stk + 1, .array vs => do
    let items ← Value.shownElemsS stk vs
    .ok (.tuple "Array".toList [.list items])
  | _ + 1, .number n => .ok (.tuple "Number".toList [n.shown plain])
  | _ + 1, .string s => .ok (.tuple "String".toList [s.shown plain])
  | _ + 1, .boolean b => .ok (.tuple "Boolean".toList [.text (showBool b)])
  | _ + 1, .null => .ok (.text "Null".toList)
/-- `Vec<Value>`, value.rs:26. -/
def Value.shownElemsS (stk : Nat) : List Value → Res (List Shown)
  | [] => .ok []
  | v :: vs => do
    let s ← Value.shownS stk v
    let ss ← Value.shownElemsS stk vs
    .ok (s :: ss)
/-- `#[derive(Debug)] struct Entry`, value.rs:897-903. -/
def Value.shownEntriesS (stk : Nat) : List (JsonString × Value) → Res (List Shown)
  | [] => .ok []
  | (k, v) :: es => do
    let s ← Value.shownS stk v
    let ss ← Value.shownEntriesS stk es
    .ok (.struct "Entry".toList [("key".toList, k.shown plain), ("value".toList, s)] :: ss)
end

/-- `format!("{:?}", value)`, and with `#` if `alternate`, on such a stack; value.rs:14. -/
def Value.debugS (alternate : Bool) (stk : Nat) (v : Value) : Res Str := do
  let s ← Value.shownS plain stk v
  .ok (s.render alternate)
end
end JustJson
