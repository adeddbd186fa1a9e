/-!
# Outcomes

`M σ ε α` models a Rust function that takes `&mut self` (state `σ`) and returns `Result<α, ε>`.
The state reached is kept on both exits, since a tokenizer may be used again after an error.
`Panic` collects everything that is neither `Ok` nor `Err`. The definitions here are the plumbing of the model and stand
for no code of /repo/src, only for `Result`, `?` and panics as it uses them throughout (src/parser.rs, string.rs, value.rs,
doc.rs).
-/

namespace JustJson

/-- Pointer width of the target (`string.rs:603-606` has a variant for 32 and one for 64 bits). -/
class Arch where
  /-- `usize::BITS` -/
  bits : Nat
  /-- the two supported widths -/
  bits_eq : bits = 32 ∨ bits = 64

/-- Ways in which a call can end without a `Result`. -/
inductive Panic where
  /-- `unreachable!()` -/
  | unreachable
  /-- `.expect(..)` / `.unwrap()` on `None`/`Err` -/
  | expect
  /-- slice or `str` index out of range / not on a char boundary -/
  | index
  /-- checked arithmetic overflow -/
  | overflow
  /-- undefined behaviour: `from_utf8_unchecked` / `from_u32_unchecked` on invalid data -/
  | ub
  /-- the model's loop counter ran out (would be non-termination) -/
  | fuel
  /-- a stack of bounded size is full (only in `Model/Stack.lean`) -/
  | stack
deriving DecidableEq, Repr

/-- Outcome of a stateful fallible call. -/
inductive Out (σ ε α : Type) where
  | ok (a : α) (s : σ)
  | err (e : ε) (s : σ)
  | panic (p : Panic)
deriving DecidableEq

/-- A fallible call on `&mut self`. -/
def M (σ ε α : Type) := σ → Out σ ε α

namespace M
variable {σ ε α β : Type}

/-- `Ok(a)` -/
@[inline] def pure (a : α) : M σ ε α := fun s => .ok a s
/-- the `?` operator -/
@[inline] def bind (m : M σ ε α) (f : α → M σ ε β) : M σ ε β := fun s =>
  match m s with
  | .ok a s' => f a s'
  | .err e s' => .err e s'
  | .panic p => .panic p

instance : Monad (M σ ε) where
  pure := M.pure
  bind := M.bind

/-- `return Err(e)` -/
@[inline] def throw (e : ε) : M σ ε α := fun s => .err e s
/-- a panic -/
@[inline] def panic (p : Panic) : M σ ε α := fun _ => .panic p
/-- read the state -/
@[inline] def get : M σ ε σ := fun s => .ok s s
/-- replace the state -/
@[inline] def set (s : σ) : M σ ε Unit := fun _ => .ok () s
/-- update the state -/
@[inline] def modify (f : σ → σ) : M σ ε Unit := fun s => .ok () (f s)
/-- `.map_err(f)` -/
@[inline] def mapErr {ε' : Type} (f : ε → ε') (m : M σ ε α) : M σ ε' α := fun s =>
  match m s with
  | .ok a s' => .ok a s'
  | .err e s' => .err (f e) s'
  | .panic p => .panic p
/-- `Option` whose `None` is a panic -/
@[inline] def orPanic (p : Panic) : Option α → M σ ε α
  | some a => M.pure a
  | none => M.panic p

end M

/-- A pure computation that may panic. -/
inductive Res (α : Type) where
  | ok (a : α)
  | panic (p : Panic)
deriving DecidableEq

namespace Res
variable {α β : Type}
/-- sequencing -/
@[inline] def bind (m : Res α) (f : α → Res β) : Res β :=
  match m with
  | .ok a => f a
  | .panic p => .panic p
instance : Monad Res where
  pure := Res.ok
  bind := Res.bind
/-- `Option` whose `None` is a panic -/
@[inline] def orPanic (p : Panic) : Option α → Res α
  | some a => .ok a
  | none => .panic p
end Res

/-- A pure computation as a stateful one. -/
def M.ofRes {σ ε α : Type} : Res α → M σ ε α
  | .ok a => M.pure a
  | .panic p => M.panic p

end JustJson
