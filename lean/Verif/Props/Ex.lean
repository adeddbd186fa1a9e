import Verif.Lemmas.Outcome
import Verif.Lemmas.Delegates
/-! # Support for the concrete cases shown beside the theorems -/

namespace JustJson
open Spec

/-- a 64-bit target -/
@[instance_reducible] def arch64 : Arch := ⟨64, .inr rfl⟩
/-- a 32-bit target -/
@[instance_reducible] def arch32 : Arch := ⟨32, .inl rfl⟩

/-- the bytes of a string literal -/
abbrev b8 (s : String) : List UInt8 := utf8 s.toList

/-- successful outcome -/
def Outcome.isOk {ε α : Type} : Outcome ε α → Bool
  | .ok _ => true
  | _ => false

/-- the error of an outcome -/
def Outcome.error? {ε α : Type} : Outcome ε α → Option ε
  | .err e => some e
  | _ => none

theorem Outcome.exists_ok {ε α : Type} {o : Outcome ε α} (h : o.isOk = true) : ∃ a, o = .ok a := by
  cases o with
  | ok a => exact ⟨a, rfl⟩
  | err e => cases h
  | panic p => cases h

theorem Outcome.error_eq {ε α : Type} {o : Outcome ε α} {e : ε} (h : o.error? = some e) : o = .err e := by
  cases o with
  | ok a => cases h
  | err e => cases h; rfl
  | panic p => cases h

/-- the value of an outcome -/
def Outcome.value? {ε α : Type} : Outcome ε α → Option α
  | .ok a => some a
  | _ => none

theorem Outcome.value_eq {ε α : Type} {o : Outcome ε α} {a : α} (h : o.value? = some a) : o = .ok a := by
  cases o with
  | ok a => cases h; rfl
  | err e => cases h
  | panic p => cases h

theorem arch_cases (A : Arch) : A = arch32 ∨ A = arch64 := by
  obtain ⟨bits, h | h⟩ := A
  · left; subst h; rfl
  · right; subst h; rfl


/-- the value of a computation that may panic -/
def Res.value? {α : Type} : Res α → Option α
  | .ok a => some a
  | .panic _ => none

section
variable [Arch]

mutual
/-- identity of values, as a program -/
def Value.same : Value → Value → Bool
  | .number a, .number b => decide (a = b)
  | .string a, .string b => decide (a = b)
  | .boolean a, .boolean b => a == b
  | .object a, .object b => Value.sameEntries a b
  | .array a, .array b => Value.sameElems a b
  | .null, .null => true
  | _, _ => false
/-- of elements -/
def Value.sameElems : List Value → List Value → Bool
  | [], [] => true
  | a :: as, b :: bs => Value.same a b && Value.sameElems as bs
  | _, _ => false
/-- of entries -/
def Value.sameEntries : Object → Object → Bool
  | [], [] => true
  | (k, a) :: as, (l, b) :: bs => decide (k = l) && (Value.same a b && Value.sameEntries as bs)
  | _, _ => false
end

theorem Value.same_eq : (∀ v w : Value, v.same w = true → v = w)
    ∧ (∀ v w : Object, Value.sameEntries v w = true → v = w) ∧ ∀ v w : List Value, Value.sameElems v w = true → v = w := by
  apply Value.induct
  · intro w h; cases w <;> simp_all [Value.same]
  · intro b w h; cases w <;> simp_all [Value.same]
  · intro b w h; cases w <;> simp_all [Value.same]
  · intro b w h; cases w <;> simp_all [Value.same]
  · intro es ih w h
    cases w with
    | object fs => rw [ih fs (by simpa [Value.same] using h)]
    | _ => simp [Value.same] at h
  · intro es ih w h
    cases w with
    | array fs => rw [ih fs (by simpa [Value.same] using h)]
    | _ => simp [Value.same] at h
  · intro w h; cases w <;> simp_all [Value.sameEntries]
  · intro k v es h1 h2 w h
    cases w with
    | nil => simp [Value.sameEntries] at h
    | cons f fs =>
      obtain ⟨l, w⟩ := f
      rw [Value.sameEntries, Bool.and_eq_true, Bool.and_eq_true, decide_eq_true_iff] at h
      rw [h.1, h1 w h.2.1, h2 fs h.2.2]
  · intro w h; cases w <;> simp_all [Value.sameElems]
  · intro v es h1 h2 w h
    cases w with
    | nil => simp [Value.sameElems] at h
    | cons w fs =>
      rw [Value.sameElems, Bool.and_eq_true] at h
      rw [h1 w h.1, h2 fs h.2]

theorem value_same {o : Outcome (Error Empty) Value} {v : Value} (h : (match o with | .ok w => w.same v | _ => false) = true) :
    o = .ok v := by
  cases o with
  | ok w => rw [Value.same_eq.1 _ _ h]
  | err e => cases h
  | panic p => cases h

theorem res_same {o : Res Value} {v : Value} (h : (match o with | .ok w => w.same v | _ => false) = true) : o = .ok v := by
  cases o with
  | ok w => rw [Value.same_eq.1 _ _ h]
  | panic p => cases h

end

/-- how a run ends: with a result, an error or a panic -/
def Out.tag {σ ε α : Type} : Out σ ε α → Nat
  | .ok _ _ => 0
  | .err _ _ => 1
  | .panic _ => 2

theorem Out.exists_ok {σ ε α : Type} {o : Out σ ε α} (h : o.tag = 0) : ∃ a s, o = .ok a s := by
  cases o with
  | ok a s => exact ⟨a, s, rfl⟩
  | err e s => cases h
  | panic p => cases h

theorem Out.exists_err {σ ε α : Type} {o : Out σ ε α} (h : o.tag = 1) : ∃ a s, o = .err a s := by
  cases o with
  | err e s => exact ⟨e, s, rfl⟩
  | ok e s => cases h
  | panic p => cases h

theorem Out.exists_panic {σ ε α : Type} {o : Out σ ε α} (h : o.tag = 2) : ∃ p, o = .panic p := by
  cases o with
  | panic p => exact ⟨p, rfl⟩
  | ok e s => cases h
  | err e s => cases h

/-- closes `SliceFits` and `Input` goals for literal sources -/
macro "lit" : tactic => `(tactic| first
  | (unfold SliceFits; decide +kernel)
  | exact input_bytes (by unfold SliceFits; decide +kernel)
  | exact ⟨by unfold SliceFits; decide +kernel, fun _ => ⟨_, rfl⟩⟩)

section
attribute [local instance] arch64

/-- a text with every kind of value, white space, an escape and a character beyond ASCII -/
abbrev exSrc : List UInt8 := b8 "{\"a\": [1, -2.5e3 , true], \"é\\n\": {\"b\":null}, \"c\":\"x\"}"
/-- what it parses to -/
def exVal : Value := .object [
  (⟨.json (.borrowed ['a']), .new false 1⟩,
    .array [.number ⟨.borrowed ['1']⟩, .number ⟨.borrowed "-2.5e3".toList⟩, .boolean true]),
  (⟨.json (.borrowed ['é', '\\', 'n']), .new true 3⟩,
    .object [(⟨.json (.borrowed ['b']), .new false 1⟩, .null)]),
  (⟨.json (.borrowed ['c']), .new false 1⟩, .string ⟨.json (.borrowed ['x']), .new false 1⟩)]

theorem exSrc_fits : SliceFits exSrc := by lit
theorem exSrc_input (g : Bool) : Input g exSrc := ⟨exSrc_fits, fun _ => ⟨_, rfl⟩⟩
theorem exSrc_parses (g : Bool) : Value.parseWithConfig g exSrc .new = .ok exVal := by
  cases g <;> exact value_same (by decide +kernel)

/-- a text that is not JSON: a literal is cut off by a brace -/
abbrev exBad : List UInt8 := b8 "[1, {\"k\": tru}]"
theorem exBad_input (g : Bool) : Input g exBad := ⟨by lit, fun _ => ⟨_, rfl⟩⟩
end
end JustJson
