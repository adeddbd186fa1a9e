import Verif.Props.Write
import Verif.Lemmas.Calls
/-! # C77: the calls made on a writer -/

namespace JustJson
open Spec

section
variable [Arch]

/-- The calls a form of writing makes for a value, where `body s` is what stands between the quotes for the string `s`. -/
def WriteForm.calls (f : WriteForm) (body : JsonString → Str) (v : Value) : List WCall :=
  match f with
  | .compact => compactCalls body v
  | .pretty => prettyCalls body "  ".toList "\n".toList 0 v
  | .custom i l => prettyCalls body i l 0 v
  | .display a => if a then prettyCalls body "  ".toList "\n".toList 0 v else compactCalls body v

/-- **C77.** Writing a value whose strings can be rendered makes exactly these calls on the writer, in this order, up to
and including the first that fails: one `write_str` for each token that is not a string, a `write_str` for each quote and a
`write_char` for each character between them, one `write_str` for each line ending and one for each level of indentation.
It returns `Ok` if and only if none fails. -/
theorem C77_calls (f : WriteForm) (v : Value) (body : JsonString → Str) (h : ∀ s ∈ v.strings, s.asJson = .ok (body s))
    (F : Writer) (w : F.W) : f.write F v w = .ok (makeCalls F w (f.calls body v)) := by
  have c : v.writeJson F false [] [] w = .ok (makeCalls F w (compactCalls body v)) := by
    rw [writeJson_result, (compact_calls (body := body) true).1 v h 0, result_ok]
  have p : ∀ i l, v.writeJson F true i l w = .ok (makeCalls F w (prettyCalls body i l 0 v)) := by
    intro i l
    rw [writeJson_result, (pretty_calls (body := body) i l).1 v h 0 true, result_ok]
    rfl
  cases f with
  | compact => exact c
  | pretty => exact p _ _
  | custom i l => exact p i l
  | display a =>
    cases a with
    | true => exact p _ _
    | false => exact c

/-- **C77.** If the string form panics (a rendering too long to be counted), so does writing, on any writer, unless a call
fails before: the calls made until then are the same whatever the writer. -/
theorem C77_panics (f : WriteForm) (v : Value) (p : Panic) (h : f.text v = .panic p) :
    ∃ cs, ∀ (F : Writer) (w : F.W), f.write F v w = match makeCalls F w cs with
      | (_, true) => .panic p
      | (w', false) => .ok (w', false) := by
  obtain ⟨t, h1, h2⟩ := form_tr f v
  rw [h] at h2
  cases hp : t.panic with
  | none => rw [hp] at h2; cases h2
  | some q =>
    rw [hp] at h2
    injection h2 with h2
    subst h2
    refine ⟨t.calls, fun F w => ?_⟩
    rw [h1]
    unfold Tr.result
    rw [hp]
    rfl

/-- **C77.** How many calls: the pretty forms make those of the compact form, one for each line ending, and one for each
level of indentation of each line, whatever the indentation and the line ending are, and so even if they are empty. -/
theorem C77_how_many (v : Value) (body : JsonString → Str) (i l : Str) :
    ((WriteForm.custom i l).calls body v).length = (WriteForm.compact.calls body v).length + v.lineEnds + v.levels 0 :=
  (pretty_count (body := body) i l).1 v 0

/-- **C77.** So they make no more than the depth of the value and one more for each line ending. -/
theorem C77_at_most (v : Value) (body : JsonString → Str) (i l : Str) :
    ((WriteForm.custom i l).calls body v).length ≤ (WriteForm.compact.calls body v).length + v.lineEnds * (v.depth + 1) := by
  rw [C77_how_many]
  have := levels_le.1 v 0 v.depth (by omega)
  rw [Nat.mul_add, Nat.mul_one]
  omega

/-- **C77.** No call writes nothing: a value that a client has put together is written in no more calls than
characters, in the compact form, and in a pretty form with an indentation and a line ending that are not empty. -/
theorem C77_no_empty_call (f : WriteForm) (v : Value) (body : JsonString → Str) (hv : Built v)
    (hf : ∀ i l, f = .custom i l → i ≠ [] ∧ l ≠ []) :
    (∀ c ∈ f.calls body v, c.text ≠ []) ∧ (f.calls body v).length ≤ (WCall.texts (f.calls body v)).length := by
  have key : NoneEmpty (f.calls body v) := by
    have p : ∀ i l : Str, i ≠ [] → l ≠ [] → NoneEmpty (prettyCalls body i l 0 v) :=
      fun i l hi hl => (NoneEmpty.pretty hi hl).1 v hv 0
    have c : NoneEmpty (compactCalls body v) := NoneEmpty.compact.1 v hv
    cases f with
    | compact => exact c
    | pretty => exact p _ _ (by simp) (by simp)
    | custom i l => exact p i l (hf i l rfl).1 (hf i l rfl).2
    | display a =>
      cases a with
      | true => exact p _ _ (by simp) (by simp)
      | false => exact c
  exact ⟨key, key.count⟩

end

/-! ## Examples -/

section
attribute [local instance] arch64

/-- what the strings of the example are rendered as -/
def callsBody (s : JsonString) : Str := if s.asJsonStr = none then "a\\n".toList else ['k']

example : ∀ s ∈ builtEx.strings, s.asJson = .ok (callsBody s) := by decide +kernel

example : WriteForm.compact.calls callsBody builtEx
    = [.str ['{'], .str ['"'], .char 'k', .str ['"'], .str [':'], .str ['['], .str ['7'], .str [','], .str ['['], .str [']'],
        .str [','], .str ['"'], .char 'a', .char '\\', .char 'n', .str ['"'], .str [']'], .str ['}']] := by decide +kernel

example : builtEx.lineEnds = 6 ∧ builtEx.levels 0 = 8 ∧ builtEx.depth = 3
    ∧ ((WriteForm.custom [] []).calls callsBody builtEx).length = 32 := by decide +kernel

end

/-! ## Instances: each theorem above applied to a concrete case that meets its hypotheses -/
section Instances
attribute [local instance] arch64

example := C77_calls .pretty builtEx callsBody (by decide +kernel)
example := C77_how_many builtEx callsBody ['\t'] []
example := C77_at_most builtEx callsBody ['\t'] []
example := C77_no_empty_call (.custom ['\t'] ['\n']) builtEx callsBody builtEx_built (fun i l h => by cases h; simp)
-- C77_panics: a string too long to be rendered
example : ∃ v p, WriteForm.compact.text v = .panic p := by
  obtain ⟨s, j, _, _, hj⟩ := C48_refuted.2.1
  refine ⟨.string j, ?_⟩
  cases h : WriteForm.compact.text (.string j) with
  | panic p => exact ⟨p, rfl⟩
  | ok out => have := toJson_strings h j (by simp [Value.strings]); rw [hj] at this; cases this

end Instances
end JustJson
