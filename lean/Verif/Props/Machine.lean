import Verif.Props.Replay
import Verif.Lemmas.Engine
/-! # C74: the parser is a machine over the tokens

`plan g src cfg` (`Spec/Machine.lean`) takes the tokens of the source one after the other, with what is wanted next and a stack of
the open containers. It gives the callbacks, each with the offset that its failure is reported with, and the error. -/

namespace JustJson
open Spec

set_option linter.unusedSectionVars false

section
variable [Arch]

/-- **C74.** The list and the verdict are those of the machine over the tokens (`Spec/Machine.lean`): with every delegate that
answers truthfully what the configuration makes the parser ask, from every state, a parse makes the callbacks `(plan g src cfg).1` up to the first that fails, whose error is reported at the offset
in that list, and if none fails `(plan g src cfg).2` decides. -/
theorem C74_machine (g : Bool) (src : List UInt8) (h : Input g src) (cfg : ParseConfig) (D : Delegate)
    (hD : cfg.allowTrailingCommas = true ∨ Truthful D)
    (hk : cfg.allowAllTypesAtRoot = true ∨ KindTruthful D) (d : D.σ) :
    match replay D (plan g src cfg).1 [] d with
    | .err x d' => ∃ s, parseBytes g src cfg D d = .err x s ∧ s.delegate = d'
    | .panic p => parseBytes g src cfg D d = .panic p
    | .ok fs d' =>
      match (plan g src cfg).2 with
      | none => ∃ a s, fs = [.value a] ∧ parseBytes g src cfg D d = .ok a s ∧ s.delegate = d'
      | some e => ∃ s, parseBytes g src cfg D d = .err (sameError e) s ∧ s.delegate = d' := by
  obtain ⟨l, verdict, hp, _, h2⟩ := plan_script g src h cfg
  have := h2 D hD hk d
  rw [hp]
  exact this

/-- **C74.** Parsing a `Value` gives the machine's error, or, if it has none, the value that the machine's callbacks traverse. -/
theorem C74_value (g : Bool) (src : List UInt8) (h : Input g src) (cfg : ParseConfig) :
    match (plan g src cfg).2 with
    | none => ∃ v, Value.parseWithConfig g src cfg = .ok v ∧ (plan g src cfg).1.map Prod.snd = events v
    | some e => Value.parseWithConfig g src cfg = .err e ∧ ∃ v, (plan g src cfg).1.map Prod.snd <+: events v := by
  obtain ⟨l, verdict, hp, h1, _⟩ := plan_script g src h cfg
  rw [hp]
  exact h1

/-- **C74.** An error of such a delegate is that of the one callback in the machine's list before which none fails, and it is
reported with the offset in the list. -/
theorem C74_callback_offset (g : Bool) (src : List UInt8) (h : Input g src) (cfg : ParseConfig) (D : Delegate)
    (hD : cfg.allowTrailingCommas = true ∨ Truthful D)
    (hk : cfg.allowAllTypesAtRoot = true ∨ KindTruthful D) (d : D.σ) (off : Nat) (x : D.Err) (s : PState D.σ)
    (he : parseBytes g src cfg D d = .err ⟨off, .errorFromDelegate x⟩ s) :
    ∃ l ev l', (plan g src cfg).1 = l ++ (off, ev) :: l'
      ∧ ∃ fs d', replay D l [] d = .ok fs d' ∧ ev.call D fs d' = .err x s.delegate := by
  have hm := C74_machine g src h cfg D hD hk d
  cases hr : replay D (plan g src cfg).1 [] d with
  | panic p => rw [hr] at hm; simp only [] at hm; rw [hm] at he; cases he
  | ok fs d' =>
    rw [hr] at hm
    cases hv : (plan g src cfg).2 with
    | none =>
      rw [hv] at hm
      obtain ⟨a, s', _, h2, _⟩ := hm
      rw [h2] at he
      cases he
    | some e =>
      rw [hv] at hm
      obtain ⟨s', h2, _⟩ := hm
      rw [h2] at he
      injection he with he _
      obtain ⟨o, k⟩ := e
      cases k with
      | errorFromDelegate y => exact y.elim
      | _ => cases he
  | err y d' =>
    rw [hr] at hm
    obtain ⟨s', h2, h3⟩ := hm
    rw [h2] at he
    injection he with he h4
    subst h4
    subst h3
    subst he
    clear h2
    generalize (plan g src cfg).1 = L at hr
    suffices key : ∀ (L : List (Nat × Event)) (fs0 : List (Frame D)) (d : D.σ), replay D L fs0 d = .err ⟨off, .errorFromDelegate x⟩ s'.delegate →
        ∃ l ev l', L = l ++ (off, ev) :: l' ∧ ∃ fs d', replay D l fs0 d = .ok fs d' ∧ ev.call D fs d' = .err x s'.delegate from
      key L [] d hr
    intro L
    induction L with
    | nil => intro fs0 d h; cases h
    | cons q L ih =>
      obtain ⟨o, ev⟩ := q
      intro fs0 d h
      rw [replay_cons] at h
      cases hc : ev.call D fs0 d with
      | panic p => rw [hc] at h; cases h
      | err y d' =>
        rw [hc] at h
        cases h
        exact ⟨[], ev, L, rfl, fs0, d, rfl, hc⟩
      | ok fs1 d1 =>
        rw [hc] at h
        obtain ⟨l, ev', l', h1, fs, d', h2, h3⟩ := ih fs1 d1 h
        refine ⟨(o, ev) :: l, ev', l', by rw [h1]; rfl, fs, d', ?_, h3⟩
        rw [replay_cons, hc]
        exact h2

/-- **C74.** Without any assumption on the delegate: every parse gives the outcome of the engine (`Spec/Engine.lean`) and leaves the
delegate in the same state. The engine takes one token after the other and has no recursion of its own: what is open is in its stack,
with what the delegate returned for it. -/
theorem C74_any_delegate (g : Bool) (src : List UInt8) (h : Input g src) (cfg : ParseConfig) (D : Delegate) (d : D.σ) :
    onlyDelegate (parseBytes g src cfg D d) = engineParse cfg D g src d := engine_parse h d

end

/-! ## Concrete cases -/

section Examples
attribute [local instance] arch64

-- values of an array are reported where they begin, `array_value` where the value ends, `end_array` after the bracket that begins
-- the array
example : plan false (b8 "[ true , null ]") .new
    = ([(1, .beginArray), (2, .boolean true), (6, .arrayValue), (9, .null), (13, .arrayValue), (1, .endArray)], none) := by decide +kernel

-- keys are reported after the bracket or the comma, values of an object and `object_value` after the colon, `end_object` after the
-- closing bracket
example : (plan false (b8 "{ \"a\" : null }") .new).1.map (·.1) = [1, 1, 7, 7, 14] := by decide +kernel

-- what the machine says of broken texts
example : (plan false (b8 "[1") .new).2 = some ⟨2, .unclosedArray⟩ := by decide +kernel
example : (plan false (b8 "[[{\"a\":") .new).2 = some ⟨7, .unclosedObject⟩ := by decide +kernel
example : (plan false (b8 "{\"a\"") .new).2 = some ⟨4, .expectedColon⟩ := by decide +kernel
example : (plan false (b8 "[null,]") .new).2 = some ⟨6, .illegalTrailingComma⟩ := by decide +kernel
example : (plan false (b8 "[null,]") ⟨true, none, true⟩).2 = none := by decide +kernel
example : plan false (b8 "[[[]]]") ⟨false, some 2, true⟩
    = ([(1, .beginArray), (2, .beginArray)], some ⟨2, .recursionLimitReached⟩) := by decide +kernel
example : plan false (b8 " null") .strict = ([(0, .null)], some ⟨0, .payloadsShouldBeObjectOrArray⟩) := by decide +kernel
example : (plan false (b8 "[] ?") .strict).2 = some ⟨3, .trailingNonWhitespace⟩ := by decide +kernel

-- a collection that refuses strings: its error is reported where the string begins
def pickyError : Out (PState (List Node × Nat)) (Error (ErrorKind Empty)) Nat → Option (Error (ErrorKind Empty))
  | .err e _ => some e
  | _ => none

example : Input false (b8 "[1, \"a\"]") ∧ pickyError (parseBytes false (b8 "[1, \"a\"]") .new (collDelegate pickyCollection) ([], 0))
      = some ⟨4, .errorFromDelegate .expectedValue⟩
    ∧ (plan false (b8 "[1, \"a\"]") .new).1.map (·.1) = [1, 1, 2, 4, 7, 1] :=
  ⟨input_bytes (by unfold SliceFits; decide +kernel), by decide +kernel, by decide +kernel⟩

-- a delegate that takes every array for empty and every value for an object: `[null,]` is accepted, and so is `null` at the root;
-- both are refused with the delegate that tells the truth
@[reducible] def liarDelegate : Delegate := { unitDelegate with arrayIsEmpty := fun _ _ => .ok true, kindOf := fun _ _ => .ok .object }

def valueOf {σ ε α : Type} : Out σ ε α → Option α
  | .ok a _ => some a
  | _ => none

def refusalOf {σ ε α : Type} : Out σ ε α → Option ε
  | .err e _ => some e
  | _ => none

example : Input false (b8 "[null,]") ∧ valueOf (parseBytes false (b8 "[null,]") .strict liarDelegate ()) = some .array
    ∧ valueOf (engineParse .strict liarDelegate false (b8 "[null,]") ()) = some .array
    ∧ refusalOf (engineParse .strict unitDelegate false (b8 "[null,]") ()) = some ⟨6, .illegalTrailingComma⟩ :=
  ⟨input_bytes (by unfold SliceFits; decide +kernel), by decide +kernel, by decide +kernel, by decide +kernel⟩
example : valueOf (engineParse .strict liarDelegate false (b8 " null") ()) = some .null
    ∧ refusalOf (engineParse .strict unitDelegate false (b8 " null") ()) = some ⟨0, .payloadsShouldBeObjectOrArray⟩ :=
  ⟨by decide +kernel, by decide +kernel⟩

-- one whose answers are panics: with trailing commas and any root allowed it is never asked, so the machine's list is what it hears
@[reducible] def mumDelegate : Delegate :=
  { unitDelegate with arrayIsEmpty := fun _ _ => .panic .unreachable, objectIsEmpty := fun _ _ => .panic .unreachable, kindOf := fun _ _ => .panic .unreachable }

example : Input false (b8 "[{},]") ∧ (⟨true, none, true⟩ : ParseConfig).allowTrailingCommas = true
    ∧ heard (parseBytes false (b8 "[{},]") ⟨true, none, true⟩ (logged mumDelegate) ((), []))
      = some ((plan false (b8 "[{},]") ⟨true, none, true⟩).1.map (·.2))
    ∧ heard (parseBytes false (b8 "[{},]") .new (logged mumDelegate) ((), [])) = none :=
  ⟨input_bytes (by unfold SliceFits; decide +kernel), rfl, by decide +kernel, by decide +kernel⟩

end Examples

/-! ## Instances: each theorem above applied to a concrete case that meets its hypotheses -/
section Instances
attribute [local instance] arch64

example : (plan true exSrc .new).2 = none := by decide +kernel
example : (plan true exBad .new).2 = some ⟨13, .unexpected 0x7D⟩ := by decide +kernel
/-- C74 for a text that is accepted -/
theorem machine_accepts (g : Bool) (src : List UInt8) (h : Input g src) (cfg : ParseConfig) (hp : (plan g src cfg).2 = none) :
    ∃ v, Value.parseWithConfig g src cfg = .ok v ∧ (plan g src cfg).1.map Prod.snd = events v := by
  have := C74_value g src h cfg
  rw [hp] at this
  exact this
example := machine_accepts true exSrc (exSrc_input _) .new (by decide +kernel)
/-- C74 for a text that is rejected -/
theorem machine_rejects (g : Bool) (src : List UInt8) (h : Input g src) (cfg : ParseConfig) (e : Error Empty) (hp : (plan g src cfg).2 = some e) :
    Value.parseWithConfig g src cfg = .err e ∧ ∃ v, (plan g src cfg).1.map Prod.snd <+: events v := by
  have := C74_value g src h cfg
  rw [hp] at this
  exact this
example := machine_rejects true exBad (exBad_input _) .new ⟨13, .unexpected 0x7D⟩ (by decide +kernel)
/-- C74 for a delegate that fails in none of the callbacks -/
theorem machine_replays (g : Bool) (src : List UInt8) (h : Input g src) (cfg : ParseConfig) (d d' : Unit) (fs : List (Frame unitDelegate))
    (hc : cfg.allowAllTypesAtRoot = true) (hp : (plan g src cfg).2 = none) (hr : replay unitDelegate (plan g src cfg).1 [] d = .ok fs d') :
    ∃ a s, fs = [.value a] ∧ parseBytes g src cfg unitDelegate d = .ok a s ∧ s.delegate = d' := by
  have := C74_machine g src h cfg unitDelegate (.inr unit_truthful) (.inl hc) d
  rw [hr, hp] at this
  exact this
example := machine_replays true exSrc (exSrc_input _) .new () _ _ rfl (by decide +kernel)
  (Out.exists_ok (o := replay unitDelegate (plan true exSrc .new).1 [] ()) (by decide +kernel)).choose_spec.choose_spec
theorem picky_fails : ∃ s, parseBytes false (b8 "[1, \"a\"]") ⟨true, none, true⟩ (collDelegate pickyCollection) ([], 0)
    = .err ⟨4, .errorFromDelegate .expectedValue⟩ s := by
  have key : ∀ o, pickyError o = some ⟨4, .errorFromDelegate .expectedValue⟩ → ∃ s, o = .err ⟨4, .errorFromDelegate .expectedValue⟩ s := by
    intro o h
    cases o with
    | err e s => cases h; exact ⟨s, rfl⟩
    | ok a s => cases h
    | panic p => cases h
  exact key _ (by decide +kernel)
example := C74_callback_offset false (b8 "[1, \"a\"]") (by lit) ⟨true, none, true⟩ (collDelegate pickyCollection) (.inl rfl) (.inl rfl) ([], 0) 4
  .expectedValue _ picky_fails.choose_spec
example := C74_any_delegate true exSrc (exSrc_input _) .new liarDelegate ()

end Instances
end JustJson
