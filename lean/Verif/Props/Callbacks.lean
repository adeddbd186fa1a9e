import Verif.Props.Delegate
import Verif.Lemmas.Lockstep
import Verif.Lemmas.Told
/-! # What a delegate is told, for every source and every delegate: C56, C57, C58, C59 -/

namespace JustJson
open Spec

set_option linter.unusedSectionVars false

section
variable [Arch]

/-! ## C56 -/

/-- **C56.** List every callback made to an arbitrary delegate (`logged D`; it may fail or lie about emptiness at
will). The run is the same as without the list. If it succeeds, the list is the bracketed pre-order traversal
`events v` of some value `v`, and the result is what the traversal of `v` makes of the delegate; if it fails, the
list is a beginning of such a traversal. In particular: every `end_*` closes the latest open `begin_*` of its kind,
`object_key` and `object_value` come in pairs inside an object, `array_value` inside an array. -/
theorem C56_callbacks_bracketed (g : Bool) (src : List UInt8) (h : Input g src) (cfg : ParseConfig) (D : Delegate)
    (d : D.σ) :
    forget (parseBytes g src cfg (logged D) (d, [])) = parseBytes g src cfg D d
    ∧ match parseBytes g src cfg (logged D) (d, []) with
      | .ok _ s => ∃ v, s.delegate.2 = events v
      | .err _ s => ∃ v, s.delegate.2 <+: events v
      | .panic _ => True := by
  refine ⟨parse_strip d [], ?_⟩
  have hg := parse_log (g := g) (cfg := cfg) (D := D) h d
  cases hp : parseBytes g src cfg (logged D) (d, []) with
  | ok a s => rw [hp] at hg; obtain ⟨v, h1, _⟩ := hg; exact ⟨v, h1⟩
  | err e s => rw [hp] at hg; obtain ⟨v, h1, _⟩ := hg; exact ⟨v, h1⟩
  | panic p => trivial

/-- **C56**, results: a success of an arbitrary delegate is what the traversal of some value makes of it, with each
callback given the results of the earlier ones. -/
theorem C56_success_is_traversal (g : Bool) (src : List UInt8) (cfg : ParseConfig) (D : Delegate) (d : D.σ)
    (a : D.Value) (s : PState D.σ) (h : parseBytes g src cfg D d = .ok a s) :
    ∃ v, foldValue D v d = .ok a s.delegate := parse_folds h

/-! ## C57 -/

/-- **C57.** With a recursion limit `n`, at no moment of any run (accepted, rejected, or stopped by the delegate)
are more than `n` containers open, and none is ever closed that was not opened: for every beginning `p` of the list
of callbacks, `ends p ≤ begins p ≤ ends p + n`. -/
theorem C57_open_containers_bounded (g : Bool) (src : List UInt8) (h : Input g src) (cfg : ParseConfig) (n : Nat)
    (hn : cfg.recursionLimit = some n) (D : Delegate) (d : D.σ) (l : List Event)
    (hl : heard (parseBytes g src cfg (logged D) (d, [])) = some l) (p : List Event) (hp : p <+: l) :
    ends p ≤ begins p ∧ begins p ≤ ends p + n := by
  have hg := parse_log (g := g) (cfg := cfg) (D := D) h d
  have key : ∃ v : Value, l <+: events v ∧ v.depth ≤ n := by
    cases hq : parseBytes g src cfg (logged D) (d, []) with
    | ok a s =>
      rw [hq] at hg hl
      cases hl
      obtain ⟨v, h1, h2, _⟩ := hg
      exact ⟨v, by rw [h1]; exact List.prefix_refl _, h2 n hn⟩
    | err e s =>
      rw [hq] at hg hl
      cases hl
      obtain ⟨v, h1, h2, _⟩ := hg
      exact ⟨v, h1, h2 n hn⟩
    | panic p => rw [hq] at hl; cases hl
  obtain ⟨v, h1, h2⟩ := key
  have := events_open.1 v p (hp.trans h1)
  omega

/-- **C57**, whatever the limit: no run makes more than three callbacks per two bytes of source. -/
theorem C57_callbacks_linear (g : Bool) (src : List UInt8) (h : Input g src) (cfg : ParseConfig) (D : Delegate)
    (d : D.σ) (l : List Event) (hl : heard (parseBytes g src cfg (logged D) (d, [])) = some l) :
    2 * l.length ≤ 3 * src.length := by
  have hg := parse_log (g := g) (cfg := cfg) (D := D) h d
  cases hq : parseBytes g src cfg (logged D) (d, []) with
  | ok a s =>
    rw [hq] at hg hl
    cases hl
    obtain ⟨v, h1, _, h3⟩ := hg
    rw [h1]
    omega
  | err e s =>
    rw [hq] at hg hl
    cases hl
    obtain ⟨v, _, _, h3⟩ := hg
    exact h3
  | panic p => rw [hq] at hl; cases hl

/-! ## C58 -/

/-- where trailing commas are allowed the answers do not matter -/
theorem truthful_stand_in {g : Bool} {src : List UInt8} (h : Input g src) {cfg : ParseConfig} {D : Delegate}
    (hD : cfg.allowTrailingCommas = true ∨ Truthful D) (d : D.σ) :
    ∃ (F : Delegate) (f : F.σ), Truthful F
      ∧ heard (parseBytes g src cfg (logged F) (f, [])) = heard (parseBytes g src cfg (logged D) (d, []))
      ∧ (delegateFailed (parseBytes g src cfg (logged F) (f, [])) ↔ delegateFailed (parseBytes g src cfg (logged D) (d, [])))
      ∧ (Unfailing D → Unfailing F) := by
  rcases hD with hc | hD
  · refine ⟨flagged D, d, flagged_truthful D, (heard_flagged h hc d []).1, (heard_flagged h hc d []).2, fun hU => ?_⟩
    exact flagged_unfailing hU
  · exact ⟨D, d, hD, rfl, Iff.rfl, id⟩

/-- **C58.** What is told does not depend on who is told: of two delegates that answer the emptiness queries
truthfully, the second of which never fails, the first hears a beginning of what the second hears, and all of it
unless one of its own callbacks fails. -/
theorem C58_source_decides (g : Bool) (src : List UInt8) (cfg : ParseConfig) (D F : Delegate)
    (hD : Truthful D) (hF : Truthful F) (hU : Unfailing F) (d : D.σ) (f : F.σ) (l1 l2 : List Event)
    (h1 : heard (parseBytes g src cfg (logged D) (d, [])) = some l1)
    (h2 : heard (parseBytes g src cfg (logged F) (f, [])) = some l2) :
    l1 <+: l2 ∧ (¬ delegateFailed (parseBytes g src cfg (logged D) (d, [])) → l1 = l2) :=
  parse_lock hD hF hU d f h1 h2

/-- **C58**: where trailing commas are allowed the answers do not matter: the same for any two delegates, the second of which never
fails. -/
theorem C58_trailing_commas (g : Bool) (src : List UInt8) (h : Input g src) (cfg : ParseConfig) (D F : Delegate)
    (hD : cfg.allowTrailingCommas = true ∨ Truthful D) (hF : cfg.allowTrailingCommas = true ∨ Truthful F) (hU : Unfailing F)
    (d : D.σ) (f : F.σ) (l1 l2 : List Event)
    (h1 : heard (parseBytes g src cfg (logged D) (d, [])) = some l1)
    (h2 : heard (parseBytes g src cfg (logged F) (f, [])) = some l2) :
    l1 <+: l2 ∧ (¬ delegateFailed (parseBytes g src cfg (logged D) (d, [])) → l1 = l2) := by
  obtain ⟨D', d', hD', e1, f1, _⟩ := truthful_stand_in h hD d
  obtain ⟨F', f', hF', e2, _, u2⟩ := truthful_stand_in h hF f
  rw [← f1]
  exact parse_lock hD' hF' (u2 hU) d' f' (e1.trans h1) (e2.trans h2)

theorem unit_unfailing : Unfailing unitDelegate := by
  constructor <;> (intros; exact ⟨_, _, rfl⟩)

/-- the delegate `()` is never at a loss -/
theorem unit_heard (g : Bool) (src : List UInt8) (h : Input g src) (cfg : ParseConfig) :
    ∃ l, heard (parseBytes g src cfg (logged unitDelegate) ((), [])) = some l := by
  have hs := parse_strip (D := unitDelegate) (g := g) (src := src) (cfg := cfg) () []
  have hv : ∀ p, parseBytes g src cfg unitDelegate () ≠ .panic p := by
    intro p hp
    have := validate_eq (cfg := cfg) h
    unfold validateWithConfig at this
    rw [hp] at this
    rcases value_cases (cfg := cfg) h with ⟨j, _, hv⟩ | ⟨e, _, hv, _⟩ <;> (rw [hv] at this; cases this)
  cases hp : parseBytes g src cfg (logged unitDelegate) ((), []) with
  | ok a s => exact ⟨_, rfl⟩
  | err e s => exact ⟨_, rfl⟩
  | panic p =>
    rw [hp] at hs
    exact absurd hs.symm (hv p)

/-- **C58**, for any two delegates that are truthful where it matters, failing or not: one of them hears a beginning of what the other
hears. -/
theorem C58_comparable (g : Bool) (src : List UInt8) (h : Input g src) (cfg : ParseConfig) (D F : Delegate)
    (hD : cfg.allowTrailingCommas = true ∨ Truthful D) (hF : cfg.allowTrailingCommas = true ∨ Truthful F) (d : D.σ) (f : F.σ) (l1 l2 : List Event)
    (h1 : heard (parseBytes g src cfg (logged D) (d, [])) = some l1)
    (h2 : heard (parseBytes g src cfg (logged F) (f, [])) = some l2) :
    l1 <+: l2 ∨ l2 <+: l1 := by
  obtain ⟨l, hl⟩ := unit_heard g src h cfg
  have p1 := (C58_trailing_commas g src h cfg D _ hD (.inr unit_truthful) unit_unfailing d () _ _ h1 hl).1
  have p2 := (C58_trailing_commas g src h cfg F _ hF (.inr unit_truthful) unit_unfailing f () _ _ h2 hl).1
  exact List.prefix_or_prefix_of_prefix p1 p2

/-! ## C59 -/

/-- **C59.** The parser tells any delegate exactly the tokens that iterating a `Tokenizer` over the same source
yields, in order and with the same contents, leaving out commas and colons: all of them (up to the iterator's
`None`) if the parse succeeds, a beginning of them if it fails. -/
theorem C59_tokens_told (g : Bool) (src : List UInt8) (h : Input g src) (cfg : ParseConfig) (D : Delegate) (d : D.σ) :
    match parseBytes g src cfg (logged D) (d, []) with
    | .ok _ s => ∃ ts, (history src g (List.replicate (ts.length + 1) .next) 0).1.map Prod.snd = ts.map .token ++ [.none]
        ∧ told s.delegate.2 = notes ts
    | .err _ s => ∃ ts off, TokYields src g 0 ts off ∧ told s.delegate.2 <+: notes ts
    | .panic _ => True := by
  have hg := parse_told (cfg := cfg) (D := D) h d
  cases hp : parseBytes g src cfg (logged D) (d, []) with
  | ok a s => rw [hp] at hg; exact hg
  | err e s => rw [hp] at hg; exact hg
  | panic p => trivial

end

/-! ## Concrete cases -/

section Examples
attribute [local instance] arch64

/-- the kind of error a run ended with -/
def failedWith {σ ε α : Type} : Out σ (Error ε) α → Option (ErrorKind ε)
  | .err e _ => some e.kind
  | _ => none

-- a rejected text: the callbacks up to the error are a beginning of a traversal
example : heard (parseBytes false (b8 "[null, [true, {}, }") .new (logged unitDelegate) ((), []))
    = some [.beginArray, .null, .arrayValue, .beginArray, .boolean true, .arrayValue, .beginObject, .endObject, .arrayValue]
    ∧ Input false (b8 "[null, [true, {}, }") := ⟨by decide +kernel, input_bytes (by unfold SliceFits; decide +kernel)⟩

-- the bound on the number of callbacks is reached: three for two bytes
example : (heard (parseBytes false (b8 "[1") .new (logged unitDelegate) ((), []))).map List.length = some 3 := by
  decide +kernel

-- the limit on open containers is reached and not passed
example : (heard (parseBytes false (b8 "[[[[[") (ParseConfig.new.withRecursionLimit 3) (logged unitDelegate) ((), []))).map
    (fun l => (begins l, ends l)) = some (3, 0) := by decide +kernel

-- a delegate that fails at its third `array_value` hears the beginning of what `()` hears
example : (heard (parseBytes false (b8 "[null, null, null, null]") .new (logged fails3) ([], []))).map List.length = some 7
    ∧ (heard (parseBytes false (b8 "[null, null, null, null]") .new (logged unitDelegate) ((), []))).map List.length = some 10
    ∧ delegateFailed (parseBytes false (b8 "[null, null, null, null]") .new (logged fails3) ([], [])) := by
  refine ⟨by decide +kernel, by decide +kernel, ?_⟩
  have h : failedWith (parseBytes false (b8 "[null, null, null, null]") .new (logged fails3) ([], [])) = some (.errorFromDelegate 7) := by
    decide +kernel
  revert h
  generalize parseBytes false (b8 "[null, null, null, null]") .new (logged fails3) ([], []) = o
  cases o with
  | err e s => intro h; simp only [failedWith, Option.some.injEq] at h; exact ⟨7, h⟩
  | _ => intro h; cases h

-- the tokens told by a failing parse, and the tokens of the source
example : (heard (parseBytes false (b8 "{\"a\": [true, ]}") .new (logged unitDelegate) ((), []))).map told
    = some [.object, .string (canonStr [.plain 'a']), .array, .bool true]
    ∧ (history (b8 "{\"a\": [true, ]}") false (List.replicate 9 .next) 0).1.map Prod.snd
    = [.token .object, .token (.string (canonStr [.plain 'a'])), .token .colon, .token .array, .token (.bool true),
      .token .comma, .token .arrayEnd, .token .objectEnd, .none] := by decide +kernel

end Examples

/-! ## Instances: each theorem above applied to a concrete case that meets its hypotheses -/
section Instances
attribute [local instance] arch64

theorem unitEvents (g : Bool) : heard (parseBytes g exBad .new (logged unitDelegate) ((), []))
    = some [.beginArray, .number ⟨.borrowed ['1']⟩, .arrayValue, .beginObject, .objectKey (canonStr [.plain 'k'])] := by
  cases g <;> decide +kernel
theorem recorderEvents (g : Bool) : heard (parseBytes g exBad .new (logged recorder) ([], []))
    = some [.beginArray, .number ⟨.borrowed ['1']⟩, .arrayValue, .beginObject, .objectKey (canonStr [.plain 'k'])] := by
  cases g <;> decide +kernel

example := C56_callbacks_bracketed true exBad (exBad_input _) .new recorder []
example := C56_success_is_traversal true exSrc .new unitDelegate () _ _
  (Out.exists_ok (o := parseBytes true exSrc .new unitDelegate ()) (by decide +kernel)).choose_spec.choose_spec
example := C57_open_containers_bounded true exBad (exBad_input _) .new 128 rfl unitDelegate () _ (unitEvents _)
  [.beginArray, .number ⟨.borrowed ['1']⟩, .arrayValue, .beginObject] ⟨[.objectKey (canonStr [.plain 'k'])], rfl⟩
example := C57_callbacks_linear true exBad (exBad_input _) .new unitDelegate () _ (unitEvents _)
example := C58_source_decides true exBad .new recorder unitDelegate recorder_truthful unit_truthful unit_unfailing [] () _ _
  (recorderEvents _) (unitEvents _)
example := C58_trailing_commas true exBad (exBad_input _) .new recorder unitDelegate (.inr recorder_truthful) (.inr unit_truthful)
  unit_unfailing [] () _ _ (recorderEvents _) (unitEvents _)
example := C58_comparable true exBad (exBad_input _) .new recorder unitDelegate (.inr recorder_truthful) (.inr unit_truthful)
  [] () _ _ (recorderEvents _) (unitEvents _)
-- C59_tokens_told
example : ∃ s ts, parseBytes true exSrc .new (logged unitDelegate) ((), []) = .ok .object s
    ∧ (history exSrc true (List.replicate (ts.length + 1) .next) 0).1.map Prod.snd = ts.map .token ++ [.none]
    ∧ told s.delegate.2 = notes ts := by
  have key : ∀ src a s, Input true src → parseBytes true src .new (logged unitDelegate) ((), []) = .ok a s →
      ∃ ts, (history src true (List.replicate (ts.length + 1) .next) 0).1.map Prod.snd = ts.map .token ++ [.none]
        ∧ told s.delegate.2 = notes ts := fun src a s h hs => by
    have := C59_tokens_told true src h .new unitDelegate ()
    rw [hs] at this
    exact this
  obtain ⟨a, s, hs⟩ := Out.exists_ok (o := parseBytes true exSrc .new (logged unitDelegate) ((), [])) (by decide +kernel)
  have ha : (parseBytes true exSrc .new (logged unitDelegate) ((), [])).outcome.value? = some .object := by decide +kernel
  rw [hs] at ha
  cases ha
  obtain ⟨ts, h1, h2⟩ := key exSrc _ s (exSrc_input _) hs
  exact ⟨s, ts, hs, h1, h2⟩

end Instances
end JustJson
