import Verif.Props.Accept
/-! # The entry points without a configuration, and the configuration builders: C02 – C05, C07

Everything else is stated for the `_with_config` functions. Here: what the plain functions do, what
`ParseConfig::new` and `ParseConfig::strict` mean and what each builder does, in terms of results. -/

namespace JustJson
open Spec

set_option linter.unusedSectionVars false

section
variable [Arch]

/-! ## C02, plain entry points -/

/-- **C02**, `Value::from_json_bytes`: accepts exactly the JSON texts nested at most 128 deep, as the tree they
denote. -/
theorem C02_from_json_bytes (src : List UInt8) (h : SliceFits src) :
    ((∃ v, Value.fromJsonBytes src = .ok v) ↔ ∃ j, Text false src j ∧ j.depth ≤ 128)
    ∧ ∀ v, Value.fromJsonBytes src = .ok v → ∀ j, Text false src j → Denotes v j := by
  have hi := input_bytes h
  refine ⟨⟨?_, ?_⟩, ?_⟩
  · rintro ⟨v, hv⟩
    obtain ⟨j, ⟨h1, h2, _⟩, _⟩ := (value_ok_iff hi).mp hv
    exact ⟨j, h1, h2 128 rfl⟩
  · rintro ⟨j, h1, h2⟩
    exact ⟨_, accepted_ok hi ⟨h1, (fun n hn => by cases hn; exact h2), .inl rfl⟩⟩
  · intro v hv
    exact (C02_value_is_denoted_tree false src hi .new v hv).2

/-- **C02**, `Value::from_json`. -/
theorem C02_from_json (s : Str) (h : SliceFits (utf8 s)) :
    ((∃ v, Value.fromJson s = .ok v) ↔ ∃ j, Text false (utf8 s) j ∧ j.depth ≤ 128)
    ∧ ∀ v, Value.fromJson s = .ok v → ∀ j, Text false (utf8 s) j → Denotes v j := by
  have hi := input_str h
  refine ⟨⟨?_, ?_⟩, ?_⟩
  · rintro ⟨v, hv⟩
    obtain ⟨j, ⟨h1, h2, _⟩, _⟩ := (value_ok_iff hi).mp hv
    exact ⟨j, h1, h2 128 rfl⟩
  · rintro ⟨j, h1, h2⟩
    exact ⟨_, accepted_ok hi ⟨h1, (fun n hn => by cases hn; exact h2), .inl rfl⟩⟩
  · intro v hv
    exact (C02_value_is_denoted_tree true _ hi .new v hv).2

/-! ## C07, plain entry points -/

/-- **C07.** The three plain byte entry points agree: same inputs accepted, same errors. -/
theorem C07_plain_bytes_entry_points_agree (src : List UInt8) (h : SliceFits src) :
    validateJsonBytes src = (Value.fromJsonBytes src).map Value.kind
    ∧ docFromJsonBytes none src = (Value.fromJsonBytes src).map flatten :=
  ⟨C07_validate_agrees false src (input_bytes h) .new, C07_document_agrees false src (input_bytes h) .new⟩

/-- **C07.** So do the three plain `&str` entry points. -/
theorem C07_plain_str_entry_points_agree (s : Str) (h : SliceFits (utf8 s)) :
    validateJson s = (Value.fromJson s).map Value.kind
    ∧ docFromJson none s = (Value.fromJson s).map flatten :=
  ⟨C07_validate_agrees true _ (input_str h) .new, C07_document_agrees true _ (input_str h) .new⟩

/-! ## C03, C04, C05: the builders -/

/-- **C03**, in terms of the builder: `allowing_trailing_commas` admits exactly the texts with optional trailing
commas and leaves limit and root rule alone; `new` and `strict` do not admit them. -/
theorem C03_allowing_trailing_commas (g : Bool) (src : List UInt8) (h : Input g src) (cfg : ParseConfig) :
    ((∃ v, Value.parseWithConfig g src cfg.allowingTrailingCommas = .ok v)
      ↔ ∃ j, Text true src j ∧ DepthOk cfg j ∧ RootOk cfg j)
    ∧ ((∃ v, Value.parseWithConfig g src .new = .ok v) ↔ ∃ j, Text false src j ∧ j.depth ≤ 128)
    ∧ ((∃ v, Value.parseWithConfig g src .strict = .ok v)
      ↔ ∃ j, Text false src j ∧ j.depth ≤ 128 ∧ j.IsContainer) := by
  refine ⟨(C03_trailing_commas_grammar g src h cfg).1, ?_, ?_⟩
  · rw [show ParseConfig.new = { ParseConfig.new with allowTrailingCommas := false } from rfl,
      (C03_trailing_commas_grammar g src h .new).2]
    constructor
    · rintro ⟨j, h1, h2, _⟩; exact ⟨j, h1, h2 128 rfl⟩
    · rintro ⟨j, h1, h2⟩; exact ⟨j, h1, (fun n hn => by cases hn; exact h2), .inl rfl⟩
  · rw [show ParseConfig.strict = { ParseConfig.strict with allowTrailingCommas := false } from rfl,
      (C03_trailing_commas_grammar g src h .strict).2]
    constructor
    · rintro ⟨j, h1, h2, h3⟩; exact ⟨j, h1, h2 128 rfl, h3.resolve_left (by decide)⟩
    · rintro ⟨j, h1, h2, h3⟩; exact ⟨j, h1, (fun n hn => by cases hn; exact h2), .inr h3⟩

/-- **C04**, `ParseConfig::new` and `strict` carry the limit 128: lifting it changes a result only by admitting
deeper values. -/
theorem C04_default_limit (g : Bool) (src : List UInt8) (h : Input g src) (cfg : ParseConfig)
    (hc : cfg = .new ∨ cfg = .strict) (v : Value) :
    Value.parseWithConfig g src cfg = .ok v
      ↔ Value.parseWithConfig g src cfg.withoutRecursionLimit = .ok v ∧ v.depth ≤ 128 := by
  rcases hc with rfl | rfl
  · exact C04_recursion_limit_exact g src h .new 128 v
  · exact C04_recursion_limit_exact g src h .strict 128 v

/-- **C04**: `without_recursion_limit` admits every depth, and leaves the other two settings alone. -/
theorem C04_without_limit (g : Bool) (src : List UInt8) (h : Input g src) (cfg : ParseConfig) :
    (∃ v, Value.parseWithConfig g src cfg.withoutRecursionLimit = .ok v)
      ↔ ∃ j, Text cfg.allowTrailingCommas src j ∧ RootOk cfg j := by
  constructor
  · rintro ⟨v, hv⟩
    obtain ⟨j, ⟨h1, _, h3⟩, _⟩ := (value_ok_iff h).mp hv
    exact ⟨j, h1, h3⟩
  · rintro ⟨j, h1, h3⟩
    exact ⟨_, accepted_ok h ⟨h1, (fun n hn => by cases hn), h3⟩⟩

/-- **C05**: `strict()` is `new()` restricted to objects and arrays at the root, on every input. -/
theorem C05_strict (g : Bool) (src : List UInt8) (h : Input g src) (v : Value) :
    Value.parseWithConfig g src .strict = .ok v
      ↔ Value.parseWithConfig g src .new = .ok v ∧ v.IsContainer :=
  C05_root_restriction g src h .new v

/-- **C05**: `strict()` on a text whose root is a scalar fails with `PayloadsShouldBeObjectOrArray` at offset 0. -/
theorem C05_strict_scalar (g : Bool) (src : List UInt8) (h : Input g src) (j : Json) (hj : Text false src j)
    (hc : ¬ j.IsContainer) :
    Value.parseWithConfig g src .strict = .err ⟨0, .payloadsShouldBeObjectOrArray⟩ := by
  obtain ⟨w, b, w', hw, hb, hw', rfl⟩ := hj
  refine C05_scalar_root_error g .new w b w' j h hw hb hc (fun _ c hcc => ?_)
  have hm : c ∈ w' := by
    cases w' with
    | nil => cases hcc
    | cons a t => injection hcc with hcc; subst hcc; simp
  have := hw' c hm
  rcases this with rfl | rfl | rfl | rfl <;>
    (refine ⟨?_, ?_, ?_, ?_⟩ <;> first | decide | (unfold IsDigit; decide))

end

/-! ## Concrete cases -/
section
attribute [local instance] arch64

example : ∃ v, Value.fromJsonBytes (b8 " {\"a\":[1,true]} ") = .ok v := Outcome.exists_ok (by decide +kernel)
example : ∃ v, Value.parseWithConfig false (b8 "[1,{\"a\":2,},]") ParseConfig.new.allowingTrailingCommas = .ok v :=
  Outcome.exists_ok (by decide +kernel)
example : Value.parseWithConfig false (b8 " \"a\"") .strict = .err ⟨0, .payloadsShouldBeObjectOrArray⟩ :=
  Outcome.error_eq (by decide +kernel)

end

/-! ## Instances: each theorem above applied to a concrete case that meets its hypotheses -/
section Instances
attribute [local instance] arch64

example := C02_from_json_bytes exSrc exSrc_fits
example := C02_from_json _ exSrc_fits
example := C07_plain_bytes_entry_points_agree exBad (by lit)
example := C07_plain_str_entry_points_agree _ exSrc_fits
example := C03_allowing_trailing_commas true (b8 "[1,{\"a\":2,},]") (by lit) .strict
example := C04_default_limit true exSrc (exSrc_input _) .strict (.inr rfl) exVal
example := C04_without_limit true exSrc (exSrc_input _) .strict
example := C05_strict true exSrc (exSrc_input _) exVal
example := C05_strict_scalar true (b8 " 12 ") (by lit) (.num ⟨false, [0x31, 0x32], none, none⟩)
  ⟨[0x20], [0x31, 0x32], [0x20], by simp [Ws],
    GValue.num ⟨false, [0x31, 0x32], none, none⟩ ⟨⟨⟨by simp, by simp [IsDigit]⟩, by simp⟩, by simp, by simp⟩, by simp [Ws], by decide +kernel⟩
  (by simp [Json.IsContainer])

end Instances
end JustJson
