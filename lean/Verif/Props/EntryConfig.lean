import Verif.Props.Entry
import Verif.Props.Doc
/-! # Validation and documents under a configuration: C03 – C05 -/

namespace JustJson
open Spec

set_option linter.unusedSectionVars false

section
variable [Arch]

theorem map_ok_iff {ε α β : Type} {f : α → β} {x : Outcome ε α} : (∃ b, x.map f = .ok b) ↔ ∃ a, x = .ok a := by
  cases x <;> simp [Outcome.map]

theorem map_err_iff {ε α β : Type} {f : α → β} {x : Outcome ε α} {e : ε} (h : x = .err e) : x.map f = .err e := by
  rw [h]; rfl

/-- **C03** for validation and documents: with the option they accept the texts with optional trailing commas, without it
the plain ones. -/
theorem C03_validate_and_document (g : Bool) (src : List UInt8) (h : Input g src) (cfg : ParseConfig) (tc : Bool) :
    ((∃ k, validateWithConfig g src { cfg with allowTrailingCommas := tc } = .ok k)
      ↔ ∃ j, Text tc src j ∧ DepthOk cfg j ∧ RootOk cfg j)
    ∧ ((∃ d, docFromJsonWithConfig none g src { cfg with allowTrailingCommas := tc } = .ok d)
      ↔ ∃ j, Text tc src j ∧ DepthOk cfg j ∧ RootOk cfg j) := by
  rw [C07_validate_agrees g src h, C07_document_agrees g src h, map_ok_iff, map_ok_iff]
  obtain ⟨h1, h2⟩ := C03_trailing_commas_grammar g src h cfg
  cases tc with
  | true => exact ⟨h1, h1⟩
  | false => exact ⟨h2, h2⟩

/-- **C07.** The configured entry points for `&str` agree, and so do those for `&[u8]`, configuration for configuration. -/
theorem C07_configured_entry_points_agree (cfg : ParseConfig) :
    (∀ s : Str, SliceFits (utf8 s) →
      validateWithConfig true (utf8 s) cfg = (Value.fromJsonWithConfig s cfg).map Value.kind
      ∧ docFromJsonWithConfig none true (utf8 s) cfg = (Value.fromJsonWithConfig s cfg).map flatten)
    ∧ ∀ src : List UInt8, SliceFits src →
      validateWithConfig false src cfg = (Value.fromJsonBytesWithConfig src cfg).map Value.kind
      ∧ docFromJsonWithConfig none false src cfg = (Value.fromJsonBytesWithConfig src cfg).map flatten :=
  ⟨fun _ h => ⟨C07_validate_agrees true _ (input_str h) cfg, C07_document_agrees true _ (input_str h) cfg⟩,
   fun src h => ⟨C07_validate_agrees false src (input_bytes h) cfg, C07_document_agrees false src (input_bytes h) cfg⟩⟩

/-- **C03** for `Value::from_json_with_config` and `Value::from_json_bytes_with_config`. -/
theorem C03_configured_entry_points (cfg : ParseConfig) (tc : Bool) :
    (∀ s : Str, SliceFits (utf8 s) → ((∃ v, Value.fromJsonWithConfig s { cfg with allowTrailingCommas := tc } = .ok v)
      ↔ ∃ j, Text tc (utf8 s) j ∧ DepthOk cfg j ∧ RootOk cfg j))
    ∧ ∀ src : List UInt8, SliceFits src → ((∃ v, Value.fromJsonBytesWithConfig src { cfg with allowTrailingCommas := tc } = .ok v)
      ↔ ∃ j, Text tc src j ∧ DepthOk cfg j ∧ RootOk cfg j) := by
  have h : ∀ g src, Input g src → ((∃ v, Value.parseWithConfig g src { cfg with allowTrailingCommas := tc } = .ok v)
      ↔ ∃ j, Text tc src j ∧ DepthOk cfg j ∧ RootOk cfg j) := by
    intro g src h
    obtain ⟨h1, h2⟩ := C03_trailing_commas_grammar g src h cfg
    cases tc with
    | true => exact h1
    | false => exact h2
  exact ⟨fun s hs => h true _ (input_str hs), fun src hs => h false src (input_bytes hs)⟩

/-- **C03** for validation and documents: the option changes nothing except to lift `IllegalTrailingComma`. -/
theorem C03_validate_and_document_difference (g : Bool) (src : List UInt8) (h : Input g src) (cfg : ParseConfig) :
    (validateWithConfig g src { cfg with allowTrailingCommas := false } = validateWithConfig g src { cfg with allowTrailingCommas := true }
      ∨ ∃ off, validateWithConfig g src { cfg with allowTrailingCommas := false } = .err ⟨off, .illegalTrailingComma⟩)
    ∧ (docFromJsonWithConfig none g src { cfg with allowTrailingCommas := false }
        = docFromJsonWithConfig none g src { cfg with allowTrailingCommas := true }
      ∨ ∃ off, docFromJsonWithConfig none g src { cfg with allowTrailingCommas := false } = .err ⟨off, .illegalTrailingComma⟩) := by
  rw [C07_validate_agrees g src h, C07_document_agrees g src h, C07_validate_agrees g src h, C07_document_agrees g src h]
  rcases C03_only_difference_is_illegal_trailing_comma g src cfg with he | ⟨off, he⟩
  · exact ⟨.inl (by rw [he]), .inl (by rw [he])⟩
  · exact ⟨.inr ⟨off, map_err_iff he⟩, .inr ⟨off, map_err_iff he⟩⟩

/-- **C04** for validation and documents: with a limit `n` they accept what they accept without a limit and what nests at most
`n` deep. A text that is deeper fails with `RecursionLimitReached`. -/
theorem C04_validate_and_document (g : Bool) (src : List UInt8) (h : Input g src) (cfg : ParseConfig) (n : Nat) :
    ((∃ k, validateWithConfig g src (cfg.withRecursionLimit n) = .ok k)
      ↔ ∃ j, Text cfg.allowTrailingCommas src j ∧ j.depth ≤ n ∧ RootOk cfg j)
    ∧ ((∃ d, docFromJsonWithConfig none g src (cfg.withRecursionLimit n) = .ok d)
      ↔ ∃ j, Text cfg.allowTrailingCommas src j ∧ j.depth ≤ n ∧ RootOk cfg j)
    ∧ ((∃ k, validateWithConfig g src cfg.withoutRecursionLimit = .ok k) ↔ ∃ j, Text cfg.allowTrailingCommas src j ∧ RootOk cfg j)
    ∧ ((∃ d, docFromJsonWithConfig none g src cfg.withoutRecursionLimit = .ok d) ↔ ∃ j, Text cfg.allowTrailingCommas src j ∧ RootOk cfg j)
    ∧ ∀ j, Text cfg.allowTrailingCommas src j → n < j.depth →
      (∃ off, validateWithConfig g src (cfg.withRecursionLimit n) = .err ⟨off, .recursionLimitReached⟩)
      ∧ ∃ off, docFromJsonWithConfig none g src (cfg.withRecursionLimit n) = .err ⟨off, .recursionLimitReached⟩ := by
  rw [C07_validate_agrees g src h, C07_document_agrees g src h, C07_validate_agrees g src h, C07_document_agrees g src h]
  simp only [map_ok_iff]
  have h1 : (∃ v, Value.parseWithConfig g src (cfg.withRecursionLimit n) = .ok v)
      ↔ ∃ j, Text cfg.allowTrailingCommas src j ∧ j.depth ≤ n ∧ RootOk cfg j := by
    constructor
    · rintro ⟨v, hv⟩
      obtain ⟨j, ⟨h1, h2, h3⟩, _⟩ := (value_ok_iff h).mp hv
      exact ⟨j, h1, h2 n rfl, h3⟩
    · rintro ⟨j, h1, h2, h3⟩
      exact ⟨_, accepted_ok h ⟨h1, (fun m hm => by cases hm; exact h2), h3⟩⟩
  refine ⟨h1, h1, C04_without_limit g src h cfg, C04_without_limit g src h cfg, fun j hj hd => ?_⟩
  obtain ⟨off, he⟩ := C04_too_deep g src h cfg n j hj hd
  exact ⟨⟨off, map_err_iff he⟩, off, map_err_iff he⟩

/-- **C05** for validation and documents: unless all types are allowed at the root, they accept what they accept otherwise if
its root is an object or array; the kind reported says so, and so does the first node. A text whose root is a scalar fails
with `PayloadsShouldBeObjectOrArray` at offset 0. -/
theorem C05_validate_and_document (g : Bool) (src : List UInt8) (h : Input g src) (cfg : ParseConfig) :
    (∀ k, validateWithConfig g src (cfg.allowingAllTypesAtRoot false) = .ok k
      ↔ validateWithConfig g src (cfg.allowingAllTypesAtRoot true) = .ok k ∧ (k = .object ∨ k = .array))
    ∧ (∀ d, docFromJsonWithConfig none g src (cfg.allowingAllTypesAtRoot false) = .ok d
      ↔ docFromJsonWithConfig none g src (cfg.allowingAllTypesAtRoot true) = .ok d
        ∧ ∃ n rest, d = .object n :: rest ∨ d = .array n :: rest)
    ∧ ∀ j, Text cfg.allowTrailingCommas src j → ¬ j.IsContainer →
      validateWithConfig g src (cfg.allowingAllTypesAtRoot false) = .err ⟨0, .payloadsShouldBeObjectOrArray⟩
      ∧ docFromJsonWithConfig none g src (cfg.allowingAllTypesAtRoot false) = .err ⟨0, .payloadsShouldBeObjectOrArray⟩ := by
  simp only [C07_validate_agrees g src h, C07_document_agrees g src h]
  have hroot := C05_root_restriction g src h cfg
  have hmap : ∀ {β : Type} (f : Value → β) (P : β → Prop) (b : β), (∀ v, v.IsContainer ↔ P (f v)) →
      ((Value.parseWithConfig g src (cfg.allowingAllTypesAtRoot false)).map f = .ok b
        ↔ (Value.parseWithConfig g src (cfg.allowingAllTypesAtRoot true)).map f = .ok b ∧ P b) := by
    intro β f P b hP
    have hm : ∀ x : Outcome (Error Empty) Value, x.map f = .ok b ↔ ∃ v, x = .ok v ∧ f v = b := by
      intro x
      cases x <;> simp [Outcome.map]
    rw [hm, hm]
    constructor
    · rintro ⟨v, hv, rfl⟩
      obtain ⟨h1, h2⟩ := (hroot v).mp hv
      exact ⟨⟨v, h1, rfl⟩, (hP v).mp h2⟩
    · rintro ⟨⟨v, hv, rfl⟩, hp⟩
      exact ⟨v, (hroot v).mpr ⟨hv, (hP v).mpr hp⟩, rfl⟩
  refine ⟨fun k => hmap _ (fun k => k = .object ∨ k = .array) k ?_,
    fun d => hmap _ (fun d => ∃ n rest, d = Node.object n :: rest ∨ d = .array n :: rest) d ?_, fun j hj hc => ?_⟩
  · intro v
    cases v <;> simp [Value.IsContainer, Value.kind]
  · intro v
    cases v <;> simp [Value.IsContainer, flatten]
  · obtain ⟨w, b, w', hw, hb, hw', rfl⟩ := hj
    have he := C05_scalar_root_error g cfg w b w' j h hw hb hc (fun _ c hcc => by
      have hm : c ∈ w' := by
        cases w' with
        | nil => cases hcc
        | cons a t => injection hcc with hcc; subst hcc; simp
      have := hw' c hm
      rcases this with rfl | rfl | rfl | rfl <;> decide)
    exact ⟨map_err_iff he, map_err_iff he⟩

/-- **C42** for validation and documents: loosening a configuration never rejects an accepted text, nor changes its kind or
nodes. -/
theorem C42_validate_and_document (g : Bool) (src : List UInt8) (h : Input g src) (cfg cfg' : ParseConfig)
    (hc : LooserOrEqual cfg cfg') :
    (∀ k, validateWithConfig g src cfg = .ok k → validateWithConfig g src cfg' = .ok k)
    ∧ (∀ d, docFromJsonWithConfig none g src cfg = .ok d → docFromJsonWithConfig none g src cfg' = .ok d)
    ∧ ∀ N d, docFromJsonWithConfig (some N) g src cfg = .ok d → docFromJsonWithConfig (some N) g src cfg' = .ok d := by
  have hm := C42_config_monotone g src h cfg cfg' hc
  have hmap : ∀ {β : Type} (f : Value → β) (b : β), (Value.parseWithConfig g src cfg).map f = .ok b →
      (Value.parseWithConfig g src cfg').map f = .ok b := by
    intro β f b hb
    cases hv : Value.parseWithConfig g src cfg with
    | ok v => rw [hm v hv]; rw [hv] at hb; exact hb
    | err e => rw [hv] at hb; cases hb
    | panic p => rw [hv] at hb; cases hb
  simp only [C07_validate_agrees g src h, C07_document_agrees g src h]
  refine ⟨fun k => hmap _ k, fun d => hmap _ d, fun N d hd => ?_⟩
  obtain ⟨v, hv, rfl, hN⟩ := doc_ok h hd
  rcases doc_cases (cap := some N) (cfg := cfg') h with ⟨v', hv', ⟨hc', h1⟩ | ⟨hc', off, h1⟩⟩ | ⟨e, he, _⟩
  · rw [hm v hv] at hv'; cases hv'; exact h1
  · rw [hm v hv] at hv'; cases hv'; exact absurd hN hc'
  · rw [hm v hv] at he; cases he
end

/-! ## Instances -/
section Instances
attribute [local instance] arch64

example := C03_validate_and_document true (b8 "[1,{\"a\":2,},]") (by lit) .strict true
example := C03_validate_and_document_difference true (b8 "[1,{\"a\":2,},]") (by lit) .strict
example := C04_validate_and_document true exSrc (exSrc_input _) .strict 1
example := C42_validate_and_document true exSrc (exSrc_input _) .strict .new ⟨by decide, fun n hn => ⟨128, rfl, by cases hn; decide⟩, by decide⟩
example := C05_validate_and_document true (b8 " 12 ") (by lit) .new
example := (C07_configured_entry_points_agree ⟨true, some 2, false⟩).1 "[1,{\"é\":2,},]".toList (by unfold SliceFits; decide +kernel)
example := (C03_configured_entry_points .strict true).1 "[1,{\"é\":2,},]".toList (by unfold SliceFits; decide +kernel)
end Instances
end JustJson
