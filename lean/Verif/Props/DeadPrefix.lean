import Verif.Props.Errors
import Verif.Lemmas.Extend
/-! # Incomplete and malformed texts: C55 -/

namespace JustJson
open Spec

set_option linter.unusedSectionVars false

section
variable [Arch]

theorem value_err_parse {g : Bool} {src : List UInt8} {cfg : ParseConfig} (h : Input g src) {e : Error Empty}
    (he : Value.parseWithConfig g src cfg = .err e) : ∃ s, parseBytes false src cfg unitDelegate () = .err e s := by
  have hv := validate_eq (cfg := cfg) h
  rw [he] at hv
  unfold validateWithConfig at hv
  have hp : ∃ s, parseBytes g src cfg unitDelegate () = .err e s := by
    cases hp : parseBytes g src cfg unitDelegate () with
    | ok v s => rw [hp] at hv; cases hv
    | panic p => rw [hp] at hv; cases hv
    | err e' s => rw [hp] at hv; injection hv with hv; exact ⟨s, by rw [hv]⟩
  cases g with
  | false => exact hp
  | true => rw [parseBytes_agree h.lim (h.fit rfl)] at hp; exact hp

theorem value_notOk {g : Bool} {src : List UInt8} {cfg : ParseConfig} (h : Input g src)
    (hn : NotOk (parseBytes false src cfg unitDelegate ())) : ∃ e, Value.parseWithConfig g src cfg = .err e := by
  rcases value_cases (cfg := cfg) h with ⟨j, ha, _⟩ | ⟨e, _, h2, _⟩
  · exfalso
    have hv := validate_eq (cfg := cfg) (input_bytes h.1)
    rw [accepted_ok (input_bytes h.1) ha] at hv
    unfold validateWithConfig at hv
    cases hp : parseBytes false src cfg unitDelegate () with
    | ok v s => exact hn _ _ hp
    | panic p => rw [hp] at hv; cases hv
    | err e s => rw [hp] at hv; cases hv
  · exact ⟨e, h2⟩

/-- **C55.** A `&str` that fails to parse before its end is malformed, not incomplete: whatever text is appended,
it still fails. Equivalently, if some continuation of `s` parses, `s` parses or its error is at the end of `s`. -/
theorem C55_malformed_stays_malformed (s t : Str) (h : SliceFits (utf8 s)) (ht : SliceFits (utf8 (s ++ t))) (cfg : ParseConfig)
    (e : Error Empty) (he : Value.fromJsonWithConfig s cfg = .err e) (hlt : e.offset < (utf8 s).length) :
    ∃ e', Value.fromJsonWithConfig (s ++ t) cfg = .err e' := by
  obtain ⟨st, hp⟩ := value_err_parse (input_str h) he
  rcases parse_ext (t := utf8 t) hp with h1 | h1 | h1
  · omega
  · refine value_notOk (input_str ht) ?_
    rw [utf8_append]; exact h1
  · exfalso
    obtain ⟨o, k⟩ := e
    obtain ⟨hk, hall⟩ := h1
    simp only at hk hall
    subst hk
    obtain ⟨-, x, r, -, hd, -⟩ := C53_str_utf8 s h cfg o he
    have := hall 0x75 (by rw [hd]; simp)
    revert this
    decide

/-- **C55**, for bytes: the same, except that the source may end within a character of a string (all bytes from the
offset of the `Utf8` error on are above `0x7F`), which further bytes can complete. -/
theorem C55_malformed_stays_malformed_bytes (src t : List UInt8) (h : SliceFits src) (ht : SliceFits (src ++ t)) (cfg : ParseConfig)
    (e : Error Empty) (he : Value.fromJsonBytesWithConfig src cfg = .err e) (hlt : e.offset < src.length)
    (hcut : ¬ (e.kind = .utf8 ∧ ∀ b ∈ src.drop e.offset, 0x80 ≤ b.toNat)) :
    ∃ e', Value.fromJsonBytesWithConfig (src ++ t) cfg = .err e' := by
  obtain ⟨st, hp⟩ := value_err_parse (input_bytes h) he
  rcases parse_ext (t := t) hp with h1 | h1 | h1
  · omega
  · exact value_notOk (input_bytes ht) h1
  · exact absurd h1 hcut

/-- **C55**, for a caller who collects a text piece by piece: as long as the text can still become one that parses,
each prefix parses or gives an error at its end. -/
theorem C55_prefix_error_at_end (s t : Str) (ht : SliceFits (utf8 (s ++ t))) (cfg : ParseConfig) (v : Value)
    (hv : Value.fromJsonWithConfig (s ++ t) cfg = .ok v) :
    (∃ v', Value.fromJsonWithConfig s cfg = .ok v')
    ∨ ∃ e, Value.fromJsonWithConfig s cfg = .err e ∧ e.offset = (utf8 s).length := by
  have h : SliceFits (utf8 s) := by
    unfold SliceFits at ht ⊢
    rw [utf8_append, List.length_append] at ht
    omega
  rcases value_cases (cfg := cfg) (input_str h) with ⟨j, _, h2⟩ | ⟨e, _, h2, h3⟩
  · exact .inl ⟨_, h2⟩
  · refine .inr ⟨e, h2, ?_⟩
    apply Decidable.byContradiction
    intro hne
    obtain ⟨e', h4⟩ := C55_malformed_stays_malformed s t h ht cfg e h2 (by omega)
    rw [h4] at hv
    cases hv

/-- **C55**, for growing documents. -/
theorem C55_document (s t : Str) (h : SliceFits (utf8 s)) (ht : SliceFits (utf8 (s ++ t))) (cfg : ParseConfig)
    (e : Error Empty) (he : docFromJsonWithConfig none true (utf8 s) cfg = .err e) (hlt : e.offset < (utf8 s).length) :
    ∃ e', docFromJsonWithConfig none true (utf8 (s ++ t)) cfg = .err e' := by
  have hv : Value.fromJsonWithConfig s cfg = .err e := by
    rcases doc_cases (cap := none) (cfg := cfg) (input_str h) with ⟨v, h1, ⟨_, h2⟩ | ⟨h2, off, h3⟩⟩ | ⟨e', h1, h2 | ⟨h2, off, h3⟩⟩
    · rw [h2] at he; cases he
    · exact absurd (fun N hN => by cases hN) h2
    · rw [h2] at he; injection he with he; rw [← he]; exact h1
    · exact absurd rfl h2
  obtain ⟨e', h4⟩ := C55_malformed_stays_malformed s t h ht cfg e hv hlt
  unfold Value.fromJsonWithConfig at h4
  rcases doc_cases (cap := none) (cfg := cfg) (input_str ht) with ⟨v, h1, _⟩ | ⟨e'', h1, h2 | ⟨h2, off, h3⟩⟩
  · rw [h4] at h1; cases h1
  · exact ⟨e'', h2⟩
  · exact absurd rfl h2

end

/-! ## Concrete cases -/

section
local instance : Arch := arch64

/-- a malformed text: the error is before the end, and every continuation fails -/
example (t : Str) (ht : SliceFits (utf8 ("[1, 2 3".toList ++ t))) :
    ∃ e', Value.fromJsonWithConfig ("[1, 2 3".toList ++ t) .new = .err e' :=
  C55_malformed_stays_malformed _ t (by unfold SliceFits; decide +kernel) ht .new ⟨5, .expectedCommaOrEndOfArray⟩
    (Outcome.error_eq (by decide +kernel)) (by decide +kernel)

/-- incomplete texts: errors at the end -/
example : errOf "[1, \"a\\u00" = some ⟨10, .unclosedArray⟩ ∧ errOf "[1, tru" = some ⟨7, .unclosedArray⟩ := by decide +kernel

/-- A text cut within a character of a string: the `Utf8` error is before the end, and the text can be completed. The
exception of `C55_malformed_stays_malformed_bytes` is needed. -/
theorem cut_character :
    (Value.fromJsonBytesWithConfig [0x22, 0xC3] .new).error? = some ⟨1, .utf8⟩
    ∧ (Value.fromJsonBytesWithConfig ([0x22, 0xC3] ++ [0xA9, 0x22]) .new).isOk = true := by decide +kernel

/-- The converse does not hold: `{tru` fails at its end, since a token is read before its kind is looked at, but no
continuation parses. -/
theorem end_error_not_completable : errOf "{tru" = some ⟨4, .unclosedObject⟩ ∧ errOf "{true" = some ⟨1, .objectKeysMustBeStrings⟩ := by
  decide +kernel
end

/-! ## Instances: each theorem above applied to a concrete case that meets its hypotheses -/
section Instances
attribute [local instance] arch64

example := C55_malformed_stays_malformed "[1, {\"k\": tru}]".toList " ]".toList (by lit) (by lit) .new ⟨13, .unexpected 0x7D⟩
  (Outcome.error_eq (by decide +kernel)) (by decide +kernel)
example := C55_malformed_stays_malformed_bytes exBad (b8 " ]") (by lit) (by lit) .new ⟨13, .unexpected 0x7D⟩
  (Outcome.error_eq (by decide +kernel)) (by decide +kernel) (fun h => by cases h.1)
example := C55_prefix_error_at_end "[1, {\"k\"".toList ": true}]".toList (by lit) .new
  (.array [.number ⟨.borrowed ['1']⟩, .object [(⟨.json (.borrowed ['k']), .new false 1⟩, .boolean true)]])
  (value_same (by decide +kernel))
example := C55_document "[1, {\"k\": tru}]".toList " ]".toList (by lit) (by lit) .new ⟨13, .unexpected 0x7D⟩
  (Outcome.error_eq (by decide +kernel)) (by decide +kernel)

end Instances
end JustJson
