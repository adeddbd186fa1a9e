import Verif.Lemmas.Dangle
import Verif.Props.Write
/-! # C26, C35: minified texts where trailing commas are allowed -/

namespace JustJson
open Spec
section
variable [Arch]

/-- **C26.** `to_json` of a parsed value, under every configuration: the source less its whitespace outside of string
literals, less the commas then left right before a closing bracket, byte for byte. -/
theorem C26_to_json_any_config (g : Bool) (src : List UInt8) (cfg : ParseConfig) (v : Value) (hi : Input g src)
    (hp : Value.parseWithConfig g src cfg = .ok v) :
    ∃ out, v.toJson = .ok out ∧ utf8 out = undangle (minify src) := by
  obtain ⟨j, ha, rfl⟩ := (value_ok_iff hi).mp hp
  obtain ⟨ht, _, _⟩ := ha
  exact ⟨_, toJson_compact (ofJson_asJson j), (core_text ht).symm⟩

/-- **C26.** What is written is never longer than what was read. -/
theorem C26_to_json_not_longer (g : Bool) (src : List UInt8) (cfg : ParseConfig) (v : Value) (hi : Input g src)
    (hp : Value.parseWithConfig g src cfg = .ok v) (out : Str) (ho : v.toJson = .ok out) : (utf8 out).length ≤ src.length := by
  obtain ⟨j, ha, rfl⟩ := (value_ok_iff hi).mp hp
  obtain ⟨ht, _, _⟩ := ha
  rw [toJson_compact (ofJson_asJson j)] at ho
  cases ho
  exact compact_text_length ht

/-- **C35.** Accepted texts that differ only in whitespace and trailing commas give identical values, under whatever
configurations — and texts that give the same value differ in nothing else. -/
theorem C35_same_value_iff (g g' : Bool) (src src' : List UInt8) (cfg cfg' : ParseConfig) (v v' : Value)
    (hi : Input g src) (hi' : Input g' src')
    (hp : Value.parseWithConfig g src cfg = .ok v) (hp' : Value.parseWithConfig g' src' cfg' = .ok v') :
    v = v' ↔ undangle (minify src) = undangle (minify src') := by
  obtain ⟨out, h1, h2⟩ := C26_to_json_any_config g src cfg v hi hp
  obtain ⟨out', h3, h4⟩ := C26_to_json_any_config g' src' cfg' v' hi' hp'
  constructor
  · rintro rfl
    rw [h1] at h3
    cases h3
    rw [← h2, ← h4]
  · intro h
    have e : out = out' := utf8_inj (by rw [h2, h4, h])
    subst e
    obtain ⟨o, k1, k2⟩ := C27_to_json_roundtrip g false src cfg v hi hp
    obtain ⟨o', k3, k4⟩ := C27_to_json_roundtrip g' false src' cfg' v' hi' hp'
    rw [h1] at k1
    cases k1
    rw [h3] at k3
    cases k3
    obtain ⟨j, ha, rfl⟩ := (value_ok_iff hi).mp hp
    obtain ⟨j', ha', rfl⟩ := (value_ok_iff hi').mp hp'
    obtain ⟨ht, _, _⟩ := ha
    obtain ⟨ht', _, _⟩ := ha'
    have c1 := text_of (spells_compact srcBody_reads (ofJson_spells (text_valid ht))) (tc := false)
    have c2 := text_of (spells_compact srcBody_reads (ofJson_spells (text_valid ht'))) (tc := false)
    have e1 := toJson_compact (ofJson_asJson j)
    have e2 := toJson_compact (ofJson_asJson j')
    rw [h1] at e1
    rw [h3] at e2
    injection e1 with e1
    injection e2 with e2
    rw [← e1] at c1
    rw [← e2] at c2
    have hl : (utf8 out).length < LIM := by
      have := C26_to_json_not_longer g src cfg _ hi hp out h1
      have := hi.lim
      omega
    rw [text_unique hl c1 c2]

end

section
attribute [local instance] arch64

-- two texts of the same value, with dangling commas and brackets and commas in strings
example : undangle (minify (b8 "{ \"a,]\" : [ 1 , [] , ] , }")) = b8 "{\"a,]\":[1,[]]}" := by decide +kernel
example : (Value.parseWithConfig true (b8 "{ \"a,]\" : [ 1 , [] , ] , }") ParseConfig.new.allowingTrailingCommas).value?.map Value.toJson
    = some (.ok "{\"a,]\":[1,[]]}".toList) := by decide +kernel

end

/-! ## Instances: each theorem above applied to a concrete case that meets its hypotheses -/
section Instances
attribute [local instance] arch64

example := C26_to_json_any_config true exSrc .new exVal (exSrc_input _) (exSrc_parses _)
example := C26_to_json_not_longer true exSrc .new exVal (exSrc_input _) (exSrc_parses _)
  "{\"a\":[1,-2.5e3,true],\"é\\n\":{\"b\":null},\"c\":\"x\"}".toList (by decide +kernel)
example := C35_same_value_iff true false exSrc (b8 "{\"a\":[1,-2.5e3,true,],\"é\\n\":{\"b\":null,},\"c\":\"x\",}")
  .new ParseConfig.new.allowingTrailingCommas exVal exVal (exSrc_input _) (by lit) (exSrc_parses _) (value_same (by decide +kernel))

end Instances
end JustJson
