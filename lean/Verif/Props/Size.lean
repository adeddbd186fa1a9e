import Verif.Lemmas.Size
import Verif.Props.Dangle
import Verif.Props.Accept
/-! # How large what is written and decoded is: C84 -/

namespace JustJson
open Spec
variable [Arch]

set_option linter.unusedSectionVars false

/-- **C84.** The text of a string has no more bytes than its JSON, and its JSON has at most six times as many: for every
string parsed or converted from text. -/
theorem C84_strings (s : JsonString) (h : Obtainable s) (text json : Str) (ht : HasText s text) (hj : s.asJson = .ok json) :
    byteLen text ≤ byteLen json ∧ byteLen json ≤ 6 * byteLen text := by
  obtain ⟨t, hs⟩ := obtainable_shape h
  have hs := hs.hasText ht
  rcases shape_asJson hs hj with ⟨is, hv, _, rfl, rfl, _⟩ | rfl
  · exact byteLen_items hv
  · exact byteLen_render text

/-- **C84.** How much longer the pretty form is: a space per entry, the line ends and the indentations. For every value that
can be written at all. -/
theorem C84_pretty_adds (v : Value) (indent lineEnding out : Str) (h : v.toJson = .ok out) :
    ∃ p, v.toJsonPrettyCustom indent lineEnding = .ok p
      ∧ byteLen p = byteLen out + entryCount v + lineBreaks v * byteLen lineEnding + steps 0 v * byteLen indent := by
  obtain ⟨h1, h2, _⟩ := C28_layout v renderedBody (toJson_strings h) indent lineEnding
  rw [h1] at h
  cases h
  exact ⟨_, h2, layout_size renderedBody indent lineEnding 0 v⟩

/-- **C84.** So it is longer by at most a factor that the depth decides. -/
theorem C84_pretty_bound (v : Value) (indent lineEnding out p : Str) (h : v.toJson = .ok out)
    (hp : v.toJsonPrettyCustom indent lineEnding = .ok p) :
    byteLen p ≤ byteLen out * (2 + byteLen lineEnding + v.depth * byteLen indent) := by
  obtain ⟨h1, h2, _⟩ := C28_layout v renderedBody (toJson_strings h) indent lineEnding
  rw [h1] at h
  cases h
  rw [h2] at hp
  cases hp
  exact layout_bound renderedBody indent lineEnding v

/-- **C84.** What is parsed under a recursion limit and written again, in the compact form or in a pretty one, is longer than
the source by at most a factor that the limit decides. -/
theorem C84_reformatted (g : Bool) (src : List UInt8) (cfg : ParseConfig) (n : Nat) (hn : cfg.recursionLimit = some n) (v : Value)
    (hi : Input g src) (hv : Value.parseWithConfig g src cfg = .ok v) (indent lineEnding : Str) :
    (∃ out, v.toJson = .ok out ∧ byteLen out ≤ src.length)
    ∧ ∃ p, v.toJsonPrettyCustom indent lineEnding = .ok p
      ∧ byteLen p ≤ src.length * (2 + byteLen lineEnding + n * byteLen indent) := by
  obtain ⟨out, ho, _⟩ := C26_to_json_any_config g src cfg v hi hv
  have hl : byteLen out ≤ src.length := C26_to_json_not_longer g src cfg v hi hv out ho
  obtain ⟨p, hp, _⟩ := C84_pretty_adds v indent lineEnding out ho
  refine ⟨⟨out, ho, hl⟩, p, hp, Nat.le_trans (C84_pretty_bound v indent lineEnding out p ho hp) ?_⟩
  have hd : v.depth ≤ n := by
    have : cfg = cfg.withRecursionLimit n := by
      obtain ⟨a, b, c⟩ := cfg
      simp only at hn
      subst hn
      rfl
    rw [this] at hv
    exact ((C04_recursion_limit_exact g src hi cfg n v).mp hv).2
  exact Nat.mul_le_mul hl (Nat.add_le_add_left (Nat.mul_le_mul_right _ hd) _)

/-- **C84.** With the default configuration, `to_json_pretty` of what is parsed has at most 259 bytes for each of the source. -/
theorem C84_default (g : Bool) (src : List UInt8) (v : Value) (hi : Input g src) (hv : Value.parseWithConfig g src .new = .ok v) :
    ∃ p, v.toJsonPretty = .ok p ∧ byteLen p ≤ 259 * src.length := by
  obtain ⟨⟨out, ho, _⟩, p, hp, hle⟩ := C84_reformatted g src .new 128 rfl v hi hv [' ', ' '] ['\n']
  refine ⟨p, ?_, ?_⟩
  · obtain ⟨_, h2, h3⟩ := C28_layout v renderedBody (toJson_strings ho) [' ', ' '] ['\n']
    rw [h2] at hp
    rw [h3]
    exact hp
  · have e1 : byteLen [' ', ' '] = 2 := by decide
    have e2 : byteLen ['\n'] = 1 := by decide
    rw [e1, e2] at hle
    omega

/-- `n + 1` arrays, one in the other. -/
def arraysInArrays : Nat → Value
  | 0 => .array []
  | n + 1 => .array [arraysInArrays n]

theorem nested_counts (n : Nat) : lineBreaks (arraysInArrays n) = 2 * n ∧ entryCount (arraysInArrays n) = 0
    ∧ ∀ d, steps d (arraysInArrays n) = n * n + 2 * n * d := by
  induction n with
  | zero => exact ⟨by simp [arraysInArrays, lineBreaks, lineBreaksElems], by simp [arraysInArrays, entryCount, entryCountElems],
      fun d => by simp [arraysInArrays, steps, stepsElems]⟩
  | succ n ih =>
    obtain ⟨h1, h2, h3⟩ := ih
    refine ⟨?_, ?_, fun d => ?_⟩
    · rw [arraysInArrays, lineBreaks, lineBreaksElems, lineBreaksElems, h1]; simp; omega
    · rw [arraysInArrays, entryCount, entryCountElems, entryCountElems, h2]
    · rw [arraysInArrays, steps, stepsElems, stepsElems, h3]
      simp only [reduceCtorEq, if_false, List.length_cons, List.length_nil]
      grind

theorem nested_compact (body : JsonString → Str) (n : Nat) : byteLen (compact body (arraysInArrays n)) = 2 * n + 2 := by
  induction n with
  | zero =>
    rw [arraysInArrays, compact, compactElems, joined]
    decide
  | succ n ih =>
    rw [arraysInArrays, compact, compactElems, compactElems, joined, byteLen_append, byteLen_append, ih, byteLen_one (by decide),
      byteLen_one (by decide)]
    omega

theorem nested_strings (n : Nat) : (arraysInArrays n).strings = [] := by
  induction n with
  | zero => rfl
  | succ n ih => rw [arraysInArrays, Value.strings, Value.stringsElems, ih, Value.stringsElems]; rfl

/-- **C84.** Without a limit the factor has no bound: `n + 1` arrays, one in the other, are `2 * n + 2` bytes compact, and grow
with the square of `n` when indented. -/
theorem C84_without_limit (n : Nat) (indent lineEnding : Str) :
    (∃ out, (arraysInArrays n).toJson = .ok out ∧ byteLen out = 2 * n + 2)
    ∧ ∃ p, (arraysInArrays n).toJsonPrettyCustom indent lineEnding = .ok p
      ∧ byteLen p = 2 * n + 2 + 2 * n * byteLen lineEnding + n * n * byteLen indent := by
  have hs : ∀ s ∈ (arraysInArrays n).strings, s.asJson = .ok (renderedBody s) := by
    rw [nested_strings]
    intro s hs
    cases hs
  obtain ⟨h1, h2, _⟩ := C28_layout (arraysInArrays n) renderedBody hs indent lineEnding
  refine ⟨⟨_, h1, nested_compact _ n⟩, _, h2, ?_⟩
  obtain ⟨c1, c2, c3⟩ := nested_counts n
  rw [layout_size, nested_compact, c1, c2, c3]
  simp

end JustJson

namespace JustJson
open Spec
section
attribute [local instance] arch64

/-- 19 bytes grow by one entry, six line ends of one byte and eight steps of two bytes, to 42. -/
example : lineBreaks builtEx = 6 ∧ steps 0 builtEx = 8 ∧ entryCount builtEx = 1
    ∧ builtEx.toJson = .ok "{\"k\":[7,[],\"a\\n\"]}".toList
    ∧ builtEx.toJsonPretty = .ok "{\n  \"k\": [\n    7,\n    [],\n    \"a\\n\"\n  ]\n}".toList := by decide +kernel

/-- The bounds of `C84_strings` are attained: by a plain text, and by `\u0061`. -/
example : (JsonString.fromJson "\"a\"".toList).value?.map (fun s => (s.decoded, s.asJson)) = some (.ok ['a'], .ok ['a'])
    ∧ (JsonString.fromJson "\"\\u0061\"".toList).value?.map (fun s => (s.decoded, s.asJson)) = some (.ok ['a'], .ok "\\u0061".toList) := by
  decide +kernel

end

/-! ## Instances: each theorem above applied to a concrete case that meets its hypotheses -/
section Instances
attribute [local instance] arch64

example := C84_strings rawLf lf_ob.1 ['\n'] ['\\', 'n'] rawLf_text (by decide +kernel)
example := C84_pretty_adds builtEx "  ".toList ['\n'] "{\"k\":[7,[],\"a\\n\"]}".toList (by decide +kernel)
example := C84_pretty_bound builtEx "  ".toList ['\n'] "{\"k\":[7,[],\"a\\n\"]}".toList
  "{\n  \"k\": [\n    7,\n    [],\n    \"a\\n\"\n  ]\n}".toList (by decide +kernel) (by decide +kernel)
example := C84_reformatted true exSrc .new 128 rfl exVal (exSrc_input _) (exSrc_parses _) "  ".toList ['\n']
example := C84_default true exSrc exVal (exSrc_input _) (exSrc_parses _)
example := C84_without_limit 3 ['\t'] ['\n']

end Instances
end JustJson
