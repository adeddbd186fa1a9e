import Verif.Props.Callbacks
/-! # Byte sources that are read are UTF-8: C61 -/

namespace JustJson
open Spec

set_option linter.unusedSectionVars false

/-- The bytes are UTF-8 text. -/
def IsUtf8 (b : List UInt8) : Prop := ∃ s : Str, b = utf8 s

theorem IsUtf8.append {a b : List UInt8} (ha : IsUtf8 a) (hb : IsUtf8 b) : IsUtf8 (a ++ b) := by
  obtain ⟨s, rfl⟩ := ha
  obtain ⟨t, rfl⟩ := hb
  exact ⟨s ++ t, (utf8_append s t).symm⟩

theorem isUtf8_ascii : ∀ {b : List UInt8}, (∀ x ∈ b, x.toNat < 0x80) → IsUtf8 b
  | [], _ => ⟨[], rfl⟩
  | x :: b, h => by
    have hx := h x (by simp)
    refine IsUtf8.append (a := [x]) ⟨[Char.ofNat x.toNat], ?_⟩ (isUtf8_ascii fun y hy => h y (by simp [hy]))
    have h1 : (Char.ofNat x.toNat).toNat = x.toNat := toNat_ofNat_char (by omega)
    rw [utf8_cons, encodeChar_ascii (by rw [h1]; exact hx), h1]
    simp

theorem ws_isUtf8 {w : List UInt8} (h : Ws w) : IsUtf8 w :=
  isUtf8_ascii fun x hx => by rcases h x hx with rfl | rfl | rfl | rfl <;> decide

section
variable [Arch]

theorem Lexeme.isUtf8 {b : List UInt8} {t : Token} (h : Lexeme b t) : IsUtf8 b := by
  cases h with
  | number n x hv _ => exact ⟨_, (utf8_num hv).symm⟩
  | string is s hv _ =>
    refine IsUtf8.append (a := [0x22]) (isUtf8_ascii (by decide)) (IsUtf8.append ⟨_, (utf8_bodyChars hv).symm⟩ (isUtf8_ascii (by decide)))
  | _ => exact isUtf8_ascii (by decide)

theorem Spelled.isUtf8 {src : List UInt8} {ts : List Token} (h : Spelled src ts) : IsUtf8 src := by
  induction h with
  | nil w hw => exact (ws_isUtf8 hw)
  | cons w b r t ts hw hb _ ih => exact (ws_isUtf8 hw).append (hb.isUtf8.append ih)

/-! ## C61 -/

/-- **C61**, for any delegate: a byte source that parses is UTF-8 as a whole, and parsing it as `&str` gives the same
result and leaves the delegate in the same state. -/
theorem C61_parsed_bytes_are_utf8 (src : List UInt8) (h : SliceFits src) (cfg : ParseConfig) (D : Delegate) (d : D.σ)
    (a : D.Value) (s' : PState D.σ) (hp : parseBytes false src cfg D d = .ok a s') :
    ∃ s : Str, src = utf8 s ∧ parseBytes true (utf8 s) cfg D d = .ok a s' := by
  have hs := parse_strip (g := false) (src := src) (cfg := cfg) (D := D) d []
  have ht := C59_tokens_told false src (input_bytes h) cfg D d
  rw [hp] at hs
  cases hl : parseBytes false src cfg (logged D) (d, []) with
  | ok a1 s1 =>
    rw [hl] at ht
    obtain ⟨ts, h1, _⟩ := ht
    obtain ⟨s, rfl⟩ := (C50_stream_covers_source false src (input_bytes h) _ ts h1).isUtf8
    exact ⟨s, rfl, by rw [C06_str_bytes_agree_delegate s h cfg D d, hp]⟩
  | err e s1 => rw [hl] at hs; cases hs
  | panic p => rw [hl] at hs; cases hs

/-- **C61**, for `Value`s, validation and documents: bytes that are accepted are UTF-8 as a whole, and the `&str` entry
point accepts the same text with the same result. -/
theorem C61_accepted_bytes_are_utf8 (src : List UInt8) (h : SliceFits src) (cfg : ParseConfig) :
    (∀ v, Value.fromJsonBytesWithConfig src cfg = .ok v → ∃ s : Str, src = utf8 s ∧ Value.fromJsonWithConfig s cfg = .ok v)
    ∧ (∀ k, validateWithConfig false src cfg = .ok k → ∃ s : Str, src = utf8 s ∧ validateWithConfig true (utf8 s) cfg = .ok k)
    ∧ ∀ cap doc, docFromJsonWithConfig cap false src cfg = .ok doc →
        ∃ s : Str, src = utf8 s ∧ docFromJsonWithConfig cap true (utf8 s) cfg = .ok doc := by
  refine ⟨fun v hv => ?_, fun k hk => ?_, fun cap doc hd => ?_⟩
  · unfold Value.fromJsonBytesWithConfig Value.parseWithConfig at hv
    cases hp : parseBytes false src cfg valueParser () with
    | ok a s' =>
      obtain ⟨s, h1, h2⟩ := C61_parsed_bytes_are_utf8 src h cfg _ _ a s' hp
      refine ⟨s, h1, ?_⟩
      unfold Value.fromJsonWithConfig Value.parseWithConfig
      rw [h2, ← hv, hp]
    | err e s' => rw [hp] at hv; cases hv
    | panic p => rw [hp] at hv; cases hv
  · unfold validateWithConfig at hk
    cases hp : parseBytes false src cfg unitDelegate () with
    | ok a s' =>
      obtain ⟨s, h1, h2⟩ := C61_parsed_bytes_are_utf8 src h cfg _ _ a s' hp
      refine ⟨s, h1, ?_⟩
      unfold validateWithConfig
      rw [h2, ← hk, hp]
    | err e s' => rw [hp] at hk; cases hk
    | panic p => rw [hp] at hk; cases hk
  · unfold docFromJsonWithConfig at hd
    cases hp : parseBytes false src cfg (nodesDelegate cap) [] with
    | ok a s' =>
      obtain ⟨s, h1, h2⟩ := C61_parsed_bytes_are_utf8 src h cfg _ _ a s' hp
      refine ⟨s, h1, ?_⟩
      unfold docFromJsonWithConfig
      rw [h2]
      rw [hp] at hd
      exact hd
    | err e s' => rw [hp] at hd; cases hd
    | panic p => rw [hp] at hd; cases hd

/-- **C61**, for a tokenizer over bytes, in the middle of the source: as long as no call has returned an error, everything
before the current position is UTF-8. -/
theorem C61_consumed_is_utf8 (g : Bool) (src : List UInt8) (h : Input g src) (cs : List Call)
    (hc : ∀ x ∈ (history src g cs 0).1, ∀ e, x.2 ≠ .error e) : IsUtf8 (src.take (offsetAfter src g cs)) := by
  have key : ∀ (cs : List Call) (off : Nat), off ≤ src.length → IsUtf8 (src.take off) →
      (∀ x ∈ (history src g cs off).1, ∀ e, x.2 ≠ .error e) → IsUtf8 (src.take (history src g cs off).2) := by
    intro cs
    induction cs with
    | nil => intro off _ hu _; exact hu
    | cons c cs ih =>
      intro off hl hu hx
      have h1 := (call_offset h hl c).2
      refine ih _ h1 ?_ fun x hm => hx x (List.mem_cons_of_mem _ hm)
      have h0 := hx (c, (c.run src g off).1) List.mem_cons_self
      have part : ∀ {b r : List UInt8} {off' : Nat}, src.drop off = b ++ r → off' = off + b.length → IsUtf8 b →
          IsUtf8 (src.take off') := by
        intro b r off' hd ho hb
        subst ho
        have : src.take (off + b.length) = src.take off ++ b := by
          rw [List.take_add, hd, List.take_left]
        rw [this]
        exact hu.append hb
      cases tok_cases h hl with
      | eof hw hn he hp =>
        have hd : src.drop off = src.drop off ++ [] := (List.append_nil _).symm
        have hlen : src.length = off + (src.drop off).length := by rw [List.length_drop]; omega
        cases c with
        | next => simp only [Call.run, hn]; exact part hd hlen (ws_isUtf8 hw)
        | nextOrEof => simp only [Call.run, he] at h0; exact absurd rfl (h0 _)
        | peek => simp only [Call.run, hp]; exact part hd hlen (ws_isUtf8 hw)
      | tok w b t l off' hw hd hb hv ha hs hlt hle hn he hp =>
        have hdrop : src.drop off = (w ++ l.bytes) ++ src.drop off' := by
          rw [List.append_assoc, hd]
          congr 1
          rw [← ha.2, ← List.drop_drop, hd]
          simp
        have hlen : off' = off + (w ++ l.bytes).length := by
          have := ha.1
          rw [List.length_append]; omega
        have hu2 := (ws_isUtf8 hw).append (Lex.lexeme hv).isUtf8
        cases c with
        | next => simp only [Call.run, hn]; exact part hdrop hlen hu2
        | nextOrEof => simp only [Call.run, he]; exact part hdrop hlen hu2
        | peek => simp only [Call.run, hp]; exact part hd rfl (ws_isUtf8 hw)
      | err w b t e off' hw hd hb hlt hle heo hrp hn he hp =>
        cases c with
        | next => simp only [Call.run, hn] at h0; exact absurd rfl (h0 _)
        | nextOrEof => simp only [Call.run, he] at h0; exact absurd rfl (h0 _)
        | peek => simp only [Call.run, hp]; exact part hd rfl (ws_isUtf8 hw)
  exact key cs 0 (Nat.zero_le _) ⟨[], rfl⟩ hc

end

/-! ## Concrete cases -/

section Examples
attribute [local instance] arch64

-- a source of two-, three- and four-byte characters in a key and in a value
example : (Value.fromJsonBytesWithConfig (utf8 "{\"é\": \"€😀\"}".toList) .new).map Value.kind = .ok .object
    ∧ SliceFits (utf8 "{\"é\": \"€😀\"}".toList) := ⟨by decide +kernel, by unfold SliceFits; decide +kernel⟩

-- truncated, overlong and surrogate encodings are rejected
example : (Value.fromJsonBytesWithConfig [0x22, 0xE2, 0x82, 0x22] .new).map Value.kind = .err ⟨1, .utf8⟩
    ∧ (Value.fromJsonBytesWithConfig [0x22, 0xC0, 0xAF, 0x22] .new).map Value.kind = .err ⟨1, .utf8⟩
    ∧ (Value.fromJsonBytesWithConfig [0x22, 0xED, 0xA0, 0x80, 0x22] .new).map Value.kind = .err ⟨1, .utf8⟩ := by
  decide +kernel

-- a tokenizer that stopped inside a source which is not UTF-8: what it has read is
example : (history [0x5B, 0x22, 0xC3, 0xA9, 0x22, 0x2C, 0xFF] false [.next, .next, .peek, .next] 0).2 = 6 := by decide +kernel

end Examples

/-! ## Instances: each theorem above applied to a concrete case that meets its hypotheses -/
section Instances
attribute [local instance] arch64

example := C61_parsed_bytes_are_utf8 exSrc exSrc_fits .new unitDelegate () _ _
  (Out.exists_ok (o := parseBytes false exSrc .new unitDelegate ()) (by decide +kernel)).choose_spec.choose_spec
example := (C61_accepted_bytes_are_utf8 exSrc exSrc_fits .new).1 exVal (exSrc_parses _)
example := C61_consumed_is_utf8 false [0x5B, 0x22, 0xC3, 0xA9, 0x22, 0x2C, 0xFF] (by lit) [.next, .next, .peek] (fun x hx e he => by
  have : (history [0x5B, 0x22, 0xC3, 0xA9, 0x22, 0x2C, 0xFF] false [.next, .next, .peek] 0).1
      = [(.next, .token .array), (.next, .token (.string ⟨.json (.borrowed ['é']), .new false 2⟩)), (.peek, .peeked (some .comma))] := by decide +kernel
  rw [this] at hx
  simp only [List.mem_cons, List.not_mem_nil, or_false] at hx
  rcases hx with rfl | rfl | rfl <;> cases he)

end Instances
end JustJson
