import Verif.Props.Ex
import Verif.Props.Accept
import Verif.Lemmas.Cost
import Verif.Spec.Cost
import Verif.Model.Doc
/-! # C71: how often parsing looks at the source

`parseBytesC` (`Model/Cost.lean`) is the parser written loop by loop, with a counter that goes up each time a byte of
the source is looked at: each `self.bytes.get(..)`, whether there is a byte or not, and each byte handed to
`core::str::from_utf8`. -/

namespace JustJson
open Spec

set_option linter.unusedSectionVars false

section
variable [Arch]

/-- **C71**: the counter only counts. Forgetting it gives `parseBytes`, for every delegate: the same result, offset,
delegate and remaining depth. -/
theorem C71_counter_only_counts (g : Bool) (src : List UInt8) (cfg : ParseConfig) (D : Delegate) (d : D.σ) :
    (parseBytesC g src cfg D d).mapState (fun s => ⟨s.meter.offset, s.delegate, s.remainingDepth⟩) = parseBytes g src cfg D d := by
  have h := sim_parse (g := g) (cfg := cfg) (D := D) (s := ⟨⟨0, 0⟩, d, cfg.recursionLimit.getD USIZE_MAX⟩)
    (src := src) ⟨Nat.zero_le _, Nat.zero_le _⟩
  unfold PMirror Mirror at h
  unfold parseBytesC parseBytes
  cases hm : parseMC g src cfg D ⟨⟨0, 0⟩, d, cfg.recursionLimit.getD USIZE_MAX⟩ with
  | ok a t => rw [hm] at h; exact h.1.symm
  | err x t => rw [hm] at h; exact h.1.symm
  | panic p => rw [hm] at h; exact h.symm

/-- **C71.** A parse with any delegate under any configuration, accepted or not, looks at the source at most five times
for each byte up to where it stopped, and twice more. -/
theorem C71_parse_linear (g : Bool) (src : List UInt8) (cfg : ParseConfig) (D : Delegate) (d : D.σ) (s : PStateC D.σ)
    (hs : (parseBytesC g src cfg D d).state? = some s) :
    s.meter.reads ≤ 5 * s.meter.offset + 2 ∧ s.meter.offset ≤ src.length := by
  have h := sim_parse (g := g) (cfg := cfg) (D := D) (s := ⟨⟨0, 0⟩, d, cfg.recursionLimit.getD USIZE_MAX⟩)
    (src := src) ⟨Nat.zero_le _, Nat.zero_le _⟩
  unfold PMirror Mirror at h
  unfold parseBytesC at hs
  cases hm : parseMC g src cfg D ⟨⟨0, 0⟩, d, cfg.recursionLimit.getD USIZE_MAX⟩ with
  | ok a t => rw [hm] at h hs; obtain rfl := Option.some.inj hs; exact ⟨h.2.2, h.2.1⟩
  | err x t => rw [hm] at h hs; obtain rfl := Option.some.inj hs; exact ⟨h.2.2, h.2.1⟩
  | panic p => rw [hm] at hs; cases hs

theorem reads_some {g : Bool} {src : List UInt8} {cfg : ParseConfig} {D : Delegate} {d : D.σ}
    (h : ∀ p, (parseBytes g src cfg D d).outcome ≠ .panic p) :
    ∃ n, (parseBytesC g src cfg D d).reads? = some n ∧ n ≤ 5 * src.length + 2 := by
  have h1 := C71_counter_only_counts g src cfg D d
  have h2 := C71_parse_linear g src cfg D d
  unfold Out.reads?
  cases hm : parseBytesC g src cfg D d with
  | ok a t => rw [hm] at h2; exact ⟨t.meter.reads, rfl, by have := h2 t rfl; omega⟩
  | err x t => rw [hm] at h2; exact ⟨t.meter.reads, rfl, by have := h2 t rfl; omega⟩
  | panic p => rw [hm] at h1; exact absurd (by rw [← h1]; rfl) (h p)

/-- **C71**, the entry points: `Parser::validate_json..`, `Value::from_json..` and `Document::from_json..` return, and look
at the source at most `5 * len + 2` times. -/
theorem C71_entry_points (g : Bool) (src : List UInt8) (h : Input g src) (cfg : ParseConfig) (cap : Option Nat) :
    (∃ n, (parseBytesC g src cfg unitDelegate ()).reads? = some n ∧ n ≤ 5 * src.length + 2)
    ∧ (∃ n, (parseBytesC g src cfg valueParser ()).reads? = some n ∧ n ≤ 5 * src.length + 2)
    ∧ (∃ n, (parseBytesC g src cfg (nodesDelegate cap) []).reads? = some n ∧ n ≤ 5 * src.length + 2) := by
  refine ⟨reads_some fun p hp => ?_, reads_some fun p hp => ?_, reads_some fun p hp => ?_⟩
  · exact (C12_no_panic g src h cfg cap p).1 hp
  · exact (C12_no_panic g src h cfg cap p).2.1 hp
  · refine (C12_no_panic g src h cfg cap p).2.2 ?_
    unfold docFromJsonWithConfig
    cases hm : parseBytes g src cfg (nodesDelegate cap) [] with
    | ok a t => rw [hm] at hp; cases hp
    | err a t => rw [hm] at hp; cases hp
    | panic q => rw [hm] at hp; cases hp; rfl

theorem call_cost {src : List UInt8} {g : Bool} {t : Meter} (hl : t.offset ≤ src.length) (c : Call) :
    ((c.runC src g t).1, (c.runC src g t).2.offset) = c.run src g t.offset
    ∧ Ran src 5 (2 * (!consumed (c, (c.runC src g t).1)).toNat) t (c.runC src g t).2 := by
  have self : ∀ k, Ran src 5 k t t := fun k => ⟨Nat.le_refl _, hl, by omega⟩
  cases c with
  | next =>
    have h := sim_tokNext g hl
    unfold TMirror Mirror at h
    simp only [Call.runC, Call.run]
    cases hm : tokNextC src g t with
    | ok a t' =>
      rw [hm] at h
      obtain ⟨h1, h2⟩ := h
      rw [h1]
      cases a with
      | none => exact ⟨rfl, h2⟩
      | some k => exact ⟨rfl, h2⟩
    | err e t' =>
      rw [hm] at h
      obtain ⟨h1, h2⟩ := h
      rw [h1]
      exact ⟨rfl, h2⟩
    | panic p =>
      rw [hm] at h
      rw [h]
      exact ⟨rfl, self _⟩
  | nextOrEof =>
    have h := sim_next g hl
    unfold TMirror Mirror at h
    simp only [Call.runC, Call.run]
    cases hm : nextOrEofC src g t with
    | ok a t' =>
      rw [hm] at h
      obtain ⟨h1, h2, h3, h4⟩ := h
      rw [h1]
      exact ⟨rfl, Nat.le_of_lt h2, h3, by have := numExtra_le a; simp only [consumed, Bool.not_true, Bool.toNat_false]; omega⟩
    | err e t' =>
      rw [hm] at h
      obtain ⟨h1, h2⟩ := h
      rw [h1]
      exact ⟨rfl, h2⟩
    | panic p =>
      rw [hm] at h
      rw [h]
      exact ⟨rfl, self _⟩
  | peek =>
    have h := sim_tokPeek hl
    unfold TMirror Mirror at h
    simp only [Call.runC, Call.run]
    cases hm : tokPeekC src t with
    | ok a t' =>
      rw [hm] at h
      obtain ⟨h1, h2, -⟩ := h
      rw [h1]
      exact ⟨rfl, h2.weaken (by omega) (by simp [consumed])⟩
    | err e t' => rw [hm] at h; exact h.2.elim
    | panic p =>
      rw [hm] at h
      rw [h]
      exact ⟨rfl, self _⟩

theorem history_cost {src : List UInt8} {g : Bool} : ∀ (cs : List Call) {t : Meter}, t.offset ≤ src.length →
    ((historyC src g cs t).1, (historyC src g cs t).2.offset) = history src g cs t.offset
    ∧ Ran src 5 (2 * (historyC src g cs t).1.countP (fun r => !consumed r)) t (historyC src g cs t).2 := by
  intro cs
  induction cs with
  | nil => intro t hl; exact ⟨rfl, Nat.le_refl _, hl, by simp [historyC]⟩
  | cons c cs ih =>
    intro t hl
    obtain ⟨h1, h2⟩ := call_cost (g := g) hl c
    obtain ⟨h3, h4⟩ := ih h2.2.1
    unfold historyC history
    dsimp only
    rw [← h1]
    dsimp only
    rw [← h3]
    refine ⟨rfl, (h2.trans h4).weaken (Nat.le_refl _) ?_⟩
    rw [List.countP_cons]
    cases consumed (c, (c.runC src g t).1) <;> simp <;> omega

/-- **C71**, tokenizers: here too the counter only counts. -/
theorem C71_tokenizer_counter_only_counts (g : Bool) (src : List UInt8) (cs : List Call) :
    ((historyC src g cs ⟨0, 0⟩).1, (historyC src g cs ⟨0, 0⟩).2.offset) = history src g cs 0 :=
  (history_cost cs (t := ⟨0, 0⟩) (Nat.zero_le _)).1

/-- **C71**, tokenizers: a client that makes any calls in any order, going on after errors and past the end, causes at
most five accesses for each byte up to `offset()`, and two more for each call that consumed nothing: a `peek`, or a
`next` or `next_or_eof` at the end of the source. (An error of `next_or_eof` counts as such a call as well.) -/
theorem C71_tokenizer_linear (g : Bool) (src : List UInt8) (cs : List Call) :
    readsAfter src g cs ≤ 5 * offsetAfter src g cs + 2 * (history src g cs 0).1.countP (fun r => !consumed r)
    ∧ offsetAfter src g cs ≤ src.length := by
  obtain ⟨h1, h2, h3, h4⟩ := history_cost (g := g) cs (t := ⟨0, 0⟩) (Nat.zero_le src.length)
  have e1 : (history src g cs 0).1 = (historyC src g cs ⟨0, 0⟩).1 := by rw [← h1]
  have e2 : (history src g cs 0).2 = (historyC src g cs ⟨0, 0⟩).2.offset := by rw [← h1]
  unfold readsAfter offsetAfter
  rw [e1, e2]
  simp only at h4
  exact ⟨by omega, h3⟩

end
/-! ## Concrete cases -/
section
attribute [local instance] arch64

/-- The bound is met: `1` is one byte and is looked at seven times. `read_non_ws` looks at it twice, `read_number` finds
the end of the source three times (integer, fraction, exponent), and then the end is found twice more. -/
example : (parseBytesC false (b8 "1") .new unitDelegate ()).reads? = some 7 := by decide +kernel

/-- A larger document, of 41 bytes, looked at 79 times. -/
example : (parseBytesC false (b8 "{\"a\": [1, 2.5e-1, \"x\\u00e9\"], \"é\": null}") .new unitDelegate ()).reads? = some 79 := by decide +kernel

/-- A parse that fails early does not look at the rest. -/
example : (parseBytesC false (b8 "[1 2, 3, 4, 5, 6, 7, 8, 9]") .new unitDelegate ()).reads? = some 15 := by decide +kernel

/-- Errors and the end of the source: `-` is an error of `next` and then `next` finds the end. -/
example : readsAfter (b8 "-") false [.next, .next] = 5 := by decide +kernel
example : (history (b8 "-") false [.next, .next] 0).1.countP (fun r => !consumed r) = 1 := by decide +kernel
example : readsAfter (b8 " [ ") false [.peek, .peek, .next, .next, .next] = 12 := by decide +kernel

end

/-! ## Instances: each theorem above applied to a concrete case that meets its hypotheses -/
section Instances
attribute [local instance] arch64

example := C71_counter_only_counts true exBad .new unitDelegate ()
example := C71_parse_linear true exBad .new unitDelegate () _
  (Option.isSome_iff_exists.mp (by decide +kernel : (parseBytesC true exBad .new unitDelegate ()).state?.isSome = true)).choose_spec
example := C71_entry_points true exBad (exBad_input _) .new (some 3)
example := C71_tokenizer_counter_only_counts true exBad [.next, .peek, .next]
example := C71_tokenizer_linear true exBad [.next, .peek, .next]

end Instances
end JustJson
