import Verif.Model.Debug
import Verif.Props.Messages
import Verif.Props.Strings
/-! # C43: what is seen of a `JsonStringInfo` -/

namespace JustJson
open Spec

set_option linter.unusedSectionVars false

section
variable [Arch]

theorem info_shape (i : JsonStringInfo) (h : i.word < 2 ^ Arch.bits) : ∃ e n, n < LIM ∧ i = JsonStringInfo.new e n := by
  rw [pow_bits] at h
  obtain ⟨w⟩ := i
  by_cases hl : w < LIM
  · exact ⟨false, w, hl, rfl⟩
  · refine ⟨true, w - LIM, ?_, ?_⟩
    · change w < 2 * LIM at h; omega
    · rw [new_true (by change w < 2 * LIM at h; omega)]
      congr 1
      omega

/-- **C43.** The flag and the length are all there is: an info is made by `new` of its own, `==` compares them and nothing
else, and what is hashed is the same if they are. -/
theorem C43_flag_and_length (i j : JsonStringInfo) (hi : i.word < 2 ^ Arch.bits) (hj : j.word < 2 ^ Arch.bits) :
    JsonStringInfo.new i.hasEscapes i.expectedLength = i ∧ i.expectedLength < 2 ^ (Arch.bits - 1)
    ∧ (i.eq j = true ↔ i.hasEscapes = j.hasEscapes ∧ i.expectedLength = j.expectedLength)
    ∧ (i.eq j = true → ∀ H little st, i.hash H little st = j.hash H little st) := by
  obtain ⟨e, n, hn, rfl⟩ := info_shape i hi
  obtain ⟨e', n', hn', rfl⟩ := info_shape j hj
  rw [info_hasEscapes hn, info_expectedLength hn, info_hasEscapes hn', info_expectedLength hn']
  have key : JsonStringInfo.eq (.new e n) (.new e' n') = true ↔ e = e' ∧ n = n' := by
    unfold JsonStringInfo.eq
    rw [beq_iff_eq]
    constructor
    · intro h
      have h' : JsonStringInfo.new e n = JsonStringInfo.new e' n' := by
        cases hx : JsonStringInfo.new e n with
        | mk a => cases hy : JsonStringInfo.new e' n' with
          | mk b => rw [hx, hy] at h; exact congrArg _ h
      have h1 := info_hasEscapes (e := e) hn
      have h2 := info_expectedLength (e := e) hn
      rw [h', info_hasEscapes hn'] at h1
      rw [h', info_expectedLength hn'] at h2
      exact ⟨h1.symm, h2.symm⟩
    · rintro ⟨rfl, rfl⟩; rfl
  refine ⟨rfl, hn, key, ?_⟩
  intro h H little st
  obtain ⟨rfl, rfl⟩ := key.mp h
  rfl

/-- the number of some bytes, the least significant first -/
def leNumber : List UInt8 → Nat
  | [] => 0
  | b :: bs => b.toNat + 256 * leNumber bs

theorem leNumber_bytes (n w : Nat) : leNumber ((List.range n).map fun k => UInt8.ofNat (w / 256 ^ k)) = w % 256 ^ n := by
  induction n generalizing w with
  | zero => simp [leNumber, Nat.mod_one]
  | succ n ih =>
    rw [List.range_succ_eq_map, List.map_cons, List.map_map, leNumber]
    have e : ((fun k => UInt8.ofNat (w / 256 ^ k)) ∘ Nat.succ) = fun k => UInt8.ofNat (w / 256 / 256 ^ k) := by
      funext k
      simp only [Function.comp, Nat.succ_eq_add_one]
      rw [Nat.pow_succ, Nat.mul_comm, Nat.div_div_eq_div_mul]
    rw [e, ih, Nat.pow_zero, Nat.div_one, Nat.pow_succ, Nat.mul_comm (256 ^ n), Nat.mod_mul]
    simp

/-- **C43.** What is hashed is the word itself, in the byte order of the target: as many bytes as a `usize` has, whose number is
the length, with the top bit for the flag. So infos that are not equal are not hashed alike by a hasher that keeps the bytes. -/
theorem C43_hash (i : JsonStringInfo) (hi : i.word < 2 ^ Arch.bits) : ∃ bytes : List UInt8, bytes.length * 8 = Arch.bits
    ∧ leNumber bytes = (if i.hasEscapes then 2 ^ (Arch.bits - 1) else 0) + i.expectedLength
    ∧ ∀ (H : Hasher) (little : Bool) (st : H.S), i.hash H little st = H.write st (if little then bytes else bytes.reverse) := by
  refine ⟨_, ?_, ?_, fun H little st => rfl⟩
  · rw [List.length_map, List.length_range]
    rcases Arch.bits_eq with h | h <;> rw [h]
  · rw [leNumber_bytes]
    have e : 256 ^ (Arch.bits / 8) = 2 ^ Arch.bits := by rcases Arch.bits_eq with h | h <;> rw [h]
    rw [e, Nat.mod_eq_of_lt hi]
    obtain ⟨f, n, hn, rfl⟩ := info_shape i hi
    rw [info_hasEscapes hn, info_expectedLength hn]
    cases f with
    | false => simp [JsonStringInfo.new]
    | true => rw [new_true hn, if_pos rfl]; simp only; rfl

/-- **C43.** The length given to `new` is not checked: one that takes the top bit is read as an escape, and the rest of it as
the length. -/
theorem C43_new_unchecked (e : Bool) (n : Nat) (h1 : 2 ^ (Arch.bits - 1) ≤ n) (h2 : n < 2 ^ Arch.bits) :
    (JsonStringInfo.new e n).hasEscapes = true ∧ (JsonStringInfo.new e n).expectedLength = n - 2 ^ (Arch.bits - 1) := by
  have h1 : LIM ≤ n := h1
  rw [pow_bits] at h2
  have hm : n - LIM < LIM := by omega
  have hw : JsonStringInfo.new e n = JsonStringInfo.new true (n - LIM) := by
    rw [new_true hm]
    cases e with
    | false => unfold JsonStringInfo.new; simp; omega
    | true =>
      unfold JsonStringInfo.new
      rw [if_pos rfl, HAS_ESCAPES_MASK_eq]
      have : n = LIM + (n - LIM) := by omega
      rw [this, lim_or' hm]
      simp
  rw [hw]
  exact ⟨info_hasEscapes hm, info_expectedLength hm⟩

/-- **C43.** `Debug` prints the flag as `true` or `false` and the length in decimal, on one line or, with `#`, on several. -/
theorem C43_debug (i : JsonStringInfo) : ∃ flag digits, IsDecimal digits i.expectedLength
    ∧ flag = (if i.hasEscapes then "true".toList else "false".toList)
    ∧ i.debug false = "EscapeInfo { has_escapes: ".toList ++ flag ++ ", unescaped_length: ".toList ++ digits ++ " }".toList
    ∧ i.debug true = "EscapeInfo {\n    has_escapes: ".toList ++ flag ++ ",\n    unescaped_length: ".toList ++ digits ++ ",\n}".toList :=
  ⟨_, _, showNat_isDecimal _, rfl, rfl, rfl⟩

/-- **C43.** So two infos print alike if and only if they are equal. -/
theorem C43_debug_tells (i j : JsonStringInfo) (hi : i.word < 2 ^ Arch.bits) (hj : j.word < 2 ^ Arch.bits) (a : Bool) :
    i.debug a = j.debug a ↔ i.eq j = true := by
  obtain ⟨_, _, h3, _⟩ := C43_flag_and_length i j hi hj
  have hd : ∀ (p q r : Str) (b b' : Bool) (n m : Nat), p ++ showBool b ++ q ++ showNat n ++ r = p ++ showBool b' ++ q ++ showNat m ++ r →
      b = b' ∧ n = m := by
    intro p q r b b' n m h
    rw [List.append_left_inj, List.append_assoc, List.append_assoc, List.append_assoc, List.append_assoc, List.append_right_inj] at h
    have hb : b = b' := by
      cases b <;> cases b' <;> simp [showBool] at h ⊢
    subst hb
    rw [List.append_right_inj, List.append_right_inj] at h
    refine ⟨rfl, ?_⟩
    have h1 := (showNat_isDecimal n).2.2.1
    have h2 := (showNat_isDecimal m).2.2.1
    rw [h] at h1
    omega
  constructor
  · intro h
    rw [h3]
    cases a with
    | false => exact hd _ _ _ _ _ _ _ h
    | true => exact hd _ _ _ _ _ _ _ h
  · intro h
    obtain ⟨e1, e2⟩ := h3.mp h
    unfold JsonStringInfo.debug
    rw [e1, e2]

end

section
attribute [local instance] arch64

-- the unit test `test_string_info_debug`, string.rs:657-665
example : (JsonStringInfo.NONE.addBytesFromEscape 1).map (·.debug false)
    = some "EscapeInfo { has_escapes: true, unescaped_length: 1 }".toList := by decide +kernel
-- a length that is too large
example : (JsonStringInfo.new false (2 ^ 63 + 5)).hasEscapes = true ∧ (JsonStringInfo.new false (2 ^ 63 + 5)).expectedLength = 5 := by
  decide +kernel

end

/-! ## Instances: each theorem above applied to a concrete case that meets its hypotheses -/
section Instances
attribute [local instance] arch64

example := C43_flag_and_length (JsonStringInfo.new true 5) (JsonStringInfo.new false 5) (by decide +kernel) (by decide +kernel)
example := C43_hash (JsonStringInfo.new true 5) (by decide +kernel)
example := C43_new_unchecked false (2 ^ 63 + 5) (by decide +kernel) (by decide +kernel)
example := C43_debug (JsonStringInfo.new true 5)
example := C43_debug_tells (JsonStringInfo.new true 5) (JsonStringInfo.new true 50) (by decide +kernel) (by decide +kernel) true

end Instances
end JustJson
