import Verif.Lemmas.Utf8
import Verif.Model.Tokenizer
import Verif.Spec.Json
/-! # Evaluation lemmas, lookup tables, the packed string info -/

namespace JustJson
open Spec

/-! ## Monads -/

theorem M.bind_eq {σ ε α β : Type} (m : M σ ε α) (f : α → M σ ε β) (s : σ) :
    (m >>= f) s = match m s with
      | .ok a s' => f a s'
      | .err e s' => .err e s'
      | .panic p => .panic p := rfl

@[simp] theorem M.pure_eq {σ ε α : Type} (a : α) (s : σ) : (Pure.pure a : M σ ε α) s = .ok a s := rfl
@[simp] theorem M.pure_eq' {σ ε α : Type} (a : α) (s : σ) : (M.pure a : M σ ε α) s = .ok a s := rfl
@[simp] theorem M.throw_eq {σ ε α : Type} (e : ε) (s : σ) : (M.throw e : M σ ε α) s = .err e s := rfl
@[simp] theorem M.panic_eq {σ ε α : Type} (p : Panic) (s : σ) :
    (M.panic p : M σ ε α) s = .panic p := rfl
@[simp] theorem M.get_eq {σ ε : Type} (s : σ) : (M.get : M σ ε σ) s = .ok s s := rfl
@[simp] theorem M.modify_eq {σ ε : Type} (f : σ → σ) (s : σ) :
    (M.modify f : M σ ε Unit) s = .ok () (f s) := rfl
@[simp] theorem M.orPanic_some {σ ε α : Type} (p : Panic) (a : α) :
    (M.orPanic p (some a) : M σ ε α) = M.pure a := rfl
@[simp] theorem M.orPanic_none {σ ε α : Type} (p : Panic) :
    (M.orPanic p none : M σ ε α) = M.panic p := rfl
theorem M.bind_ok {σ ε α β : Type} {m : M σ ε α} {f : α → M σ ε β} {s s' : σ} {a : α}
    (h : m s = .ok a s') : (m >>= f) s = f a s' := by rw [M.bind_eq, h]
theorem M.bind_err {σ ε α β : Type} {m : M σ ε α} {f : α → M σ ε β} {s s' : σ} {e : ε}
    (h : m s = .err e s') : (m >>= f) s = .err e s' := by rw [M.bind_eq, h]

theorem Res.bind_eq {α β : Type} (m : Res α) (f : α → Res β) :
    (m >>= f) = match m with
      | .ok a => f a
      | .panic p => .panic p := rfl
@[simp] theorem Res.bind_ok {α β : Type} (a : α) (f : α → Res β) : (Res.ok a >>= f) = f a := rfl
@[simp] theorem Res.bind_panic {α β : Type} (p : Panic) (f : α → Res β) :
    (Res.panic p >>= f) = .panic p := rfl
@[simp] theorem Res.pure_eq {α : Type} (a : α) : (pure a : Res α) = .ok a := rfl
@[simp] theorem Res.orPanic_some {α : Type} (p : Panic) (a : α) : Res.orPanic p (some a) = .ok a := rfl
@[simp] theorem Res.orPanic_none {α : Type} (p : Panic) :
    (Res.orPanic p none : Res α) = .panic p := rfl

/-! ## Tables -/

theorem forall_u8 {P : UInt8 → Prop} (h : ∀ n : Fin 256, P (UInt8.ofNat n.val)) : ∀ b, P b := by
  intro b
  have := h ⟨b.toNat, u8 b⟩
  simpa using this

theorem hexOffset_eq (b : UInt8) : hexOffset b = match hexVal b with
    | some v => UInt8.ofNat v
    | none => 255 := by
  revert b; apply forall_u8; decide +kernel

theorem hexVal_lt {b : UInt8} {v : Nat} (h : hexVal b = some v) : v < 16 := by
  have : ∀ b : UInt8, ∀ v, hexVal b = some v → v < 16 := by
    intro b v h
    unfold hexVal at h
    have := u8 b
    split at h
    · simp at h; omega
    split at h
    · simp at h; omega
    split at h
    · simp at h; omega
    · simp at h
  exact this b v h

theorem hexOffset_some {b : UInt8} {v : Nat} (h : hexVal b = some v) :
    hexOffset b ≠ 255 ∧ (hexOffset b).toNat = v := by
  have hv := hexVal_lt h
  rw [hexOffset_eq, h]
  simp only
  constructor
  · intro h'
    have := congrArg UInt8.toNat h'
    rw [toNat_ofNat_u8 (by omega)] at this
    simp at this
    omega
  · exact toNat_ofNat_u8 (by omega)

theorem hexOffset_none {b : UInt8} (h : hexVal b = none) : hexOffset b = 255 := by
  rw [hexOffset_eq, h]

theorem safe_iff (b : UInt8) : safeLookup SAFE_STRING_BYTES b = true ↔
    0x20 ≤ b.toNat ∧ b.toNat ≠ 0x22 ∧ b.toNat ≠ 0x5C := by
  revert b; apply forall_u8; decide +kernel

theorem safeVerify_iff (b : UInt8) : safeLookup SAFE_STRING_BYTES_VERIFY_UTF8 b = true ↔
    0x20 ≤ b.toNat ∧ b.toNat ≠ 0x22 ∧ b.toNat ≠ 0x5C ∧ b.toNat < 0x80 := by
  revert b; apply forall_u8; decide +kernel

/-! ## Surrogate pairs -/

/-- The code point computed by the code for a surrogate pair (with `|` instead of `+`). -/
def mergedCp (hi lo : Nat) : Nat := 0x10000 ||| ((hi - 0xD800) * 0x400) ||| (lo - 0xDC00)

theorem mergedCp_bounds {hi lo : Nat} (h1 : hi ≤ 0xDBFF) (h2 : lo ≤ 0xDFFF) :
    0x10000 ≤ mergedCp hi lo ∧ mergedCp hi lo < 2 ^ 20 := by
  unfold mergedCp
  constructor
  · exact Nat.le_trans Nat.left_le_or Nat.left_le_or
  · apply Nat.or_lt_two_pow
    · apply Nat.or_lt_two_pow <;> omega
    · omega

theorem mergeSurrogatePair_eq {hi lo : Nat} (h1 : 0xD800 ≤ hi) (h2 : 0xDC00 ≤ lo) :
    mergeSurrogatePair hi lo = some (mergedCp hi lo) := by
  unfold mergeSurrogatePair HIGH_SURROGATE_MIN LOW_SURROGATE_MIN DECODED_SURROGATE_BASE mergedCp
  rw [if_neg (by omega)]

theorem charFromU32_some {n : Nat} (h : n < 0xD800 ∨ (0xDFFF < n ∧ n < 0x110000)) :
    charFromU32 n = some (Char.ofNat n) := by
  unfold charFromU32
  rw [if_pos h]

theorem charFromU32_none {n : Nat} (h : ¬ (n < 0xD800 ∨ (0xDFFF < n ∧ n < 0x110000))) :
    charFromU32 n = none := by
  unfold charFromU32
  rw [if_neg h]

/-! ## `JsonStringInfo` -/

section
variable [Arch]

/-- One more than the largest length that fits beside the flag. -/
def LIM : Nat := 2 ^ (Arch.bits - 1)

theorem LIM_pos : 0 < LIM := Nat.two_pow_pos _

theorem pow_bits : 2 ^ Arch.bits = 2 * LIM := by
  unfold LIM
  rcases Arch.bits_eq with h | h <;> rw [h] <;> rfl

theorem HAS_ESCAPES_MASK_eq : HAS_ESCAPES_MASK = LIM := by
  unfold HAS_ESCAPES_MASK USIZE_MAX UNESCAPED_BYTES_MASK LIM
  rcases Arch.bits_eq with h | h <;> rw [h] <;> rfl

theorem USIZE_MAX_eq : USIZE_MAX = 2 * LIM - 1 := by
  unfold USIZE_MAX; rw [pow_bits]

theorem lim_or {n : Nat} (h : n < LIM) : LIM ||| n = LIM + n := by
  unfold LIM at *
  have := Nat.two_pow_add_eq_or_of_lt h 1
  rw [Nat.mul_one] at this
  exact this.symm

theorem lim_or' {n : Nat} (h : n < LIM) : LIM ||| (LIM + n) = LIM + n := by
  rw [← lim_or h, ← Nat.or_assoc, Nat.or_self]

theorem new_true {n : Nat} (h : n < LIM) : JsonStringInfo.new true n = ⟨LIM + n⟩ := by
  unfold JsonStringInfo.new
  rw [if_pos rfl, HAS_ESCAPES_MASK_eq, lim_or h]

theorem new_false (n : Nat) : JsonStringInfo.new false n = ⟨n⟩ := rfl

theorem info_addBytes {e : Bool} {n k : Nat} (h : n + k < LIM) :
    (JsonStringInfo.new e n).addBytes k = some (.new e (n + k)) := by
  have hl := LIM_pos
  cases e
  · unfold JsonStringInfo.addBytes checkedAdd
    rw [new_false, if_pos (by rw [USIZE_MAX_eq]; simp only; omega)]
    rfl
  · unfold JsonStringInfo.addBytes checkedAdd
    rw [new_true (by omega), new_true h, if_pos (by rw [USIZE_MAX_eq]; simp only; omega)]
    simp [Nat.add_assoc]

theorem info_addEscape {e : Bool} {n k : Nat} (h : n + k < LIM) :
    (JsonStringInfo.new e n).addBytesFromEscape k = some (.new true (n + k)) := by
  have hl := LIM_pos
  have hw : HAS_ESCAPES_MASK ||| (JsonStringInfo.new e n).word = LIM + n := by
    rw [HAS_ESCAPES_MASK_eq]
    cases e
    · rw [new_false]; exact lim_or (n := n) (by omega)
    · rw [new_true (by omega)]; exact lim_or' (n := n) (by omega)
  unfold JsonStringInfo.addBytesFromEscape checkedAdd
  rw [hw, new_true h, if_pos (by rw [USIZE_MAX_eq]; omega)]
  simp [Nat.add_assoc]

theorem info_hasEscapes {e : Bool} {n : Nat} (h : n < LIM) :
    (JsonStringInfo.new e n).hasEscapes = e := by
  unfold JsonStringInfo.hasEscapes
  rw [HAS_ESCAPES_MASK_eq]
  cases e
  · rw [new_false]
    have h0 : n &&& LIM = 0 := by
      unfold LIM at *
      apply Nat.eq_of_testBit_eq
      intro i
      rw [Nat.testBit_and, Nat.testBit_two_pow]
      by_cases hi : Arch.bits - 1 = i
      · subst hi; simp [Nat.testBit_lt_two_pow h]
      · simp [hi]
    simp [h0]
  · rw [new_true h]
    have h0 : (LIM + n) &&& LIM = LIM := by
      unfold LIM at *
      apply Nat.eq_of_testBit_eq
      intro i
      rw [Nat.testBit_and, Nat.testBit_two_pow]
      by_cases hi : Arch.bits - 1 = i
      · subst hi; simp [Nat.testBit_two_pow_add_eq, Nat.testBit_lt_two_pow h]
      · simp [hi]
    have := LIM_pos
    simp [h0]
    omega

theorem info_expectedLength {e : Bool} {n : Nat} (h : n < LIM) :
    (JsonStringInfo.new e n).expectedLength = n := by
  unfold JsonStringInfo.expectedLength UNESCAPED_BYTES_MASK
  cases e
  · rw [new_false]
    simp only
    rw [Nat.and_two_pow_sub_one_eq_mod]
    exact Nat.mod_eq_of_lt h
  · rw [new_true h]
    simp only
    rw [Nat.and_two_pow_sub_one_eq_mod]
    unfold LIM at *
    rw [Nat.add_mod_left]
    exact Nat.mod_eq_of_lt h

theorem NONE_eq : JsonStringInfo.NONE = .new false 0 := rfl

end

/-! ## Reading bytes -/

section
variable {src : List UInt8}

theorem getElem?_of_drop {off : Nat} {b : UInt8} {t : List UInt8} (h : src.drop off = b :: t) :
    src[off]? = some b := by
  have : (src.drop off)[0]? = some b := by rw [h]; rfl
  simpa using this

theorem getElem?_of_drop_nil {off : Nat} (h : src.drop off = []) : src[off]? = none := by
  rw [List.drop_eq_nil_iff] at h
  exact List.getElem?_eq_none h

theorem drop_succ_of_cons {off : Nat} {b : UInt8} {t : List UInt8} (h : src.drop off = b :: t) :
    src.drop (off + 1) = t := by
  rw [← List.drop_drop, h]; rfl

theorem lt_of_drop_cons {off : Nat} {b : UInt8} {t : List UInt8} (h : src.drop off = b :: t) :
    off < src.length := by
  apply Decidable.byContradiction
  intro hn
  rw [List.drop_eq_nil_of_le (by omega)] at h
  simp at h

theorem nextByte_cons {off : Nat} {b : UInt8} {t : List UInt8} (h : src.drop off = b :: t) :
    nextByte src off = .ok (some (off, b)) (off + 1) := by
  simp [nextByte, getElem?_of_drop h]

theorem nextByte_nil {off : Nat} (h : src.drop off = []) : nextByte src off = .ok none off := by
  simp [nextByte, getElem?_of_drop_nil h]

theorem peekByte_eq (off : Nat) : peekByte src off = .ok (src.drop off).head? off := by
  unfold peekByte
  congr 1
  cases h : src.drop off with
  | nil => exact getElem?_of_drop_nil h
  | cons b t => exact getElem?_of_drop h

theorem readOr_cons {off : Nat} {b : UInt8} {t : List UInt8} (k : ErrorKind Empty)
    (h : src.drop off = b :: t) : readOr src k off = .ok (off, b) (off + 1) := by
  unfold readOr
  rw [M.bind_ok (nextByte_cons h)]
  rfl

theorem readOr_nil {off : Nat} (k : ErrorKind Empty) (h : src.drop off = []) :
    readOr src k off = .err ⟨off, k⟩ off := by
  unfold readOr
  rw [M.bind_ok (nextByte_nil h)]
  rfl

theorem runLen_le (p : UInt8 → Bool) (l : List UInt8) : runLen p l ≤ l.length := by
  induction l with
  | nil => simp [runLen]
  | cons b t ih => simp only [runLen]; split <;> simp <;> omega

theorem runLen_take (p : UInt8 → Bool) (l : List UInt8) : ∀ b ∈ l.take (runLen p l), p b = true := by
  induction l with
  | nil => simp [runLen]
  | cons b t ih =>
    simp only [runLen]
    split
    · intro x hx
      rw [List.take_succ_cons, List.mem_cons] at hx
      rcases hx with rfl | hx
      · assumption
      · exact ih x hx
    · simp

theorem runLen_drop (p : UInt8 → Bool) (l : List UInt8) :
    ∀ b, (l.drop (runLen p l)).head? = some b → p b = false := by
  induction l with
  | nil => simp
  | cons b t ih =>
    simp only [runLen]
    split
    · simpa using ih
    · intro x hx
      simp at hx
      subst hx
      simpa using ‹¬ p b = true›

theorem runLen_append {p : UInt8 → Bool} {a r : List UInt8} (ha : ∀ b ∈ a, p b = true)
    (hr : ∀ b, r.head? = some b → p b = false) : runLen p (a ++ r) = a.length := by
  induction a with
  | nil =>
    cases r with
    | nil => rfl
    | cons b t => simp [runLen, hr b rfl]
  | cons b t ih =>
    simp only [List.cons_append, runLen]
    rw [if_pos (ha b (by simp)), ih (fun x hx => ha x (by simp [hx]))]
    rfl

theorem skipWs_eq (off : Nat) : skipWs src off = .ok () (off + runLen isWs (src.drop off)) := rfl

theorem isWs_iff {b : UInt8} : isWs b = true ↔ (b = 0x20 ∨ b = 0x09 ∨ b = 0x0A ∨ b = 0x0D) := by
  simp only [isWs, Bool.or_eq_true, beq_iff_eq]
  constructor
  · rintro (((h | h) | h) | h) <;> simp [h]
  · rintro (h | h | h | h) <;> simp [h]

theorem isDigit_iff {b : UInt8} : isDigit b = true ↔ IsDigit b := by
  simp only [isDigit, IsDigit, Bool.and_eq_true, decide_eq_true_eq, UInt8.le_iff_toNat_le]
  rfl

theorem sliceBytes_eq {a b : Nat} (h1 : a ≤ b) (h2 : b ≤ src.length) :
    sliceBytes src a b = some ((src.drop a).take (b - a)) := by
  simp [sliceBytes, h1, h2]

end
end JustJson
