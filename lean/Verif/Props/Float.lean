import Verif.Props.Numbers
import Verif.Lemmas.Float
/-! # C75: the float accessors give the float nearest to the number the literal stands for

`NumLit.magnitude` is that number without its sign, and `Ieee.Nearest` says which bits are nearest to it (`Spec/Float.lean`). -/

namespace JustJson
open Spec

set_option linter.unusedSectionVars false

section
variable [Arch]

theorem mantissa_fold (ds : List UInt8) : ∀ acc, (dvals ds).foldl (fun a d => a * 10 + d) acc = acc * 10 ^ ds.length + digitsValue ds := by
  induction ds with
  | nil => intro acc; simp [digitsValue]
  | cons b ds ih =>
    intro acc
    show (dvals ds).foldl _ (acc * 10 + (b.toNat - 48)) = _
    rw [ih, digitsValue, List.length_cons, Nat.pow_succ, Nat.add_mul, Nat.mul_assoc acc 10, Nat.mul_comm 10 (10 ^ ds.length)]
    omega

theorem mantissa_value (ds : List UInt8) : readMantissa (dvals ds) = digitsValue ds := by
  unfold readMantissa
  rw [mantissa_fold, Nat.zero_mul, Nat.zero_add]

theorem digits_append (xs ys : List UInt8) : digitsValue (xs ++ ys) = digitsValue xs * 10 ^ ys.length + digitsValue ys := by
  rw [← mantissa_value, ← mantissa_value xs]
  unfold readMantissa
  rw [show dvals (xs ++ ys) = dvals xs ++ dvals ys from List.map_append, List.foldl_append, mantissa_fold]

theorem digits_lt {ds : List UInt8} (h : ∀ b ∈ ds, IsDigit b) : digitsValue ds < 10 ^ ds.length := by
  induction ds with
  | nil => simp [digitsValue]
  | cons b ds ih =>
    have h1 := ih fun x hx => h x (by simp [hx])
    have h2 := h b (by simp)
    unfold IsDigit at h2
    rw [digitsValue, List.length_cons, Nat.pow_succ, Nat.mul_comm (10 ^ ds.length) 10]
    have h3 : (b.toNat - 48) * 10 ^ ds.length ≤ 9 * 10 ^ ds.length := Nat.mul_le_mul_right _ (by omega)
    omega

theorem cut_fold (ds : List UInt8) : ∀ acc, (dvals ds).foldl (fun a d => if a < 0x10000 then 10 * a + d else a) acc
      = acc * 10 ^ ds.length + digitsValue ds
    ∨ (0x10000 ≤ (dvals ds).foldl (fun a d => if a < 0x10000 then 10 * a + d else a) acc
      ∧ 0x10000 ≤ acc * 10 ^ ds.length + digitsValue ds) := by
  induction ds with
  | nil => intro acc; left; simp [digitsValue]
  | cons b ds ih =>
    intro acc
    have e : acc * 10 ^ (b :: ds).length + digitsValue (b :: ds) = (10 * acc + (b.toNat - 48)) * 10 ^ ds.length + digitsValue ds := by
      rw [digitsValue, List.length_cons, Nat.pow_succ, Nat.add_mul, Nat.mul_comm (10 ^ ds.length) 10, ← Nat.mul_assoc, Nat.mul_comm acc 10]
      omega
    show (dvals ds).foldl _ (if acc < 0x10000 then 10 * acc + (b.toNat - 48) else acc) = _ ∨ _ ≤ (dvals ds).foldl _
      (if acc < 0x10000 then 10 * acc + (b.toNat - 48) else acc) ∧ _
    rw [e]
    by_cases h : acc < 0x10000
    · rw [if_pos h]
      exact ih _
    · rw [if_neg h]
      have h1 : 1 ≤ 10 ^ ds.length := Nat.one_le_pow _ _ (by omega)
      have h2 : 10 * acc + (b.toNat - 48) ≤ (10 * acc + (b.toNat - 48)) * 10 ^ ds.length := Nat.le_mul_of_pos_right _ h1
      have h3 : acc ≤ acc * 10 ^ ds.length := Nat.le_mul_of_pos_right _ h1
      right
      refine ⟨?_, by omega⟩
      rcases ih acc with h4 | h4
      · rw [h4]; omega
      · exact h4.1

theorem exponent_value (ds : List UInt8) : readExponent (dvals ds) = digitsValue ds
    ∨ (0x10000 ≤ readExponent (dvals ds) ∧ 0x10000 ≤ digitsValue ds) := by
  have := cut_fold ds 0
  rw [Nat.zero_mul, Nat.zero_add] at this
  exact this

/-- the power of ten that is read: that of the literal, or both are large and of the same sign -/
theorem exp_value (n : NumLit) : cutExp n.exp = n.exponent
    ∨ (0x10000 ≤ cutExp n.exp ∧ 0x10000 ≤ n.exponent) ∨ (cutExp n.exp ≤ -0x10000 ∧ n.exponent ≤ -0x10000) := by
  unfold NumLit.exponent
  cases n.exp with
  | none => left; rfl
  | some q =>
    obtain ⟨c, s, ds⟩ := q
    show (if s = some 0x2D then _ else _) = _ ∨ _
    simp only [cutExp]
    have := exponent_value ds
    by_cases h : s = some 0x2D
    · simp only [if_pos h]; omega
    · simp only [if_neg h]; omega

/-- the number by mantissa and power of ten -/
theorem magnitude_eq (n : NumLit) :
    n.magnitude = (digitsValue (n.int ++ n.fraction) : Rat) * 10 ^ (n.exponent - n.fraction.length) := by
  unfold NumLit.magnitude
  rw [digits_append, Int.sub_eq_add_neg, Rat.zpow_add (by decide), Rat.zpow_neg, Rat.zpow_natCast, Rat.natCast_add, Rat.natCast_mul,
    Rat.natCast_pow]
  have h : (10 : Rat) ^ n.fraction.length ≠ 0 := Rat.ne_of_gt (Rat.pow_pos (by decide))
  rw [Rat.div_def]
  have h2 : ((10 : Nat) : Rat) = 10 := rfl
  rw [h2]
  have h3 := Rat.mul_inv_cancel _ h
  generalize (10 : Rat) ^ n.fraction.length = p at *
  generalize (10 : Rat) ^ n.exponent = q at *
  grind

theorem ten_mono {a b : Int} (h : a ≤ b) : (10 : Rat) ^ a ≤ 10 ^ b := by
  obtain ⟨k, rfl⟩ : ∃ k : Nat, b = a + k := ⟨(b - a).toNat, by omega⟩
  rw [Rat.zpow_add (by decide), Rat.zpow_natCast]
  have h1 : (1 : Rat) ≤ 10 ^ k := by
    rw [show (10 : Rat) = ((10 : Nat) : Rat) from rfl, ← Rat.natCast_pow]
    exact Rat.natCast_le_natCast.mpr (Nat.one_le_pow _ _ (by omega))
  have := Rat.mul_le_mul_of_nonneg_left (c := 10 ^ a) h1 (Rat.zpow_nonneg (by decide))
  rwa [Rat.mul_one] at this

theorem ten_large {f : FloatFormat} (hf : f = f32 ∨ f = f64) {m : Nat} (hm : m ≠ 0) {e : Int} (he : 5536 ≤ e) :
    f.value f.infinity ≤ (m : Rat) * 10 ^ e := by
  have h1 : f.value f.infinity ≤ (10 : Rat) ^ (5536 : Int) := by
    rcases hf with rfl | rfl <;> decide +kernel
  have h2 := ten_mono he
  have h3 : ((1 : Nat) : Rat) ≤ (m : Rat) := Rat.natCast_le_natCast.mpr (by omega)
  have h4 := Rat.mul_le_mul_of_nonneg_right (c := 10 ^ e) h3 (Rat.zpow_nonneg (by decide))
  rw [show ((1 : Nat) : Rat) = 1 from rfl, Rat.one_mul] at h4
  exact Rat.le_trans h1 (Rat.le_trans h2 h4)

theorem ten_small {f : FloatFormat} (hf : f = f32 ∨ f = f64) {m k : Nat} (hm : m < 10 ^ k) {e : Int} (he : k + e ≤ -5536) :
    2 * ((m : Rat) * 10 ^ e) < f.value 1 := by
  have h1 : 2 * (10 : Rat) ^ (-5536 : Int) < f.value 1 := by
    rcases hf with rfl | rfl <;> decide +kernel
  have h2 := ten_mono he
  have h3 : (m : Rat) ≤ ((10 ^ k : Nat) : Rat) := Rat.natCast_le_natCast.mpr (by omega)
  have h4 := Rat.mul_le_mul_of_nonneg_right (c := 10 ^ e) h3 (Rat.zpow_nonneg (by decide))
  rw [Rat.natCast_pow, show ((10 : Nat) : Rat) = 10 from rfl, ← Rat.zpow_natCast, ← Rat.zpow_add (by decide)] at h4
  grind

theorem ten_nonneg (m : Nat) (e : Int) : 0 ≤ (m : Rat) * 10 ^ e := Rat.mul_nonneg Rat.natCast_nonneg (Rat.zpow_nonneg (by decide))

theorem float_nearest {f : FloatFormat} (hf : f = f32 ∨ f = f64) {x : JsonNumber} {n : NumLit} (hn : n.Valid) (hd : NumDenotes x n)
    (hr : n.Readable) : ∃ k, x.asFloat f = some ⟨n.minus, k⟩ ∧ f.Nearest n.magnitude k := by
  have hp : 1 ≤ f.precision := by rcases hf with rfl | rfl <;> decide
  refine ⟨f.round ((digitsValue (n.int ++ n.fraction) : Rat) * 10 ^ (cutExp n.exp - n.fraction.length)), ?_, ?_⟩
  · unfold JsonNumber.asFloat
    rw [source_chars hn hd, float_read hn, mantissa_value]
    rfl
  · have hround := round_nearest hp _ (ten_nonneg (digitsValue (n.int ++ n.fraction)) (cutExp n.exp - n.fraction.length))
    rw [magnitude_eq]
    have hlen : n.int.length + n.fraction.length ≤ n.bytes.length := by
      rw [bytes_sign]
      unfold tailBytes NumLit.fraction
      simp only [List.length_append]
      cases n.frac with
      | none => simp only [Option.getD_none, List.length_nil]; omega
      | some ds => simp only [Option.getD_some, fracBytes, List.length_cons]; omega
    have hdig : ∀ b ∈ n.int ++ n.fraction, IsDigit b := by
      intro b hb
      rcases List.mem_append.mp hb with hb | hb
      · exact hn.1.1.2 b hb
      · unfold NumLit.fraction at hb
        cases hfr : n.frac with
        | none => rw [hfr] at hb; cases hb
        | some ds => rw [hfr] at hb; exact (hn.2.1 ds hfr).2 b hb
    rcases exp_value n with h | ⟨h1, h2⟩ | ⟨h1, h2⟩
    · rw [h] at hround ⊢; exact hround
    · have hl : n.bytes.length ≤ 60000 := hr.resolve_left (by omega)
      by_cases hm : digitsValue (n.int ++ n.fraction) = 0
      · rw [hm] at hround ⊢
        rw [show ((0 : Nat) : Rat) = 0 from rfl, Rat.zero_mul] at hround ⊢
        rw [Rat.zero_mul]
        exact hround
      · have a1 := nearest_large (ten_large hf hm (e := cutExp n.exp - n.fraction.length) (by omega))
        rw [nearest_unique hround a1]
        exact nearest_large (ten_large hf hm (by omega))
    · have hl : n.bytes.length ≤ 60000 := hr.resolve_left (by omega)
      have hm := digits_lt hdig
      rw [List.length_append] at hm
      have a1 := nearest_small (ten_nonneg _ _) (ten_small hf hm (e := cutExp n.exp - n.fraction.length) (by omega))
      rw [nearest_unique hround a1]
      exact nearest_small (ten_nonneg _ _) (ten_small hf hm (by omega))

/-- the bits of an integer -/
theorem units_integer {f : FloatFormat} (hp : 1 ≤ f.precision) {N s : Nat} (hN : N ≤ 2 ^ f.precision) :
    f.units (f.below (N * 2 ^ s)) = N * 2 ^ s := by
  have h2t : 2 ^ f.precision = 2 * 2 ^ (f.precision - 1) := by
    rw [← Nat.pow_succ', Nat.succ_eq_add_one, Nat.sub_add_cancel hp]
  have hs := two_pow_pos s
  unfold FloatFormat.below
  by_cases hn : N * 2 ^ s < 2 ^ f.precision
  · simp only [if_pos hn, Nat.pow_zero, Nat.div_one]
    rw [units_parts (.inr rfl) (by omega), Nat.pow_zero, Nat.mul_one]
  · simp only [if_neg hn]
    have hn0 : N * 2 ^ s ≠ 0 := by have := two_pow_pos f.precision; omega
    have hL : f.precision ≤ (N * 2 ^ s).log2 := (Nat.le_log2 hn0).mpr (by omega)
    have h1 := Nat.log2_self_le hn0
    have h2 : N * 2 ^ s < 2 ^ ((N * 2 ^ s).log2 + 1) := Nat.lt_log2_self
    have h3 : 2 ^ (N * 2 ^ s).log2 = 2 ^ (f.precision - 1) * 2 ^ ((N * 2 ^ s).log2 + 1 - f.precision) := by
      rw [← Nat.pow_add]; congr 1; omega
    have h4 : 2 ^ ((N * 2 ^ s).log2 + 1) = (2 * 2 ^ (f.precision - 1)) * 2 ^ ((N * 2 ^ s).log2 + 1 - f.precision) := by
      rw [← h2t, ← Nat.pow_add]; congr 1; omega
    have hdvd : 2 ^ ((N * 2 ^ s).log2 + 1 - f.precision) ∣ N * 2 ^ s := by
      by_cases hN2 : N = 2 ^ f.precision
      · rw [hN2, ← Nat.pow_add, Nat.log2_two_pow]
        exact Nat.pow_dvd_pow 2 (by omega)
      · have hlt : N * 2 ^ s < 2 ^ (f.precision + s) := by
          rw [Nat.pow_add]
          exact Nat.mul_lt_mul_of_pos_right (by omega) hs
        have := (Nat.log2_lt hn0).mpr hlt
        exact Nat.dvd_trans (Nat.pow_dvd_pow 2 (by omega)) (Nat.dvd_mul_left _ _)
    rw [h3] at h1
    rw [h4] at h2
    generalize (N * 2 ^ s).log2 + 1 - f.precision = e at *
    have hp2 := two_pow_pos e
    have h5 : 2 ^ (f.precision - 1) ≤ N * 2 ^ s / 2 ^ e := (Nat.le_div_iff_mul_le hp2).mpr h1
    have h6 : N * 2 ^ s / 2 ^ e < 2 * 2 ^ (f.precision - 1) := (Nat.div_lt_iff_lt_mul hp2).mpr h2
    rw [units_parts (.inl h5) (Nat.le_of_lt h6)]
    exact Nat.div_mul_cancel hdvd

theorem integer_bits {f : FloatFormat} (hf : f = f32 ∨ f = f64) {N : Nat} (hN : N ≤ 2 ^ f.precision) :
    ∃ k, k ≤ f.infinity ∧ f.value k = N := by
  have hp : 1 ≤ f.precision := by rcases hf with rfl | rfl <;> decide
  have hs : ((-f.least).toNat : Int) = -f.least := by rcases hf with rfl | rfl <;> decide
  have hu := units_integer hp (s := (-f.least).toNat) hN
  refine ⟨f.below (N * 2 ^ (-f.least).toNat), ?_, ?_⟩
  · by_cases h : f.below (N * 2 ^ (-f.least).toNat) ≤ f.infinity
    · exact h
    exfalso
    have h1 := units_lt (f := f) (show f.infinity < f.below (N * 2 ^ (-f.least).toNat) by omega)
    rw [hu] at h1
    have h2 : 2 ^ f.precision * 2 ^ (-f.least).toNat ≤ f.units f.infinity := by
      rcases hf with rfl | rfl <;> decide +kernel
    have h3 : N * 2 ^ (-f.least).toNat ≤ 2 ^ f.precision * 2 ^ (-f.least).toNat := Nat.mul_le_mul_right _ hN
    omega
  · rw [value_units, hu, Rat.natCast_mul, Rat.natCast_pow, show ((2 : Nat) : Rat) = 2 from rfl, ← Rat.zpow_natCast, hs, Rat.mul_assoc,
      ← Rat.zpow_add (by decide), Int.add_left_neg]
    simp

theorem integer_magnitude {n : NumLit} (h : n.IsInteger) : n.magnitude = digitsValue n.int ∧ n.exponent = 0 := by
  have he : n.exponent = 0 := by unfold NumLit.exponent; rw [h.2]
  refine ⟨?_, he⟩
  rw [magnitude_eq, he]
  unfold NumLit.fraction
  rw [h.1]
  simp

/-! ## C75 -/

/-- `f32` is binary32, `f64` is binary64. -/
def IsFormat (f : FloatFormat) (b : Ieee) : Prop := (f = f32 ∧ b = binary32) ∨ (f = f64 ∧ b = binary64)

theorem IsFormat.both {f : FloatFormat} {b : Ieee} (h : IsFormat f b) : (f = f32 ∨ f = f64) ∧ b = f.ieee ∧ 1 ≤ f.precision := by
  rcases h with ⟨rfl, rfl⟩ | ⟨rfl, rfl⟩
  · exact ⟨.inl rfl, rfl, by decide⟩
  · exact ⟨.inr rfl, rfl, by decide⟩

/-- **C75.** `as_f32` and `as_f64` give the float that is nearest to the number the literal stands for, with the literal's sign
(of zero, too). Among floats that are as near the even one; beyond the largest infinity. -/
theorem C75_nearest (f : FloatFormat) (b : Ieee) (hf : IsFormat f b) (x : JsonNumber) (hx : ParsedNumber x) :
    ∃ n : NumLit, n.Valid ∧ NumDenotes x n
      ∧ (n.Readable → ∃ k, x.asFloat f = some ⟨n.minus, k⟩ ∧ b.Nearest n.magnitude k) := by
  obtain ⟨hf32, rfl, hp⟩ := hf.both
  obtain ⟨n, hn, hd⟩ := parsed_number hx
  refine ⟨n, hn, hd, fun hr => ?_⟩
  obtain ⟨k, h1, h2⟩ := float_nearest hf32 hn hd hr
  exact ⟨k, h1, (ieee_nearest hp).mpr h2⟩

/-- **C75.** No two floats are nearest to a number. -/
theorem C75_unique (b : Ieee) (hb : 1 ≤ b.p) (q : Rat) (j k : Nat) (hj : b.Nearest q j) (hk : b.Nearest q k) : j = k := by
  have hp : 1 ≤ (FloatFormat.mk b.p b.w).precision := hb
  exact nearest_unique ((ieee_nearest hp).mp hj) ((ieee_nearest hp).mp hk)

/-- **C75.** A literal that stands for a float gives that float. -/
theorem C75_exact (f : FloatFormat) (b : Ieee) (hf : IsFormat f b) (x : JsonNumber) (n : NumLit) (hn : n.Valid) (hd : NumDenotes x n)
    (hr : n.Readable) (k : Nat) (hk : k ≤ b.top) (he : n.magnitude = b.value k) : x.asFloat f = some ⟨n.minus, k⟩ := by
  obtain ⟨hf32, rfl, hp⟩ := hf.both
  obtain ⟨j, h1, h2⟩ := float_nearest hf32 hn hd hr
  rw [he, ieee_value hp] at h2
  rw [h1, nearest_unique h2 (nearest_exact hk)]

/-- **C75.** An integer literal of at most `2 ^ 24` (`f32`), `2 ^ 53` (`f64`) gives exactly that integer. -/
theorem C75_integer (f : FloatFormat) (b : Ieee) (hf : IsFormat f b) (x : JsonNumber) (n : NumLit) (hn : n.Valid) (hd : NumDenotes x n)
    (hi : n.IsInteger) (hle : digitsValue n.int ≤ 2 ^ b.p) :
    ∃ k, x.asFloat f = some ⟨n.minus, k⟩ ∧ b.value k = digitsValue n.int := by
  obtain ⟨hm, he⟩ := integer_magnitude hi
  obtain ⟨hf', hb, hp⟩ := hf.both
  have hle' : digitsValue n.int ≤ 2 ^ f.precision := by rw [hb] at hle; exact hle
  obtain ⟨k, hk, hv⟩ := integer_bits hf' hle'
  rw [← ieee_value hp, ← hb] at hv
  exact ⟨k, C75_exact f b hf x n hn hd (.inl (by omega)) k (by rw [hb]; exact hk) (by rw [hm, hv]), hv⟩

/-- **C75.** The order of the numbers is kept, and literals of the same number give the same bits, however they are spelled. -/
theorem C75_monotone (f : FloatFormat) (hf : f = f32 ∨ f = f64) (x y : JsonNumber) (n m : NumLit) (hn : n.Valid) (hm : m.Valid)
    (hx : NumDenotes x n) (hy : NumDenotes y m) (hrn : n.Readable) (hrm : m.Readable) :
    ∃ j k, x.asFloat f = some ⟨n.minus, j⟩ ∧ y.asFloat f = some ⟨m.minus, k⟩
      ∧ (n.magnitude ≤ m.magnitude → j ≤ k) ∧ (n.magnitude = m.magnitude → j = k) := by
  obtain ⟨j, h1, h2⟩ := float_nearest hf hn hx hrn
  obtain ⟨k, h3, h4⟩ := float_nearest hf hm hy hrm
  refine ⟨j, k, h1, h3, fun h => nearest_mono h h2 h4, fun h => ?_⟩
  rw [h] at h2
  exact nearest_unique h2 h4

/-- **C75.** On a `Value` the accessors are those of the number it is; `None` if it is no number. -/
theorem C75_value (f : FloatFormat) (v : Value) :
    (∀ x, v = .number x → v.asFloat f = x.asFloat f) ∧ ((∀ x, v ≠ .number x) → v.asFloat f = none) := by
  constructor
  · rintro x rfl; rfl
  · intro h
    cases v with
    | number x => exact absurd rfl (h x)
    | _ => rfl

/-! ### What `Readable` is for -/

theorem zeros_value (k : Nat) (ys : List UInt8) : digitsValue (List.replicate k 0x30 ++ ys) = digitsValue ys := by
  induction k with
  | zero => rfl
  | succ k ih =>
    rw [List.replicate_succ, List.cons_append, digitsValue, ih]
    simp

/-- `0.00…01e700010`, with 700009 zeros after the point -/
def longOne : NumLit := ⟨false, [0x30], some (List.replicate 700009 0x30 ++ [0x31]), some (0x65, none, [0x37, 0x30, 0x30, 0x30, 0x31, 0x30])⟩

/-- **C75.** Without `Readable` it would be false: a literal of the number 1 whose exponent core cuts off gives zero. -/
theorem C75_cut_off : longOne.Valid ∧ longOne.magnitude = 1
    ∧ ∀ x, NumDenotes x longOne → x.asFloat f64 = some ⟨false, 0⟩ := by
  have hv : longOne.Valid := by
    refine ⟨⟨⟨by decide, by decide⟩, by decide⟩, ?_, ?_⟩
    · intro ds h
      injection h with h
      subst h
      refine ⟨List.append_ne_nil_of_right_ne_nil _ (List.cons_ne_nil _ _), fun b hb => ?_⟩
      rcases List.mem_append.mp hb with hb | hb
      · rw [(List.mem_replicate.mp hb).2]; decide
      · rw [List.mem_singleton.mp hb]; decide
    · intro e s ds h
      injection h with h
      cases h
      exact ⟨.inl rfl, nofun, by decide, by decide⟩
  have hfr : longOne.fraction.length = 700010 := by
    show (List.replicate 700009 (0x30 : UInt8) ++ [0x31]).length = _
    rw [List.length_append, List.length_replicate]
    rfl
  have hm : digitsValue (longOne.int ++ longOne.fraction) = 1 := by
    show digitsValue (0x30 :: (List.replicate 700009 0x30 ++ [0x31])) = 1
    rw [digitsValue, zeros_value, show (0x30 : UInt8).toNat - 48 = 0 from rfl, Nat.zero_mul]
    rfl
  have he : longOne.exponent = 700010 := by decide +kernel
  refine ⟨hv, ?_, fun x hx => ?_⟩
  · rw [magnitude_eq, hm, hfr, he]
    decide +kernel
  · unfold JsonNumber.asFloat
    rw [source_chars hv hx, float_read hv, mantissa_value, hm, hfr]
    have hc : cutExp longOne.exp = 70001 := by decide +kernel
    rw [hc, Option.map_some]
    have := round_nearest (f := f64) (by decide) _ (ten_nonneg 1 (70001 - (700010 : Nat)))
    rw [nearest_unique this (nearest_small (ten_nonneg _ _) (ten_small (.inr rfl) (k := 1) (by decide) (by decide)))]
    rfl

end

/-! ## Concrete cases -/

section
attribute [local instance] arch64

def floatOf (f : FloatFormat) (s : String) : Option FloatBits := (JsonNumber.mk (.borrowed s.toList)).asFloat f

-- bits as `to_bits` shows them
example : floatOf f64 "0.1" = some ⟨false, 0x3FB999999999999A⟩ := by decide +kernel
example : floatOf f32 "3.14159" = some ⟨false, 0x40490FD0⟩ := by decide +kernel
example : floatOf f64 "-0" = some ⟨true, 0⟩ ∧ floatOf f64 "0e99" = some ⟨false, 0⟩ := by decide +kernel
-- however it is spelled
example : floatOf f64 "100" = floatOf f64 "1E2" ∧ floatOf f64 "100" = floatOf f64 "0.1e+3" := by decide +kernel
-- the least positive float; half of it is a tie, and zero is even; a little more is not
example : floatOf f64 "5e-324" = some ⟨false, 1⟩ ∧ floatOf f64 "2e-324" = some ⟨false, 0⟩ ∧ floatOf f64 "3e-324" = some ⟨false, 1⟩ := by
  decide +kernel
-- a tie between two floats: the even one
example : floatOf f64 "9007199254740993" = floatOf f64 "9007199254740992" ∧ floatOf f64 "9007199254740995" = floatOf f64 "9007199254740996" := by
  decide +kernel
-- the largest float, and what is rounded to infinity
example : floatOf f64 "1.7976931348623157e308" = some ⟨false, f64.infinity - 1⟩
    ∧ floatOf f64 "1.7976931348623159e308" = some ⟨false, f64.infinity⟩ := by decide +kernel

-- a parsed number that meets the hypotheses of C75
example : ParsedNumber ⟨.borrowed "-2.5e-3".toList⟩ := num_parsed "-2.5e-3" _ (by unfold SliceFits; decide +kernel)
example : let n : NumLit := ⟨true, [0x32], some [0x35], some (0x65, some 0x2D, [0x33])⟩
    n.bytes = b8 "-2.5e-3" ∧ n.exponent = -3 ∧ n.magnitude = 25 / 10000 := by decide +kernel

end

/-! ## Instances: each theorem above applied to a concrete case that meets its hypotheses -/
section Instances
attribute [local instance] arch64

/-- the literal `-2.5e-3` -/
def floatEx : NumLit := ⟨true, [0x32], some [0x35], some (0x65, some 0x2D, [0x33])⟩
theorem floatEx_valid : floatEx.Valid := ⟨⟨⟨by simp [floatEx], by simp [floatEx, IsDigit]⟩, by simp [floatEx]⟩, by simp [floatEx, Digits, IsDigit], by simp [floatEx, Digits, IsDigit]⟩
/-- the literal `0.375` -/
def floatEx2 : NumLit := ⟨false, [0x30], some [0x33, 0x37, 0x35], none⟩
theorem floatEx2_valid : floatEx2.Valid := ⟨⟨⟨by simp [floatEx2], by simp [floatEx2, IsDigit]⟩, by simp [floatEx2]⟩, by simp [floatEx2, Digits, IsDigit], by simp [floatEx2]⟩
/-- the literal `-16777216` -/
def floatEx3 : NumLit := ⟨true, b8 "16777216", none, none⟩
theorem floatEx3_valid : floatEx3.Valid := by
  have e : b8 "16777216" = [0x31, 0x36, 0x37, 0x37, 0x37, 0x32, 0x31, 0x36] := by decide +kernel
  unfold floatEx3
  rw [e]
  exact ⟨⟨⟨by simp, by simp [IsDigit]⟩, by simp⟩, by simp, by simp⟩

example := C75_nearest f64 binary64 (.inr ⟨rfl, rfl⟩) ⟨.borrowed "-2.5e-3".toList⟩ (num_parsed "-2.5e-3" _ (by unfold SliceFits; decide +kernel))
example : floatEx.Readable := by unfold NumLit.Readable; decide +kernel
theorem floatEx_nearest : ∃ k, binary64.Nearest floatEx.magnitude k := by
  obtain ⟨n, hn, hd, h⟩ := C75_nearest f64 binary64 (.inr ⟨rfl, rfl⟩) ⟨.borrowed "-2.5e-3".toList⟩
    (num_parsed "-2.5e-3" _ (by unfold SliceFits; decide +kernel))
  have : n = floatEx := num_inj hn floatEx_valid (by rw [← hd]; decide +kernel)
  subst this
  obtain ⟨k, _, hk⟩ := h (by unfold NumLit.Readable; decide +kernel)
  exact ⟨k, hk⟩
example := C75_unique binary64 (by decide) floatEx.magnitude _ _ floatEx_nearest.choose_spec floatEx_nearest.choose_spec
example := C75_exact f32 binary32 (.inl ⟨rfl, rfl⟩) ⟨.borrowed "0.375".toList⟩ floatEx2 floatEx2_valid (by unfold NumDenotes; decide +kernel)
  (.inr (by decide +kernel)) 0x3EC00000 (by decide +kernel) (by decide +kernel)
example := C75_integer f32 binary32 (.inl ⟨rfl, rfl⟩) ⟨.borrowed "-16777216".toList⟩ floatEx3 floatEx3_valid (by unfold NumDenotes; decide +kernel)
  ⟨rfl, rfl⟩ (by decide +kernel)
example := C75_monotone f64 (.inr rfl) ⟨.borrowed "-2.5e-3".toList⟩ ⟨.borrowed "0.375".toList⟩ floatEx floatEx2 floatEx_valid floatEx2_valid
  (by unfold NumDenotes; decide +kernel) (by unfold NumDenotes; decide +kernel) (.inr (by decide +kernel)) (.inr (by decide +kernel))
example := C75_value f64 exVal

end Instances
end JustJson
