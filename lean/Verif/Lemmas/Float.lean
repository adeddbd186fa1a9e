import Verif.Spec.Float
import Verif.Model.Number
/-! # Rounding to floats -/

namespace JustJson
open Spec

section
variable {f : FloatFormat}

theorem two_pow_pos (n : Nat) : 0 < 2 ^ n := Nat.pow_pos (by decide)

/-- bits by exponent and significand -/
theorem units_parts {e m : Nat} (h1 : 2 ^ (f.precision - 1) ≤ m ∨ e = 0) (h2 : m ≤ 2 * 2 ^ (f.precision - 1)) :
    f.units (e * 2 ^ (f.precision - 1) + m) = m * 2 ^ e := by
  have ht := two_pow_pos (f.precision - 1)
  unfold FloatFormat.units
  generalize 2 ^ (f.precision - 1) = t at *
  by_cases hm : m < t
  · have he : e = 0 := h1.resolve_left (by omega)
    subst he
    rw [Nat.zero_mul, Nat.zero_add, if_pos hm, Nat.pow_zero, Nat.mul_one]
  · have hge : ¬ (e * t + m < t) := by omega
    rw [if_neg hge]
    by_cases hm2 : m < 2 * t
    · have e1 : e * t + m = (m - t) + t * (e + 1) := by rw [Nat.mul_add, Nat.mul_comm t e]; omega
      rw [e1, Nat.add_mul_mod_self_left, Nat.add_mul_div_left _ _ ht, Nat.mod_eq_of_lt (by omega), Nat.div_eq_of_lt (by omega)]
      rw [show t + (m - t) = m by omega, show 0 + (e + 1) - 1 = e by omega]
    · have hm3 : m = 2 * t := by omega
      have e1 : e * t + m = 0 + t * (e + 2) := by rw [Nat.mul_add, Nat.mul_comm t e]; omega
      rw [e1, Nat.add_mul_mod_self_left, Nat.add_mul_div_left _ _ ht, Nat.mod_eq_of_lt ht, Nat.div_eq_of_lt ht]
      rw [show 0 + (e + 2) - 1 = e + 1 by omega, hm3, Nat.pow_succ, Nat.add_zero, Nat.mul_comm (2 ^ e) 2, ← Nat.mul_assoc, Nat.mul_comm t 2]

/-- all bits have such parts -/
theorem parts (t : Nat) (ht : 0 < t) (k : Nat) : ∃ e m, k = e * t + m ∧ (t ≤ m ∨ e = 0) ∧ m < 2 * t := by
  by_cases h : k < t
  · exact ⟨0, k, by omega, .inr rfl, by omega⟩
  · refine ⟨k / t - 1, t + k % t, ?_, .inl (by omega), by have := Nat.mod_lt k ht; omega⟩
    have h1 := Nat.div_add_mod k t
    have h2 : 1 ≤ k / t := (Nat.le_div_iff_mul_le ht).mpr (by omega)
    have h3 : t * (k / t) = (k / t - 1) * t + t := by
      rw [← Nat.succ_mul, Nat.succ_eq_add_one, Nat.sub_add_cancel h2, Nat.mul_comm]
    omega

theorem units_succ (k : Nat) : f.units k < f.units (k + 1) := by
  have ht := two_pow_pos (f.precision - 1)
  obtain ⟨e, m, h1, h2, h3⟩ := parts _ ht k
  rw [h1, units_parts h2 (Nat.le_of_lt h3), Nat.add_assoc, units_parts (h2.imp (by omega) id) (by omega), Nat.add_mul]
  have := two_pow_pos e
  omega

theorem units_lt {j k : Nat} (h : j < k) : f.units j < f.units k := by
  induction k with
  | zero => omega
  | succ k ih =>
    by_cases hj : j = k
    · subst hj; exact units_succ j
    · exact Nat.lt_trans (ih (by omega)) (units_succ k)

theorem units_le {j k : Nat} (h : j ≤ k) : f.units j ≤ f.units k := by
  by_cases hj : j = k
  · subst hj; exact Nat.le_refl _
  · exact Nat.le_of_lt (units_lt (by omega))

theorem below_spec (hp : 1 ≤ f.precision) (n : Nat) : f.units (f.below n) ≤ n ∧ n < f.units (f.below n + 1) := by
  have h2t : 2 ^ f.precision = 2 * 2 ^ (f.precision - 1) := by
    rw [← Nat.pow_succ', Nat.succ_eq_add_one, Nat.sub_add_cancel hp]
  unfold FloatFormat.below
  by_cases hn : n < 2 ^ f.precision
  · simp only [if_pos hn, Nat.pow_zero, Nat.div_one]
    rw [units_parts (.inr rfl) (by omega), Nat.add_assoc, units_parts (.inr rfl) (by omega)]
    omega
  · simp only [if_neg hn]
    have hn0 : n ≠ 0 := by have := two_pow_pos f.precision; omega
    have hL : f.precision ≤ n.log2 := (Nat.le_log2 hn0).mpr (by omega)
    have h1 := Nat.log2_self_le hn0
    have h2 : n < 2 ^ (n.log2 + 1) := Nat.lt_log2_self
    have h3 : 2 ^ n.log2 = 2 ^ (f.precision - 1) * 2 ^ (n.log2 + 1 - f.precision) := by
      rw [← Nat.pow_add]; congr 1; omega
    have h4 : 2 ^ (n.log2 + 1) = (2 * 2 ^ (f.precision - 1)) * 2 ^ (n.log2 + 1 - f.precision) := by
      rw [← h2t, ← Nat.pow_add]; congr 1; omega
    rw [h3] at h1
    rw [h4] at h2
    generalize n.log2 + 1 - f.precision = e at *
    have hp2 := two_pow_pos e
    have h5 : 2 ^ (f.precision - 1) ≤ n / 2 ^ e := (Nat.le_div_iff_mul_le hp2).mpr h1
    have h6 : n / 2 ^ e < 2 * 2 ^ (f.precision - 1) := (Nat.div_lt_iff_lt_mul hp2).mpr h2
    rw [units_parts (.inl h5) (Nat.le_of_lt h6), Nat.add_assoc, units_parts (.inl (by omega)) (by omega)]
    refine ⟨Nat.div_mul_le_self n _, ?_⟩
    have := Nat.div_add_mod n (2 ^ e)
    have := Nat.mod_lt n hp2
    rw [Nat.add_mul, Nat.mul_comm (n / 2 ^ e)]
    omega

/-! ## Values -/

/-- the value of bits -/
def FloatFormat.value (f : FloatFormat) (k : Nat) : Rat :=
  let t := 2 ^ (f.precision - 1)
  if k / t = 0 then (k : Rat) * 2 ^ f.least
  else ((t + k % t : Nat) : Rat) * 2 ^ (f.least + (k / t : Nat) - 1)

/-- nearest bits -/
def FloatFormat.Nearest (f : FloatFormat) (x : Rat) (k : Nat) : Prop :=
  k ≤ f.infinity
  ∧ ∀ j ≤ f.infinity, (x - f.value k).abs ≤ (x - f.value j).abs
    ∧ ((x - f.value k).abs = (x - f.value j).abs → j ≠ k → k % 2 = 0)

/-- the format in the specification -/
def FloatFormat.ieee (f : FloatFormat) : Ieee := ⟨f.precision, f.exponentBits⟩

theorem ieee_value (hp : 1 ≤ f.precision) (k : Nat) : f.ieee.value k = f.value k := by
  have hl : f.least = (1 - f.ieee.bias) + -((f.precision - 1 : Nat) : Int) := by
    unfold FloatFormat.least Ieee.bias
    show _ = 1 - ((2 : Int) ^ (f.exponentBits - 1) - 1) + _
    omega
  have ht : ((2 ^ (f.precision - 1) : Nat) : Rat) = (2 : Rat) ^ (f.precision - 1) := by rw [Rat.natCast_pow]; rfl
  have ht0 : (2 : Rat) ^ (f.precision - 1) ≠ 0 := Rat.ne_of_gt (Rat.pow_pos (by decide))
  unfold Ieee.value FloatFormat.value
  show (if k / 2 ^ (f.precision - 1) = 0 then _ else _) = _
  simp only [show f.ieee.p = f.precision from rfl]
  by_cases h : k / 2 ^ (f.precision - 1) = 0
  · rw [if_pos h, if_pos h]
    have hk : k % 2 ^ (f.precision - 1) = k := Nat.mod_eq_of_lt (by
      have := Nat.div_eq_zero_iff.mp h
      have := Nat.two_pow_pos (f.precision - 1)
      omega)
    rw [hk, hl, Rat.zpow_add (by decide), Rat.zpow_neg, Rat.zpow_natCast, Rat.div_def]
    grind
  · rw [if_neg h, if_neg h]
    rw [show f.least + ((k / 2 ^ (f.precision - 1) : Nat) : Int) - 1
        = (((k / 2 ^ (f.precision - 1) : Nat) : Int) - f.ieee.bias) + -((f.precision - 1 : Nat) : Int) by omega]
    rw [Rat.zpow_add (by decide), Rat.zpow_neg, Rat.zpow_natCast, Rat.div_def, Rat.natCast_add, ht]
    generalize (2 : Rat) ^ (((k / 2 ^ (f.precision - 1) : Nat) : Int) - f.ieee.bias) = q at *
    have := Rat.mul_inv_cancel _ ht0
    generalize ((k % 2 ^ (f.precision - 1) : Nat) : Rat) = r at *
    generalize (2 : Rat) ^ (f.precision - 1) = t at *
    grind

theorem ieee_nearest (hp : 1 ≤ f.precision) {x : Rat} {k : Nat} : f.ieee.Nearest x k ↔ f.Nearest x k := by
  have hv : f.ieee.value = f.value := funext (ieee_value hp)
  unfold Ieee.Nearest FloatFormat.Nearest
  rw [hv]
  exact Iff.rfl

theorem value_units (k : Nat) : f.value k = (f.units k : Rat) * 2 ^ f.least := by
  have ht := two_pow_pos (f.precision - 1)
  unfold FloatFormat.value FloatFormat.units
  generalize 2 ^ (f.precision - 1) = t at *
  simp only []
  by_cases h : k < t
  · rw [if_pos (Nat.div_eq_of_lt h), if_pos h]
  · have h2 : 1 ≤ k / t := (Nat.le_div_iff_mul_le ht).mpr (by omega)
    rw [if_neg (by omega), if_neg h]
    rw [show f.least + (k / t : Nat) - 1 = ((k / t - 1 : Nat) : Int) + f.least by omega, Rat.zpow_add (by decide), Rat.zpow_natCast]
    rw [Rat.natCast_mul, Rat.natCast_pow, Rat.mul_assoc]
    rfl

theorem rat_pow_pos (e : Int) : (0 : Rat) < 2 ^ e := Rat.zpow_pos (by decide)

theorem scale_back (x : Rat) : x * 2 ^ (-f.least) * 2 ^ f.least = x := by
  rw [Rat.mul_assoc, ← Rat.zpow_add (by decide), Int.add_left_neg]
  simp

theorem value_lt {j k : Nat} (h : j < k) : f.value j < f.value k := by
  rw [value_units, value_units]
  exact Rat.mul_lt_mul_of_pos_right (Rat.natCast_lt_natCast.mpr (units_lt h)) (rat_pow_pos _)

theorem value_le {j k : Nat} (h : j ≤ k) : f.value j ≤ f.value k := by
  by_cases hj : j = k
  · subst hj; exact Rat.le_refl
  · exact Rat.le_of_lt (value_lt (by omega))

theorem value_nonneg (k : Nat) : 0 ≤ f.value k := by
  rw [value_units]
  exact Rat.mul_nonneg Rat.natCast_nonneg (Rat.le_of_lt (rat_pow_pos _))

/-- what is known of `round` -/
theorem round_cases (hp : 1 ≤ f.precision) (x : Rat) (hx : 0 ≤ x) :
    (f.round x = f.infinity ∧ f.value f.infinity ≤ x)
    ∨ ∃ low, low < f.infinity ∧ f.value low ≤ x ∧ x < f.value (low + 1)
      ∧ ((f.round x = low ∧ 2 * x < f.value low + f.value (low + 1))
        ∨ (f.round x = low + 1 ∧ f.value low + f.value (low + 1) < 2 * x)
        ∨ (2 * x = f.value low + f.value (low + 1) ∧ f.round x = if low % 2 = 0 then low else low + 1)) := by
  have hu := rat_pow_pos f.least
  have hy0 : 0 ≤ x * 2 ^ (-f.least) := Rat.mul_nonneg hx (Rat.le_of_lt (rat_pow_pos _))
  have hback := scale_back (f := f) x
  unfold FloatFormat.round
  generalize hy : x * 2 ^ (-f.least) = y at *
  have hfl : 0 ≤ y.floor := Rat.le_floor_iff.mpr (by simpa using hy0)
  obtain ⟨h1, h2⟩ := below_spec hp y.floor.toNat
  have h3 : ((y.floor.toNat : Nat) : Rat) ≤ y := by
    have := Rat.floor_le y
    rw [← Int.toNat_of_nonneg hfl] at this
    exact this
  have h4 : y < ((y.floor.toNat + 1 : Nat) : Rat) := by
    have := Rat.lt_floor_add_one y
    rw [← Int.toNat_of_nonneg hfl] at this
    exact this
  simp only []
  generalize y.floor.toNat = n at *
  generalize f.below n = low at *
  have h5 : (f.units low : Rat) ≤ y := Rat.le_trans (Rat.natCast_le_natCast.mpr h1) h3
  have h6 : y < (f.units (low + 1) : Rat) := by
    have : ((n + 1 : Nat) : Rat) ≤ (f.units (low + 1) : Rat) := Rat.natCast_le_natCast.mpr h2
    grind
  have h7 : f.value low ≤ x := by
    rw [value_units, ← hback]
    exact Rat.mul_le_mul_of_nonneg_right h5 (Rat.le_of_lt hu)
  have h8 : x < f.value (low + 1) := by
    rw [value_units, ← hback]
    exact Rat.mul_lt_mul_of_pos_right h6 hu
  by_cases hi : f.infinity ≤ low
  · rw [if_pos hi]
    exact .inl ⟨rfl, Rat.le_trans (value_le hi) h7⟩
  · rw [if_neg hi]
    refine .inr ⟨low, by omega, h7, h8, ?_⟩
    have hsum : f.value low + f.value (low + 1) = ((f.units low : Rat) + f.units (low + 1)) * 2 ^ f.least := by
      rw [value_units, value_units, Rat.add_mul]
    have h2x : 2 * x = 2 * y * 2 ^ f.least := by rw [Rat.mul_assoc, hback]
    rw [hsum, h2x]
    split
    · exact .inl ⟨rfl, Rat.mul_lt_mul_of_pos_right ‹_› hu⟩
    · split
      · exact .inr (.inl ⟨rfl, Rat.mul_lt_mul_of_pos_right ‹_› hu⟩)
      · have he : 2 * y = (f.units low : Rat) + f.units (low + 1) := Rat.le_antisymm (Rat.not_lt.mp ‹_›) (Rat.not_lt.mp ‹_›)
        exact .inr (.inr ⟨by rw [he], rfl⟩)

/-! ## Nearest -/

theorem abs_split (a : Rat) : (0 ≤ a ∧ a.abs = a) ∨ (a ≤ 0 ∧ a.abs = -a) := by
  rcases Rat.le_total (a := 0) (b := a) with h | h
  · exact .inl ⟨h, Rat.abs_of_nonneg h⟩
  · exact .inr ⟨h, Rat.abs_of_nonpos h⟩

theorem round_nearest (hp : 1 ≤ f.precision) (x : Rat) (hx : 0 ≤ x) : f.Nearest x (f.round x) := by
  rcases round_cases hp x hx with ⟨h1, h2⟩ | ⟨low, hlow, h1, h2, h3⟩
  · rw [h1]
    refine ⟨Nat.le_refl _, fun j hj => ?_⟩
    have h3 : f.value j ≤ f.value f.infinity := value_le hj
    have a1 := abs_split (x - f.value f.infinity)
    have a2 := abs_split (x - f.value j)
    refine ⟨by grind, fun he hne => ?_⟩
    have h4 : f.value j < f.value f.infinity := value_lt (by omega)
    grind
  · have hstep : f.value low < f.value (low + 1) := value_lt (by omega)
    have a1 := abs_split (x - f.value low)
    have a2 := abs_split (x - f.value (low + 1))
    have side : ∀ j, (j = low) ∨ (j < low ∧ f.value j < f.value low) ∨ (j = low + 1) ∨ (low + 1 < j ∧ f.value (low + 1) < f.value j) := by
      intro j
      by_cases c1 : j < low
      · exact .inr (.inl ⟨c1, value_lt c1⟩)
      · by_cases c2 : low + 1 < j
        · exact .inr (.inr (.inr ⟨c2, value_lt c2⟩))
        · by_cases c3 : j = low
          · exact .inl c3
          · exact .inr (.inr (.inl (by omega)))
    rcases h3 with ⟨h3, h4⟩ | ⟨h3, h4⟩ | ⟨h4, h3⟩
    · rw [h3]
      refine ⟨by omega, fun j hj => ?_⟩
      have a3 := abs_split (x - f.value j)
      rcases side j with rfl | ⟨c1, c2⟩ | rfl | ⟨c1, c2⟩
      · exact ⟨Rat.le_refl, fun _ h => absurd rfl h⟩
      · grind
      · grind
      · grind
    · rw [h3]
      refine ⟨by omega, fun j hj => ?_⟩
      have a3 := abs_split (x - f.value j)
      rcases side j with rfl | ⟨c1, c2⟩ | rfl | ⟨c1, c2⟩
      · grind
      · grind
      · exact ⟨Rat.le_refl, fun _ h => absurd rfl h⟩
      · grind
    · by_cases he : low % 2 = 0
      · rw [h3, if_pos he]
        refine ⟨by omega, fun j hj => ⟨?_, fun _ _ => he⟩⟩
        have a3 := abs_split (x - f.value j)
        rcases side j with rfl | ⟨c1, c2⟩ | rfl | ⟨c1, c2⟩
        · exact Rat.le_refl
        · grind
        · grind
        · grind
      · rw [h3, if_neg he]
        refine ⟨by omega, fun j hj => ⟨?_, fun _ _ => by omega⟩⟩
        have a3 := abs_split (x - f.value j)
        rcases side j with rfl | ⟨c1, c2⟩ | rfl | ⟨c1, c2⟩
        · grind
        · grind
        · exact Rat.le_refl
        · grind

/-- nearest bits grow with the number -/
theorem nearest_mono {x y : Rat} {j k : Nat} (hxy : x ≤ y) (h1 : f.Nearest x j) (h2 : f.Nearest y k) : j ≤ k := by
  by_cases h : j ≤ k
  · exact h
  exfalso
  have hlt : k < j := by omega
  obtain ⟨hj, hj'⟩ := h1
  obtain ⟨hk, hk'⟩ := h2
  have hv := value_lt (f := f) hlt
  have a1 := abs_split (x - f.value j)
  have a2 := abs_split (x - f.value k)
  have a3 := abs_split (y - f.value j)
  have a4 := abs_split (y - f.value k)
  obtain ⟨b1, c1⟩ := hj' k hk
  obtain ⟨b2, c2⟩ := hk' j hj
  have hx : 2 * x = f.value j + f.value k := by grind
  have hy : y = x := by grind
  subst hy
  have e1 : (y - f.value j).abs = (y - f.value k).abs := by grind
  have p1 := c1 e1 (by omega)
  have p2 := c2 e1.symm (by omega)
  -- the bits between are nearer
  have hm := value_lt (f := f) (show k < k + 1 by omega)
  have hm2 := value_lt (f := f) (show k + 1 < j by omega)
  obtain ⟨b3, _⟩ := hj' (k + 1) (by omega)
  have a5 := abs_split (y - f.value (k + 1))
  grind

theorem nearest_unique {x : Rat} {j k : Nat} (h1 : f.Nearest x j) (h2 : f.Nearest x k) : j = k := by
  have := nearest_mono Rat.le_refl h1 h2
  have := nearest_mono Rat.le_refl h2 h1
  omega

/-- a number that is a float is nearest to itself -/
theorem nearest_exact {k : Nat} (hk : k ≤ f.infinity) : f.Nearest (f.value k) k := by
  refine ⟨hk, fun j hj => ?_⟩
  have a1 := abs_split (f.value k - f.value k)
  have a2 := abs_split (f.value k - f.value j)
  refine ⟨by grind, fun he hne => ?_⟩
  exfalso
  rcases Nat.lt_or_gt_of_ne hne with h | h
  · have := value_lt (f := f) h; grind
  · have := value_lt (f := f) h; grind

theorem nearest_large {x : Rat} (hx : f.value f.infinity ≤ x) : f.Nearest x f.infinity := by
  refine ⟨Nat.le_refl _, fun j hj => ?_⟩
  have h3 : f.value j ≤ f.value f.infinity := value_le hj
  have a1 := abs_split (x - f.value f.infinity)
  have a2 := abs_split (x - f.value j)
  refine ⟨by grind, fun he hne => ?_⟩
  have h4 : f.value j < f.value f.infinity := value_lt (by omega)
  grind

theorem value_zero : f.value 0 = 0 := by
  rw [value_units]
  unfold FloatFormat.units
  rw [if_pos (two_pow_pos _)]
  simp

theorem nearest_small {x : Rat} (h0 : 0 ≤ x) (hx : 2 * x < f.value 1) : f.Nearest x 0 := by
  refine ⟨Nat.zero_le _, fun j hj => ?_⟩
  rw [value_zero]
  have a1 := abs_split (x - 0)
  have a2 := abs_split (x - f.value j)
  by_cases h : j = 0
  · subst h
    rw [value_zero]
    exact ⟨Rat.le_refl, fun _ h => absurd rfl h⟩
  · have : f.value 1 ≤ f.value j := value_le (by omega)
    grind

end
end JustJson
