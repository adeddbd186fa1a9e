import Verif.Lemmas.Output
import Verif.Spec.Float
import Verif.Props.Ex
/-! # Numbers -/

namespace JustJson
open Spec

set_option linter.unusedSectionVars false

section
variable [Arch]

/-! ## Every number is a literal -/

theorem numbers_ofJson : (∀ j, JValid j → ∀ x ∈ (ofJson j).numbers, x.WellFormed)
    ∧ (∀ ms, MsValid ms → ∀ x ∈ Value.numbersEntries (ofMembers ms), x.WellFormed)
    ∧ (∀ js, JsValid js → ∀ x ∈ Value.numbersElems (ofJsons js), x.WellFormed) := by
  apply Json.induct
  · intro _ x h; cases h
  · intro _ _ x h; cases h
  · intro n hn x h
    rw [ofJson, Value.numbers, List.mem_singleton] at h
    rw [h]
    exact ⟨n, hn, canonNum_denotes hn⟩
  · intro _ _ x h; cases h
  · intro ms ih h; exact ih h
  · intro js ih h; exact ih h
  · intro _ x h; cases h
  · intro k j ms h1 h2 h x hx
    rw [ofMembers, Value.numbersEntries, List.mem_append] at hx
    exact hx.elim (h1 h.2.1 x) (h2 h.2.2 x)
  · intro _ x h; cases h
  · intro j ms h1 h2 h x hx
    rw [ofJsons, Value.numbersElems, List.mem_append] at hx
    exact hx.elim (h1 h.1 x) (h2 h.2 x)

theorem numbers_flatten {P : JsonNumber → Prop} : (∀ v, (∀ x ∈ v.numbers, P x) → ∀ x, Node.number x ∈ flatten v → P x)
    ∧ (∀ es, (∀ x ∈ Value.numbersEntries es, P x) → ∀ x, Node.number x ∈ flattenEntries es → P x)
    ∧ (∀ vs, (∀ x ∈ Value.numbersElems vs, P x) → ∀ x, Node.number x ∈ flattenElems vs → P x) := by
  refine Value.induct ?_ ?_ ?_ ?_ ?_ ?_ ?_ ?_ ?_ ?_
  all_goals intros
  all_goals simp_all [Value.numbers, Value.numbersEntries, Value.numbersElems, flatten, flattenEntries, flattenElems]
  · rename_i h1 h2 h3 h4
    rcases h4 with h4 | h4
    · exact h1 _ h4
    · exact h2 _ h4
  · rename_i h1 h2 h3 h4
    rcases h4 with h4 | h4
    · exact h1 _ h4
    · exact h2 _ h4

/-- Every number a client can get hold of is a JSON number literal. -/
theorem parsed_number {x : JsonNumber} (h : ParsedNumber x) : x.WellFormed := by
  cases h with
  | inValue g src cfg v _ hi hp hx =>
    obtain ⟨j, ha, rfl⟩ := (value_ok_iff hi).mp hp
    exact numbers_ofJson.1 j (text_valid ha.1) x hx
  | single s _ hf hp =>
    obtain ⟨n, ht, hd⟩ := (C38_number_ok_iff s hf).1 x hp
    exact ⟨n, text_valid ht, hd⟩
  | token g src cs c _ hi hr =>
    have hl : offsetAfter src g cs ≤ src.length := (history_offset hi cs (Nat.zero_le _)).2
    have hlex : ∀ {l : Lex}, l.Valid → l.token = .number x → x.WellFormed := by
      intro l hv ht
      cases l with
      | num n => cases ht; exact ⟨n, hv, canonNum_denotes hv⟩
      | _ => cases ht
    have hc := tok_cases hi hl
    cases hc with
    | eof _ hn he hp => cases c <;> simp [Call.run, hn, he, hp] at hr
    | err w b t e off' hw hd hb hlt hle heo hrp hn he hp => cases c <;> simp [Call.run, hn, he, hp] at hr
    | tok w b t l off' hw hd hb hv ha hs hlt hle hn he hp =>
      cases c <;> simp [Call.run, hn, he, hp] at hr
      · exact hlex hv hr
      · exact hlex hv hr
  | node cap g src cfg ns _ hi hp hx =>
    rcases doc_cases (cap := cap) (cfg := cfg) hi with ⟨v, h1, ⟨_, h2⟩ | ⟨_, off, h2⟩⟩ | ⟨e, h1, h2 | ⟨_, off, h2⟩⟩
    · rw [hp] at h2
      cases h2
      obtain ⟨j, ha, rfl⟩ := (value_ok_iff hi).mp h1
      exact numbers_flatten.1 _ (numbers_ofJson.1 j (text_valid ha.1)) x hx
    · rw [hp] at h2; cases h2
    · rw [hp] at h2; cases h2
    · rw [hp] at h2; cases h2

/-! ## Characters of literals -/

theorem digit_char {b : UInt8} (h : IsDigit b) : encodeChar (byteChar b) = [b] ∧ toDigit10 (byteChar b) = some (b.toNat - 48)
    ∧ byteChar b ≠ '+' ∧ byteChar b ≠ '-' ∧ byteChar b ≠ '.' ∧ byteChar b ≠ 'e' ∧ byteChar b ≠ 'E' := by
  have h1 : (byteChar b).toNat = b.toNat := byteChar_toNat (by unfold IsDigit at h; omega)
  refine ⟨?_, ?_, ?_, ?_, ?_, ?_, ?_⟩
  · rw [encodeChar_ascii (by unfold IsDigit at h; omega), h1]; simp
  · unfold toDigit10
    rw [h1]
    exact if_pos h
  all_goals
    intro e
    rw [e] at h1
    unfold IsDigit at h
    have h1 : _ = b.toNat := h1
    simp at h1
    omega

/-- characters of bytes -/
abbrev dchars (ds : List UInt8) : Str := ds.map byteChar

theorem source_chars {x : JsonNumber} {n : NumLit} (hn : n.Valid) (hd : NumDenotes x n) : x.sourceStr = dchars n.bytes := by
  apply utf8_inj
  rw [show utf8 x.sourceStr = n.bytes from hd]
  exact (canonNum_denotes hn).symm

theorem posDigits_digits {max : Nat} {ds : List UInt8} (hd : ∀ b ∈ ds, IsDigit b) : ∀ {acc : Nat}, acc ≤ max →
    posDigits max (dchars ds) acc
      = if acc * 10 ^ ds.length + digitsValue ds ≤ max then some (acc * 10 ^ ds.length + digitsValue ds) else none := by
  induction ds with
  | nil => intro acc ha; simp [posDigits, digitsValue, ha]
  | cons b ds ih =>
    intro acc ha
    have hb := hd b (by simp)
    have e : acc * 10 ^ (b :: ds).length + digitsValue (b :: ds) = (acc * 10 + (b.toNat - 48)) * 10 ^ ds.length + digitsValue ds := by
      rw [digitsValue, List.length_cons, Nat.pow_succ, Nat.add_mul]
      rw [Nat.mul_assoc acc 10, Nat.mul_comm 10 (10 ^ ds.length)]
      omega
    rw [e]
    have hp : 1 ≤ 10 ^ ds.length := Nat.one_le_pow _ _ (by omega)
    have hm : acc * 10 + (b.toNat - 48) ≤ (acc * 10 + (b.toNat - 48)) * 10 ^ ds.length := Nat.le_mul_of_pos_right _ hp
    show posDigits max (byteChar b :: dchars ds) acc = _
    rw [posDigits, (digit_char hb).2.1]
    simp only []
    by_cases h1 : acc * 10 + (b.toNat - 48) ≤ max
    · rw [if_pos (by omega), if_pos h1, ih (fun x hx => hd x (by simp [hx])) h1]
    · have h2 : ¬ ((acc * 10 + (b.toNat - 48)) * 10 ^ ds.length + digitsValue ds ≤ max) := by omega
      rw [if_neg h2]
      split <;> first | rfl | rw [if_neg h1]

theorem posDigits_bad {max : Nat} {s : Str} (h : ∃ c ∈ s, toDigit10 c = none) : ∀ acc, posDigits max s acc = none := by
  induction s with
  | nil => obtain ⟨c, hc, _⟩ := h; cases hc
  | cons c s ih =>
    intro acc
    rw [posDigits]
    split
    · cases hd : toDigit10 c with
      | none => rfl
      | some d =>
        simp only []
        split
        · apply ih
          obtain ⟨c', h1, h2⟩ := h
          rcases List.mem_cons.mp h1 with rfl | h1
          · rw [hd] at h2; cases h2
          · exact ⟨c', h1, h2⟩
        · rfl
    · rfl

theorem negDigits_digits {m : Nat} {ds : List UInt8} (hd : ∀ b ∈ ds, IsDigit b) : ∀ {acc : Nat}, acc ≤ m →
    negDigits (-(m : Int)) (dchars ds) (-(acc : Int))
      = if acc * 10 ^ ds.length + digitsValue ds ≤ m then some (-((acc * 10 ^ ds.length + digitsValue ds : Nat) : Int)) else none := by
  induction ds with
  | nil => intro acc ha; simp [negDigits, digitsValue, ha]
  | cons b ds ih =>
    intro acc ha
    have hb := hd b (by simp)
    have e : acc * 10 ^ (b :: ds).length + digitsValue (b :: ds) = (acc * 10 + (b.toNat - 48)) * 10 ^ ds.length + digitsValue ds := by
      rw [digitsValue, List.length_cons, Nat.pow_succ, Nat.add_mul]
      rw [Nat.mul_assoc acc 10, Nat.mul_comm 10 (10 ^ ds.length)]
      omega
    rw [e]
    have hp : 1 ≤ 10 ^ ds.length := Nat.one_le_pow _ _ (by omega)
    have hm : acc * 10 + (b.toNat - 48) ≤ (acc * 10 + (b.toNat - 48)) * 10 ^ ds.length := Nat.le_mul_of_pos_right _ hp
    show negDigits (-(m : Int)) (byteChar b :: dchars ds) _ = _
    rw [negDigits, (digit_char hb).2.1]
    simp only []
    by_cases h1 : acc * 10 + (b.toNat - 48) ≤ m
    · have e2 : -(acc : Int) * 10 - ((b.toNat - 48 : Nat) : Int) = -((acc * 10 + (b.toNat - 48) : Nat) : Int) := by omega
      rw [if_pos (by omega), if_pos (by omega), e2, ih (fun x hx => hd x (by simp [hx])) h1]
    · have h2 : ¬ ((acc * 10 + (b.toNat - 48)) * 10 ^ ds.length + digitsValue ds ≤ m) := by omega
      rw [if_neg h2]
      split
      · rw [if_neg (by omega)]
      · rfl

theorem negDigits_bad {m : Int} {s : Str} (h : ∃ c ∈ s, toDigit10 c = none) : ∀ acc, negDigits m s acc = none := by
  induction s with
  | nil => obtain ⟨c, hc, _⟩ := h; cases hc
  | cons c s ih =>
    intro acc
    rw [negDigits]
    split
    · cases hd : toDigit10 c with
      | none => rfl
      | some d =>
        simp only []
        split
        · apply ih
          obtain ⟨c', h1, h2⟩ := h
          rcases List.mem_cons.mp h1 with rfl | h1
          · rw [hd] at h2; cases h2
          · exact ⟨c', h1, h2⟩
        · rfl
    · rfl

/-- what follows the sign of a literal -/
def tailBytes (n : NumLit) : List UInt8 := n.int ++ fracBytes n.frac ++ expBytes n.exp

theorem tail_bad {n : NumLit} (hn : n.Valid) (h : ¬ n.IsInteger) : ∃ c ∈ dchars (tailBytes n), toDigit10 c = none := by
  have : ∃ b ∈ tailBytes n, b = 0x2E ∨ b = 0x65 ∨ b = 0x45 := by
    unfold NumLit.IsInteger at h
    cases hf : n.frac with
    | some ds => exact ⟨0x2E, by simp [tailBytes, hf, fracBytes], .inl rfl⟩
    | none =>
      cases he : n.exp with
      | none => exact absurd ⟨hf, he⟩ h
      | some e =>
        obtain ⟨e, sg, ds⟩ := e
        exact ⟨e, by simp [tailBytes, he, expBytes], .inr ((hn.2.2 _ _ _ he).1)⟩
  obtain ⟨b, h1, h2⟩ := this
  refine ⟨byteChar b, List.mem_map.mpr ⟨b, h1, rfl⟩, ?_⟩
  rcases h2 with rfl | rfl | rfl <;> decide

theorem tail_integer {n : NumLit} (h : n.IsInteger) : tailBytes n = n.int := by
  unfold tailBytes
  rw [h.1, h.2]
  simp [fracBytes, expBytes]

theorem bytes_sign (n : NumLit) : n.bytes = (if n.minus then [0x2D] else []) ++ tailBytes n := by
  unfold NumLit.bytes tailBytes
  simp only [List.append_assoc]

theorem tail_head {n : NumLit} (hn : n.Valid) : ∃ d t, tailBytes n = d :: t ∧ IsDigit d := by
  obtain ⟨⟨h0, h1⟩, _⟩ := hn.1
  unfold tailBytes
  cases hi : n.int with
  | nil => exact absurd hi h0
  | cons d t => exact ⟨d, _, rfl, h1 d (by simp [hi])⟩

theorem pos_tail (max : Nat) {n : NumLit} (hn : n.Valid) (k : Nat) :
    posDigits max (dchars (tailBytes n)) 0 = some k ↔ n.IsInteger ∧ digitsValue n.int = k ∧ k ≤ max := by
  by_cases hi : n.IsInteger
  · rw [tail_integer hi, posDigits_digits hn.1.1.2 (Nat.zero_le _)]
    rw [Nat.zero_mul, Nat.zero_add]
    constructor
    · intro h
      split at h
      · injection h with h; exact ⟨hi, h, by omega⟩
      · cases h
    · rintro ⟨_, rfl, h⟩
      rw [if_pos h]
  · rw [posDigits_bad (tail_bad hn hi)]
    exact ⟨(fun h => by cases h), fun h => absurd h.1 hi⟩

theorem neg_tail (m : Nat) {n : NumLit} (hn : n.Valid) (k : Int) :
    negDigits (-(m : Int)) (dchars (tailBytes n)) 0 = some k ↔ n.IsInteger ∧ -(digitsValue n.int : Int) = k ∧ -(m : Int) ≤ k := by
  by_cases hi : n.IsInteger
  · have := negDigits_digits (m := m) hn.1.1.2 (Nat.zero_le _)
    rw [tail_integer hi]
    rw [show (-((0 : Nat) : Int)) = 0 from rfl, Nat.zero_mul, Nat.zero_add] at this
    rw [this]
    constructor
    · intro h
      split at h
      · injection h with h; exact ⟨hi, h, by omega⟩
      · cases h
    · rintro ⟨_, rfl, h⟩
      rw [if_pos (by omega)]
  · rw [negDigits_bad (tail_bad hn hi)]
    exact ⟨(fun h => by cases h), fun h => absurd h.1 hi⟩

/-! ## C32 -/

/-- **C32.** The unsigned accessors, for a type of `bits` bits: `Some(k)` if and only if the literal is an integer, has no
minus sign, and its value `k` fits the type. -/
theorem C32_unsigned (bits : Nat) (x : JsonNumber) (hx : ParsedNumber x) :
    ∃ n : NumLit, n.Valid ∧ NumDenotes x n
      ∧ ∀ k, x.asUnsigned bits = some k ↔ n.IsInteger ∧ n.minus = false ∧ digitsValue n.int = k ∧ k < 2 ^ bits := by
  obtain ⟨n, hn, hd⟩ := parsed_number hx
  refine ⟨n, hn, hd, fun k => ?_⟩
  unfold JsonNumber.asUnsigned
  rw [source_chars hn hd, bytes_sign]
  obtain ⟨d, t, ht, hdig⟩ := tail_head hn
  have hpow : 1 ≤ 2 ^ bits := Nat.one_le_two_pow
  cases hm : n.minus with
  | true =>
    have : parseUnsigned bits (dchars ([0x2D] ++ tailBytes n)) = none := by
      rw [ht]
      show parseUnsigned bits ('-' :: dchars (d :: t)) = none
      rw [parseUnsigned, if_neg (by simp [dchars]), if_neg (by decide)]
      exact posDigits_bad ⟨'-', by simp, by decide⟩ _
    simp only [if_true]
    rw [this]
    simp
  | false =>
    obtain ⟨_, _, hp, hm', _⟩ := digit_char hdig
    have : parseUnsigned bits (dchars (tailBytes n)) = posDigits (2 ^ bits - 1) (dchars (tailBytes n)) 0 := by
      rw [ht]
      show parseUnsigned bits (byteChar d :: dchars t) = _
      rw [parseUnsigned, if_neg (fun h => h.1.elim hp hm'), if_neg hp]
      rfl
    simp only [Bool.false_eq_true, if_false, List.nil_append, true_and]
    rw [this, pos_tail _ hn]
    constructor
    · rintro ⟨h1, h2, h3⟩; exact ⟨h1, h2, by omega⟩
    · rintro ⟨h1, h2, h3⟩; exact ⟨h1, h2, by omega⟩

/-- **C32.** The signed accessors: `Some(k)` if and only if the literal is an integer whose value `k` fits the type. -/
theorem C32_signed (bits : Nat) (x : JsonNumber) (hx : ParsedNumber x) :
    ∃ n : NumLit, n.Valid ∧ NumDenotes x n
      ∧ ∀ k : Int, x.asSigned bits = some k ↔ n.IsInteger ∧ n.intValue = k ∧ -(2 ^ (bits - 1) : Int) ≤ k ∧ k < 2 ^ (bits - 1) := by
  obtain ⟨n, hn, hd⟩ := parsed_number hx
  refine ⟨n, hn, hd, fun k => ?_⟩
  unfold JsonNumber.asSigned NumLit.intValue
  rw [source_chars hn hd, bytes_sign]
  obtain ⟨d, t, ht, hdig⟩ := tail_head hn
  have hpow : 1 ≤ 2 ^ (bits - 1) := Nat.one_le_two_pow
  have hcast : ((2 : Int) ^ (bits - 1)) = ((2 ^ (bits - 1) : Nat) : Int) := by push_cast; rfl
  rw [hcast]
  cases hm : n.minus with
  | true =>
    have : parseSigned bits (dchars ([0x2D] ++ tailBytes n)) = negDigits (-((2 ^ (bits - 1) : Nat) : Int)) (dchars (tailBytes n)) 0 := by
      rw [ht]
      show parseSigned bits ('-' :: dchars (d :: t)) = _
      rw [parseSigned, if_neg (by simp [dchars]), if_neg (by decide), if_pos rfl]
    simp only [if_true]
    rw [this, neg_tail _ hn]
    generalize 2 ^ (bits - 1) = M at hpow ⊢
    constructor
    · rintro ⟨h1, h2, h3⟩; exact ⟨h1, h2, h3, by omega⟩
    · rintro ⟨h1, h2, h3, _⟩; exact ⟨h1, h2, h3⟩
  | false =>
    obtain ⟨_, _, hp, hm', _⟩ := digit_char hdig
    have : parseSigned bits (dchars (tailBytes n)) = (posDigits (2 ^ (bits - 1) - 1) (dchars (tailBytes n)) 0).map Int.ofNat := by
      rw [ht]
      show parseSigned bits (byteChar d :: dchars t) = _
      rw [parseSigned, if_neg (fun h => h.1.elim hp hm'), if_neg hp, if_neg hm']
      rfl
    simp only [Bool.false_eq_true, if_false, List.nil_append]
    rw [this, Option.map_eq_some_iff]
    have key := pos_tail (2 ^ (bits - 1) - 1) hn
    generalize 2 ^ (bits - 1) = M at hpow key ⊢
    constructor
    · rintro ⟨a, h1, h2⟩
      obtain ⟨h3, h4, h5⟩ := (key a).mp h1
      subst h2
      exact ⟨h3, by rw [h4]; rfl, by show -(M : Int) ≤ (a : Int); omega, by show (a : Int) < M; omega⟩
    · rintro ⟨h1, h2, h3, h4⟩
      exact ⟨digitsValue n.int, (key _).mpr ⟨h1, rfl, by omega⟩, h2⟩

/-- **C32.** On a `Value` the accessors are those of the number it is; `None` if it is no number. -/
theorem C32_value (bits : Nat) (v : Value) :
    (∀ x, v = .number x → v.asUnsigned bits = x.asUnsigned bits ∧ v.asSigned bits = x.asSigned bits)
    ∧ ((∀ x, v ≠ .number x) → v.asUnsigned bits = none ∧ v.asSigned bits = none) := by
  constructor
  · rintro x rfl; exact ⟨rfl, rfl⟩
  · intro h
    cases v with
    | number x => exact absurd rfl (h x)
    | _ => exact ⟨rfl, rfl⟩

/-- **C32.** The accessors agree: what fits a type is the same number by every wider type, signed or not, and of a positive
number by the unsigned type of the same width. -/
theorem C32_agree (x : JsonNumber) (hx : ParsedNumber x) (bits bits' : Nat) :
    (∀ k, x.asUnsigned bits = some k → bits ≤ bits' → x.asUnsigned bits' = some k)
    ∧ (∀ k, x.asSigned bits = some k → bits ≤ bits' → x.asSigned bits' = some k)
    ∧ (∀ k, x.asUnsigned bits = some k → bits < bits' → x.asSigned bits' = some (k : Int))
    ∧ (∀ k : Nat, 0 < k → x.asSigned bits = some (k : Int) → x.asUnsigned bits = some k)
    ∧ (∀ k : Int, x.asSigned bits = some k → k < 0 → x.asUnsigned bits' = none) := by
  obtain ⟨n, hn, hd, hu⟩ := C32_unsigned bits x hx
  obtain ⟨n1, hn1, hd1, hu'⟩ := C32_unsigned bits' x hx
  obtain ⟨n2, hn2, hd2, hs⟩ := C32_signed bits x hx
  obtain ⟨n3, hn3, hd3, hs'⟩ := C32_signed bits' x hx
  obtain rfl := num_inj hn1 hn (hd1.symm.trans hd)
  obtain rfl := num_inj hn2 hn (hd2.symm.trans hd)
  obtain rfl := num_inj hn3 hn (hd3.symm.trans hd)
  refine ⟨fun k h hb => ?_, fun k h hb => ?_, fun k h hb => ?_, fun k hk h => ?_, fun k h hk => ?_⟩
  · obtain ⟨h1, h2, h3, h4⟩ := (hu k).mp h
    exact (hu' k).mpr ⟨h1, h2, h3, Nat.lt_of_lt_of_le h4 (Nat.pow_le_pow_right (by omega) hb)⟩
  · obtain ⟨h1, h2, h3, h4⟩ := (hs k).mp h
    have := Nat.pow_le_pow_right (n := 2) (by omega) (Nat.sub_le_sub_right hb 1)
    have : (2 ^ (bits - 1) : Int) ≤ 2 ^ (bits' - 1) := by exact_mod_cast this
    exact (hs' k).mpr ⟨h1, h2, by omega, by omega⟩
  · obtain ⟨h1, h2, h3, h4⟩ := (hu k).mp h
    have := Nat.pow_le_pow_right (n := 2) (by omega) (show bits ≤ bits' - 1 by omega)
    have : (2 ^ bits : Int) ≤ 2 ^ (bits' - 1) := by exact_mod_cast this
    have h5 : (k : Int) < 2 ^ bits := by exact_mod_cast h4
    have h6 : (0 : Int) ≤ 2 ^ (bits' - 1) := by exact_mod_cast Nat.zero_le _
    refine (hs' k).mpr ⟨h1, ?_, by omega, by omega⟩
    unfold NumLit.intValue
    rw [h2, h3]
    rfl
  · obtain ⟨h1, h2, h3, h4⟩ := (hs k).mp h
    have h5 : k < 2 ^ (bits - 1) := by exact_mod_cast h4
    have := Nat.pow_le_pow_right (n := 2) (by omega) (Nat.sub_le bits 1)
    unfold NumLit.intValue at h2
    cases hm : n3.minus with
    | true => rw [hm] at h2; simp only [if_true] at h2; omega
    | false => rw [hm] at h2; simp only [Bool.false_eq_true, if_false] at h2; exact (hu k).mpr ⟨h1, hm, by omega, by omega⟩
  · obtain ⟨h1, h2, h3, h4⟩ := (hs k).mp h
    cases hc : x.asUnsigned bits' with
    | none => rfl
    | some m =>
      obtain ⟨_, h5, _, _⟩ := (hu' m).mp hc
      unfold NumLit.intValue at h2
      rw [h5] at h2
      simp only [Bool.false_eq_true, if_false] at h2
      omega

/-- `-0` is an integer of the signed types and none of the unsigned ones. -/
example : (JsonNumber.mk (.borrowed "-0".toList)).asSigned 8 = some 0 ∧ (JsonNumber.mk (.borrowed "-0".toList)).asUnsigned 8 = none
    ∧ (JsonNumber.mk (.borrowed "200".toList)).asUnsigned 8 = some 200 ∧ (JsonNumber.mk (.borrowed "200".toList)).asSigned 8 = none
    ∧ (JsonNumber.mk (.borrowed "200".toList)).asSigned 16 = some 200 := by decide +kernel

/-! ## C45 -/

theorem skip_digits {ds : List UInt8} (h : ∀ b ∈ ds, IsDigit b) {r : Str} (hr : ∀ c t, r = c :: t → isDigitChar c = false) :
    skipDigits (dchars ds ++ r) = r := by
  induction ds with
  | nil =>
    show skipDigits r = r
    cases r with
    | nil => rfl
    | cons c t => rw [skipDigits, hr c t rfl]; rfl
  | cons b ds ih =>
    show skipDigits (byteChar b :: (dchars ds ++ r)) = r
    have : isDigitChar (byteChar b) = true := by unfold isDigitChar; rw [(digit_char (h b (by simp))).2.1]; rfl
    rw [skipDigits, this, if_pos rfl]
    exact ih (fun x hx => h x (by simp [hx]))

theorem digits_head {ds : List UInt8} (h : Digits ds) : ∃ c t, dchars ds = c :: t ∧ isDigitChar c = true ∧ c ≠ '+' ∧ c ≠ '-' := by
  obtain ⟨h0, h1⟩ := h
  cases ds with
  | nil => exact absurd rfl h0
  | cons b ds =>
    obtain ⟨_, h2, h3, h4, _⟩ := digit_char (h1 b (by simp))
    exact ⟨_, _, rfl, by unfold isDigitChar; rw [h2]; rfl, h3, h4⟩

/-- the digits of bytes -/
abbrev dvals (ds : List UInt8) : List Nat := ds.map fun b => b.toNat - 48

theorem run_digits {ds : List UInt8} (h : ∀ b ∈ ds, IsDigit b) {r : Str} (hr : ∀ c t, r = c :: t → isDigitChar c = false) :
    digitRun (dchars ds ++ r) = dvals ds := by
  induction ds with
  | nil =>
    show digitRun r = []
    cases r with
    | nil => rfl
    | cons c t =>
      have := hr c t rfl
      unfold isDigitChar at this
      rw [digitRun]
      cases hd : toDigit10 c with
      | none => rfl
      | some d => rw [hd] at this; cases this
  | cons b ds ih =>
    show digitRun (byteChar b :: (dchars ds ++ r)) = _
    rw [digitRun, (digit_char (h b (by simp))).2.1]
    simp only []
    rw [ih (fun x hx => h x (by simp [hx]))]
    rfl

/-- the exponent as core reads it -/
def cutExp : Option (UInt8 × Option UInt8 × List UInt8) → Int
  | none => 0
  | some (_, s, ds) => if s = some 0x2D then -(readExponent (dvals ds) : Int) else readExponent (dvals ds)

theorem float_exp {x : UInt8} {s : Option UInt8} {ds : List UInt8} (hs : ∀ c, s = some c → c = 0x2B ∨ c = 0x2D) (hd : Digits ds) :
    floatExp (dchars (s.toList ++ ds)) = some (cutExp (some (x, s, ds))) := by
  obtain ⟨c, t, h1, h2, h3, h4⟩ := digits_head hd
  have hskip : skipDigits (dchars ds) = [] := by
    have := skip_digits hd.2 (r := []) (fun c t h => by cases h)
    simpa using this
  have hrun : digitRun (dchars ds) = dvals ds := by
    have := run_digits hd.2 (r := []) (fun c t h => by cases h)
    simpa using this
  have hne : (dvals ds).isEmpty = false := by
    obtain ⟨h0, _⟩ := hd
    cases ds with
    | nil => exact absurd rfl h0
    | cons b ds => rfl
  unfold floatExp
  cases s with
  | none =>
    have e : dchars (Option.toList (none : Option UInt8) ++ ds) = dchars ds := rfl
    rw [e, h1]
    simp only [h3, h4, or_self, if_false]
    rw [← h1, hskip, hrun, hne]
    rfl
  | some b =>
    have e : dchars (Option.toList (some b) ++ ds) = byteChar b :: dchars ds := rfl
    rw [e]
    rcases hs b rfl with rfl | rfl
    · have h5 : byteChar 0x2B = '+' := by decide
      rw [h5]
      simp only [true_or, if_true]
      rw [hskip, hrun, hne]
      rfl
    · have h5 : byteChar 0x2D = '-' := by decide
      rw [h5]
      simp only [or_true, if_true]
      rw [hskip, hrun, hne]
      rfl

theorem float_tail {e : Option (UInt8 × Option UInt8 × List UInt8)}
    (h : ∀ x s ds, e = some (x, s, ds) → (x = 0x65 ∨ x = 0x45) ∧ (∀ c, s = some c → c = 0x2B ∨ c = 0x2D) ∧ Digits ds) :
    floatTail (dchars (expBytes e)) = some (cutExp e) ∧ ∀ c t, dchars (expBytes e) = c :: t → isDigitChar c = false ∧ c ≠ '.' := by
  cases e with
  | none => exact ⟨rfl, fun c t h => by cases h⟩
  | some q =>
    obtain ⟨x, s, ds⟩ := q
    obtain ⟨h1, h2, h3⟩ := h x s ds rfl
    have hc : byteChar x = 'e' ∨ byteChar x = 'E' := by rcases h1 with rfl | rfl <;> decide
    refine ⟨?_, ?_⟩
    · show floatTail (byteChar x :: dchars (s.toList ++ ds)) = _
      rw [floatTail, if_pos hc]
      exact float_exp h2 h3
    · intro c t h
      injection h with h _
      rw [← h]
      rcases hc with h | h <;> rw [h] <;> decide

theorem float_body {n : NumLit} (hn : n.Valid) : floatBody (dchars (tailBytes n))
    = some (readMantissa (dvals (n.int ++ n.fraction)), cutExp n.exp - n.fraction.length) := by
  obtain ⟨⟨h0, h1⟩, hf, he⟩ := hn
  obtain ⟨t1, t2⟩ := float_tail he
  have hlen : (dvals n.int).length ≠ 0 := by
    rw [List.length_map]
    exact Nat.ne_of_gt (List.length_pos_iff.mpr h0.1)
  unfold floatBody NumLit.fraction
  cases hfr : n.frac with
  | none =>
    have e : dchars (tailBytes n) = dchars n.int ++ dchars (expBytes n.exp) := by
      unfold tailBytes; rw [hfr]; simp [fracBytes]
    rw [e, skip_digits h0.2 (fun c t h => (t2 c t h).1), run_digits h0.2 (fun c t h => (t2 c t h).1)]
    simp only [Option.getD_none, List.append_nil, List.length_nil]
    cases hx : dchars (expBytes n.exp) with
    | nil =>
      rw [hx] at t1
      simp only [if_neg hlen]
      injection t1 with t1
      rw [← t1]
      rfl
    | cons c t =>
      have := (t2 c t hx).2
      simp only [if_neg this, if_neg hlen]
      rw [← hx, t1]
      rw [Option.map_some]
      congr 2
      show _ = cutExp n.exp - 0
      omega
  | some ds =>
    have hd := hf ds hfr
    have e : dchars (tailBytes n) = dchars n.int ++ ('.' :: (dchars ds ++ dchars (expBytes n.exp))) := by
      unfold tailBytes; rw [hfr]; simp [fracBytes]; decide
    rw [e, skip_digits h0.2 (fun c t h => by injection h with h _; rw [← h]; decide),
      run_digits h0.2 (fun c t h => by injection h with h _; rw [← h]; decide)]
    simp only [if_true, Option.getD_some]
    rw [skip_digits hd.2 (fun c t h => (t2 c t h).1), run_digits hd.2 (fun c t h => (t2 c t h).1)]
    rw [if_neg (by omega), t1, Option.map_some]
    simp [dvals]

/-- what core reads of a literal -/
theorem float_read {n : NumLit} (hn : n.Valid) : floatSyntax (dchars n.bytes)
    = some (n.minus, readMantissa (dvals (n.int ++ n.fraction)), cutExp n.exp - n.fraction.length) := by
  rw [bytes_sign]
  have hb := float_body hn
  obtain ⟨d, t, ht, hdig⟩ := tail_head hn
  cases hm : n.minus with
  | true =>
    show floatSyntax ('-' :: dchars (tailBytes n)) = _
    rw [floatSyntax, if_pos (.inr rfl), hb]
    rfl
  | false =>
    obtain ⟨_, _, hp, hm', _⟩ := digit_char hdig
    show floatSyntax (dchars (tailBytes n)) = _
    rw [ht] at hb ⊢
    show floatSyntax (byteChar d :: dchars t) = _
    rw [floatSyntax, if_neg (fun h => h.elim hp hm')]
    have hb : floatBody (byteChar d :: dchars t) = _ := hb
    rw [hb]
    rfl

/-- **C45.** `as_f32` and `as_f64` of a number are never `None`. -/
theorem C45_float_some (f : FloatFormat) (x : JsonNumber) (hx : ParsedNumber x) : (x.asFloat f).isSome = true := by
  obtain ⟨n, hn, hd⟩ := parsed_number hx
  unfold JsonNumber.asFloat
  rw [source_chars hn hd, float_read hn]
  rfl

/-- **C45.** On a `Value`: `Some` if and only if it is a number. -/
theorem C45_value (f : FloatFormat) (v : Value) (hv : ∀ x ∈ v.numbers, ParsedNumber x) :
    (v.asFloat f).isSome = true ↔ ∃ x, v = .number x := by
  cases v with
  | number x => exact ⟨fun _ => ⟨x, rfl⟩, fun _ => C45_float_some f x (hv x (by simp [Value.numbers]))⟩
  | _ => exact ⟨(fun h => by cases h), (fun h => by obtain ⟨x, h⟩ := h; cases h)⟩

end

/-! ## Concrete cases -/

section
attribute [local instance] arch64

theorem num_parsed (s : String) (x : JsonNumber) (h : SliceFits (b8 s) ∧ (JsonNumber.fromJson s.toList).value? = some x) : ParsedNumber x :=
  .single _ _ h.1 (Outcome.value_eq h.2)

-- C32: range ends, negative zero, fraction and exponent; each number is a parsed one
example : ParsedNumber ⟨.borrowed "-128".toList⟩ := num_parsed "-128" _ (by unfold SliceFits; decide +kernel)
example : (JsonNumber.mk (.borrowed "-128".toList)).asSigned 8 = some (-128) := by decide +kernel
example : (JsonNumber.mk (.borrowed "-129".toList)).asSigned 8 = none := by decide +kernel
example : (JsonNumber.mk (.borrowed "128".toList)).asSigned 8 = none := by decide +kernel
example : (JsonNumber.mk (.borrowed "255".toList)).asUnsigned 8 = some 255 := by decide +kernel
example : (JsonNumber.mk (.borrowed "256".toList)).asUnsigned 8 = none := by decide +kernel
example : (JsonNumber.mk (.borrowed "-0".toList)).asUnsigned 8 = none := by decide +kernel
example : (JsonNumber.mk (.borrowed "-0".toList)).asSigned 8 = some 0 := by decide +kernel
example : (JsonNumber.mk (.borrowed "1e2".toList)).asUnsigned 64 = none := by decide +kernel
example : (JsonNumber.mk (.borrowed "1.0".toList)).asSigned 64 = none := by decide +kernel
-- C45
example : ParsedNumber ⟨.borrowed "-1.5E+3000".toList⟩ := num_parsed " -1.5E+3000 " _ (by unfold SliceFits; decide +kernel)
example : (JsonNumber.mk (.borrowed "-1.5E+3000".toList)).asFloat f64 = some ⟨true, f64.infinity⟩ := by decide +kernel
example : (floatSyntax "1.".toList).isSome = true ∧ floatSyntax "1e".toList = none ∧ floatSyntax "-".toList = none := by decide +kernel

end

/-! ## Instances: each theorem above applied to a concrete case that meets its hypotheses -/
section Instances
attribute [local instance] arch64

theorem numEx_parsed : ParsedNumber ⟨.borrowed "-128".toList⟩ := num_parsed "-128" _ (by unfold SliceFits; decide +kernel)
theorem numEx_parsed2 : ParsedNumber ⟨.borrowed "-1.5E+3000".toList⟩ := num_parsed " -1.5E+3000 " _ (by unfold SliceFits; decide +kernel)
example := C32_unsigned 8 _ numEx_parsed
example := C32_signed 8 _ numEx_parsed
example := C32_value 8 exVal
example := C32_agree _ numEx_parsed 8 16
example := C45_float_some f64 _ numEx_parsed2
example := C45_value f32 exVal (fun x hx => .inValue true exSrc .new exVal x (exSrc_input _) (exSrc_parses _) hx)

end Instances
end JustJson
