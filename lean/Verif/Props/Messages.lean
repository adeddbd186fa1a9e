import Verif.Model.Display
import Verif.Lemmas.Output
/-! # What a printed error tells: C60 -/

namespace JustJson
open Spec

/-- The kinds of number errors for a missing digit: after the point and after the sign. -/
def ErrorKind.MissingDigit {δ : Type} (k : ErrorKind δ) : Prop := k = .expectedDecimalDigit ∨ k = .expectedDigit

theorem showNat_inj {a b : Nat} (h : showNat a = showNat b) : a = b := by
  have h1 := Nat.ofDigitChars_toDigits (b := 10) (n := a) (by decide) (by decide)
  have h2 := Nat.ofDigitChars_toDigits (b := 10) (n := b) (by decide) (by decide)
  unfold showNat at h
  rw [← h1, ← h2, h]

/-- digits up to a character that is no digit -/
theorem digits_split : ∀ {p q : Str} {x y : Char} {r t : Str}, (∀ c ∈ p, c.isDigit) → (∀ c ∈ q, c.isDigit) →
    x.isDigit = false → y.isDigit = false → p ++ x :: r = q ++ y :: t → p = q ∧ x :: r = y :: t
  | [], [], _, _, _, _, _, _, _, _, h => ⟨rfl, h⟩
  | [], c :: q, x, y, r, t, _, hq, hx, _, h => by
    simp only [List.nil_append, List.cons_append, List.cons.injEq] at h
    have := hq c (by simp)
    rw [← h.1, hx] at this
    cases this
  | c :: p, [], x, y, r, t, hp, _, _, hy, h => by
    simp only [List.nil_append, List.cons_append, List.cons.injEq] at h
    have := hp c (by simp)
    rw [h.1, hy] at this
    cases this
  | c :: p, d :: q, x, y, r, t, hp, hq, hx, hy, h => by
    simp only [List.cons_append, List.cons.injEq] at h
    obtain ⟨h1, h2⟩ := digits_split (fun c hc => hp c (by simp [hc])) (fun c hc => hq c (by simp [hc])) hx hy h.2
    exact ⟨by rw [h.1, h1], h2⟩

theorem showNat_digits (n : Nat) : ∀ c ∈ showNat n, c.isDigit :=
  fun _ hc => Nat.isDigit_of_mem_toDigits (by decide) (by decide) hc

/-- the beginnings of the texts, in the order of the kinds -/
def kindTexts : List Str :=
  ["invalid utf-8".toList, "unexpected end of file".toList, "expected object key".toList, "expected colon (':')".toList,
    "expected value".toList, "expected comma or end of object".toList, "expected comma or end of array".toList,
    "trailing commas are not allowed".toList, "unexpected character: '".toList,
    "trailing non-whitespace data was encountered".toList, "object keys must be strings".toList,
    "expected exponent sign or digit for number literal".toList, "expected decimal digit for number literal".toList,
    "invalid hexadecimal in unicode escape sequence".toList, "invalid escaped character".toList,
    "expected end of object ('}}')".toList, "expected end of array (']')".toList, "expected end of string ('\"')".toList,
    "expected a string".toList, "expected a number".toList, "the recursion limit has been reached".toList,
    "JSON only allows objects or arrays at the root".toList,
    "the payload is too large to be parsed into the destination structure".toList, "error from delegate: ".toList]

/-- the number of the text that `s` is, or begins with -/
def textNum (s : Str) : Nat :=
  if s.take 21 = "error from delegate: ".toList then 23
  else if s.take 23 = "unexpected character: '".toList then 8
  else kindTexts.findIdx (· = s)

/-- the number of the beginning -/
def ErrorKind.num {δ : Type} : ErrorKind δ → Nat
  | .utf8 => 0 | .unexpectedEof => 1 | .expectedObjectKey => 2 | .expectedColon => 3 | .expectedValue => 4
  | .expectedCommaOrEndOfObject => 5 | .expectedCommaOrEndOfArray => 6 | .illegalTrailingComma => 7 | .unexpected _ => 8
  | .trailingNonWhitespace => 9 | .objectKeysMustBeStrings => 10 | .expectedExponent => 11 | .expectedDecimalDigit => 12
  | .expectedDigit => 12 | .invalidHexadecimal => 13 | .invalidEscape => 14 | .unclosedObject => 15 | .unclosedArray => 16
  | .unclosedString => 17 | .expectedString => 18 | .expectedNumber => 19 | .recursionLimitReached => 20
  | .payloadsShouldBeObjectOrArray => 21 | .paylodTooLarge => 22 | .errorFromDelegate _ => 23

theorem textNum_delegate {x : Str} : textNum ("error from delegate: ".toList ++ x) = 23 := by
  unfold textNum
  exact if_pos ((List.take_append_of_le_length (by decide +kernel)).trans (by decide +kernel))

theorem textNum_unexpected {x : Str} : textNum ("unexpected character: '".toList ++ x) = 8 := by
  unfold textNum
  have h1 : ("unexpected character: '".toList ++ x).take 21 = "unexpected character:".toList :=
    (List.take_append_of_le_length (by decide +kernel)).trans (by decide +kernel)
  rw [h1, if_neg (by decide +kernel)]
  exact if_pos ((List.take_append_of_le_length (by decide +kernel)).trans (by decide +kernel))

theorem kind_num {δ : Type} (shown : δ → Str) (k : ErrorKind δ) : textNum (k.display shown) = k.num := by
  cases k with
  | unexpected b => exact textNum_unexpected
  | errorFromDelegate e => exact textNum_delegate
  | utf8 => exact (by decide +kernel : textNum "invalid utf-8".toList = 0)
  | unexpectedEof => exact (by decide +kernel : textNum "unexpected end of file".toList = 1)
  | expectedObjectKey => exact (by decide +kernel : textNum "expected object key".toList = 2)
  | expectedColon => exact (by decide +kernel : textNum "expected colon (':')".toList = 3)
  | expectedValue => exact (by decide +kernel : textNum "expected value".toList = 4)
  | expectedCommaOrEndOfObject => exact (by decide +kernel : textNum "expected comma or end of object".toList = 5)
  | expectedCommaOrEndOfArray => exact (by decide +kernel : textNum "expected comma or end of array".toList = 6)
  | illegalTrailingComma => exact (by decide +kernel : textNum "trailing commas are not allowed".toList = 7)
  | trailingNonWhitespace => exact (by decide +kernel : textNum "trailing non-whitespace data was encountered".toList = 9)
  | objectKeysMustBeStrings => exact (by decide +kernel : textNum "object keys must be strings".toList = 10)
  | expectedExponent => exact (by decide +kernel : textNum "expected exponent sign or digit for number literal".toList = 11)
  | expectedDecimalDigit => exact (by decide +kernel : textNum "expected decimal digit for number literal".toList = 12)
  | expectedDigit => exact (by decide +kernel : textNum "expected decimal digit for number literal".toList = 12)
  | invalidHexadecimal => exact (by decide +kernel : textNum "invalid hexadecimal in unicode escape sequence".toList = 13)
  | invalidEscape => exact (by decide +kernel : textNum "invalid escaped character".toList = 14)
  | unclosedObject => exact (by decide +kernel : textNum "expected end of object ('}}')".toList = 15)
  | unclosedArray => exact (by decide +kernel : textNum "expected end of array (']')".toList = 16)
  | unclosedString => exact (by decide +kernel : textNum "expected end of string ('\"')".toList = 17)
  | expectedString => exact (by decide +kernel : textNum "expected a string".toList = 18)
  | expectedNumber => exact (by decide +kernel : textNum "expected a number".toList = 19)
  | recursionLimitReached => exact (by decide +kernel : textNum "the recursion limit has been reached".toList = 20)
  | payloadsShouldBeObjectOrArray => exact (by decide +kernel : textNum "JSON only allows objects or arrays at the root".toList = 21)
  | paylodTooLarge => exact (by decide +kernel : textNum "the payload is too large to be parsed into the destination structure".toList = 22)

/-- the texts of two kinds agree only if the kinds do, up to the two kinds for a missing digit -/
theorem kind_display_inj {δ : Type} {shown : δ → Str} (hs : ∀ a b, shown a = shown b → a = b) {k l : ErrorKind δ}
    (h : k.display shown = l.display shown) : k = l ∨ (k.MissingDigit ∧ l.MissingDigit) := by
  have hn : k.num = l.num := by rw [← kind_num shown, ← kind_num shown, h]
  have hb : Nat.beq k.num l.num = true := by rw [hn]; exact Nat.beq_refl _
  clear hn
  cases k <;> cases l <;> first
    | exact .inl rfl
    | exact .inr ⟨.inl rfl, .inr rfl⟩
    | exact .inr ⟨.inr rfl, .inl rfl⟩
    | exact Bool.noConfusion hb
    | skip
  · rename_i a b
    have h1 : showNat a.toNat ++ "'".toList = showNat b.toNat ++ "'".toList := List.append_cancel_left h
    exact .inl (congrArg _ (UInt8.toNat_inj.mp (showNat_inj (List.append_cancel_right h1))))
  · rename_i a b
    have h1 : shown a = shown b := List.append_cancel_left h
    exact .inl (congrArg _ (hs a b h1))

/-- **C60, the full claim**: what an error prints determines its position and its kind. -/
def C60_full [Arch] : Prop :=
  ∀ (s t : Str) (a b : Error Empty), Value.fromJson s = .err a → Value.fromJson t = .err b →
    a.display Empty.elim = b.display Empty.elim → a = b

/-- **C60, partial** (the full claim is false, see `C60_refuted`): two errors, from whatever source, print the same exactly
when they have the same position and the same kind, or both say that a digit is missing in a number. Missing: those two
kinds are printed alike. `shown` is the delegate's own `Display`. -/
theorem C60_messages_partial {δ : Type} (shown : δ → Str) (hs : ∀ a b, shown a = shown b → a = b) (a b : Error δ) :
    a.display shown = b.display shown
      ↔ a.offset = b.offset ∧ (a.kind = b.kind ∨ (a.kind.MissingDigit ∧ b.kind.MissingDigit)) := by
  constructor
  · intro h
    unfold Error.display at h
    rw [List.append_cancel_left_eq] at h
    obtain ⟨h1, h2⟩ := digits_split (showNat_digits _) (showNat_digits _) (by decide) (by decide) h
    refine ⟨showNat_inj h1, kind_display_inj hs ?_⟩
    exact List.append_cancel_left (as := ": ".toList) h2
  · rintro ⟨h1, h2⟩
    have : a.kind.display shown = b.kind.display shown := by
      rcases h2 with h2 | ⟨h2, h3⟩
      · rw [h2]
      · rcases h2 with h2 | h2 <;> rcases h3 with h3 | h3 <;> rw [h2, h3] <;> rfl
    unfold Error.display
    rw [h1, this]

/-- the error of a failed call -/
def Outcome.err? {ε α : Type} : Outcome ε α → Option ε
  | .err e => some e
  | _ => none

theorem Outcome.err?_eq {ε α : Type} {o : Outcome ε α} {e : ε} (h : o.err? = some e) : o = .err e := by
  cases o with
  | err x => simp only [Outcome.err?, Option.some.injEq] at h; rw [h]
  | _ => cases h

/-- `[1.x` and `[ -x` fail differently and print the same. -/
theorem C60_refuted [a : Arch] : ¬ C60_full := by
  intro h
  have h1 : (Value.fromJson ['[', '1', '.', 'x']).err? = some ⟨3, .expectedDecimalDigit⟩ := by
    obtain ⟨b, hb⟩ := a
    rcases hb with rfl | rfl <;> decide +kernel
  have h2 : (Value.fromJson ['[', ' ', '-', 'x']).err? = some ⟨3, .expectedDigit⟩ := by
    obtain ⟨b, hb⟩ := a
    rcases hb with rfl | rfl <;> decide +kernel
  have h3 := h _ _ _ _ (Outcome.err?_eq h1) (Outcome.err?_eq h2)
    ((C60_messages_partial Empty.elim (fun a => a.elim) _ _).mpr ⟨rfl, .inr ⟨.inl rfl, .inr rfl⟩⟩)
  cases h3

/-- The number that decimal digits denote, most significant first. -/
def Spec.decimal (ds : Str) : Nat := ds.foldl (fun n c => 10 * n + (c.toNat - '0'.toNat)) 0

/-- `ds` is `n` in decimal as people write it: digits that denote `n`, with no superfluous zero in front. -/
def Spec.IsDecimal (ds : Str) (n : Nat) : Prop :=
  ds ≠ [] ∧ (∀ c ∈ ds, '0' ≤ c ∧ c ≤ '9') ∧ Spec.decimal ds = n ∧ (ds.head? = some '0' → ds = ['0'])

theorem decimal_eq (ds : Str) : ∀ n, ds.foldl (fun n c => 10 * n + (c.toNat - '0'.toNat)) n = Nat.ofDigitChars 10 ds n := by
  intro n; rfl

theorem toDigits_head0 : ∀ n : Nat, (Nat.toDigits 10 n).head? = some '0' → n = 0 := by
  intro n
  induction n using Nat.strongRecOn with
  | _ n ih =>
    intro h
    by_cases hn : n < 10
    · rw [Nat.toDigits_of_lt_base hn] at h
      simp only [List.head?_cons, Option.some.injEq] at h
      have : ∀ k : Fin 10, Nat.digitChar k.val = '0' → k.val = 0 := by decide
      exact this ⟨n, hn⟩ h
    · rw [Nat.toDigits_of_base_le (by decide) (by omega)] at h
      have hne : Nat.toDigits 10 (n / 10) ≠ [] := Nat.toDigits_ne_nil
      have h' : (Nat.toDigits 10 (n / 10)).head? = some '0' := by
        cases hd : Nat.toDigits 10 (n / 10) with
        | nil => exact absurd hd hne
        | cons x xs => rw [hd] at h; exact h
      have := ih (n / 10) (by omega) h'
      omega

theorem showNat_isDecimal (n : Nat) : Spec.IsDecimal (showNat n) n := by
  refine ⟨Nat.toDigits_ne_nil, ?_, ?_, ?_⟩
  · intro c hc
    have := showNat_digits n c hc
    simpa [Char.isDigit, Char.le_def] using this
  · exact (decimal_eq _ 0).trans (Nat.ofDigitChars_toDigits (by decide) (by decide))
  · intro h
    have := toDigits_head0 n h
    subst this
    decide

/-- **C60**: every message begins with the position: `error at `, the offset in decimal, a colon and a space; and after that
an unexpected byte is named by its value in decimal. -/
theorem C60_position_and_byte {δ : Type} (shown : δ → Str) (e : Error δ) :
    (∃ ds rest, e.display shown = "error at ".toList ++ ds ++ ": ".toList ++ rest ∧ Spec.IsDecimal ds e.offset)
    ∧ (∀ b, e.kind = .unexpected b → ∃ ds bs, e.display shown
        = "error at ".toList ++ ds ++ ": unexpected character: '".toList ++ bs ++ "'".toList
          ∧ Spec.IsDecimal ds e.offset ∧ Spec.IsDecimal bs b.toNat)
    ∧ (∀ d, e.kind = .errorFromDelegate d → ∃ ds, e.display shown
        = "error at ".toList ++ ds ++ ": error from delegate: ".toList ++ shown d ∧ Spec.IsDecimal ds e.offset) := by
  have hm : ∀ a d c r : Str, a ++ (d ++ (c ++ r)) = a ++ d ++ c ++ r := fun a d c r => by
    rw [List.append_assoc, List.append_assoc]
  refine ⟨⟨showNat e.offset, e.kind.display shown, hm _ _ _ _, showNat_isDecimal _⟩, ?_, ?_⟩
  · intro b hb
    refine ⟨showNat e.offset, showNat b.toNat, ?_, showNat_isDecimal _, showNat_isDecimal _⟩
    have hs : ": unexpected character: '".toList = ": ".toList ++ "unexpected character: '".toList := by decide +kernel
    have hg : ∀ a d c u v w : Str, a ++ (d ++ (c ++ (u ++ (v ++ w)))) = a ++ d ++ (c ++ u) ++ v ++ w := fun a d c u v w => by
      simp only [List.append_assoc]
    obtain ⟨off, k⟩ := e
    change k = _ at hb
    subst hb
    rw [hs]
    exact hg _ _ _ _ _ _
  · intro d hd
    refine ⟨showNat e.offset, ?_, showNat_isDecimal _⟩
    have hs : ": error from delegate: ".toList = ": ".toList ++ "error from delegate: ".toList := by decide +kernel
    have hg : ∀ a d c u v : Str, a ++ (d ++ (c ++ (u ++ v))) = a ++ d ++ (c ++ u) ++ v := fun a d c u v => by
      simp only [List.append_assoc]
    obtain ⟨off, k⟩ := e
    change k = _ at hd
    subst hd
    rw [hs]
    exact hg _ _ _ _ _

section Examples
attribute [local instance] arch64

-- what a failed parse prints
example : (Value.fromJson "[true,\n  fal}".toList).err?.map (fun e => e.display Empty.elim)
    = some "error at 12: unexpected character: '125'".toList := by decide +kernel
example : (Value.fromJson "{\"a\" 1}".toList).err?.map (fun e => e.display Empty.elim)
    = some "error at 4: expected colon (':')".toList := by decide +kernel

end Examples

/-! ## Instances: each theorem above applied to a concrete case that meets its hypotheses -/
section Instances
attribute [local instance] arch64

example := C60_messages_partial (δ := Str) id (fun _ _ h => h) ⟨13, .unexpected 0x7D⟩ ⟨13, .errorFromDelegate "no".toList⟩
example := C60_position_and_byte (δ := Str) id ⟨13, .errorFromDelegate "no".toList⟩
example := C60_position_and_byte (δ := Str) id ⟨13, .unexpected 0x7D⟩

end Instances
end JustJson
