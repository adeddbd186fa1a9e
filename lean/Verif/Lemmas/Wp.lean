import Verif.Lemmas.Canon
/-! # Hoare-style reasoning about the tokenizer -/

namespace JustJson
open Spec

/-- `bs` stands at `off` and ends at `off'`. -/
def Adv (src : List UInt8) (off : Nat) (bs : List UInt8) (off' : Nat) : Prop :=
  off' = off + bs.length ∧ src.drop off = bs ++ src.drop off'

section
variable {src : List UInt8}

theorem Adv.refl (off : Nat) : Adv src off [] off := ⟨rfl, rfl⟩

theorem Adv.trans {a b c : Nat} {x y : List UInt8} (h1 : Adv src a x b) (h2 : Adv src b y c) :
    Adv src a (x ++ y) c := by
  refine ⟨?_, ?_⟩
  · rw [h2.1, h1.1, List.length_append]; omega
  · rw [h1.2, h2.2, List.append_assoc]

theorem Adv.of_drop {off : Nat} {bs r : List UInt8} (h : src.drop off = bs ++ r) :
    Adv src off bs (off + bs.length) := by
  refine ⟨rfl, ?_⟩
  rw [← List.drop_drop, h]
  simp

theorem Adv.cons {off : Nat} {b : UInt8} {t : List UInt8} (h : src.drop off = b :: t) :
    Adv src off [b] (off + 1) := Adv.of_drop (bs := [b]) (r := t) h

theorem Adv.le {off off' : Nat} {bs : List UInt8} (h : Adv src off bs off') (hl : off ≤ src.length) :
    off' ≤ src.length := by
  have h1 := congrArg List.length h.2
  simp only [List.length_drop, List.length_append] at h1
  have := h.1
  omega

theorem Adv.mono {off off' : Nat} {bs : List UInt8} (h : Adv src off bs off') : off ≤ off' := by
  have := h.1; omega

theorem Adv.take {off off' : Nat} {bs : List UInt8} (h : Adv src off bs off') :
    (src.drop off).take (off' - off) = bs := by
  rw [h.2, h.1]
  simp

theorem Adv.slice {off off' : Nat} {bs : List UInt8} (h : Adv src off bs off')
    (hl : off ≤ src.length) : sliceBytes src off off' = some bs := by
  rw [sliceBytes_eq h.mono (h.le hl), h.take]

/-- Weakest precondition for a tokenizer step: on `Ok`, `P`; on `Err`, the new offset lies between
`lo` and the end of the source and the reported offset is within the source; never a panic. -/
def Wp {α : Type} (src : List UInt8) (lo : Nat) (out : Out Nat (Error Empty) α)
    (P : α → Nat → Prop) : Prop :=
  match out with
  | .ok a s => P a s
  | .err e s => lo ≤ s ∧ s ≤ src.length ∧ e.offset ≤ src.length
  | .panic _ => False

theorem Wp.bind {α β : Type} {lo off : Nat} {m : TokM α} {f : α → TokM β}
    {P : α → Nat → Prop} {Q : β → Nat → Prop} (h : Wp src lo (m off) P)
    (hf : ∀ a s, P a s → Wp src lo (f a s) Q) : Wp src lo ((m >>= f) off) Q := by
  rw [M.bind_eq]
  cases hm : m off with
  | ok a s => rw [hm] at h; exact hf a s h
  | err e s => rw [hm] at h; exact h
  | panic p => rw [hm] at h; exact h

theorem Wp.mono {α : Type} {lo lo' : Nat} {out : Out Nat (Error Empty) α} {P Q : α → Nat → Prop}
    (h : Wp src lo out P) (hlo : lo' ≤ lo) (hpq : ∀ a s, P a s → Q a s) : Wp src lo' out Q := by
  cases out with
  | ok a s => exact hpq a s h
  | err e s => exact ⟨by have := h.1; omega, h.2⟩
  | panic p => exact h

theorem Wp.elim_ok {α : Type} {lo : Nat} {out : Out Nat (Error Empty) α} {P : α → Nat → Prop}
    (h : Wp src lo out P) {a : α} {s : Nat} (ho : out = .ok a s) : P a s := by
  subst ho; exact h

theorem Wp.ok {α : Type} {lo : Nat} {a : α} {s : Nat} {P : α → Nat → Prop} (h : P a s) :
    Wp src lo (.ok a s) P := h

theorem Wp.err {α : Type} {lo s : Nat} {e : Error Empty} {P : α → Nat → Prop}
    (h1 : lo ≤ s) (h2 : s ≤ src.length) (h3 : e.offset ≤ src.length) :
    Wp src lo (.err e s) P := ⟨h1, h2, h3⟩

theorem wp_readOr {off : Nat} (k : ErrorKind Empty) (hl : off ≤ src.length) :
    Wp src off (readOr src k off) fun r off' =>
      r.1 = off ∧ Adv src off [r.2] off' ∧ off' = off + 1 := by
  cases h : src.drop off with
  | nil => rw [readOr_nil k h]; exact ⟨Nat.le_refl _, hl, hl⟩
  | cons b t => rw [readOr_cons k h]; exact ⟨rfl, Adv.cons h, rfl⟩

theorem wp_read {off : Nat} (hl : off ≤ src.length) :
    Wp src off (read src off) fun r off' =>
      r.1 = off ∧ Adv src off [r.2] off' ∧ off' = off + 1 := wp_readOr _ hl

theorem read_cons {off : Nat} {b : UInt8} {t : List UInt8} (h : src.drop off = b :: t) :
    read src off = .ok (off, b) (off + 1) := readOr_cons _ h

theorem read_nil {off : Nat} (h : src.drop off = []) :
    read src off = .err ⟨off, .unexpectedEof⟩ off := readOr_nil _ h

/-! ## Hexadecimal digits -/

/-- value of a run of digits -/
def hexFold (acc : Nat) : List UInt8 → Nat
  | [] => acc
  | b :: bs => hexFold (acc * 16 + (hexVal b).getD 0) bs

theorem shift_or {acc v : Nat} (h : v < 16) : (acc <<< 4 ||| v) = acc * 16 + v := by
  rw [← Nat.shiftLeft_add_eq_or_of_lt (by omega), Nat.shiftLeft_eq]

theorem readHex_step {n acc off : Nat} {b : UInt8} {t : List UInt8} {v : Nat}
    (h : src.drop off = b :: t) (hv : hexVal b = some v) :
    readHex src (n + 1) acc off = readHex src n (acc * 16 + v) (off + 1) := by
  have h2 := hexOffset_some hv
  rw [readHex, M.bind_ok (read_cons h)]
  simp only
  rw [if_neg h2.1, h2.2, shift_or (hexVal_lt hv)]

theorem readHex_bad {n acc off : Nat} {b : UInt8} {t : List UInt8}
    (h : src.drop off = b :: t) (hv : hexVal b = none) :
    readHex src (n + 1) acc off = .err ⟨off, .invalidHexadecimal⟩ (off + 1) := by
  rw [readHex, M.bind_ok (read_cons h)]
  simp only
  rw [if_pos (hexOffset_none hv)]
  rfl

theorem wp_readHex (n acc off : Nat) (hl : off ≤ src.length) :
    Wp src off (readHex src n acc off) fun r off' =>
      ∃ hs : List UInt8, hs.length = n ∧ (∀ b ∈ hs, (hexVal b).isSome) ∧ r = hexFold acc hs
        ∧ Adv src off hs off' := by
  induction n generalizing acc off with
  | zero => exact ⟨[], rfl, by simp, rfl, Adv.refl _⟩
  | succ n ih =>
    cases h : src.drop off with
    | nil =>
      rw [readHex, M.bind_err (read_nil h)]
      exact ⟨Nat.le_refl _, hl, hl⟩
    | cons b t =>
      have hlt := lt_of_drop_cons h
      cases hv : hexVal b with
      | none => rw [readHex_bad h hv]; exact ⟨by omega, by omega, hl⟩
      | some v =>
        rw [readHex_step h hv]
        refine (ih (acc * 16 + v) (off + 1) (by omega)).mono (by omega) ?_
        rintro r s ⟨hs, h1, h2, h3, h4⟩
        refine ⟨b :: hs, by simp [h1], ?_, ?_, (Adv.cons h).trans h4⟩
        · intro x hx
          rcases List.mem_cons.mp hx with rfl | hx
          · simp [hv]
          · exact h2 x hx
        · simp [hexFold, hv, h3]

theorem wp_readHex4 (off : Nat) (hl : off ≤ src.length) :
    Wp src off (readHex src 4 0 off) fun r off' =>
      ∃ h : Hex4, h.Valid ∧ r = h.val ∧ Adv src off h.bytes off' := by
  refine (wp_readHex 4 0 off hl).mono (Nat.le_refl _) ?_
  rintro r s ⟨hs, h1, h2, h3, h4⟩
  match hs, h1 with
  | [a, b, c, d], _ =>
    refine ⟨⟨a, b, c, d⟩, ⟨h2 a (by simp), h2 b (by simp), h2 c (by simp), h2 d (by simp)⟩, ?_, h4⟩
    rw [h3]
    simp only [hexFold, Hex4.val]
    omega

theorem readHex4_eq {off : Nat} {h : Hex4} {r : List UInt8} (hv : h.Valid)
    (hd : src.drop off = h.bytes ++ r) : readHex src 4 0 off = .ok h.val (off + 4) := by
  obtain ⟨h1, h2, h3, h4⟩ := hv
  obtain ⟨a, ha⟩ := Option.isSome_iff_exists.mp h1
  obtain ⟨b, hb⟩ := Option.isSome_iff_exists.mp h2
  obtain ⟨c, hc⟩ := Option.isSome_iff_exists.mp h3
  obtain ⟨d, hd'⟩ := Option.isSome_iff_exists.mp h4
  have e0 : src.drop off = h.a :: h.b :: h.c :: h.d :: r := hd
  have e1 := drop_succ_of_cons e0
  have e2 := drop_succ_of_cons e1
  have e3 := drop_succ_of_cons e2
  rw [readHex_step e0 ha, readHex_step e1 hb, readHex_step e2 hc, readHex_step e3 hd']
  simp only [readHex, M.pure_eq', Hex4.val, ha, hb, hc, hd', Option.getD_some]
  congr 1
  omega

set_option linter.unusedSectionVars false

/-! ## Escapes -/

variable [Arch]

theorem codeChar_uni (h : Hex4) : (Item.uni h).codeChar = Char.ofNat h.val := rfl
theorem codeChar_pair (hi lo : Hex4) :
    (Item.pair hi lo).codeChar = Char.ofNat (mergedCp hi.val lo.val) := rfl
attribute [local irreducible] Char.ofNat lenUtf8 charFromU32

theorem mergedCp_scalar {hi lo : Nat} (h1 : hi ≤ 0xDBFF) (h2 : lo ≤ 0xDFFF) :
    mergedCp hi lo < 0xD800 ∨ (0xDFFF < mergedCp hi lo ∧ mergedCp hi lo < 0x110000) := by
  have := mergedCp_bounds h1 h2
  generalize mergedCp hi lo = m at *
  omega

theorem charFromU32Unchecked_ok {n : Nat} (h : n < 0xD800 ∨ (0xDFFF < n ∧ n < 0x110000)) :
    charFromU32Unchecked n = .ok (Char.ofNat n) := by
  unfold charFromU32Unchecked
  rw [charFromU32_some h]
  rfl

theorem charFromU32_surrogate {n : Nat} (h : charFromU32 n = none) (hn : n < 0x110000) :
    0xD800 ≤ n ∧ n ≤ 0xDFFF := by
  apply Decidable.byContradiction
  intro hc
  rw [charFromU32_some (by omega)] at h
  simp at h

theorem charFromU32_some_iff {n : Nat} {c : Char} (h : charFromU32 n = some c) :
    (n < 0xD800 ∨ (0xDFFF < n ∧ n < 0x110000)) ∧ c = Char.ofNat n := by
  by_cases hc : n < 0xD800 ∨ (0xDFFF < n ∧ n < 0x110000)
  · rw [charFromU32_some hc] at h
    exact ⟨hc, by simpa using h.symm⟩
  · rw [charFromU32_none hc] at h
    simp at h

theorem wp_readLowSurrogate {off cp : Nat} (hl : off ≤ src.length) :
    Wp src off (readLowSurrogate src cp off) fun r off' => off ≤ off' ∧ off' ≤ src.length ∧
      match r with
      | none => True
      | some m => ∃ lo : Hex4, lo.Valid ∧ 0xD800 ≤ cp ∧ cp ≤ 0xDBFF ∧ 0xDC00 ≤ lo.val
          ∧ lo.val ≤ 0xDFFF ∧ m = mergedCp cp lo.val ∧ Adv src off ([0x5C, 0x75] ++ lo.bytes) off' := by
  unfold readLowSurrogate
  split
  · rename_i hcp
    simp only [HIGH_SURROGATE_MIN, HIGH_SURROGATE_MAX] at hcp
    refine Wp.bind (wp_read hl) ?_
    rintro ⟨o1, b1⟩ s1 ⟨-, ha1, hs1⟩
    have hl1 := ha1.le hl
    simp only
    split
    · rename_i hb1
      simp only at ha1
      refine Wp.bind ((wp_read hl1).mono (by omega) fun _ _ h => h) ?_
      rintro ⟨o2, b2⟩ s2 ⟨-, ha2, hs2⟩
      have hl2 := ha2.le hl1
      simp only
      split
      · rename_i hb2
        refine Wp.bind ((wp_readHex4 s2 hl2).mono (by omega) fun _ _ h => h) ?_
        rintro r s3 ⟨lo, hv, rfl, ha3⟩
        have hl3 := ha3.le hl2
        have := ha3.mono
        split
        · rename_i hlo
          simp only [LOW_SURROGATE_MIN, LOW_SURROGATE_MAX] at hlo
          rw [mergeSurrogatePair_eq hcp.1 hlo.1]
          refine ⟨by omega, hl3, lo, hv, hcp.1, hcp.2, hlo.1, hlo.2, rfl, ?_⟩
          rw [hb1] at ha1
          rw [hb2] at ha2
          exact (ha1.trans ha2).trans ha3
        · exact ⟨by omega, hl3, trivial⟩
      · exact ⟨by omega, hl2, trivial⟩
    · exact ⟨by omega, hl1, trivial⟩
  · exact ⟨Nat.le_refl _, hl, trivial⟩

/-- Reading the rest of an escape after the backslash. -/
theorem wp_readStringEscape {off n : Nat} {e : Bool} (hl : off ≤ src.length)
    (hlim : n + (src.length - off) < LIM) :
    Wp src off (readStringEscape src (.new e n) off) fun r off' =>
      ∃ i : Item, i.Valid ∧ i.isEscape = true ∧ r = .new true (n + lenUtf8 i.codeChar)
        ∧ ∃ t, i.bytes = 0x5C :: t ∧ Adv src off t off' := by
  unfold readStringEscape
  refine Wp.bind (wp_read hl) ?_
  rintro ⟨o1, b1⟩ s1 ⟨ho, ha1, hs1⟩
  have hl1 := ha1.le hl
  simp only at ha1 ho
  simp only
  split
  · rename_i hb
    have hv : (Item.esc b1).Valid := by
      simp only [Item.Valid, List.mem_cons, List.not_mem_nil, or_false]
      rcases hb with h | h | h | h | h | h | h | h <;> simp [h]
    rw [info_addEscape (by omega)]
    refine ⟨.esc b1, hv, rfl, ?_, [b1], rfl, ha1⟩
    rw [lenUtf8_eq_one (esc_codeChar_ascii hv)]
  split
  · rename_i hb
    refine Wp.bind ((wp_readHex4 s1 hl1).mono (by omega) fun _ _ h => h) ?_
    rintro r s2 ⟨h, hv, rfl, ha2⟩
    have hl2 := ha2.le hl1
    have hs2 := ha2.1
    rw [Hex4.length_bytes] at hs2
    rw [hb] at ha1
    cases hc : charFromU32 h.val with
    | some c =>
      obtain ⟨h1, rfl⟩ := charFromU32_some_iff hc
      have hiv : (Item.uni h).Valid := ⟨hv, by omega⟩
      have := Item.codeLen_le hiv
      have h4 := lenUtf8_le (Char.ofNat h.val)
      simp only
      rw [info_addEscape (by omega)]
      exact ⟨.uni h, hiv, rfl, by rw [codeChar_uni], 0x75 :: h.bytes, rfl, ha1.trans ha2⟩
    | none =>
      simp only
      refine Wp.bind ((wp_readLowSurrogate hl2).mono (by omega) fun _ _ h => h) ?_
      rintro r s3 ⟨h1, h2, h3⟩
      cases r with
      | none => exact ⟨by omega, h2, by show o1 ≤ _; omega⟩
      | some m =>
        obtain ⟨lo, hlv, hc1, hc2, hc3, hc4, rfl, ha3⟩ := h3
        have hs3 := ha3.1
        simp [Hex4.bytes] at hs3
        have hun := charFromU32Unchecked_ok (mergedCp_scalar hc2 hc4)
        have h4 := lenUtf8_le (Char.ofNat (mergedCp h.val lo.val))
        have hcc := codeChar_pair h lo
        generalize mergedCp h.val lo.val = m at h4 hun hcc ⊢
        simp only
        rw [hun, M.bind_ok (by rfl)]
        rw [info_addEscape (by generalize lenUtf8 (Char.ofNat m) = k at *; omega)]
        refine ⟨.pair h lo, ⟨hv, hlv, hc1, hc2, hc3, hc4⟩, rfl, by rw [hcc], 0x75 :: (h.bytes ++ ([0x5C, 0x75] ++ lo.bytes)),
          ?_, ?_⟩
        · simp [Item.bytes]
        · exact ha1.trans (ha2.trans ha3)
  · exact ⟨by omega, hl1, by show o1 ≤ _; omega⟩

/-- Reading a valid escape. -/
theorem readStringEscape_eq {off n : Nat} {e : Bool} {i : Item} {t r : List UInt8} (hv : i.Valid)
    (hb : i.bytes = 0x5C :: t) (he : i.isEscape = true) (hd : src.drop off = t ++ r)
    (hlim : n + lenUtf8 i.codeChar < LIM) :
    readStringEscape src (.new e n) off = .ok (.new true (n + lenUtf8 i.codeChar)) (off + t.length) := by
  unfold readStringEscape
  cases i with
  | plain c => simp [Item.isEscape] at he
  | esc b =>
    obtain rfl : t = [b] := by simpa [Item.bytes] using hb.symm
    rw [M.bind_ok (read_cons hd)]
    have hm : b = 0x22 ∨ b = 0x5C ∨ b = 0x2F ∨ b = 0x62 ∨ b = 0x66 ∨ b = 0x72 ∨ b = 0x6E ∨ b = 0x74 := by
      simp only [Item.Valid, List.mem_cons, List.not_mem_nil, or_false] at hv
      rcases hv with h | h | h | h | h | h | h | h <;> simp [h]
    simp only
    rw [if_pos hm, lenUtf8_eq_one (esc_codeChar_ascii hv)]
    rw [lenUtf8_eq_one (esc_codeChar_ascii hv)] at hlim
    rw [info_addEscape hlim]
    rfl
  | uni h =>
    obtain rfl : t = 0x75 :: h.bytes := by simpa [Item.bytes] using hb.symm
    have hd' : src.drop off = 0x75 :: (h.bytes ++ r) := hd
    rw [M.bind_ok (read_cons hd')]
    simp only
    rw [if_neg (by decide), if_pos (by simp), M.bind_ok (readHex4_eq hv.1 (drop_succ_of_cons hd'))]
    have hlt := Hex4.val_lt h
    have hne := hv.2
    rw [charFromU32_some (by omega)]
    simp only
    rw [codeChar_uni] at hlim
    rw [info_addEscape hlim]
    simp [Hex4.bytes, codeChar_uni, codeChar_pair, Nat.add_assoc]
  | pair hi lo =>
    obtain rfl : t = 0x75 :: (hi.bytes ++ [0x5C, 0x75] ++ lo.bytes) := by
      simpa [Item.bytes] using hb.symm
    have hd' : src.drop off = 0x75 :: (hi.bytes ++ ([0x5C, 0x75] ++ lo.bytes ++ r)) := by
      rw [hd]; simp
    rw [M.bind_ok (read_cons hd')]
    simp only
    obtain ⟨h1, h2, h3, h4, h5, h6⟩ := hv
    have e1 := drop_succ_of_cons hd'
    rw [if_neg (by decide), if_pos (by simp), M.bind_ok (readHex4_eq h1 e1)]
    rw [charFromU32_none (by omega)]
    simp only
    have e2 : src.drop (off + 1 + 4) = 0x5C :: 0x75 :: (lo.bytes ++ r) := by
      rw [← List.drop_drop, e1, List.drop_append_of_le_length (by simp [Hex4.bytes])]
      simp [Hex4.bytes]
    have e3 := drop_succ_of_cons e2
    have e4 := drop_succ_of_cons e3
    have hls : readLowSurrogate src hi.val (off + 1 + 4)
        = .ok (some (mergedCp hi.val lo.val)) (off + 1 + 4 + 1 + 1 + 4) := by
      unfold readLowSurrogate
      rw [if_pos ⟨h3, h4⟩, M.bind_ok (read_cons e2)]
      simp only
      rw [if_pos (by simp), M.bind_ok (read_cons e3)]
      simp only
      rw [if_pos (by simp), M.bind_ok (readHex4_eq h2 e4), if_pos ⟨h5, h6⟩, mergeSurrogatePair_eq h3 h5]
      rfl
    rw [M.bind_ok hls]
    rw [codeChar_pair] at hlim
    rw [codeChar_pair]
    have hun := charFromU32Unchecked_ok (mergedCp_scalar h4 h6)
    clear hls
    generalize mergedCp hi.val lo.val = m at hlim hun ⊢
    simp only
    rw [hun, M.bind_ok (by rfl)]
    rw [info_addEscape hlim]
    simp [Hex4.bytes, codeChar_uni, codeChar_pair, Nat.add_assoc]

end
end JustJson
