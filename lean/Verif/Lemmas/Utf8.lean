import Verif.Model.Utf8
/-! # UTF-8: encoding and decoding are inverse -/

namespace JustJson

theorem uint8_ext {a b : UInt8} (h : a.toNat = b.toNat) : a = b := UInt8.toNat_inj.mp h

theorem u8 (b : UInt8) : b.toNat < 256 := by
  have := b.toNat_lt; omega

theorem toNat_ofNat_u8 {n : Nat} (h : n < 256) : (UInt8.ofNat n).toNat = n := by
  rw [UInt8.toNat_ofNat']; omega

theorem char_lt (c : Char) : c.toNat < 0xD800 ∨ (0xDFFF < c.toNat ∧ c.toNat < 0x110000) := by
  have := c.valid
  simp only [UInt32.isValidChar, Nat.isValidChar] at this
  exact this

theorem char_ext {a b : Char} (h : a.toNat = b.toNat) : a = b := by
  apply Char.ext
  apply UInt32.toNat_inj.mp
  exact h

theorem toNat_ofNat_char {n : Nat} (h : n < 0xD800 ∨ (0xDFFF < n ∧ n < 0x110000)) :
    (Char.ofNat n).toNat = n := by
  have hv : n.isValidChar := h
  unfold Char.ofNat
  rw [dif_pos hv]
  show (UInt32.ofNatLT n _).toNat = n
  simp

theorem ofNat_toNat_char (c : Char) : Char.ofNat c.toNat = c :=
  char_ext (toNat_ofNat_char (char_lt c))

/-- Shape of the encoding of a character. -/
theorem encodeChar_cases (c : Char) :
    (c.toNat < 0x80 ∧ ∃ b0 : UInt8, encodeChar c = [b0] ∧ b0.toNat = c.toNat)
    ∨ (0x80 ≤ c.toNat ∧ c.toNat < 0x800 ∧ ∃ b0 b1 : UInt8, encodeChar c = [b0, b1]
        ∧ b0.toNat = c.toNat / 64 + 0xC0 ∧ b1.toNat = c.toNat % 64 + 0x80)
    ∨ (0x800 ≤ c.toNat ∧ c.toNat < 0x10000 ∧ ∃ b0 b1 b2 : UInt8, encodeChar c = [b0, b1, b2]
        ∧ b0.toNat = c.toNat / 4096 + 0xE0 ∧ b1.toNat = c.toNat / 64 % 64 + 0x80
        ∧ b2.toNat = c.toNat % 64 + 0x80)
    ∨ (0x10000 ≤ c.toNat ∧ c.toNat < 0x110000 ∧ ∃ b0 b1 b2 b3 : UInt8,
        encodeChar c = [b0, b1, b2, b3]
        ∧ b0.toNat = c.toNat / 262144 + 0xF0 ∧ b1.toNat = c.toNat / 4096 % 64 + 0x80
        ∧ b2.toNat = c.toNat / 64 % 64 + 0x80 ∧ b3.toNat = c.toNat % 64 + 0x80) := by
  have hc := char_lt c
  have e : c.val.toNat = c.toNat := rfl
  unfold encodeChar String.utf8EncodeChar
  simp only [e]
  generalize c.toNat = n at *
  split
  · left
    exact ⟨by omega, _, rfl, toNat_ofNat_u8 (by omega)⟩
  split
  · right; left
    refine ⟨by omega, by omega, _, _, rfl, ?_, ?_⟩ <;> rw [toNat_ofNat_u8 (by omega)] <;> omega
  split
  · right; right; left
    refine ⟨by omega, by omega, _, _, _, rfl, ?_, ?_, ?_⟩ <;> rw [toNat_ofNat_u8 (by omega)] <;> omega
  · right; right; right
    refine ⟨by omega, by omega, _, _, _, _, rfl, ?_, ?_, ?_, ?_⟩ <;>
      rw [toNat_ofNat_u8 (by omega)] <;> omega

theorem encode1 {b0 : UInt8} (h : b0.toNat < 0x80) :
    encodeChar (Char.ofNat b0.toNat) = [b0] := by
  have hn := toNat_ofNat_char (n := b0.toNat) (by omega)
  rcases encodeChar_cases (Char.ofNat b0.toNat) with ⟨_, x, e, hx⟩ | ⟨_, _, _⟩ | ⟨_, _, _⟩ | ⟨_, _, _⟩ <;>
    first | omega | skip
  rw [e, uint8_ext (hx.trans hn)]

theorem encode2 {b0 b1 : UInt8} (h0 : 0xC2 ≤ b0.toNat ∧ b0.toNat ≤ 0xDF)
    (h1 : 0x80 ≤ b1.toNat ∧ b1.toNat ≤ 0xBF) :
    encodeChar (Char.ofNat (cp2 b0 b1)) = [b0, b1] := by
  have hn := toNat_ofNat_char (n := cp2 b0 b1) (by unfold cp2; omega)
  rcases encodeChar_cases (Char.ofNat (cp2 b0 b1)) with h | ⟨_, _, x, y, e, hx, hy⟩ | h | h <;>
    rw [hn] at * <;> unfold cp2 at * <;> first | omega | skip
  rw [e, uint8_ext (a := x) (b := b0) (by omega), uint8_ext (a := y) (b := b1) (by omega)]

theorem ok3_iff {b0 b1 : UInt8} : ok3 b0 b1 = true ↔
    (0xE0 ≤ b0.toNat ∧ b0.toNat ≤ 0xEF ∧ 0x80 ≤ b1.toNat ∧ b1.toNat ≤ 0xBF
      ∧ (b0.toNat = 0xE0 → 0xA0 ≤ b1.toNat) ∧ (b0.toNat = 0xED → b1.toNat ≤ 0x9F)) := by
  simp only [ok3, Bool.or_eq_true, Bool.and_eq_true, beq_iff_eq, decide_eq_true_eq]
  omega

theorem ok4_iff {b0 b1 : UInt8} : ok4 b0 b1 = true ↔
    (0xF0 ≤ b0.toNat ∧ b0.toNat ≤ 0xF4 ∧ 0x80 ≤ b1.toNat ∧ b1.toNat ≤ 0xBF
      ∧ (b0.toNat = 0xF0 → 0x90 ≤ b1.toNat) ∧ (b0.toNat = 0xF4 → b1.toNat ≤ 0x8F)) := by
  simp only [ok4, Bool.or_eq_true, Bool.and_eq_true, beq_iff_eq, decide_eq_true_eq]
  omega

theorem isCont_iff {b : UInt8} : isCont b = true ↔ 0x80 ≤ b.toNat ∧ b.toNat ≤ 0xBF := by
  simp only [isCont, Bool.and_eq_true, decide_eq_true_eq]

theorem encode3 {b0 b1 b2 : UInt8} (h0 : ok3 b0 b1 = true) (h2 : isCont b2 = true) :
    encodeChar (Char.ofNat (cp3 b0 b1 b2)) = [b0, b1, b2] := by
  rw [ok3_iff] at h0; rw [isCont_iff] at h2
  have hn := toNat_ofNat_char (n := cp3 b0 b1 b2) (by unfold cp3; omega)
  rcases encodeChar_cases (Char.ofNat (cp3 b0 b1 b2)) with h | h | ⟨_, _, x, y, z, e, hx, hy, hz⟩ | h <;>
    rw [hn] at * <;> unfold cp3 at * <;> first | omega | skip
  rw [e, uint8_ext (a := x) (b := b0) (by omega), uint8_ext (a := y) (b := b1) (by omega),
    uint8_ext (a := z) (b := b2) (by omega)]

theorem encode4 {b0 b1 b2 b3 : UInt8} (h0 : ok4 b0 b1 = true) (h2 : isCont b2 = true)
    (h3 : isCont b3 = true) :
    encodeChar (Char.ofNat (cp4 b0 b1 b2 b3)) = [b0, b1, b2, b3] := by
  rw [ok4_iff] at h0; rw [isCont_iff] at h2 h3
  have hn := toNat_ofNat_char (n := cp4 b0 b1 b2 b3) (by unfold cp4; omega)
  rcases encodeChar_cases (Char.ofNat (cp4 b0 b1 b2 b3)) with
      h | h | h | ⟨_, _, x, y, z, w, e, hx, hy, hz, hw⟩ <;>
    rw [hn] at * <;> unfold cp4 at * <;> first | omega | skip
  rw [e, uint8_ext (a := x) (b := b0) (by omega), uint8_ext (a := y) (b := b1) (by omega),
    uint8_ext (a := z) (b := b2) (by omega), uint8_ext (a := w) (b := b3) (by omega)]

@[simp] theorem utf8_nil : utf8 [] = [] := rfl
@[simp] theorem utf8_cons (c : Char) (cs : Str) : utf8 (c :: cs) = encodeChar c ++ utf8 cs := rfl
@[simp] theorem utf8_append (a b : Str) : utf8 (a ++ b) = utf8 a ++ utf8 b := by
  simp [utf8]

/-- One decoding step peels off one encoded character. -/
theorem utf8Decode_encode_append (c : Char) (t : List UInt8) :
    utf8Decode (encodeChar c ++ t) = (utf8Decode t).map (c :: ·) := by
  have hcl := char_lt c
  rcases encodeChar_cases c with ⟨h, x, e, hx⟩ | ⟨h, h', x, y, e, hx, hy⟩ |
      ⟨h, h', x, y, z, e, hx, hy, hz⟩ | ⟨h, h', x, y, z, w, e, hx, hy, hz, hw⟩
  · rw [e]
    rw [List.singleton_append, utf8Decode.eq_def]
    simp only
    rw [if_pos (by omega), hx, ofNat_toNat_char]
  · rw [e]
    simp only [List.cons_append, List.nil_append]
    rw [utf8Decode.eq_def]
    simp only
    rw [if_neg (by omega)]
    rw [if_pos]
    · rw [show cp2 x y = c.toNat by unfold cp2; omega, ofNat_toNat_char]
    · simp only [Bool.and_eq_true, decide_eq_true_eq, isCont_iff]; omega
  · rw [e]
    simp only [List.cons_append, List.nil_append]
    rw [utf8Decode.eq_def]
    simp only
    rw [if_neg (by omega)]
    rw [if_neg, if_pos]
    · rw [show cp3 x y z = c.toNat by unfold cp3; omega, ofNat_toNat_char]
    · rw [Bool.and_eq_true, ok3_iff, isCont_iff]; omega
    · simp only [Bool.and_eq_true, decide_eq_true_eq, isCont_iff]; omega
  · rw [e]
    simp only [List.cons_append, List.nil_append]
    rw [utf8Decode.eq_def]
    simp only
    rw [if_neg (by omega)]
    rw [if_neg, if_neg, if_pos]
    · rw [show cp4 x y z w = c.toNat by unfold cp4; omega, ofNat_toNat_char]
    · rw [Bool.and_eq_true, Bool.and_eq_true, ok4_iff, isCont_iff, isCont_iff]; omega
    · rw [Bool.and_eq_true, ok3_iff, isCont_iff]; omega
    · simp only [Bool.and_eq_true, decide_eq_true_eq, isCont_iff]; omega

@[simp] theorem utf8Decode_utf8 (s : Str) : utf8Decode (utf8 s) = some s := by
  induction s with
  | nil => rfl
  | cons c cs ih => rw [utf8_cons, utf8Decode_encode_append, ih]; rfl

theorem utf8_of_decode {bs : List UInt8} {s : Str} (h : utf8Decode bs = some s) : utf8 s = bs := by
  induction hn : bs.length using Nat.strongRecOn generalizing bs s with
  | ind n ih =>
    have step : ∀ (t : List UInt8) (c : Char), t.length < n →
        (utf8Decode t).map (c :: ·) = some s → utf8 s = encodeChar c ++ t := by
      intro t c hl ht
      rcases hd : utf8Decode t with _ | s'
      · simp [hd] at ht
      · simp only [hd, Option.map_some, Option.some.injEq] at ht
        subst ht
        rw [utf8_cons, ih _ hl hd rfl]
    rcases bs with _ | ⟨b0, t0⟩
    · simp only [utf8Decode, Option.some.injEq] at h; subst h; rfl
    simp only [List.length_cons] at hn
    rw [utf8Decode.eq_def] at h
    simp only at h
    split at h
    · have := step t0 _ (by omega) h
      rw [this, encode1 (by assumption)]; rfl
    rcases t0 with _ | ⟨b1, t1⟩
    · simp at h
    simp only [List.length_cons] at hn
    simp only at h
    split at h
    · rename_i hc
      simp only [Bool.and_eq_true, decide_eq_true_eq, isCont_iff] at hc
      rw [step t1 _ (by omega) h, encode2 hc.1 hc.2]; rfl
    rcases t1 with _ | ⟨b2, t2⟩
    · simp at h
    simp only [List.length_cons] at hn
    simp only at h
    split at h
    · rename_i hc
      rw [Bool.and_eq_true] at hc
      rw [step t2 _ (by omega) h, encode3 hc.1 hc.2]; rfl
    rcases t2 with _ | ⟨b3, t3⟩
    · simp at h
    simp only [List.length_cons] at hn
    simp only at h
    split at h
    · rename_i hc
      rw [Bool.and_eq_true, Bool.and_eq_true] at hc
      rw [step t3 _ (by omega) h, encode4 hc.1.1 hc.1.2 hc.2]; rfl
    · simp at h

theorem utf8Decode_iff {bs : List UInt8} {s : Str} : utf8Decode bs = some s ↔ utf8 s = bs :=
  ⟨utf8_of_decode, fun h => h ▸ utf8Decode_utf8 s⟩

theorem utf8_inj {a b : Str} (h : utf8 a = utf8 b) : a = b := by
  have := utf8Decode_utf8 a
  rw [h, utf8Decode_utf8] at this
  exact (Option.some.inj this).symm

theorem encodeChar_ne_nil (c : Char) : encodeChar c ≠ [] := by
  rcases encodeChar_cases c with ⟨_, _, e, _⟩ | ⟨_, _, _, _, e, _⟩ | ⟨_, _, _, _, _, e, _⟩ |
    ⟨_, _, _, _, _, _, e, _⟩ <;> simp [e]

theorem encodeChar_ascii {c : Char} (h : c.toNat < 0x80) : encodeChar c = [UInt8.ofNat c.toNat] := by
  rcases encodeChar_cases c with ⟨_, x, e, hx⟩ | ⟨_, _, _⟩ | ⟨_, _, _⟩ | ⟨_, _, _⟩ <;>
    first | omega | skip
  rw [e]; congr 1; apply uint8_ext; rw [toNat_ofNat_u8 (by omega), hx]

/-- Bytes of a non-ASCII character are all ≥ 0x80. -/
theorem encodeChar_high {c : Char} (h : 0x80 ≤ c.toNat) : ∀ b ∈ encodeChar c, 0x80 ≤ b.toNat := by
  rcases encodeChar_cases c with ⟨_, x, e, hx⟩ | ⟨_, _, x, y, e, hx, hy⟩ |
      ⟨_, _, x, y, z, e, hx, hy, hz⟩ | ⟨_, _, x, y, z, w, e, hx, hy, hz, hw⟩
  · omega
  all_goals
    rw [e]; intro b hb
    simp only [List.mem_cons, List.not_mem_nil, or_false] at hb
    rcases hb with rfl | hb
    · omega
  · subst hb; omega
  · rcases hb with rfl | rfl <;> omega
  · rcases hb with rfl | rfl | rfl <;> omega

/-- A continuation byte never starts an encoded character; the rest are continuation bytes. -/
theorem encodeChar_tail_cont (c : Char) : ∃ b0 t, encodeChar c = b0 :: t ∧ ¬ isCont b0 = true
    ∧ ∀ b ∈ t, isCont b = true := by
  simp only [isCont_iff]
  rcases encodeChar_cases c with ⟨_, x, e, hx⟩ | ⟨_, _, x, y, e, hx, hy⟩ |
      ⟨_, _, x, y, z, e, hx, hy, hz⟩ | ⟨_, _, x, y, z, w, e, hx, hy, hz, hw⟩
  · exact ⟨x, [], e, by omega, by simp⟩
  · exact ⟨x, [y], e, by omega, by simp; omega⟩
  · exact ⟨x, [y, z], e, by omega, by simp; omega⟩
  · exact ⟨x, [y, z, w], e, by omega, by simp; omega⟩

theorem lenUtf8_pos (c : Char) : 0 < lenUtf8 c := by
  unfold lenUtf8
  exact List.length_pos_iff.mpr (encodeChar_ne_nil c)

theorem lenUtf8_le (c : Char) : lenUtf8 c ≤ 4 := by
  unfold lenUtf8
  rcases encodeChar_cases c with ⟨_, _, e, _⟩ | ⟨_, _, _, _, e, _⟩ | ⟨_, _, _, _, _, e, _⟩ |
    ⟨_, _, _, _, _, _, e, _⟩ <;> simp [e]

theorem lenUtf8_ascii {c : Char} (h : c.toNat < 0x80) : lenUtf8 c = 1 := by
  simp [lenUtf8, encodeChar_ascii h]

@[simp] theorem Str.len_nil : Str.len [] = 0 := rfl
@[simp] theorem Str.len_cons (c : Char) (cs : Str) : Str.len (c :: cs) = lenUtf8 c + Str.len cs := by
  simp [Str.len, lenUtf8]
@[simp] theorem Str.len_append (a b : Str) : Str.len (a ++ b) = Str.len a + Str.len b := by
  simp [Str.len]

end JustJson
