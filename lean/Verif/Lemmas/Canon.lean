import Verif.Lemmas.Basic
/-! # What the code makes of each string item and number literal -/

namespace JustJson
open Spec

/-- The character the code's `Decoded` iterator yields for an item (it differs from `rfcChar` for
`\b` and for surrogate pairs whose merged offset has bit 16 set). -/
def _root_.JustJson.Spec.Item.codeChar : Item → Char
  | .plain c => c
  | .esc e =>
    if e = 0x62 then Char.ofNat 0x07
    else if e = 0x66 then Char.ofNat 0x0C
    else if e = 0x6E then Char.ofNat 0x0A
    else if e = 0x72 then Char.ofNat 0x0D
    else if e = 0x74 then Char.ofNat 0x09
    else Char.ofNat e.toNat
  | .uni h => Char.ofNat h.val
  | .pair hi lo => Char.ofNat (mergedCp hi.val lo.val)

/-- The source characters of an item. -/
def _root_.JustJson.Spec.Item.chars : Item → Str
  | .plain c => [c]
  | .esc e => [0x5C, e].map byteChar
  | .uni h => ([0x5C, 0x75] ++ h.bytes).map byteChar
  | .pair hi lo => ([0x5C, 0x75] ++ hi.bytes ++ [0x5C, 0x75] ++ lo.bytes).map byteChar

/-- The source text of a string body. -/
def bodyChars (is : List Item) : Str := is.flatMap Item.chars

/-- The text the code decodes a string body to. -/
def codeText (is : List Item) : Str := is.map Item.codeChar

/-- at least one escape -/
def hasEsc (is : List Item) : Bool := is.any Item.isEscape

section
variable [Arch]
/-- The `JsonString` the tokenizer makes of a string body. -/
def canonStr (is : List Item) : JsonString :=
  ⟨.json (.borrowed (bodyChars is)), .new (hasEsc is) (Str.len (codeText is))⟩
end

/-- The `JsonNumber` the tokenizer makes of a literal. -/
def canonNum (n : NumLit) : JsonNumber := ⟨.borrowed (n.bytes.map byteChar)⟩

/-! ## ASCII bytes as characters -/

theorem byteChar_toNat {b : UInt8} (h : b.toNat < 0x80) : (byteChar b).toNat = b.toNat :=
  toNat_ofNat_char (by omega)

theorem encode_byteChar {b : UInt8} (h : b.toNat < 0x80) : encodeChar (byteChar b) = [b] := by
  have hb := byteChar_toNat h
  rw [encodeChar_ascii (by omega)]
  congr 1
  apply uint8_ext
  rw [hb]
  exact toNat_ofNat_u8 (u8 b)

theorem utf8_map_byteChar {bs : List UInt8} (h : ∀ b ∈ bs, b.toNat < 0x80) :
    utf8 (bs.map byteChar) = bs := by
  induction bs with
  | nil => rfl
  | cons b t ih =>
    rw [List.map_cons, utf8_cons, encode_byteChar (h b (by simp)), ih (fun x hx => h x (by simp [hx]))]
    rfl

theorem hexVal_ascii {b : UInt8} (h : (hexVal b).isSome) : b.toNat < 0x80 := by
  unfold hexVal at h
  split at h
  · omega
  split at h
  · omega
  split at h
  · omega
  · simp at h

theorem Hex4.ascii {h : Hex4} (hv : h.Valid) : ∀ b ∈ h.bytes, b.toNat < 0x80 := by
  obtain ⟨h1, h2, h3, h4⟩ := hv
  intro b hb
  simp [Hex4.bytes] at hb
  rcases hb with rfl | rfl | rfl | rfl <;> apply hexVal_ascii <;> assumption

theorem getD_hexVal_lt (b : UInt8) : (hexVal b).getD 0 < 16 := by
  cases h : hexVal b with
  | none => simp
  | some v => simpa using hexVal_lt h

theorem Hex4.val_lt (h : Hex4) : h.val < 0x10000 := by
  unfold Hex4.val
  have := getD_hexVal_lt h.a
  have := getD_hexVal_lt h.b
  have := getD_hexVal_lt h.c
  have := getD_hexVal_lt h.d
  omega

theorem Hex4.length_bytes (h : Hex4) : h.bytes.length = 4 := rfl

theorem esc_ascii {e : UInt8} (h : (Item.esc e).Valid) : e.toNat < 0x80 := by
  simp [Item.Valid] at h
  rcases h with rfl | rfl | rfl | rfl | rfl | rfl | rfl | rfl <;> decide

theorem Item.escape_ascii {i : Item} (hv : i.Valid) (he : i.isEscape = true) :
    ∀ b ∈ i.bytes, b.toNat < 0x80 := by
  cases i with
  | plain c => simp [Item.isEscape] at he
  | esc e =>
    intro b hb
    simp [Item.bytes] at hb
    rcases hb with rfl | rfl
    · decide
    · exact esc_ascii hv
  | uni h =>
    intro b hb
    simp [Item.bytes] at hb
    rcases hb with rfl | rfl | hb
    · decide
    · decide
    · exact Hex4.ascii hv.1 b hb
  | pair hi lo =>
    intro b hb
    simp [Item.bytes] at hb
    rcases hb with rfl | rfl | hb | rfl | rfl | hb
    · decide
    · decide
    · exact Hex4.ascii hv.1 b hb
    · decide
    · decide
    · exact Hex4.ascii hv.2.1 b hb

theorem Item.chars_escape {i : Item} (he : i.isEscape = true) : i.chars = i.bytes.map byteChar := by
  cases i <;> first | rfl | simp [Item.isEscape] at he

theorem Item.utf8_chars {i : Item} (hv : i.Valid) : utf8 i.chars = i.bytes := by
  cases he : i.isEscape with
  | true => rw [Item.chars_escape he, utf8_map_byteChar (Item.escape_ascii hv he)]
  | false =>
    cases i <;> simp [Item.isEscape] at he
    simp [Item.chars, Item.bytes, utf8]

theorem ItemsValid.cons {i : Item} {is : List Item} :
    ItemsValid (i :: is) ↔ i.Valid ∧ ItemsValid is := by
  simp [ItemsValid]

theorem ItemsValid.append {a b : List Item} :
    ItemsValid (a ++ b) ↔ ItemsValid a ∧ ItemsValid b := by
  simp only [ItemsValid, List.mem_append]
  constructor
  · intro h; exact ⟨fun i hi => h i (.inl hi), fun i hi => h i (.inr hi)⟩
  · rintro ⟨h1, h2⟩ i (hi | hi)
    · exact h1 i hi
    · exact h2 i hi

theorem utf8_bodyChars {is : List Item} (hv : ItemsValid is) : utf8 (bodyChars is) = bodyBytes is := by
  induction is with
  | nil => rfl
  | cons i is ih =>
    rw [ItemsValid.cons] at hv
    simp only [bodyChars, bodyBytes, List.flatMap_cons] at *
    rw [utf8_append, Item.utf8_chars hv.1, ih hv.2]

theorem utf8Decode_bodyBytes {is : List Item} (hv : ItemsValid is) :
    utf8Decode (bodyBytes is) = some (bodyChars is) := by
  rw [← utf8_bodyChars hv, utf8Decode_utf8]

/-! ## Lengths -/

theorem lenUtf8_eq_one {c : Char} (h : c.toNat < 0x80) : lenUtf8 c = 1 := by
  unfold lenUtf8; rw [encodeChar_ascii h]; rfl

theorem esc_codeChar_ascii {e : UInt8} (h : (Item.esc e).Valid) :
    (Item.esc e).codeChar.toNat < 0x80 := by
  simp [Item.Valid] at h
  rcases h with rfl | rfl | rfl | rfl | rfl | rfl | rfl | rfl <;> decide

theorem Item.bytes_pos (i : Item) : 0 < i.bytes.length := by
  cases i with
  | plain c =>
    have := lenUtf8_pos c
    exact this
  | _ => simp [Item.bytes]

theorem uni_codeChar_toNat {h : Hex4} (hv : (Item.uni h).Valid) :
    (Item.uni h).codeChar.toNat = h.val := by
  have := Hex4.val_lt h
  obtain ⟨_, h2⟩ := hv
  exact toNat_ofNat_char (by omega)

theorem pair_codeChar_toNat {hi lo : Hex4} (hv : (Item.pair hi lo).Valid) :
    (Item.pair hi lo).codeChar.toNat = mergedCp hi.val lo.val := by
  obtain ⟨_, _, _, h1, _, h2⟩ := hv
  have := mergedCp_bounds h1 h2
  exact toNat_ofNat_char (by omega)

theorem Item.codeLen_le {i : Item} (hv : i.Valid) : lenUtf8 i.codeChar ≤ i.bytes.length := by
  cases i with
  | plain c => exact Nat.le_refl _
  | esc e => rw [lenUtf8_eq_one (esc_codeChar_ascii hv)]; simp [Item.bytes]
  | uni h =>
    have := lenUtf8_le (Item.uni h).codeChar
    simp [Item.bytes, Hex4.bytes]; omega
  | pair hi lo =>
    have := lenUtf8_le (Item.pair hi lo).codeChar
    simp [Item.bytes, Hex4.bytes]; omega

theorem Str.len_cons' (c : Char) (s : Str) : Str.len (c :: s) = lenUtf8 c + Str.len s := by
  simp [Str.len, utf8_cons, lenUtf8]

theorem codeLen_le {is : List Item} (hv : ItemsValid is) :
    Str.len (codeText is) ≤ (bodyBytes is).length := by
  induction is with
  | nil => simp [codeText, Str.len, utf8]
  | cons i is ih =>
    rw [ItemsValid.cons] at hv
    have := ih hv.2
    have := Item.codeLen_le hv.1
    simp only [codeText, List.map_cons, Str.len_cons', bodyBytes, List.flatMap_cons, List.length_append] at *
    omega

/-! ## Numbers are ASCII -/

theorem digits_ascii {ds : List UInt8} (h : ∀ b ∈ ds, IsDigit b) : ∀ b ∈ ds, b.toNat < 0x80 := by
  intro b hb
  have := h b hb
  unfold IsDigit at this
  omega

theorem NumLit.ascii {n : NumLit} (h : n.Valid) : ∀ b ∈ n.bytes, b.toNat < 0x80 := by
  obtain ⟨h1, h2, h3⟩ := h
  intro b hb
  simp only [NumLit.bytes, List.mem_append] at hb
  rcases hb with ((hb | hb) | hb) | hb
  · split at hb
    · simp at hb; subst hb; decide
    · simp at hb
  · exact digits_ascii h1.1.2 b hb
  · cases hf : n.frac with
    | none => rw [hf] at hb; simp [fracBytes] at hb
    | some ds =>
      rw [hf] at hb
      simp [fracBytes] at hb
      rcases hb with rfl | hb
      · decide
      · exact digits_ascii (h2 ds hf).2 b hb
  · cases he : n.exp with
    | none => rw [he] at hb; simp [expBytes] at hb
    | some x =>
      obtain ⟨e, s, ds⟩ := x
      obtain ⟨he1, he2, he3⟩ := h3 e s ds he
      rw [he] at hb
      simp [expBytes] at hb
      rcases hb with rfl | hb | hb
      · rcases he1 with rfl | rfl <;> decide
      · rcases he2 b hb with rfl | rfl <;> decide
      · exact digits_ascii he3.2 b hb

theorem utf8Decode_num {n : NumLit} (h : n.Valid) :
    utf8Decode n.bytes = some (n.bytes.map byteChar) := by
  have := utf8Decode_utf8 (n.bytes.map byteChar)
  rwa [utf8_map_byteChar (NumLit.ascii h)] at this

theorem utf8_num {n : NumLit} (h : n.Valid) : utf8 (n.bytes.map byteChar) = n.bytes :=
  utf8_map_byteChar (NumLit.ascii h)

end JustJson
