import Verif.Lemmas.Valid
import Verif.Lemmas.Unique
/-! # Decoding string bodies -/

namespace JustJson
open Spec

set_option linter.unusedSectionVars false

theorem charIndices_drop (off : Nat) (a b : Str) :
    (charIndicesFrom off (a ++ b)).drop a.length = charIndicesFrom (off + Str.len a) b := by
  induction a generalizing off with
  | nil => simp [Str.len_nil]
  | cons c a ih =>
    rw [List.cons_append, charIndicesFrom, List.length_cons, List.drop_succ_cons, ih, Str.len_cons']
    congr 1; omega

theorem charIndices_length (off : Nat) (s : Str) : (charIndicesFrom off s).length = s.length := by
  induction s generalizing off with
  | nil => rfl
  | cons c s ih => rw [charIndicesFrom, List.length_cons, ih]; rfl

theorem dropBytes_append (a b : Str) : dropBytes (a ++ b) (Str.len a) = some b := by
  induction a with
  | nil => simp [Str.len_nil, dropBytes]
  | cons c a ih =>
    rw [Str.len_cons', List.cons_append]
    have := lenUtf8_pos c
    obtain ⟨n, hn⟩ : ∃ n, lenUtf8 c + Str.len a = n + 1 := ⟨lenUtf8 c + Str.len a - 1, by omega⟩
    rw [hn, dropBytes, if_pos (by omega), show n + 1 - lenUtf8 c = Str.len a by omega, ih]

theorem takeBytes_append (a b : Str) : takeBytes (a ++ b) (Str.len a) = some a := by
  induction a with
  | nil => simp [Str.len_nil, takeBytes]
  | cons c a ih =>
    rw [Str.len_cons', List.cons_append]
    have := lenUtf8_pos c
    obtain ⟨n, hn⟩ : ∃ n, lenUtf8 c + Str.len a = n + 1 := ⟨lenUtf8 c + Str.len a - 1, by omega⟩
    rw [hn, takeBytes, if_pos (by omega), show n + 1 - lenUtf8 c = Str.len a by omega, ih]
    rfl

theorem sliceStr_mid (a b c : Str) : sliceStr (a ++ b ++ c) (Str.len a) (Str.len a + Str.len b) = some b := by
  unfold sliceStr
  rw [if_pos (by omega), List.append_assoc, dropBytes_append]
  show takeBytes _ _ = _
  rw [show Str.len a + Str.len b - Str.len a = Str.len b by omega, takeBytes_append]

theorem hexDigitVal_byteChar (b : UInt8) : ∀ v, hexVal b = some v → hexDigitVal (byteChar b) = some v := by
  refine forall_u8 (P := fun b => ∀ v, hexVal b = some v → hexDigitVal (byteChar b) = some v) ?_ b
  intro n v h
  have : ∀ n : Fin 256, (hexVal (UInt8.ofNat n.val)).isSome → hexDigitVal (byteChar (UInt8.ofNat n.val)) = hexVal (UInt8.ofNat n.val) := by
    decide +kernel
  rw [this n (by rw [h]; rfl), h]

theorem hex_not_plus {b : UInt8} (h : (hexVal b).isSome) : byteChar b ≠ '+' := by
  have : ∀ n : Fin 256, (hexVal (UInt8.ofNat n.val)).isSome → byteChar (UInt8.ofNat n.val) ≠ '+' := by
    decide +kernel
  exact forall_u8 (P := fun b => (hexVal b).isSome → byteChar b ≠ '+') this b h

theorem radix_hex4 {h : Hex4} (hv : h.Valid) : fromStrRadix16 (h.bytes.map byteChar) = some h.val := by
  obtain ⟨h1, h2, h3, h4⟩ := hv
  have hp := hex_not_plus h1
  obtain ⟨a, ha⟩ := Option.isSome_iff_exists.mp h1
  obtain ⟨b, hb⟩ := Option.isSome_iff_exists.mp h2
  obtain ⟨c, hc⟩ := Option.isSome_iff_exists.mp h3
  obtain ⟨d, hd⟩ := Option.isSome_iff_exists.mp h4
  have e : fromStrRadix16 (h.bytes.map byteChar) = hexDigits (h.bytes.map byteChar) 0 := by
    unfold fromStrRadix16
    split
    · rename_i he; cases he
    · rename_i he; injection he with he _; exact absurd he hp
    · rename_i he; injection he with he _; exact absurd he hp
    · rfl
  rw [e]
  simp only [Hex4.bytes, List.map_cons, List.map_nil, hexDigits, hexDigitVal_byteChar _ _ ha,
    hexDigitVal_byteChar _ _ hb, hexDigitVal_byteChar _ _ hc, hexDigitVal_byteChar _ _ hd, Option.bind_some]
  unfold Hex4.val
  rw [ha, hb, hc, hd]
  simp only [Option.getD_some]
  congr 1
  omega

theorem len_ascii {bs : List UInt8} (h : ∀ b ∈ bs, b.toNat < 0x80) : Str.len (bs.map byteChar) = bs.length := by
  rw [Str.len, utf8_map_byteChar h]

section
variable [Arch]

theorem unchecked_ok {n : Nat} (h : n < 0xD800 ∨ (0xDFFF < n ∧ n < 0x110000)) :
    charFromU32Unchecked n = .ok (Char.ofNat n) := by
  unfold charFromU32Unchecked
  rw [charFromU32_some h]
  rfl

theorem decoded_step {pre post : Str} {i : Item} (hv : i.Valid) :
    Decoded.next ⟨true, pre ++ i.chars ++ post, charIndicesFrom (Str.len pre) (i.chars ++ post)⟩
      = .ok (some (i.codeChar, ⟨true, pre ++ i.chars ++ post, charIndicesFrom (Str.len pre + Str.len i.chars) post⟩)) := by
  have l1 : ∀ off (b : Char) (r : Str), charIndicesFrom off (b :: r) = (off, b) :: charIndicesFrom (off + lenUtf8 b) r :=
    fun _ _ _ => rfl
  have hbs : lenUtf8 '\\' = 1 := by decide
  have hu : lenUtf8 'u' = 1 := by decide
  cases i with
  | plain c =>
    unfold Decoded.next
    simp only [Item.chars, List.cons_append, List.nil_append, l1, Str.len_cons', Str.len_nil]
    rw [if_neg (by simp; exact hv.2.2)]
    rfl
  | esc e =>
    simp [Item.Valid] at hv
    rcases hv with rfl | rfl | rfl | rfl | rfl | rfl | rfl | rfl <;> rfl
  | uni h =>
    obtain ⟨h1, h2⟩ := hv
    have hlt := Hex4.val_lt h
    have ea : Str.len (pre ++ ['\\', 'u']) = Str.len pre + 1 + 1 := by
      rw [Str.len_append, Str.len_cons', Str.len_cons', Str.len_nil, hbs, hu]
    have hh : Str.len (h.bytes.map byteChar) = 4 := by rw [len_ascii (Hex4.ascii h1)]; rfl
    have hs := sliceStr_mid (pre ++ ['\\', 'u']) (h.bytes.map byteChar) post
    rw [ea, hh] at hs
    have hsrc : pre ++ (Item.uni h).chars ++ post = pre ++ ['\\', 'u'] ++ h.bytes.map byteChar ++ post := by
      simp [Item.chars]; exact ⟨rfl, rfl⟩
    have hci : charIndicesFrom (Str.len pre) ((Item.uni h).chars ++ post)
        = (Str.len pre, '\\') :: (Str.len pre + 1, 'u') :: charIndicesFrom (Str.len pre + 1 + 1) (h.bytes.map byteChar ++ post) := by
      show charIndicesFrom (Str.len pre) ('\\' :: 'u' :: (h.bytes.map byteChar ++ post)) = _
      rw [l1, l1, hbs, hu]
    have hdr := charIndices_drop (Str.len pre + 1 + 1) (h.bytes.map byteChar) post
    rw [hh] at hdr
    have hdr : (charIndicesFrom (Str.len pre + 1 + 1) (h.bytes.map byteChar ++ post)).drop 4 = _ := hdr
    have hlen : Str.len (Item.uni h).chars = 6 := by
      show Str.len ('\\' :: 'u' :: h.bytes.map byteChar) = 6
      rw [Str.len_cons', Str.len_cons', hbs, hu, hh]
    rw [hci, hlen]
    unfold Decoded.next
    simp only [beq_self_eq_true, Bool.and_true, if_true, Bool.true_and]
    rw [if_neg (by decide), if_neg (by decide), if_neg (by decide), if_neg (by decide), if_neg (by decide)]
    unfold Decoded.nextUnicode
    simp only []
    rw [hsrc, hdr]
    rw [show Str.len pre + 1 + 5 = Str.len pre + 1 + 1 + 4 by omega, hs]
    simp only [Res.orPanic]
    rw [Res.bind_eq]
    simp only []
    rw [radix_hex4 h1, Res.bind_eq]
    simp only []
    rw [if_neg (by unfold HIGH_SURROGATE_MIN HIGH_SURROGATE_MAX; omega), unchecked_ok (by omega)]
    rfl
  | pair hi lo =>
    obtain ⟨h1, h2, h3, h4, h5, h6⟩ := hv
    have hlt := Hex4.val_lt hi
    have ea : Str.len (pre ++ ['\\', 'u']) = Str.len pre + 1 + 1 := by
      rw [Str.len_append, Str.len_cons', Str.len_cons', Str.len_nil, hbs, hu]
    have hh : Str.len (hi.bytes.map byteChar) = 4 := by rw [len_ascii (Hex4.ascii h1)]; rfl
    have hh' : Str.len (lo.bytes.map byteChar) = 4 := by rw [len_ascii (Hex4.ascii h2)]; rfl
    have eb : Str.len (pre ++ ['\\', 'u'] ++ hi.bytes.map byteChar ++ ['\\', 'u']) = Str.len pre + 8 := by
      rw [Str.len_append, Str.len_append, ea, hh, Str.len_cons', Str.len_cons', Str.len_nil, hbs, hu]
    have hs := sliceStr_mid (pre ++ ['\\', 'u']) (hi.bytes.map byteChar) (['\\', 'u'] ++ lo.bytes.map byteChar ++ post)
    rw [ea, hh] at hs
    have hs' := sliceStr_mid (pre ++ ['\\', 'u'] ++ hi.bytes.map byteChar ++ ['\\', 'u']) (lo.bytes.map byteChar) post
    rw [eb, hh'] at hs'
    have hsrc : pre ++ (Item.pair hi lo).chars ++ post
        = pre ++ ['\\', 'u'] ++ hi.bytes.map byteChar ++ (['\\', 'u'] ++ lo.bytes.map byteChar ++ post) := by
      simp [Item.chars]; exact ⟨rfl, rfl, rfl, rfl⟩
    have hsrc' : pre ++ ['\\', 'u'] ++ hi.bytes.map byteChar ++ (['\\', 'u'] ++ lo.bytes.map byteChar ++ post)
        = pre ++ ['\\', 'u'] ++ hi.bytes.map byteChar ++ ['\\', 'u'] ++ lo.bytes.map byteChar ++ post := by simp
    rw [hsrc'.symm] at hs'
    have hci : charIndicesFrom (Str.len pre) ((Item.pair hi lo).chars ++ post)
        = (Str.len pre, '\\') :: (Str.len pre + 1, 'u') ::
          charIndicesFrom (Str.len pre + 1 + 1) (hi.bytes.map byteChar ++ (('\\' :: 'u' :: lo.bytes.map byteChar) ++ post)) := by
      show charIndicesFrom (Str.len pre) ('\\' :: 'u' :: _) = _
      rw [l1, l1, hbs, hu]
      simp [Hex4.bytes]
      rfl
    have hdr := charIndices_drop (Str.len pre + 1 + 1) (hi.bytes.map byteChar) (('\\' :: 'u' :: lo.bytes.map byteChar) ++ post)
    rw [hh] at hdr
    have hdr : (charIndicesFrom (Str.len pre + 1 + 1) (hi.bytes.map byteChar ++ (('\\' :: 'u' :: lo.bytes.map byteChar) ++ post))).drop 4 = _ := hdr
    have hl6 : Str.len ('\\' :: 'u' :: lo.bytes.map byteChar) = 6 := by
      rw [Str.len_cons', Str.len_cons', hbs, hu, hh']
    have hdr2 := charIndices_drop (Str.len pre + 1 + 1 + 4) ('\\' :: 'u' :: lo.bytes.map byteChar) post
    rw [hl6] at hdr2
    have hdr2 : (charIndicesFrom (Str.len pre + 1 + 1 + 4) (('\\' :: 'u' :: lo.bytes.map byteChar) ++ post)).drop 6 = _ := hdr2
    have hlen : Str.len (Item.pair hi lo).chars = 12 := by
      show Str.len (([0x5C, 0x75] ++ hi.bytes ++ [0x5C, 0x75] ++ lo.bytes).map byteChar) = 12
      rw [len_ascii]
      · rfl
      · intro b hb
        simp only [List.mem_append] at hb
        rcases hb with ((hb | hb) | hb) | hb
        · simp at hb; rcases hb with rfl | rfl <;> decide
        · exact Hex4.ascii h1 b hb
        · simp at hb; rcases hb with rfl | rfl <;> decide
        · exact Hex4.ascii h2 b hb
    rw [hci, hlen]
    unfold Decoded.next
    simp only [beq_self_eq_true, Bool.and_true, if_true, Bool.true_and]
    rw [if_neg (by decide), if_neg (by decide), if_neg (by decide), if_neg (by decide), if_neg (by decide)]
    unfold Decoded.nextUnicode
    simp only []
    rw [hsrc, hdr, hdr2]
    rw [show Str.len pre + 1 + 5 = Str.len pre + 1 + 1 + 4 by omega, hs]
    simp only [Res.orPanic]
    rw [Res.bind_eq]
    simp only []
    rw [radix_hex4 h1, Res.bind_eq]
    simp only []
    rw [if_pos (by unfold HIGH_SURROGATE_MIN HIGH_SURROGATE_MAX; omega)]
    rw [show Str.len pre + 1 + 7 = Str.len pre + 8 by omega, show Str.len pre + 1 + 11 = Str.len pre + 8 + 4 by omega, hs']
    rw [Res.bind_eq]
    simp only []
    rw [radix_hex4 h2, Res.bind_eq]
    simp only []
    rw [mergeSurrogatePair_eq h3 h5, Res.bind_eq]
    simp only []
    have hb := mergedCp_bounds h4 h6
    rw [unchecked_ok (by omega)]
    rfl

theorem collect_items {pre : Str} {is : List Item} (hv : ItemsValid is) : ∀ fuel, (bodyChars is).length < fuel →
    Decoded.collectFuel fuel ⟨true, pre ++ bodyChars is, charIndicesFrom (Str.len pre) (bodyChars is)⟩ = .ok (codeText is) := by
  induction is generalizing pre with
  | nil =>
    intro fuel h
    obtain ⟨f, rfl⟩ : ∃ f, fuel = f + 1 := ⟨fuel - 1, by omega⟩
    rfl
  | cons i is ih =>
    intro fuel h
    rw [ItemsValid.cons] at hv
    have e1 : bodyChars (i :: is) = i.chars ++ bodyChars is := rfl
    rw [e1, List.length_append] at h
    have hpos : 0 < i.chars.length := by cases i <;> simp [Item.chars]
    obtain ⟨f, rfl⟩ : ∃ f, fuel = f + 1 := ⟨fuel - 1, by omega⟩
    have hs := decoded_step (pre := pre) (post := bodyChars is) hv.1
    have ih := ih (pre := pre ++ i.chars) hv.2 f (by omega)
    rw [Str.len_append] at ih
    rw [e1, ← List.append_assoc, Decoded.collectFuel, hs]
    simp only []
    rw [ih]
    rfl

theorem collect_plain (s src : Str) : ∀ off fuel, s.length < fuel →
    Decoded.collectFuel fuel ⟨false, src, charIndicesFrom off s⟩ = .ok s := by
  induction s with
  | nil =>
    intro off fuel h
    obtain ⟨f, rfl⟩ : ∃ f, fuel = f + 1 := ⟨fuel - 1, by omega⟩
    rfl
  | cons c s ih =>
    intro off fuel h
    simp at h
    obtain ⟨f, rfl⟩ : ∃ f, fuel = f + 1 := ⟨fuel - 1, by omega⟩
    have hn : Decoded.next ⟨false, src, charIndicesFrom off (c :: s)⟩
      = .ok (some (c, ⟨false, src, charIndicesFrom (off + lenUtf8 c) s⟩)) := by
      unfold Decoded.next; simp [charIndicesFrom]
    rw [Decoded.collectFuel, hn]
    simp only []
    rw [ih _ f (by omega)]

theorem noEsc_chars {is : List Item} (h : hasEsc is = false) : bodyChars is = codeText is := by
  induction is with
  | nil => rfl
  | cons i is ih =>
    simp only [hasEsc, List.any_cons, Bool.or_eq_false_iff] at h
    have : bodyChars (i :: is) = i.chars ++ bodyChars is := rfl
    rw [this, ih h.2]
    cases i with
    | plain c => rfl
    | _ => simp [Item.isEscape] at h

theorem codeLen_lim {is : List Item} (hv : ItemsValid is) (hl : (bodyBytes is).length < LIM) :
    Str.len (codeText is) < LIM := by
  have := codeLen_le hv; omega

theorem canon_hasEscapes {is : List Item} (hv : ItemsValid is) (hl : (bodyBytes is).length < LIM) :
    (canonStr is).info.hasEscapes = hasEsc is := info_hasEscapes (codeLen_lim hv hl)

theorem canon_expected {is : List Item} (hv : ItemsValid is) (hl : (bodyBytes is).length < LIM) :
    (canonStr is).info.expectedLength = Str.len (codeText is) := info_expectedLength (codeLen_lim hv hl)

theorem decoded_canon {is : List Item} (hv : ItemsValid is) (hl : (bodyBytes is).length < LIM) :
    (canonStr is).decoded = .ok (codeText is) := by
  have he := canon_hasEscapes hv hl
  unfold JsonString.decoded Decoded.new Decoded.collect
  show Decoded.collectFuel ((charIndicesFrom 0 (bodyChars is)).length + 1)
    ⟨(canonStr is).info.hasEscapes, bodyChars is, charIndicesFrom 0 (bodyChars is)⟩ = _
  rw [he, charIndices_length]
  cases h : hasEsc is with
  | true => exact collect_items (pre := []) hv _ (by omega)
  | false => rw [collect_plain _ _ _ _ (by omega), noEsc_chars h]

theorem decoded_raw (a : AnyStr) (info : JsonStringInfo) : JsonString.decoded ⟨.raw a, info⟩ = .ok a.asStr := by
  unfold JsonString.decoded Decoded.new Decoded.collect
  simp only [charIndices_length]
  exact collect_plain _ _ _ _ (by omega)

theorem decoded_json_plain (a : AnyStr) (info : JsonStringInfo) (h : info.hasEscapes = false) :
    JsonString.decoded ⟨.json a, info⟩ = .ok a.asStr := by
  unfold JsonString.decoded Decoded.new Decoded.collect
  simp only [charIndices_length, h]
  exact collect_plain _ _ _ _ (by omega)

end
end JustJson
