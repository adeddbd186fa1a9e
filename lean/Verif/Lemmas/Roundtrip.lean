import Verif.Lemmas.StrOps
/-! # Rendered text read back -/

namespace JustJson
open Spec

set_option linter.unusedSectionVars false

/-- `0000` -/
def hex0 : Hex4 := ⟨0x30, 0x30, 0x30, 0x30⟩

/-- the item a renderable character is rendered as -/
def toItem (c : Char) : Item :=
  match shortEsc c with
  | some e => .esc (UInt8.ofNat e.toNat)
  | none => if c.toNat < 0x20 then .uni hex0 else .plain c

theorem renderable_cases {c : Char} (h : Renderable c) :
    (0x20 ≤ c.toNat ∧ c ≠ '"' ∧ c ≠ '\\') ∨ c ∈ ['"', '\\', Char.ofNat 0, Char.ofNat 7, '\t', '\n', Char.ofNat 12, '\r'] := by
  by_cases h1 : c = '"'
  · right; rw [h1]; decide
  by_cases h2 : c = '\\'
  · right; rw [h2]; decide
  rcases h with h | h
  · exact .inl ⟨h, h1, h2⟩
  · right
    simp at h
    rcases h with h | h | h | h | h | h <;>
      (have := ofNat_toNat_char c; rw [h] at this; rw [← this]; decide)

theorem toItem_plain {c : Char} (h : 0x20 ≤ c.toNat ∧ c ≠ '"' ∧ c ≠ '\\') : toItem c = .plain c ∧ rend c = [c] := by
  have he : escC c = false := by
    unfold escC
    simp only [Bool.or_eq_false_iff, decide_eq_false_iff_not, beq_eq_false_iff_ne, and_assoc, Nat.not_lt]
    exact h
  have hs : shortEsc c = none := by
    cases hs : shortEsc c with
    | some e => rw [shortEsc_escC hs] at he; cases he
    | none => rfl
  refine ⟨?_, rend_plain he⟩
  unfold toItem
  rw [hs]
  simp only []
  rw [if_neg (by omega)]

theorem toItem_facts {c : Char} (h : Renderable c) :
    (toItem c).Valid ∧ (toItem c).chars = rend c ∧ (toItem c).codeChar = c := by
  rcases renderable_cases h with h | h
  · rw [(toItem_plain h).1, (toItem_plain h).2]
    exact ⟨h, rfl, rfl⟩
  · have key : ∀ (i : Item) (c : Char), toItem c = i → i.Valid → i.chars = rend c → i.codeChar = c →
        (toItem c).Valid ∧ (toItem c).chars = rend c ∧ (toItem c).codeChar = c := by
      rintro i c rfl h1 h2 h3; exact ⟨h1, h2, h3⟩
    simp only [List.mem_cons, List.not_mem_nil, or_false] at h
    rcases h with rfl | rfl | rfl | rfl | rfl | rfl | rfl | rfl
    · exact key (.esc 0x22) _ rfl (by simp [Item.Valid]) rfl rfl
    · exact key (.esc 0x5C) _ rfl (by simp [Item.Valid]) rfl rfl
    · exact key (.uni hex0) _ rfl ⟨by unfold Hex4.Valid; decide, .inl (by decide)⟩ rfl rfl
    · exact key (.esc 0x62) _ rfl (by simp [Item.Valid]) rfl rfl
    · exact key (.esc 0x74) _ rfl (by simp [Item.Valid]) rfl rfl
    · exact key (.esc 0x6E) _ rfl (by simp [Item.Valid]) rfl rfl
    · exact key (.esc 0x66) _ rfl (by simp [Item.Valid]) rfl rfl
    · exact key (.esc 0x72) _ rfl (by simp [Item.Valid]) rfl rfl

theorem render_items {s : Str} (h : ∀ c ∈ s, Renderable c) :
    ItemsValid (s.map toItem) ∧ bodyChars (s.map toItem) = render s ∧ codeText (s.map toItem) = s := by
  refine ⟨?_, ?_, ?_⟩
  · intro i hi
    obtain ⟨c, hc, rfl⟩ := List.mem_map.mp hi
    exact (toItem_facts (h c hc)).1
  · induction s with
    | nil => rfl
    | cons c s ih =>
      have := ih (fun x hx => h x (by simp [hx]))
      simp only [bodyChars, List.map_cons, List.flatMap_cons, render] at *
      rw [(toItem_facts (h c (by simp))).2.1, this]
  · induction s with
    | nil => rfl
    | cons c s ih =>
      have := ih (fun x hx => h x (by simp [hx]))
      simp only [codeText, List.map_cons] at *
      rw [(toItem_facts (h c (by simp))).2.2, this]

theorem nib_toNat {n : Nat} (h : n < 16) : (nib n).toNat = if n < 10 then n + 48 else n + 97 := by
  unfold nib
  split
  · rw [byteChar_toNat (by rw [toNat_ofNat_u8 (by omega)]; omega), toNat_ofNat_u8 (by omega)]
  · rw [byteChar_toNat (by rw [toNat_ofNat_u8 (by omega)]; omega), toNat_ofNat_u8 (by omega)]

theorem encode_nib {n : Nat} (h : n < 16) : encodeChar (nib n) = [UInt8.ofNat (if n < 10 then n + 48 else n + 97)] := by
  have := nib_toNat h
  rw [encodeChar_ascii (by rw [this]; split <;> omega), this]

theorem hexVal_nib {n : Nat} (h : n < 16) : hexVal (UInt8.ofNat (if n < 10 then n + 48 else n + 97)) = if n < 10 then some n else none := by
  unfold hexVal
  rw [toNat_ofNat_u8 (by split <;> omega)]
  by_cases h1 : n < 10
  · simp only [if_pos h1]
    rw [if_pos (by omega)]
    congr 1
  · simp only [if_neg h1]
    rw [if_neg (by omega), if_neg (by omega), if_neg (by omega)]

/-- The rendering read back as an item that decodes to the character itself: only for renderable ones. -/
theorem first_item {c : Char} {i : Item} {r r' : List UInt8} (hv : i.Valid) (hc : i.codeChar = c)
    (h : i.bytes ++ r = utf8 (rend c) ++ r') : Renderable c ∧ r = r' := by
  by_cases hr : Renderable c
  · obtain ⟨h1, h2, _⟩ := toItem_facts hr
    refine ⟨hr, ?_⟩
    have h3 : utf8 (rend c) = (toItem c).bytes := by rw [← h2, Item.utf8_chars h1]
    rw [h3] at h
    exact (item_prefix hv h1 h).2
  · exfalso
    have hn : c.toNat < 0x20 := by
      by_cases h0 : c.toNat < 0x20
      · exact h0
      · exact absurd (.inl (by omega)) hr
    have hs : shortEsc c = none := by
      have hne : ∀ x : Char, Renderable x → c ≠ x := by rintro x hx rfl; exact hr hx
      unfold shortEsc
      rw [if_neg (hne _ (.inl (by decide))), if_neg (hne _ (.inl (by decide))), if_neg (hne _ (.inr (by decide))),
        if_neg (hne _ (.inr (by decide))), if_neg (hne _ (.inr (by decide))), if_neg (hne _ (.inr (by decide))),
        if_neg (hne _ (.inr (by decide)))]
    have hrend : utf8 (rend c) = [0x5C, 0x75, UInt8.ofNat (if c.toNat % 16 < 10 then c.toNat % 16 + 48 else c.toNat % 16 + 97),
        UInt8.ofNat (if c.toNat / 16 < 10 then c.toNat / 16 + 48 else c.toNat / 16 + 97), 0x30, 0x30] := by
      unfold rend
      rw [hs]
      simp only []
      rw [if_pos hn]
      simp only [utf8_cons, utf8_nil]
      rw [encode_nib (by omega), encode_nib (by omega)]
      rfl
    rw [hrend] at h
    have hx := hexVal_nib (n := c.toNat % 16) (by omega)
    have hy := hexVal_nib (n := c.toNat / 16) (by omega)
    generalize UInt8.ofNat (if c.toNat % 16 < 10 then c.toNat % 16 + 48 else c.toNat % 16 + 97) = x at *
    generalize UInt8.ofNat (if c.toNat / 16 < 10 then c.toNat / 16 + 48 else c.toNat / 16 + 97) = y at *
    have hbad : c.toNat ≠ 0 := by
      intro h0; exact hr (.inr (by rw [h0]; decide))
    cases i with
    | plain d =>
      obtain ⟨b, t, he, hb, _⟩ := plain_head hv
      simp only [Item.bytes] at h
      rw [he] at h
      simp at h
      exact hb h.1
    | esc e =>
      simp [Item.bytes] at h
      exact esc_ne_u hv h.1
    | uni q =>
      simp [Item.bytes, Hex4.bytes] at h
      obtain ⟨ha, hb, hc', hd, _⟩ := h
      have hval := uni_codeChar_toNat hv
      rw [hc] at hval
      have hq := hv.1
      unfold Hex4.Valid at hq
      rw [ha, hx] at hq
      unfold Hex4.val at hval
      rw [ha, hb, hc', hd, hx, hy] at hval
      have h30 : hexVal 0x30 = some 0 := by decide
      rw [h30] at hval
      split at hval
      · rw [if_pos (by omega)] at hval
        simp at hval
        omega
      · rename_i hge
        rw [if_neg hge] at hq
        simp at hq
    | pair hi lo =>
      simp [Item.bytes, Hex4.bytes] at h
      obtain ⟨ha, hb, hc', hd, _⟩ := h
      obtain ⟨hq, _, hge, _⟩ := hv
      unfold Hex4.Valid at hq
      unfold Hex4.val at hge
      rw [ha, hb, hc', hd, hx, hy] at hge
      have h30 : hexVal 0x30 = some 0 := by decide
      rw [h30] at hge
      rw [ha, hx] at hq
      split at hge
      · rw [if_pos (by omega)] at hge
        simp at hge
        omega
      · rename_i hx'
        rw [if_neg hx'] at hq
        simp at hq

theorem render_read_back {s : Str} {is : List Item} (hv : ItemsValid is) (hb : bodyBytes is = utf8 (render s)) (hc : codeText is = s) :
    ∀ c ∈ s, Renderable c := by
  induction s generalizing is with
  | nil => simp
  | cons c s ih =>
    cases is with
    | nil => cases hc
    | cons i is =>
      simp only [codeText, List.map_cons, List.cons.injEq] at hc
      have hv := ItemsValid.cons.mp hv
      have hb' : i.bytes ++ bodyBytes is = utf8 (rend c) ++ utf8 (render s) := by
        have : utf8 (render (c :: s)) = utf8 (rend c) ++ utf8 (render s) := by
          rw [← utf8_append]; rfl
        rw [← this, ← hb]; rfl
      obtain ⟨h1, h2⟩ := first_item hv.1 hc.1 hb'
      intro x hx
      rcases List.mem_cons.mp hx with rfl | hx
      · exact h1
      · exact ih hv.2 h2 hc.2 x hx

/-! ## Lengths -/

/-- number of characters U+0080 – U+00FF -/
def latin : Str → Nat
  | [] => 0
  | c :: s => (if Latin1 c then 1 else 0) + latin s
where
  Latin1 (c : Char) : Bool := 0x80 ≤ c.toNat && c.toNat ≤ 0xFF

theorem latin_zero {s : Str} : latin s = 0 ↔ ∀ c ∈ s, ¬ Latin1 c := by
  induction s with
  | nil => simp [latin]
  | cons c s ih =>
    have e : (∀ x ∈ c :: s, ¬ Latin1 x) ↔ ¬ Latin1 c ∧ latin s = 0 := by rw [ih]; simp
    rw [e]
    simp only [latin, Latin1, latin.Latin1, Bool.and_eq_true, decide_eq_true_eq]
    split <;> omega

theorem lenUtf8_mid {c : Char} (h1 : 0x80 ≤ c.toNat) (h2 : c.toNat ≤ 0xFF) : lenUtf8 c = 2 := by
  unfold lenUtf8
  rcases encodeChar_cases c with ⟨h, b0, e, _⟩ | ⟨_, _, b0, b1, e, _⟩ | ⟨h, _, b0, b1, b2, e, _⟩ | ⟨h, _, b0, b1, b2, b3, e, _⟩
  · omega
  · rw [e]; rfl
  · omega
  · omega

theorem len_rend (c : Char) : Str.len (rend c) = cnt c + if latin.Latin1 c then 1 else 0 := by
  by_cases hp : 0x20 ≤ c.toNat ∧ c ≠ '"' ∧ c ≠ '\\'
  · rw [(toItem_plain hp).2]
    have he : escC c = false := by
      unfold escC
      simp only [Bool.or_eq_false_iff, decide_eq_false_iff_not, beq_eq_false_iff_ne, and_assoc, Nat.not_lt]
      exact hp
    have hs : shortEsc c = none := by
      cases hs : shortEsc c with
      | some e => rw [shortEsc_escC hs] at he; cases he
      | none => rfl
    unfold cnt
    rw [hs]
    simp only []
    rw [if_neg (by omega), Str.len_cons', Str.len_nil]
    unfold latin.Latin1
    simp only [Bool.and_eq_true, decide_eq_true_eq]
    by_cases h1 : c.toNat < 0x80
    · rw [if_pos (by omega), if_neg (by omega), lenUtf8_eq_one h1]
    · by_cases h2 : c.toNat ≤ 0xFF
      · rw [if_pos (by omega), if_pos (by omega), lenUtf8_mid (by omega) h2]
      · rw [if_neg (by omega), if_neg (by omega)]
  · have hl : latin.Latin1 c = false := by
      unfold latin.Latin1
      simp only [Bool.and_eq_false_iff, decide_eq_false_iff_not]
      by_cases h0 : 0x80 ≤ c.toNat
      · exfalso
        apply hp
        refine ⟨by omega, ?_, ?_⟩ <;> (rintro rfl; revert h0; decide)
      · exact .inl h0
    rw [hl]
    have : c.toNat < 0x20 ∨ c = '"' ∨ c = '\\' := by
      by_cases h1 : c = '"'
      · exact .inr (.inl h1)
      by_cases h2 : c = '\\'
      · exact .inr (.inr h2)
      exact .inl (by
        by_cases h3 : c.toNat < 0x20
        · exact h3
        · exact absurd ⟨by omega, h1, h2⟩ hp)
    rcases this with h | rfl | rfl
    · have key : ∀ n : Fin 32, Str.len (rend (Char.ofNat n.val)) = cnt (Char.ofNat n.val) + if false = true then 1 else 0 := by
        decide +kernel
      have := key ⟨c.toNat, h⟩
      rwa [ofNat_toNat_char] at this
    · rfl
    · rfl

theorem len_render (s : Str) : Str.len (render s) = cntS s + latin s := by
  induction s with
  | nil => rfl
  | cons c s ih =>
    have : render (c :: s) = rend c ++ render s := rfl
    rw [this, Str.len_append, ih, len_rend, cntS, latin]
    omega

end JustJson

namespace JustJson
open Spec

theorem cnt_le6 (c : Char) : cnt c ≤ 6 := by
  have := lenUtf8_le c
  unfold cnt
  split
  · omega
  · split
    · omega
    · split <;> omega

theorem len_render_le (s : Str) : Str.len (render s) ≤ 6 * Str.len s := by
  induction s with
  | nil => simp [render]
  | cons c s ih =>
    have h1 : render (c :: s) = rend c ++ render s := rfl
    have h2 : Str.len (rend c) ≤ 6 * lenUtf8 c := by
      have := cnt_le6 c
      have := lenUtf8_pos c
      rw [len_rend]
      unfold latin.Latin1
      simp only [Bool.and_eq_true, decide_eq_true_eq]
      split
      · rename_i h
        rw [lenUtf8_mid h.1 h.2]
        omega
      · omega
    rw [h1, Str.len_append, Str.len_cons']
    omega

/-! ## Merged surrogates -/

theorem or_add {q r k : Nat} (h : r < 2 ^ k) : q * 2 ^ k ||| r = q * 2 ^ k + r := by
  rw [Nat.mul_comm]
  exact (Nat.two_pow_add_eq_or_of_lt h q).symm

theorem or_bit16 {q r : Nat} (hq : q < 16) (hr : r < 2 ^ 16) :
    1 * 2 ^ 16 ||| (q * 2 ^ 16 + r) = (if q % 2 = 1 then q else q + 1) * 2 ^ 16 + r := by
  have e : 1 * 2 ^ 16 ||| q * 2 ^ 16 = (1 ||| q) * 2 ^ 16 := by
    rw [← Nat.shiftLeft_eq, ← Nat.shiftLeft_eq, ← Nat.shiftLeft_eq, Nat.shiftLeft_or_distrib]
  have h1 : (1 ||| q) = if q % 2 = 1 then q else q + 1 := by
    have key : ∀ q : Fin 16, (1 ||| q.val) = if q.val % 2 = 1 then q.val else q.val + 1 := by decide
    exact key ⟨q, hq⟩
  rw [← or_add hr, ← Nat.or_assoc, e, or_add hr, h1]

theorem merged_value {hi lo : Nat} (h1 : hi < 0x400) (h2 : lo < 0x400) :
    0x10000 ||| (hi * 0x400) ||| lo = if hi / 64 % 2 = 1 then hi * 0x400 + lo else 0x10000 + (hi * 0x400 + lo) := by
  have e1 : hi * 0x400 ||| lo = hi * 0x400 + lo := or_add (k := 10) h2
  have e2 : hi * 0x400 + lo = (hi / 64) * 2 ^ 16 + (hi % 64 * 2 ^ 10 + lo) := by omega
  have e3 := or_bit16 (q := hi / 64) (r := hi % 64 * 2 ^ 10 + lo) (by omega) (by omega)
  rw [← e2] at e3
  have e4 : (1 * 2 ^ 16 : Nat) = 0x10000 := by decide
  rw [e4] at e3
  rw [Nat.or_assoc, e1, e3]
  clear e1 e3
  by_cases hq : hi / 64 % 2 = 1
  · rw [if_pos hq, if_pos hq]; exact e2.symm
  · rw [if_neg hq, if_neg hq, Nat.add_mul, Nat.add_right_comm, ← e2, Nat.add_comm]

theorem codeChar_readAs {i : Item} (hv : i.Valid) : i.codeChar = i.readAs := by
  cases i with
  | plain c => rfl
  | esc e =>
    unfold Item.codeChar Item.readAs Item.rfcChar
    by_cases h : e = 0x62
    · simp [h]
    · simp [h]
  | uni h => rfl
  | pair hi lo =>
    obtain ⟨_, _, h1, h2, h3, h4⟩ := hv
    show Char.ofNat (mergedCp hi.val lo.val) = if _ then _ else Char.ofNat (0x10000 + (hi.val - 0xD800) * 0x400 + (lo.val - 0xDC00))
    unfold mergedCp
    rw [merged_value (hi := hi.val - 0xD800) (by omega) (by omega)]
    split
    · rfl
    · rw [Nat.add_assoc]

theorem readAs_rfc {i : Item} (hv : i.Valid) : i.readAs = i.rfcChar ↔ ¬ i.Misread := by
  cases i with
  | plain c => simp [Item.readAs, Item.Misread, Item.rfcChar]
  | esc e =>
    unfold Item.Misread
    by_cases h : e = 0x62
    · subst h
      simp only [not_true_eq_false, iff_false]
      decide
    · simp [Item.readAs, h]
  | uni h => simp [Item.readAs, Item.Misread, Item.rfcChar]
  | pair hi lo =>
    obtain ⟨_, _, h1, h2, h3, h4⟩ := hv
    unfold Item.readAs Item.Misread
    by_cases h : (hi.val - 0xD800) / 64 % 2 = 1
    · simp only [h, if_true, not_true_eq_false, iff_false]
      intro he
      have := congrArg Char.toNat he
      unfold Item.rfcChar at this
      rw [toNat_ofNat_char (by omega), toNat_ofNat_char (by omega)] at this
      omega
    · simp [h]

theorem codeText_readAs {is : List Item} (hv : ItemsValid is) : codeText is = is.map Item.readAs :=
  List.map_congr_left (fun i hi => codeChar_readAs (hv i hi))

/-! ## Backslashes -/

theorem plain_no_backslash {c : Char} (hv : (Item.plain c).Valid) : (0x5C : UInt8) ∉ encodeChar c := by
  intro hm
  by_cases h : c.toNat < 0x80
  · rw [encodeChar_ascii h, List.mem_singleton] at hm
    have : c = '\\' := char_ext (by
      have := congrArg UInt8.toNat hm
      rw [toNat_ofNat_u8 (by omega)] at this
      exact this.symm)
    exact hv.2.2 this
  · have := encodeChar_high (by omega) _ hm
    revert this
    decide

theorem hasEsc_iff {is : List Item} (hv : ItemsValid is) : hasEsc is = true ↔ (0x5C : UInt8) ∈ bodyBytes is := by
  unfold hasEsc bodyBytes
  rw [List.any_eq_true]
  constructor
  · rintro ⟨i, hi, he⟩
    refine List.mem_flatMap.mpr ⟨i, hi, ?_⟩
    cases i with
    | plain c => cases he
    | _ => simp [Item.bytes]
  · intro hm
    obtain ⟨i, hi, hb⟩ := List.mem_flatMap.mp hm
    refine ⟨i, hi, ?_⟩
    cases i with
    | plain c => exact absurd hb (plain_no_backslash (hv _ hi))
    | _ => rfl

end JustJson
