import Verif.Lemmas.Wp
/-! # Reading string literals -/

namespace JustJson
open Spec

set_option linter.unusedSectionVars false
theorem quote_toNat : '"'.toNat = 0x22 := rfl
theorem bslash_toNat : '\\'.toNat = 0x5C := rfl
attribute [local irreducible] Char.ofNat lenUtf8 charFromU32

/-! ## Plain items -/

theorem bodyBytes_cons (i : Item) (is : List Item) : bodyBytes (i :: is) = i.bytes ++ bodyBytes is := rfl
theorem bodyBytes_append (a b : List Item) : bodyBytes (a ++ b) = bodyBytes a ++ bodyBytes b := by
  simp [bodyBytes]
theorem codeText_cons (i : Item) (is : List Item) : codeText (i :: is) = i.codeChar :: codeText is := rfl
theorem codeText_append (a b : List Item) : codeText (a ++ b) = codeText a ++ codeText b := by
  simp [codeText]
theorem hasEsc_cons (i : Item) (is : List Item) : hasEsc (i :: is) = (i.isEscape || hasEsc is) := rfl
theorem hasEsc_append (a b : List Item) : hasEsc (a ++ b) = (hasEsc a || hasEsc b) := by
  simp [hasEsc]
theorem bodyChars_append (a b : List Item) : bodyChars (a ++ b) = bodyChars a ++ bodyChars b := by
  simp [bodyChars]

theorem bodyBytes_plain (cs : Str) : bodyBytes (cs.map Item.plain) = utf8 cs := by
  induction cs with
  | nil => rfl
  | cons c cs ih => rw [List.map_cons, bodyBytes_cons, ih]; rfl

theorem codeText_plain (cs : Str) : codeText (cs.map Item.plain) = cs := by
  induction cs with
  | nil => rfl
  | cons c cs ih => rw [List.map_cons, codeText_cons, ih]; rfl

theorem hasEsc_plain (cs : Str) : hasEsc (cs.map Item.plain) = false := by
  induction cs with
  | nil => rfl
  | cons c cs ih => rw [List.map_cons, hasEsc_cons, ih]; rfl

theorem high_of_bytes {c : Char} (h : ∀ b ∈ encodeChar c, 0x80 ≤ b.toNat) : 0x80 ≤ c.toNat := by
  apply Decidable.byContradiction
  intro hc
  rw [encodeChar_ascii (by omega)] at h
  have := h (UInt8.ofNat c.toNat) (by simp)
  rw [toNat_ofNat_u8 (by omega)] at this
  omega

theorem plain_valid_of_high {c : Char} (h : 0x80 ≤ c.toNat) : (Item.plain c).Valid := by
  refine ⟨by omega, ?_, ?_⟩
  · rintro rfl; rw [quote_toNat] at h; omega
  · rintro rfl; rw [bslash_toNat] at h; omega

theorem plain_items_valid {cs : Str} (h : ∀ b ∈ utf8 cs, 0x80 ≤ b.toNat) :
    ItemsValid (cs.map Item.plain) := by
  intro i hi
  obtain ⟨c, hc, rfl⟩ := List.mem_map.mp hi
  apply plain_valid_of_high
  apply high_of_bytes
  intro b hb
  exact h b (List.mem_flatMap.mpr ⟨c, hc, hb⟩)

/-- Every body splits into a leading run of unescaped non-ASCII characters and a rest that starts
with an ASCII byte. -/
theorem items_split (is : List Item) (hv : ItemsValid is) : ∃ (cs : Str) (rest : List Item),
    is = cs.map Item.plain ++ rest ∧ (∀ b ∈ utf8 cs, 0x80 ≤ b.toNat)
    ∧ (∀ b, (bodyBytes rest).head? = some b → b.toNat < 0x80) := by
  induction is with
  | nil => exact ⟨[], [], rfl, by simp, by simp [bodyBytes]⟩
  | cons i is ih =>
    rw [ItemsValid.cons] at hv
    cases he : i.isEscape with
    | true =>
      refine ⟨[], i :: is, rfl, by simp, ?_⟩
      intro b hb
      apply Item.escape_ascii hv.1 he b
      rw [bodyBytes_cons] at hb
      have := Item.bytes_pos i
      match hi : i.bytes with
      | [] => rw [hi] at this; simp at this
      | x :: t => rw [hi] at hb; simp at hb; simp [hb]
    | false =>
      match i, he with
      | .plain c, _ =>
        by_cases hc : c.toNat < 0x80
        · refine ⟨[], .plain c :: is, rfl, by simp, ?_⟩
          intro b hb
          rw [bodyBytes_cons, Item.bytes, encodeChar_ascii hc] at hb
          simp at hb
          rw [← hb, toNat_ofNat_u8 (by omega)]
          exact hc
        · obtain ⟨cs, rest, h1, h2, h3⟩ := ih hv.2
          refine ⟨c :: cs, rest, by rw [h1]; rfl, ?_, h3⟩
          intro b hb
          rw [utf8_cons, List.mem_append] at hb
          rcases hb with hb | hb
          · exact encodeChar_high (by omega) b hb
          · exact h2 b hb

section
variable {src : List UInt8} [Arch]

/-! ## The four kinds of step of the string loop -/

/-- the table used -/
abbrev safeTable (g : Bool) : List Bool := if g then SAFE_STRING_BYTES else SAFE_STRING_BYTES_VERIFY_UTF8

theorem safe_true_iff (b : UInt8) : safeLookup (safeTable true) b = true ↔
    0x20 ≤ b.toNat ∧ b.toNat ≠ 0x22 ∧ b.toNat ≠ 0x5C := safe_iff b

theorem safe_false_iff (b : UInt8) : safeLookup (safeTable false) b = true ↔
    0x20 ≤ b.toNat ∧ b.toNat ≠ 0x22 ∧ b.toNat ≠ 0x5C ∧ b.toNat < 0x80 := safeVerify_iff b

theorem safe_ascii (g : Bool) {b : UInt8} (h : 0x20 ≤ b.toNat ∧ b.toNat ≠ 0x22 ∧ b.toNat ≠ 0x5C)
    (ha : b.toNat < 0x80) : safeLookup (safeTable g) b = true := by
  cases g
  · rw [safe_false_iff]; omega
  · rw [safe_true_iff]; omega

theorem not_safe (g : Bool) {b : UInt8} (h : ¬ (0x20 ≤ b.toNat ∧ b.toNat ≠ 0x22 ∧ b.toNat ≠ 0x5C)) :
    ¬ safeLookup (safeTable g) b = true := by
  cases g
  · rw [safe_false_iff]; omega
  · rw [safe_true_iff]; omega

theorem loop_step_safe {g : Bool} {start fuel n off : Nat} {e : Bool} {b : UInt8} {t : List UInt8}
    (h : src.drop off = b :: t) (hs : safeLookup (safeTable g) b = true) (hn : n + 1 < LIM) :
    readStringLoop src g start (fuel + 1) (.new e n) off
      = readStringLoop src g start fuel (.new e (n + 1)) (off + 1) := by
  rw [readStringLoop, M.bind_ok (readOr_cons _ h)]
  simp only
  rw [if_pos hs, info_addBytes hn]
  rfl

theorem loop_safe {g : Bool} {start : Nat} (bs : List UInt8) : ∀ {fuel n off : Nat} {e : Bool}
    {r : List UInt8}, src.drop off = bs ++ r → (∀ b ∈ bs, safeLookup (safeTable g) b = true) →
    n + bs.length < LIM →
    readStringLoop src g start (fuel + bs.length) (.new e n) off
      = readStringLoop src g start fuel (.new e (n + bs.length)) (off + bs.length) := by
  induction bs with
  | nil => intros; rfl
  | cons b t ih =>
    intro fuel n off e r h hs hn
    simp only [List.length_cons] at hn ⊢
    rw [← Nat.add_assoc, loop_step_safe h (hs b (by simp)) (by omega),
      ih (drop_succ_of_cons h) (fun x hx => hs x (by simp [hx])) (by omega)]
    congr 1
    · congr 1; omega
    · omega

theorem loop_quote {g : Bool} {start fuel off : Nat} {info : JsonStringInfo} {t : List UInt8}
    (h : src.drop off = 0x22 :: t) :
    readStringLoop src g start (fuel + 1) info off
      = (match sliceBytes src (start + 1) off with
        | none => .panic .index
        | some body => match utf8Decode body with
          | none => .panic .ub
          | some s => .ok ⟨.json (.borrowed s), info⟩ (off + 1)) := by
  rw [readStringLoop, M.bind_ok (readOr_cons _ h)]
  simp only
  rw [if_neg (not_safe g (by decide)), if_pos (by simp)]
  cases sliceBytes src (start + 1) off with
  | none => rfl
  | some body =>
    rw [M.orPanic_some, M.bind_ok (by rfl)]
    simp only
    cases utf8Decode body with
    | none => rfl
    | some s => rfl

theorem loop_backslash {g : Bool} {start fuel off : Nat} {info : JsonStringInfo} {t : List UInt8}
    (h : src.drop off = 0x5C :: t) :
    readStringLoop src g start (fuel + 1) info off
      = (readStringEscape src info >>= fun info => readStringLoop src g start fuel info) (off + 1) := by
  rw [readStringLoop, M.bind_ok (readOr_cons _ h)]
  simp only
  rw [if_neg (not_safe g (by decide)), if_neg (by decide), if_pos (by simp)]

theorem loop_control {g : Bool} {start fuel off : Nat} {info : JsonStringInfo} {b : UInt8}
    {t : List UInt8} (h : src.drop off = b :: t) (hb : b.toNat < 0x20) :
    readStringLoop src g start (fuel + 1) info off = .err ⟨off, .unexpected b⟩ (off + 1) := by
  have e1 : b ≠ 0x22 := by rintro rfl; revert hb; decide
  have e2 : b ≠ 0x5C := by rintro rfl; revert hb; decide
  have e3 : ¬ (128 : UInt8) ≤ b := by rw [UInt8.le_iff_toNat_le]; show ¬ 128 ≤ b.toNat; omega
  have e4 : b ≤ (31 : UInt8) := by rw [UInt8.le_iff_toNat_le]; show b.toNat ≤ 31; omega
  rw [readStringLoop, M.bind_ok (readOr_cons _ h)]
  simp only
  rw [if_neg (not_safe g (by omega)), if_neg e1, if_neg e2, if_neg e3, if_pos e4]
  rfl

/-- the test `b >= 128` -/
theorem ge128_iff (b : UInt8) : (decide ((128 : UInt8) ≤ b) = true) ↔ 0x80 ≤ b.toNat := by
  rw [decide_eq_true_iff, UInt8.le_iff_toNat_le]; rfl

theorem loop_high {start fuel n off : Nat} {e : Bool} {b : UInt8} {bs r : List UInt8}
    (h : src.drop off = b :: (bs ++ r)) (hb : ∀ x ∈ b :: bs, 0x80 ≤ x.toNat)
    (hr : ∀ x, r.head? = some x → x.toNat < 0x80) (hn : n + (bs.length + 1) < LIM) :
    readStringLoop src false start (fuel + 1) (.new e n) off
      = (match utf8Decode (b :: bs) with
        | none => .err ⟨off, .utf8⟩ (off + (bs.length + 1))
        | some _ => readStringLoop src false start fuel (.new e (n + (bs.length + 1)))
            (off + (bs.length + 1))) := by
  have hb0 := hb b (by simp)
  have e1 : b ≠ 0x22 := by rintro rfl; revert hb0; decide
  have e2 : b ≠ 0x5C := by rintro rfl; revert hb0; decide
  have e3 : (128 : UInt8) ≤ b := by rw [UInt8.le_iff_toNat_le]; exact hb0
  have e0 : ¬ safeLookup (safeTable false) b = true := by rw [safe_false_iff]; omega
  have hrun : runLen (fun b => decide ((128 : UInt8) ≤ b)) (src.drop (off + 1)) = bs.length := by
    rw [drop_succ_of_cons h]
    apply runLen_append
    · intro x hx; rw [ge128_iff]; exact hb x (by simp [hx])
    · intro x hx
      have := hr x hx
      rw [← Bool.not_eq_true, ge128_iff]
      omega
  have hadv : Adv src off (b :: bs) (off + (bs.length + 1)) :=
    Adv.of_drop (bs := b :: bs) (r := r) h
  have hlt := lt_of_drop_cons h
  rw [readStringLoop, M.bind_ok (readOr_cons _ h)]
  simp only
  rw [if_neg e0, if_neg e1, if_neg e2, if_pos e3]
  rw [M.bind_ok (M.modify_eq _ _), M.bind_ok (M.get_eq _), hrun]
  have h1 : off + 1 + bs.length - off = bs.length + 1 := by omega
  have h2 : off + 1 + bs.length = off + (bs.length + 1) := by omega
  rw [h1, info_addBytes hn, M.orPanic_some, M.bind_ok (M.pure_eq' _ _), h2, hadv.slice (by omega),
    M.orPanic_some, M.bind_ok (M.pure_eq' _ _)]
  cases utf8Decode (b :: bs) <;> rfl

/-! ## Completeness -/

theorem loop_escape {g : Bool} {start fuel n off : Nat} {e : Bool} {i : Item} {r : List UInt8}
    (h : src.drop off = i.bytes ++ r) (hv : i.Valid) (he : i.isEscape = true)
    (hn : n + lenUtf8 i.codeChar < LIM) :
    readStringLoop src g start (fuel + 1) (.new e n) off
      = readStringLoop src g start fuel (.new true (n + lenUtf8 i.codeChar)) (off + i.bytes.length) := by
  obtain ⟨t, ht⟩ : ∃ t, i.bytes = 0x5C :: t := by
    cases i <;> first | exact ⟨_, rfl⟩ | simp [Item.isEscape] at he
  have h' : src.drop off = 0x5C :: (t ++ r) := by rw [h, ht]; rfl
  rw [loop_backslash h', M.bind_ok (readStringEscape_eq hv ht he (drop_succ_of_cons h') hn), ht]
  congr 1
  simp
  omega

theorem plain_ascii_safe (g : Bool) {c : Char} (hv : (Item.plain c).Valid) (ha : c.toNat < 0x80) :
    ∀ b ∈ (Item.plain c).bytes, safeLookup (safeTable g) b = true := by
  intro b hb
  rw [Item.bytes, encodeChar_ascii ha] at hb
  simp at hb
  subst hb
  have hc := toNat_ofNat_u8 (n := c.toNat) (by omega)
  obtain ⟨h1, h2, h3⟩ := hv
  apply safe_ascii g
  · rw [hc]
    refine ⟨h1, ?_, ?_⟩
    · intro h; exact h2 (char_ext (by rw [h, quote_toNat]))
    · intro h; exact h3 (char_ext (by rw [h, bslash_toNat]))
  · omega

theorem lenUtf8_def (c : Char) : lenUtf8 c = (encodeChar c).length := by
  unfold lenUtf8; rfl

/-- A literal that is there is read. -/
theorem readStringLoop_complete {g : Bool} {start : Nat} {s : Str} :
    ∀ (len : Nat) (is : List Item) {fuel n off : Nat} {e : Bool} {pre r : List UInt8},
    is.length ≤ len → ItemsValid is → src.drop off = bodyBytes is ++ 0x22 :: r →
    Adv src (start + 1) pre off → start + 1 ≤ src.length → utf8Decode (pre ++ bodyBytes is) = some s →
    n + (bodyBytes is).length < LIM → (bodyBytes is).length + 1 ≤ fuel →
    readStringLoop src g start fuel (.new e n) off
      = .ok ⟨.json (.borrowed s), .new (e || hasEsc is) (n + Str.len (codeText is))⟩
          (off + (bodyBytes is).length + 1) := by
  intro len
  induction len with
  | zero =>
    intro is fuel n off e pre r hl hv hd hadv hst hdec hn hf
    obtain rfl : is = [] := List.length_eq_zero_iff.mp (by omega)
    obtain ⟨fuel, rfl⟩ : ∃ f, fuel = f + 1 := ⟨fuel - 1, by omega⟩
    rw [loop_quote hd, hadv.slice hst]
    simp only [bodyBytes, List.flatMap_nil, List.append_nil] at hdec
    simp only [hdec]
    simp [hasEsc, codeText, bodyBytes]
  | succ len ih =>
    intro is fuel n off e pre r hl hv hd hadv hst hdec hn hf
    cases is with
    | nil => exact ih [] (by simp) hv hd hadv hst hdec hn hf
    | cons i is =>
      have hv' := hv
      rw [ItemsValid.cons] at hv
      have hcl := Item.codeLen_le hv.1
      have hip := Item.bytes_pos i
      rw [bodyBytes_cons, List.append_assoc] at hd
      rw [bodyBytes_cons, List.length_append] at hn hf
      rw [bodyBytes_cons] at hdec
      have hadvi := Adv.of_drop hd
      cases he : i.isEscape with
      | true =>
        obtain ⟨fuel, rfl⟩ : ∃ f, fuel = f + 1 := ⟨fuel - 1, by omega⟩
        rw [loop_escape hd hv.1 he (by omega)]
        rw [ih is (by simpa using hl) hv.2 (r := r) (by rw [← List.drop_drop, hd]; simp)
          (hadv.trans hadvi) hst (by rw [List.append_assoc]; exact hdec) (by omega) (by omega)]
        rw [hasEsc_cons, he, codeText_cons, Str.len_cons, bodyBytes_cons, List.length_append]
        simp [Nat.add_assoc]
      | false =>
        match i, he with
        | .plain c, _ =>
          by_cases hc : c.toNat < 0x80 ∨ g = true
          · have hsafe : ∀ b ∈ (Item.plain c).bytes, safeLookup (safeTable g) b = true := by
              by_cases ha : c.toNat < 0x80
              · exact plain_ascii_safe g hv.1 ha
              · have hg : g = true := by rcases hc with h | h; exact absurd h ha; exact h
                subst hg
                intro b hb
                have := encodeChar_high (by omega) b hb
                rw [safe_true_iff]
                omega
            obtain ⟨f, rfl⟩ : ∃ f, fuel = f + (Item.plain c).bytes.length :=
              ⟨fuel - (Item.plain c).bytes.length, by omega⟩
            rw [loop_safe _ hd hsafe (by omega)]
            rw [ih is (by simpa using hl) hv.2 (r := r) (by rw [← List.drop_drop, hd]; simp)
              (hadv.trans hadvi) hst (by rw [List.append_assoc]; exact hdec) (by omega) (by omega)]
            rw [hasEsc_cons, codeText_cons, Str.len_cons, bodyBytes_cons, List.length_append]
            simp [Nat.add_assoc, Item.isEscape, Item.codeChar, Item.bytes, lenUtf8_def]
          · have hc1 : 0x80 ≤ c.toNat := by omega
            have hg : g = false := by
              cases g
              · rfl
              · exact absurd (Or.inr rfl) hc
            subst hg
            obtain ⟨cs, rest, h1, h2, h3⟩ := items_split (.plain c :: is) hv'
            have hcs : cs ≠ [] := by
              rintro rfl
              obtain rfl : rest = .plain c :: is := by simpa using h1.symm
              obtain ⟨b0, t0, hb0, -⟩ := encodeChar_tail_cont c
              have := h3 b0 (by rw [bodyBytes_cons, Item.bytes, hb0]; rfl)
              have := encodeChar_high hc1 b0 (by rw [hb0]; simp)
              omega
            obtain ⟨c', cs', rfl⟩ : ∃ c' cs', cs = c' :: cs' := by
              cases cs with
              | nil => exact absurd rfl hcs
              | cons a b => exact ⟨a, b, rfl⟩
            have hbb : (Item.plain c).bytes ++ bodyBytes is = utf8 (c' :: cs') ++ bodyBytes rest := by
              rw [← bodyBytes_plain, ← bodyBytes_append, ← h1, bodyBytes_cons]
            obtain ⟨b0, bs, hub⟩ : ∃ b0 bs, utf8 (c' :: cs') = b0 :: bs := by
              obtain ⟨b0, t0, hb0, -⟩ := encodeChar_tail_cont c'
              exact ⟨b0, t0 ++ utf8 cs', by rw [utf8_cons, hb0]; rfl⟩
            have hd2 : src.drop off = b0 :: (bs ++ (bodyBytes rest ++ 0x22 :: r)) := by
              rw [hd, ← List.append_assoc, hbb, hub]; simp
            have hlen : (Item.plain c).bytes.length + (bodyBytes is).length
                = bs.length + 1 + (bodyBytes rest).length := by
              rw [← List.length_append, hbb, hub]; simp; omega
            obtain ⟨fuel, rfl⟩ : ∃ f, fuel = f + 1 := ⟨fuel - 1, by omega⟩
            rw [loop_high hd2 (by rw [← hub]; exact h2) (by
              intro x hx
              cases hr : bodyBytes rest with
              | nil => rw [hr] at hx; simp at hx; subst hx; decide
              | cons y ys => rw [hr] at hx; simp at hx; subst hx; exact h3 y (by rw [hr]; rfl))
              (by omega), ← hub, utf8Decode_utf8]
            simp only
            have hrl : rest.length ≤ len := by
              have := congrArg List.length h1
              simp at this
              simp at hl
              omega
            have hrv : ItemsValid rest := by rw [h1, ItemsValid.append] at hv'; exact hv'.2
            have hadv2 : Adv src off (utf8 (c' :: cs')) (off + (bs.length + 1)) := by
              rw [hub]
              exact Adv.of_drop (bs := b0 :: bs) hd2
            rw [ih rest hrl hrv (r := r) (by
                rw [← List.drop_drop, hd2]; simp)
              (hadv.trans hadv2) hst (by rw [List.append_assoc, ← hbb]; exact hdec) (by omega) (by omega)]
            have hti : codeText (.plain c :: is) = (c' :: cs') ++ codeText rest := by
              rw [h1, codeText_append, codeText_plain]
            have hei : hasEsc (.plain c :: is) = hasEsc rest := by
              rw [h1, hasEsc_append, hasEsc_plain]; rfl
            have hli : Str.len (c' :: cs') = bs.length + 1 := by
              unfold Str.len; rw [hub]; rfl
            rw [hti, hei, Str.len_append, hli, bodyBytes_cons, List.length_append]
            congr 2
            · congr 1; omega
            · omega

/-- Reading a string literal whose opening quote is at `start`. -/
theorem readString_complete {g : Bool} {start : Nat} {is : List Item} {r : List UInt8}
    (hv : ItemsValid is) (hd : src.drop start = strBytes is ++ r) (hlim : src.length < LIM) :
    readString src g start (start + 1) = .ok (canonStr is) (start + (strBytes is).length) := by
  unfold readString
  have hd1 : src.drop start = 0x22 :: (bodyBytes is ++ 0x22 :: r) := by rw [hd]; simp [strBytes]
  have hd2 := drop_succ_of_cons hd1
  have hlt := lt_of_drop_cons hd1
  have hl : (bodyBytes is).length ≤ src.length := by
    have := congrArg List.length hd2
    simp at this
    omega
  rw [NONE_eq, readStringLoop_complete is.length is (Nat.le_refl _) hv hd2 (Adv.refl _) (by omega)
    (by simpa using utf8Decode_bodyBytes hv) (by omega) (by omega)]
  simp [canonStr, strBytes]
  omega

/-! ## Soundness of the checking reader -/

theorem byte_cases (b : UInt8) : (0x20 ≤ b.toNat ∧ b.toNat ≠ 0x22 ∧ b.toNat ≠ 0x5C ∧ b.toNat < 0x80)
    ∨ b = 0x22 ∨ b = 0x5C ∨ b.toNat < 0x20 ∨ 0x80 ≤ b.toNat := by
  by_cases h1 : b.toNat = 0x22
  · exact .inr (.inl (uint8_ext h1))
  by_cases h2 : b.toNat = 0x5C
  · exact .inr (.inr (.inl (uint8_ext h2)))
  omega

theorem wp_readStringLoop {start : Nat} : ∀ (fuel : Nat) {n off : Nat} {e : Bool} {pre : List UInt8} {sp : Str},
    off ≤ src.length → start + 1 ≤ src.length → Adv src (start + 1) pre off → utf8 sp = pre →
    n + (src.length - off) < LIM → src.length - off + 1 ≤ fuel →
    Wp src off (readStringLoop src false start fuel (.new e n) off) fun r off' =>
      ∃ is : List Item, ItemsValid is ∧ Adv src off (bodyBytes is ++ [0x22]) off'
        ∧ r = ⟨.json (.borrowed (sp ++ bodyChars is)), .new (e || hasEsc is) (n + Str.len (codeText is))⟩ := by
  intro fuel
  induction fuel with
  | zero => intros; omega
  | succ fuel ih =>
    intro n off e pre sp hl hst hadv hsp hlim hf
    cases h : src.drop off with
    | nil =>
      rw [readStringLoop, M.bind_err (readOr_nil _ h)]
      exact ⟨Nat.le_refl _, hl, hl⟩
    | cons b t =>
      have hlt := lt_of_drop_cons h
      rcases byte_cases b with hb | rfl | rfl | hb | hb
      · -- an unescaped ASCII character
        rw [loop_step_safe h ((safe_false_iff b).mpr hb) (by omega)]
        have hcv : (Item.plain (byteChar b)).Valid := by
          have hbc := byteChar_toNat hb.2.2.2
          refine ⟨by omega, ?_, ?_⟩
          · intro hc; rw [hc] at hbc; have := quote_toNat; omega
          · intro hc; rw [hc] at hbc; have := bslash_toNat; omega
        have hub : utf8 [byteChar b] = [b] := by
          simp [utf8_cons, encode_byteChar hb.2.2.2]
        refine (ih (sp := sp ++ [byteChar b]) (by omega) hst (hadv.trans (Adv.cons h))
          (by rw [utf8_append, hsp, hub]) (by omega) (by omega)).mono (by omega) ?_
        rintro r off' ⟨is, hv, ha, rfl⟩
        refine ⟨.plain (byteChar b) :: is, ItemsValid.cons.mpr ⟨hcv, hv⟩, ?_, ?_⟩
        · rw [bodyBytes_cons, Item.bytes, encode_byteChar hb.2.2.2, List.append_assoc]
          exact (Adv.cons h).trans ha
        · have hl1 : lenUtf8 (byteChar b) = 1 := by
            rw [lenUtf8_def, encode_byteChar hb.2.2.2]; rfl
          rw [hasEsc_cons, codeText_cons, Str.len_cons]
          simp [Item.isEscape, Item.codeChar, hl1, bodyChars, Item.chars, Nat.add_assoc]
      · -- the closing quote
        rw [loop_quote h, hadv.slice hst, ← hsp]
        simp only [utf8Decode_utf8]
        refine ⟨[], by simp [ItemsValid], Adv.cons h, ?_⟩
        simp [bodyChars, hasEsc, codeText]
      · -- an escape
        rw [loop_backslash h]
        refine Wp.bind ((wp_readStringEscape (n := n) (e := e) (by omega) (by omega)).mono (by omega) fun _ _ h => h) ?_
        rintro info s1 ⟨i, hiv, hie, rfl, t', hbt, ha1⟩
        have hl1 := ha1.le (by omega)
        have hai : Adv src off i.bytes s1 := by rw [hbt]; exact (Adv.cons h).trans ha1
        have hs1 := hai.1
        have hcl := Item.codeLen_le hiv
        have hip := Item.bytes_pos i
        have hub := Item.utf8_chars hiv
        refine (ih (sp := sp ++ i.chars) hl1 hst (hadv.trans hai)
          (by rw [utf8_append, hsp, hub]) (by omega) (by omega)).mono (by omega) ?_
        rintro r off' ⟨is, hv, ha, rfl⟩
        refine ⟨i :: is, ItemsValid.cons.mpr ⟨hiv, hv⟩, ?_, ?_⟩
        · rw [bodyBytes_cons, List.append_assoc]; exact hai.trans ha
        · rw [hasEsc_cons, codeText_cons, Str.len_cons, hie]
          simp [bodyChars, Nat.add_assoc]
      · rw [loop_control h hb]
        exact ⟨by omega, by omega, by simp only; omega⟩
      · -- a run of non-ASCII bytes
        have hsplit : t = t.take (runLen (fun b => decide ((128 : UInt8) ≤ b)) t)
            ++ t.drop (runLen (fun b => decide ((128 : UInt8) ≤ b)) t) := (List.take_append_drop _ _).symm
        generalize hbs : t.take (runLen (fun b => decide ((128 : UInt8) ≤ b)) t) = bs at hsplit
        generalize hrr : t.drop (runLen (fun b => decide ((128 : UInt8) ≤ b)) t) = r at hsplit
        have h1 : ∀ x ∈ b :: bs, 0x80 ≤ x.toNat := by
          intro x hx
          rcases List.mem_cons.mp hx with rfl | hx
          · exact hb
          · rw [← hbs] at hx
            exact (ge128_iff x).mp (runLen_take _ _ x hx)
        have h2 : ∀ x, r.head? = some x → x.toNat < 0x80 := by
          intro x hx
          rw [← hrr] at hx
          have := runLen_drop _ _ x hx
          rw [← Bool.not_eq_true, ge128_iff] at this
          omega
        rw [hsplit] at h
        have hadv1 : Adv src off (b :: bs) (off + (bs.length + 1)) :=
          Adv.of_drop (bs := b :: bs) h
        have hl1 := hadv1.le hl
        rw [loop_high h h1 h2 (by omega)]
        cases hd : utf8Decode (b :: bs) with
        | none => exact ⟨by omega, hl1, hl⟩
        | some cs =>
          simp only
          have hcs := utf8_of_decode hd
          have hcsl : Str.len cs = bs.length + 1 := by unfold Str.len; rw [hcs]; rfl
          refine (ih (sp := sp ++ cs) hl1 hst (hadv.trans hadv1)
            (by rw [utf8_append, hsp, hcs]) (by omega) (by omega)).mono (by omega) ?_
          rintro r off' ⟨is, hv, ha, rfl⟩
          refine ⟨cs.map Item.plain ++ is, ItemsValid.append.mpr
            ⟨plain_items_valid (by rw [hcs]; exact h1), hv⟩, ?_, ?_⟩
          · rw [bodyBytes_append, bodyBytes_plain, hcs, List.append_assoc]
            exact hadv1.trans ha
          · rw [hasEsc_append, codeText_append, Str.len_append, codeText_plain, hasEsc_plain,
              hcsl, bodyChars_append]
            have : bodyChars (cs.map Item.plain) = cs := by
              simp [bodyChars, List.flatMap_map, Item.chars]
            rw [this]
            simp [Nat.add_assoc]

/-- The checking string reader yields canonical strings only. -/
theorem wp_readString {start : Nat} (hst : start + 1 ≤ src.length) (hlim : src.length < LIM) :
    Wp src (start + 1) (readString src false start (start + 1)) fun r off' =>
      ∃ is : List Item, ItemsValid is ∧ Adv src (start + 1) (bodyBytes is ++ [0x22]) off'
        ∧ r = canonStr is := by
  unfold readString
  rw [NONE_eq]
  refine (wp_readStringLoop (start := start) (src.length + 1) (sp := []) (pre := []) hst hst (Adv.refl _) rfl
    (by omega) (by omega)).mono (Nat.le_refl _) ?_
  rintro r off' ⟨is, hv, ha, rfl⟩
  exact ⟨is, hv, ha, by simp [canonStr]⟩

/-! ## The unchecked reader does the same on valid UTF-8 -/

/-- The bytes from `off` on are valid UTF-8. -/
def Boundary (src : List UInt8) (off : Nat) : Prop := (utf8Decode (src.drop off)).isSome

theorem Boundary.exists {off : Nat} (h : Boundary src off) : ∃ s, src.drop off = utf8 s := by
  obtain ⟨s, hs⟩ := Option.isSome_iff_exists.mp h
  exact ⟨s, (utf8_of_decode hs).symm⟩

theorem Boundary.of_utf8 {off : Nat} {s : Str} (h : src.drop off = utf8 s) : Boundary src off := by
  unfold Boundary; rw [h, utf8Decode_utf8]; rfl

theorem utf8Decode_utf8_append (s : Str) (r : List UInt8) :
    utf8Decode (utf8 s ++ r) = (utf8Decode r).map (s ++ ·) := by
  induction s with
  | nil => simp
  | cons c cs ih =>
    rw [utf8_cons, List.append_assoc, utf8Decode_encode_append, ih]
    cases utf8Decode r <;> simp

theorem Boundary.adv {off off' : Nat} {s : Str} (h : Boundary src off) (ha : Adv src off (utf8 s) off') :
    Boundary src off' := by
  unfold Boundary at *
  rw [ha.2, utf8Decode_utf8_append] at h
  cases hd : utf8Decode (src.drop off') with
  | none => rw [hd] at h; simp at h
  | some s => rfl

theorem Boundary.adv_ascii {off off' : Nat} {bs : List UInt8} (h : Boundary src off)
    (ha : Adv src off bs off') (hb : ∀ b ∈ bs, b.toNat < 0x80) : Boundary src off' :=
  h.adv (s := bs.map byteChar) (by rw [utf8_map_byteChar hb]; exact ha)

/-- the leading non-ASCII characters -/
theorem str_split (s : Str) : ∃ a b : Str, s = a ++ b ∧ (∀ x ∈ utf8 a, 0x80 ≤ x.toNat)
    ∧ (∀ x, (utf8 b).head? = some x → x.toNat < 0x80) := by
  induction s with
  | nil => exact ⟨[], [], rfl, by simp, by simp⟩
  | cons c cs ih =>
    by_cases hc : c.toNat < 0x80
    · refine ⟨[], c :: cs, rfl, by simp, ?_⟩
      intro x hx
      rw [utf8_cons, encodeChar_ascii hc] at hx
      simp at hx
      rw [← hx, toNat_ofNat_u8 (by omega)]
      exact hc
    · obtain ⟨a, b, rfl, h1, h2⟩ := ih
      refine ⟨c :: a, b, rfl, ?_, h2⟩
      intro x hx
      rw [utf8_cons, List.mem_append] at hx
      rcases hx with hx | hx
      · exact encodeChar_high (by omega) x hx
      · exact h1 x hx

theorem readStringLoop_agree {start : Nat} : ∀ (k : Nat) {f1 f2 n off : Nat} {e : Bool},
    src.length - off ≤ k → off ≤ src.length → Boundary src off →
    n + (src.length - off) < LIM → src.length - off + 1 ≤ f1 → src.length - off + 1 ≤ f2 →
    readStringLoop src true start f1 (.new e n) off = readStringLoop src false start f2 (.new e n) off := by
  intro k
  induction k with
  | zero =>
    intro f1 f2 n off e hk hl hb hlim hf1 hf2
    obtain ⟨f1, rfl⟩ : ∃ f, f1 = f + 1 := ⟨f1 - 1, by omega⟩
    obtain ⟨f2, rfl⟩ : ∃ f, f2 = f + 1 := ⟨f2 - 1, by omega⟩
    have h : src.drop off = [] := List.drop_eq_nil_of_le (by omega)
    rw [readStringLoop, M.bind_err (readOr_nil _ h), readStringLoop, M.bind_err (readOr_nil _ h)]
  | succ k ih =>
    intro f1 f2 n off e hk hl hb hlim hf1 hf2
    obtain ⟨f1, rfl⟩ : ∃ f, f1 = f + 1 := ⟨f1 - 1, by omega⟩
    obtain ⟨f2, rfl⟩ : ∃ f, f2 = f + 1 := ⟨f2 - 1, by omega⟩
    cases h : src.drop off with
    | nil => rw [readStringLoop, M.bind_err (readOr_nil _ h), readStringLoop, M.bind_err (readOr_nil _ h)]
    | cons b t =>
      have hlt := lt_of_drop_cons h
      rcases byte_cases b with hbb | rfl | rfl | hbb | hbb
      · rw [loop_step_safe h (safe_ascii true ⟨hbb.1, hbb.2.1, hbb.2.2.1⟩ hbb.2.2.2) (by omega),
          loop_step_safe h (safe_ascii false ⟨hbb.1, hbb.2.1, hbb.2.2.1⟩ hbb.2.2.2) (by omega)]
        exact ih (by omega) (by omega) (hb.adv_ascii (Adv.cons h) (by simp; omega)) (by omega) (by omega)
          (by omega)
      · rw [loop_quote h, loop_quote h]
      · rw [loop_backslash h, loop_backslash h, M.bind_eq, M.bind_eq]
        have hw := wp_readStringEscape (src := src) (off := off + 1) (n := n) (e := e) (by omega) (by omega)
        cases hm : readStringEscape src (.new e n) (off + 1) with
        | err _ _ => rfl
        | panic _ => rfl
        | ok info s1 =>
          rw [hm] at hw
          obtain ⟨i, hiv, hie, rfl, t', hbt, ha1⟩ := hw
          have hl1 := ha1.le (by omega)
          have hai : Adv src off i.bytes s1 := by rw [hbt]; exact (Adv.cons h).trans ha1
          have hs1 := hai.1
          have hcl := Item.codeLen_le hiv
          have hip := Item.bytes_pos i
          exact ih (by omega) hl1 (hb.adv_ascii hai (Item.escape_ascii hiv hie)) (by omega) (by omega)
            (by omega)
      · rw [loop_control h hbb, loop_control h hbb]
      · obtain ⟨s, hs⟩ := hb.exists
        obtain ⟨a, c, rfl, h1, h2⟩ := str_split s
        have hd : src.drop off = utf8 a ++ utf8 c := by rw [hs, utf8_append]
        have ha : Adv src off (utf8 a) (off + (utf8 a).length) := Adv.of_drop hd
        obtain ⟨b0, bs, hbs⟩ : ∃ b0 bs, utf8 a = b0 :: bs := by
          match hm : utf8 a with
          | [] =>
            rw [hm] at hd
            have := h2 b (by rw [← List.nil_append (utf8 c), ← hd, h]; rfl)
            omega
          | x :: xs => exact ⟨x, xs, rfl⟩
        have hl1 := ha.le hl
        have hlen : (utf8 a).length = bs.length + 1 := by rw [hbs]; rfl
        have hd2 : src.drop off = b0 :: (bs ++ utf8 c) := by rw [hd, hbs]; rfl
        have hsafe : ∀ x ∈ utf8 a, safeLookup (safeTable true) x = true := by
          intro x hx
          have := h1 x hx
          rw [safe_true_iff]; omega
        rw [loop_high hd2 (by rw [← hbs]; exact h1) h2 (by omega), ← hbs, utf8Decode_utf8]
        simp only
        obtain ⟨f, hf⟩ : ∃ f, f1 + 1 = f + (utf8 a).length := ⟨f1 + 1 - (utf8 a).length, by omega⟩
        rw [hf, loop_safe _ hd hsafe (by omega), hlen]
        rw [hlen] at ha hl1
        exact ih (by omega) hl1 (hb.adv ha) (by omega) (by omega) (by omega)

theorem readString_agree {start : Nat} (hst : start + 1 ≤ src.length) (hlim : src.length < LIM)
    (hb : Boundary src (start + 1)) :
    readString src true start (start + 1) = readString src false start (start + 1) := by
  unfold readString
  rw [NONE_eq]
  exact readStringLoop_agree src.length (by omega) hst hb (by omega) (by omega) (by omega)

end
end JustJson
