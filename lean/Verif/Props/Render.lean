import Verif.Props.Strings
/-! # Text converted to strings and rendered as JSON: C24, C25, C46 – C48 -/

namespace JustJson
open Spec

set_option linter.unusedSectionVars false

section
variable [Arch]

/-- `j` was converted from the text `s`. -/
def FromText (j : JsonString) (s : Str) : Prop := JsonString.fromStr s = .ok j ∨ JsonString.fromString s = .ok j

theorem fromText_shape {s : Str} {j : JsonString} (hf : SliceFits (utf8 s)) (h : FromText j s) : Shape j s := by
  rcases h with h | h
  · exact fromStr_shape hf h
  · exact fromString_shape hf h

theorem fromText_cases {s : Str} {j : JsonString} (hf : SliceFits (utf8 s)) (h : FromText j s) :
    (∃ a, a.asStr = s ∧ j = ⟨.raw a, .new true (cntS s)⟩ ∧ cntS s < LIM ∧ s.any escC = true)
    ∨ (∃ a, a.asStr = s ∧ j = ⟨.json a, .new false (cntS s)⟩ ∧ s.any escC = false) := by
  rcases h with h | h
  · rw [fromStr_eq s (fits_str hf)] at h
    split at h
    · rename_i he
      split at h
      · cases h
      · cases h; exact .inl ⟨.borrowed s, rfl, rfl, by omega, he⟩
    · rename_i he
      cases h; exact .inr ⟨.borrowed s, rfl, rfl, by simpa using he⟩
  · rw [fromString_eq s (fits_str hf)] at h
    split at h
    · rename_i he
      split at h
      · cases h
      · cases h; exact .inl ⟨.owned s, rfl, rfl, by omega, he⟩
    · rename_i he
      cases h; exact .inr ⟨.owned s, rfl, rfl, by simpa using he⟩

/-! ## C48 -/

/-- The full claim: converting any text, and rendering it as JSON, never panics. -/
def C48_full : Prop :=
  ∀ s : Str, SliceFits (utf8 s) →
    (∃ j, JsonString.fromStr s = .ok j ∧ ∃ r, j.asJson = .ok r) ∧ ∃ j, JsonString.fromString s = .ok j ∧ ∃ r, j.asJson = .ok r

/-- **C48, partial** (the full claim is false, see `C48_refuted`): no panic for texts of at most a twelfth of
`isize::MAX` bytes, nor for any text that needs no escapes. Missing: longer texts with escapes. -/
theorem C48_no_panic_partial (s : Str) (h : 12 * (utf8 s).length ≤ 2 ^ (Arch.bits - 1) - 1 ∨ (SliceFits (utf8 s) ∧ NeedsNoEscape s)) :
    (∃ j, JsonString.fromStr s = .ok j ∧ ∃ r, j.asJson = .ok r) ∧ ∃ j, JsonString.fromString s = .ok j ∧ ∃ r, j.asJson = .ok r := by
  have hL : LIM = 2 ^ (Arch.bits - 1) := rfl
  have hp := LIM_pos
  have hc := cntS_le s
  have hlen : Str.len s = (utf8 s).length := rfl
  have hf : Str.len s < LIM := by
    rcases h with h | h
    · omega
    · exact fits_str h.1
  rw [fromStr_eq s hf, fromString_eq s hf]
  by_cases he : s.any escC = true
  · rw [if_pos he, if_pos he]
    have h : 12 * (utf8 s).length ≤ 2 ^ (Arch.bits - 1) - 1 := by
      rcases h with h | h
      · exact h
      · rw [needsNoEscape_iff.mp h.2] at he; cases he
    rw [if_neg (by omega), if_neg (by omega)]
    exact ⟨⟨_, rfl, _, asJson_raw (.borrowed s) (n := cntS s) (by omega) (by show cntS s + cntS s < LIM; omega)⟩,
      ⟨_, rfl, _, asJson_raw (.owned s) (n := cntS s) (by omega) (by show cntS s + cntS s < LIM; omega)⟩⟩
  · rw [if_neg he, if_neg he]
    exact ⟨⟨_, rfl, _, asJson_json _ _⟩, ⟨_, rfl, _, asJson_json _ _⟩⟩

theorem cntS_replicate (n : Nat) : cntS (List.replicate n '\n') = 2 * n := by
  induction n with
  | zero => rfl
  | succ n ih =>
    rw [List.replicate_succ, cntS, ih]
    have : cnt '\n' = 2 := by decide
    omega

theorem len_replicate (n : Nat) : Str.len (List.replicate n '\n') = n := by
  induction n with
  | zero => rfl
  | succ n ih =>
    rw [List.replicate_succ, Str.len_cons', ih]
    have : lenUtf8 '\n' = 1 := by decide
    omega

theorem any_replicate {n : Nat} (h : 0 < n) : (List.replicate n '\n').any escC = true := by
  obtain ⟨m, rfl⟩ : ∃ m, n = m + 1 := ⟨n - 1, by omega⟩
  rfl

/-- **C48** is false of the code. A quarter of the address space of line feeds cannot be converted; of half
that many, the conversion cannot be rendered: the length of the rendering is counted twice. -/
theorem C48_refuted :
    (∃ s, SliceFits (utf8 s) ∧ JsonString.fromStr s = .panic .overflow)
    ∧ (∃ s j, SliceFits (utf8 s) ∧ JsonString.fromStr s = .ok j ∧ j.asJson = .panic .overflow)
    ∧ ¬ C48_full := by
  have hL : LIM = 2 ^ (Arch.bits - 1) := rfl
  have hb : 3 ≤ Arch.bits := by rcases (‹Arch›).bits_eq with h | h <;> omega
  have e1 : LIM = 4 * 2 ^ (Arch.bits - 3) := by
    rw [hL, show Arch.bits - 1 = (Arch.bits - 3) + 2 by omega, Nat.pow_add]; omega
  have hpos : 0 < 2 ^ (Arch.bits - 3) := Nat.two_pow_pos _
  have p1 : ∃ s, SliceFits (utf8 s) ∧ JsonString.fromStr s = .panic .overflow := by
    refine ⟨List.replicate (2 * 2 ^ (Arch.bits - 3)) '\n', ?_, ?_⟩
    · rw [fits_lim]
      show Str.len _ < LIM
      rw [len_replicate]; omega
    · rw [fromStr_eq _ (by rw [len_replicate]; omega), if_pos (any_replicate (by omega)),
        if_pos (by rw [cntS_replicate]; omega)]
  refine ⟨p1, ?_, ?_⟩
  · refine ⟨List.replicate (2 ^ (Arch.bits - 3)) '\n', ⟨.raw (.borrowed (List.replicate (2 ^ (Arch.bits - 3)) '\n')), .new true (2 * 2 ^ (Arch.bits - 3))⟩, ?_, ?_, ?_⟩
    · rw [fits_lim]
      show Str.len _ < LIM
      rw [len_replicate]; omega
    · rw [fromStr_eq _ (by rw [len_replicate]; omega), if_pos (any_replicate (by omega)),
        if_neg (by rw [cntS_replicate]; omega), cntS_replicate]
    · refine asJson_raw_overflow _ (by omega) ?_
      show LIM ≤ 2 * 2 ^ (Arch.bits - 3) + cntS (List.replicate (2 ^ (Arch.bits - 3)) '\n')
      rw [cntS_replicate]; omega
  · intro h
    obtain ⟨s, h1, h2⟩ := p1
    obtain ⟨⟨j, h3, _⟩, _⟩ := h s h1
    rw [h2] at h3
    cases h3

/-- What `as_json()` yields for converted text, if it yields anything. -/
theorem fromText_asJson {s r : Str} {j : JsonString} (hf : SliceFits (utf8 s)) (h : FromText j s) (hr : j.asJson = .ok r) :
    r = render s := by
  rcases fromText_cases hf h with ⟨a, ha, rfl, hc, he⟩ | ⟨a, ha, rfl, he⟩
  · by_cases h2 : cntS s + cntS s < LIM
    · rw [← ha] at h2 hr hc
      rw [asJson_raw a hc h2] at hr
      injection hr with hr
      rw [← hr, ha]
    · rw [← ha] at h2 hr hc
      rw [asJson_raw_overflow a hc (by omega)] at hr
      cases hr
  · rw [asJson_json, ha] at hr
    injection hr with hr
    rw [← hr, render_plain he]

/-- What converting a text and rendering it count for a character: two bytes for one with a short escape, six for
another control character, one for U+0080 – U+00FF, and the bytes of its encoding for the others. -/
def counted (c : Char) : Nat :=
  if c ∈ ['"', '\\', Char.ofNat 7, '\n', '\r', '\t', Char.ofNat 12] then 2
  else if c.toNat < 0x20 then 6
  else if 0x80 ≤ c.toNat ∧ c.toNat ≤ 0xFF then 1
  else (utf8 [c]).length

theorem counted_cnt (c : Char) : counted c = cnt c := by
  unfold counted cnt shortEsc
  have e : (utf8 [c]).length = lenUtf8 c := by simp [utf8_cons, lenUtf8]
  rw [e]
  simp only [List.mem_cons, List.not_mem_nil, or_false]
  by_cases h1 : c = '"'; · simp [h1]
  by_cases h2 : c = '\\'; · simp [h2]
  by_cases h3 : c = Char.ofNat 7; · simp [h3]
  by_cases h4 : c = '\n'; · simp [h4]
  by_cases h5 : c = '\r'; · simp [h5]
  by_cases h6 : c = '\t'; · simp [h6]
  by_cases h7 : c = Char.ofNat 12; · simp [h7]
  simp only [h1, h2, h3, h4, h5, h6, h7, or_self, if_false]
  by_cases h8 : c.toNat < 0x20
  · rw [if_pos h8, if_pos h8]
  rw [if_neg h8, if_neg h8]
  by_cases h9 : c.toNat < 0x80
  · rw [if_neg (by omega), if_pos (by omega)]
    unfold lenUtf8
    rw [encodeChar_ascii h9]
    rfl
  · by_cases h10 : c.toNat ≤ 0xFF
    · rw [if_pos ⟨by omega, h10⟩, if_pos h10]
    · rw [if_neg (by omega), if_neg h10]

theorem counted_cntS (s : Str) : (s.map counted).sum = cntS s := by
  induction s with
  | nil => rfl
  | cons c s ih => rw [List.map_cons, List.sum_cons, ih, counted_cnt]; rfl

/-- **C48, the exact condition.** A conversion panics if and only if the text needs escapes and the bytes counted reach
`2 ^ (bits - 1)`; rendering the result panics if and only if the text needs escapes and twice those bytes do. -/
theorem C48_exact_partial (s : Str) (hf : SliceFits (utf8 s)) :
    ((∃ p, JsonString.fromStr s = .panic p) ↔ (¬ NeedsNoEscape s ∧ 2 ^ (Arch.bits - 1) ≤ (s.map counted).sum))
    ∧ ((∃ p, JsonString.fromString s = .panic p) ↔ (¬ NeedsNoEscape s ∧ 2 ^ (Arch.bits - 1) ≤ (s.map counted).sum))
    ∧ ∀ j, FromText j s → ((∃ p, j.asJson = .panic p) ↔ (¬ NeedsNoEscape s ∧ 2 ^ (Arch.bits - 1) ≤ 2 * (s.map counted).sum)) := by
  rw [counted_cntS, show (2 : Nat) ^ (Arch.bits - 1) = LIM from rfl, needsNoEscape_iff]
  refine ⟨?_, ?_, ?_⟩
  · rw [fromStr_eq s (fits_str hf)]
    by_cases he : s.any escC = true
    · rw [if_pos he]
      by_cases hl : LIM ≤ cntS s
      · rw [if_pos hl]; simp [he, hl]
      · rw [if_neg hl]; simp [hl]
    · rw [if_neg he]; simp [show s.any escC = false by simpa using he]
  · rw [fromString_eq s (fits_str hf)]
    by_cases he : s.any escC = true
    · rw [if_pos he]
      by_cases hl : LIM ≤ cntS s
      · rw [if_pos hl]; simp [he, hl]
      · rw [if_neg hl]; simp [hl]
    · rw [if_neg he]; simp [show s.any escC = false by simpa using he]
  · intro j hj
    rcases fromText_cases hf hj with ⟨a, ha, rfl, hc, he⟩ | ⟨a, ha, rfl, he⟩
    · by_cases hl : LIM ≤ 2 * cntS s
      · rw [asJson_raw_overflow a hc (by rw [ha]; omega)]; simp [he, hl]
      · rw [asJson_raw a hc (by rw [ha]; omega)]; simp [hl]
    · rw [asJson_json]; simp [he]

/-! ## C24 -/

/-- The full claim: text that is not too long is rendered as a string body that reads back as the text. -/
def C24_full : Prop :=
  ∀ (s : Str) (j : JsonString), 12 * (utf8 s).length + 2 ≤ 2 ^ (Arch.bits - 1) - 1 → FromText j s →
    ∃ r k, j.asJson = .ok r ∧ JsonString.fromJson (quoted r) = .ok k ∧ HasText k s

theorem quoted_bytes {is : List Item} (hv : ItemsValid is) : utf8 (quoted (bodyChars is)) = strBytes is := by
  unfold quoted strBytes
  rw [utf8_cons, utf8_append, utf8_bodyChars hv]
  rfl

/-- **C24, partial** (the full claim is false, see `C24_refuted`): rendered text reads back as itself exactly when all its
control characters are among U+0000, U+0007, tab, line feed, form feed, carriage return. Missing: the others. -/
theorem C24_roundtrip_partial (s : Str) (j : JsonString) (h : 12 * (utf8 s).length + 2 ≤ 2 ^ (Arch.bits - 1) - 1)
    (hj : FromText j s) :
    (∃ r k, j.asJson = .ok r ∧ JsonString.fromJson (quoted r) = .ok k ∧ HasText k s) ↔ ∀ c ∈ s, Renderable c := by
  have hL : LIM = 2 ^ (Arch.bits - 1) := rfl
  have hf : SliceFits (utf8 s) := by unfold SliceFits; omega
  have hq : SliceFits (utf8 (quoted (render s))) := by
    have h1 := len_render_le s
    have h2 : (utf8 (quoted (render s))).length = Str.len (render s) + 2 := by
      have hq2 : utf8 (quoted (render s)) = 0x22 :: (utf8 (render s) ++ [0x22]) := by
        unfold quoted
        rw [utf8_cons, utf8_append]
        rfl
      rw [hq2, List.length_cons, List.length_append]
      rfl
    have h3 : Str.len s = (utf8 s).length := rfl
    unfold SliceFits
    omega
  have hr : ∃ r, j.asJson = .ok r := by
    obtain ⟨⟨j1, h1, h2⟩, j2, h3, h4⟩ := C48_no_panic_partial s (.inl (by omega))
    rcases hj with hj | hj
    · rw [h1] at hj; cases hj; exact h2
    · rw [h3] at hj; cases hj; exact h4
  obtain ⟨r, hr⟩ := hr
  have hre := fromText_asJson hf hj hr
  subst hre
  have key := C38_string_ok_iff _ hq
  constructor
  · rintro ⟨r, k, h1, h2, h3⟩
    rw [hr] at h1
    cases h1
    obtain ⟨is, ht, hd⟩ := key.1 k h2
    have hv : ItemsValid is := text_valid ht
    have hbytes : bodyBytes is = utf8 (render s) := by
      obtain ⟨t, h4, h5⟩ := hd
      have hpk : Parsed k := .single _ _ hq h2
      obtain ⟨w, b, w', hw, hg, hw', e⟩ := ht
      cases hg with
      | str _ hv2 =>
        -- the text starts and ends with a quote, so there is no whitespace around
        have hw0 : w = [] := by
          cases w with
          | nil => rfl
          | cons x w =>
            have hx := hw x (by simp)
            unfold quoted at e
            rw [utf8_cons] at e
            have : encodeChar '"' = [0x22] := by decide
            rw [this] at e
            injection e with e _
            rw [← e] at hx
            exfalso; revert hx; decide
        subst hw0
        have hq2 : utf8 (quoted (render s)) = 0x22 :: (utf8 (render s) ++ [0x22]) := by
          unfold quoted
          rw [utf8_cons, utf8_append]
          rfl
        have hw0 : w' = [] := by
          have e2 := congrArg List.getLast? e
          rw [hq2] at e2
          cases hx : w'.getLast? with
          | none => exact List.getLast?_eq_none_iff.mp hx
          | some x =>
            rw [List.getLast?_append, hx, ← List.cons_append, List.getLast?_append] at e2
            simp at e2
            have := hw' x (List.mem_of_getLast? hx)
            rw [← e2] at this
            exfalso; revert this; decide
        subst hw0
        rw [hq2] at e
        unfold strBytes at e
        simp at e
        exact e.symm
    refine render_read_back hv hbytes ?_
    have hl : (bodyBytes is).length < LIM := by
      rw [hbytes]
      have h1 := len_render_le s
      have h2 : Str.len s = (utf8 s).length := rfl
      have h3 : Str.len (render s) = (utf8 (render s)).length := rfl
      omega
    have hk := C38_string_from_json _ hq
    have hv' : Value.fromJson (quoted (render s)) = .ok (ofJson (.str is)) :=
      accepted_ok (input_str hq) ⟨ht, fun n hn => Nat.zero_le n, .inl rfl⟩
    rw [hv'] at hk
    have hk : JsonString.fromJson (quoted (render s)) = .ok (canonStr is) := hk
    rw [h2] at hk
    cases hk
    exact HasText.unique (decoded_canon hv hl) h3
  · intro hg
    obtain ⟨hv, hb, hc⟩ := render_items hg
    have ht : Text false (utf8 (quoted (render s))) (.str (s.map toItem)) := by
      refine ⟨[], strBytes (s.map toItem), [], by simp [Ws], .str _ hv, by simp [Ws], ?_⟩
      rw [← hb, quoted_bytes hv]
      simp
    obtain ⟨k, h1, h2⟩ := key.2 _ ht
    refine ⟨_, k, hr, h1, ?_⟩
    have := C18_decoded_items k _ (.single _ _ hq h1) hv h2
    rwa [← codeText_readAs hv, hc] at this

end

theorem ctl1_facts (A : Arch) : JsonString.fromStr [Char.ofNat 1] = .ok ⟨.raw (.borrowed [Char.ofNat 1]), .new true 6⟩
    ∧ 12 * (utf8 [Char.ofNat 1]).length + 2 ≤ 2 ^ (Arch.bits - 1) - 1 := by
  rcases arch_cases A with rfl | rfl <;> decide +kernel

section
variable [Arch]

/-- **C24** is false of the code: U+0001 is rendered as `\u1000`. -/
theorem C24_refuted : ¬ C24_full := by
  intro h
  obtain ⟨h1, h2⟩ := ctl1_facts ‹_›
  have := (C24_roundtrip_partial _ _ h2 (.inl h1)).mp (h _ _ h2 (.inl h1))
  have := this (Char.ofNat 1) (List.mem_singleton.mpr rfl)
  revert this
  unfold Renderable
  decide

/-! ## C25 -/

/-- The full claim: converted text keeps its text and knows its lengths. -/
def C25_full : Prop :=
  ∀ (s : Str) (j : JsonString), SliceFits (utf8 s) → FromText j s →
    HasText j s ∧ j.decodedLen = (utf8 s).length ∧ ∀ r, j.asJson = .ok r → j.len = (utf8 r).length

/-- **C25, partial** (the full claim is false, see `C25_refuted`): converted text decodes to itself; the two lengths are
right exactly when not disturbed by characters U+0080 – U+00FF, which are counted as one byte. Missing: those. -/
theorem C25_lengths_partial (s : Str) (j : JsonString) (hf : SliceFits (utf8 s)) (hj : FromText j s) :
    HasText j s
    ∧ (j.decodedLen = (utf8 s).length ↔ (¬ NeedsNoEscape s ∨ ∀ c ∈ s, ¬ Latin1 c))
    ∧ ∀ r, j.asJson = .ok r → (j.len = (utf8 r).length ↔ (NeedsNoEscape s ∨ ∀ c ∈ s, ¬ Latin1 c)) := by
  refine ⟨(fromText_shape hf hj).decoded, ?_, ?_⟩
  · rcases fromText_cases hf hj with ⟨a, ha, rfl, hc, he⟩ | ⟨a, ha, rfl, he⟩
    · have : ¬ NeedsNoEscape s := by rw [needsNoEscape_iff, he]; decide
      simp only [this, not_false_eq_true, true_or, iff_true]
      show Str.len a.asStr = _
      rw [ha]; rfl
    · have h1 : NeedsNoEscape s := needsNoEscape_iff.mpr he
      simp only [h1, not_true_eq_false, false_or]
      have hc := cntS_le_plain he
      have hl := fits_str hf
      show (JsonStringInfo.new false (cntS s)).expectedLength = _ ↔ _
      rw [info_expectedLength (by omega), ← latin_zero]
      have := len_render s
      rw [render_plain he] at this
      have e : (utf8 s).length = Str.len s := rfl
      omega
  · intro r hr
    have hre := fromText_asJson hf hj hr
    subst hre
    rcases fromText_cases hf hj with ⟨a, ha, rfl, hc, he⟩ | ⟨a, ha, rfl, he⟩
    · have : ¬ NeedsNoEscape s := by rw [needsNoEscape_iff, he]; decide
      simp only [this, false_or]
      show (JsonStringInfo.new true (cntS s)).expectedLength = _ ↔ _
      rw [info_expectedLength hc, ← latin_zero]
      have := len_render s
      have e : (utf8 (render s)).length = Str.len (render s) := rfl
      omega
    · have h1 : NeedsNoEscape s := needsNoEscape_iff.mpr he
      simp only [h1, true_or, iff_true]
      show Str.len a.asStr = _
      rw [ha, render_plain he]; rfl

/-- **C25, the exact values.** If the text needs escapes, `decoded_len` is its true length and `len` the bytes
counted; if not, `len` is the true length and `decoded_len` the bytes counted. -/
theorem C25_exact_partial (s : Str) (j : JsonString) (hf : SliceFits (utf8 s)) (hj : FromText j s) :
    (¬ NeedsNoEscape s → j.decodedLen = (utf8 s).length ∧ j.len = (s.map counted).sum)
    ∧ (NeedsNoEscape s → j.len = (utf8 s).length ∧ j.decodedLen = (s.map counted).sum) := by
  rw [counted_cntS, needsNoEscape_iff]
  rcases fromText_cases hf hj with ⟨a, ha, rfl, hc, he⟩ | ⟨a, ha, rfl, he⟩
  · refine ⟨fun _ => ⟨?_, ?_⟩, fun h => absurd (he.symm.trans h) (by decide)⟩
    · show Str.len a.asStr = _
      rw [ha]; rfl
    · show (JsonStringInfo.new true (cntS s)).expectedLength = _
      rw [info_expectedLength hc]
  · have hc := cntS_le_plain he
    have hl := fits_str hf
    refine ⟨fun h => absurd he h, fun _ => ⟨?_, ?_⟩⟩
    · show Str.len a.asStr = _
      rw [ha]; rfl
    · show (JsonStringInfo.new false (cntS s)).expectedLength = _
      rw [info_expectedLength (by omega)]

end

theorem eacute_facts (A : Arch) : JsonString.fromStr ['é'] = .ok ⟨.json (.borrowed ['é']), .new false 1⟩
    ∧ SliceFits (utf8 ['é']) ∧ (JsonString.mk (.json (.borrowed ['é'])) (.new false 1)).decodedLen = 1 ∧ (utf8 ['é']).length = 2 := by
  unfold SliceFits
  rcases arch_cases A with rfl | rfl <;> decide +kernel

section
variable [Arch]

/-- **C25** is false of the code: `JsonString::from("é").decoded_len()` is 1. -/
theorem C25_refuted : ¬ C25_full := by
  intro h
  obtain ⟨h1, h2, h3, h4⟩ := eacute_facts ‹_›
  obtain ⟨_, h5, _⟩ := h _ _ h2 (.inl h1)
  rw [h3, h4] at h5
  cases h5

/-! ## C46 -/

/-- The escape for each of the characters with a short one. -/
def shortEscapes : List (Char × Str) :=
  [('"', ['\\', '"']), ('\\', ['\\', '\\']), (Char.ofNat 7, ['\\', 'b']), ('\n', ['\\', 'n']), ('\r', ['\\', 'r']),
   ('\t', ['\\', 't']), (Char.ofNat 12, ['\\', 'f'])]

theorem safe_append {a b : Str} (h : SafeBody a) (hb : SafeBody b) : SafeBody (a ++ b) := by
  induction h with
  | nil => exact hb
  | plain c s h1 h2 h3 _ ih => exact .plain c _ h1 h2 h3 ih
  | esc c s h1 _ ih => exact .esc c _ h1 ih

theorem safe_rend (c : Char) : SafeBody (rend c) := by
  by_cases hp : 0x20 ≤ c.toNat ∧ c ≠ '"' ∧ c ≠ '\\'
  · rw [(toItem_plain hp).2]
    exact .plain c _ hp.1 hp.2.1 hp.2.2 .nil
  · unfold rend
    cases hs : shortEsc c with
    | some e =>
      refine .esc e _ ?_ .nil
      unfold shortEsc at hs
      split at hs; · cases hs; decide
      split at hs; · cases hs; decide
      split at hs; · cases hs; decide
      split at hs; · cases hs; decide
      split at hs; · cases hs; decide
      split at hs; · cases hs; decide
      split at hs; · cases hs; decide
      · cases hs
    | none =>
      simp only []
      have he := shortEsc_none hs
      have hlt : c.toNat < 0x20 := by
        by_cases h0 : c.toNat < 0x20
        · exact h0
        · exfalso
          apply hp
          refine ⟨by omega, ?_, ?_⟩ <;> (rintro rfl; cases hs)
      rw [if_pos hlt]
      have hnib : ∀ n, n < 16 → ∀ s, SafeBody s → SafeBody (nib n :: s) := by
        intro n hn s h
        have := nib_toNat hn
        refine .plain _ _ ?_ ?_ ?_ h
        · rw [this]; split <;> omega
        · intro e; rw [e] at this; revert this; split
          · intro h; have : ('"' : Char).toNat = 34 := rfl; omega
          · intro h; have : ('"' : Char).toNat = 34 := rfl; omega
        · intro e; rw [e] at this; revert this; split
          · intro h; have : ('\\' : Char).toNat = 92 := rfl; omega
          · intro h; have : ('\\' : Char).toNat = 92 := rfl; omega
      exact .esc 'u' _ (by decide) (hnib _ (by omega) _ (hnib _ (by omega) _
        (.plain _ _ (by decide) (by decide) (by decide) (.plain _ _ (by decide) (by decide) (by decide) .nil))))

theorem safe_render (s : Str) : SafeBody (render s) := by
  induction s with
  | nil => exact .nil
  | cons c s ih => exact safe_append (safe_rend c) ih

/-- **C46.** There is one way each character is rendered: as itself if it may stand in a JSON string, by its short
escape if it has one, by six characters starting `\u` otherwise; the rendering of a text is that of its
characters one after the other, and is safe between quotes. -/
theorem C46_rendering_is_safe_and_minimal :
    ∃ f : Char → Str,
      (∀ c, (0x20 ≤ c.toNat ∧ c ≠ '"' ∧ c ≠ '\\') → f c = [c])
      ∧ (∀ p ∈ shortEscapes, f p.1 = p.2)
      ∧ (∀ c : Char, c.toNat < 0x20 → (∀ p ∈ shortEscapes, p.1 ≠ c) → ∃ w x y z, f c = ['\\', 'u', w, x, y, z])
      ∧ ∀ s j r, SliceFits (utf8 s) → FromText j s → j.asJson = .ok r → r = s.flatMap f ∧ SafeBody r := by
  refine ⟨rend, fun c hc => (toItem_plain hc).2, by decide, ?_, ?_⟩
  · intro c hc hn
    have hs : shortEsc c = none := by
      have hne : ∀ x, x ∈ shortEscapes.map Prod.fst → c ≠ x := by
        intro x hx
        obtain ⟨p, hp, rfl⟩ := List.mem_map.mp hx
        exact (hn p hp).symm
      unfold shortEsc
      rw [if_neg (hne _ (by decide)), if_neg (hne _ (by decide)), if_neg (hne _ (by decide)), if_neg (hne _ (by decide)),
        if_neg (hne _ (by decide)), if_neg (hne _ (by decide)), if_neg (hne _ (by decide))]
    refine ⟨nib (c.toNat % 16), nib (c.toNat / 16), '0', '0', ?_⟩
    unfold rend
    rw [hs]
    simp only []
    rw [if_pos hc]
  · intro s j r hf hj hr
    rw [fromText_asJson hf hj hr]
    exact ⟨rfl, safe_render s⟩

/-- **C46.** Text that needs no escapes is kept as JSON source: from a `&str` borrowed, from a `String` owned. -/
theorem C46_plain_text_is_kept (s : Str) (hf : SliceFits (utf8 s)) (h : NeedsNoEscape s) :
    (∃ j, JsonString.fromStr s = .ok j ∧ j.asJsonStr = some (.borrowed s) ∧ j.asJson = .ok s)
    ∧ ∃ j, JsonString.fromString s = .ok j ∧ j.asJsonStr = some (.owned s) ∧ j.asJson = .ok s := by
  have he := needsNoEscape_iff.mp h
  rw [fromStr_eq s (fits_str hf), fromString_eq s (fits_str hf), if_neg (by simp [he]), if_neg (by simp [he])]
  exact ⟨⟨_, rfl, rfl, asJson_json _ _⟩, ⟨_, rfl, rfl, asJson_json _ _⟩⟩

/-! ## C47 -/

theorem nextChar_some (a : AsJson) (c : Char) (o : Option (Char × AsJson)) (h : a.nextChar c = .ok o) :
    ∃ d a', o = some (d, a') ∧ a'.chars = a.chars := by
  cases he : escC c with
  | true =>
    rw [nextChar_esc' he] at h
    cases hx : (JsonStringInfo.addBytesFromEscape _ (cnt c) : Option JsonStringInfo) with
    | none => rw [hx] at h; cases h
    | some i => rw [hx] at h; cases h; exact ⟨_, _, rfl, rfl⟩
  | false =>
    unfold AsJson.nextChar at h
    simp only [] at h
    have key : ∀ k, ((Res.orPanic .overflow (a.info.addBytes k)) >>= fun info =>
        (Pure.pure (some (c, ({ a with info := info } : AsJson))) : Res _)) = .ok o →
        ∃ d a', o = some (d, a') ∧ a'.chars = a.chars := by
      intro k h
      cases hx : (a.info.addBytes k : Option JsonStringInfo) with
      | none => rw [hx] at h; cases h
      | some i => rw [hx] at h; cases h; exact ⟨_, _, rfl, rfl⟩
    split at h
    · split at h
      · exact key _ h
      · rename_i h1 h2
        have : safeLookup SAFE_STRING_BYTES (UInt8.ofNat c.toNat) = true := by
          rw [safe_iff, toNat_ofNat_u8 (by omega)]
          unfold escC at he
          simp only [Bool.or_eq_false_iff, decide_eq_false_iff_not, beq_eq_false_iff_ne] at he
          exact ⟨by omega, fun h => he.1.2 (char_ext h), fun h => he.2 (char_ext h)⟩
        exact absurd this h2
    · exact key _ h

theorem next_chars (a : AsJson) (o : Option (Char × AsJson)) (h : a.next = .ok o) :
    (o = none → a.chars = []) ∧ ∀ c a', o = some (c, a') → a.chars.length ≤ a'.chars.length + 1 := by
  obtain ⟨chars, state, info⟩ := a
  unfold AsJson.next at h
  cases state with
  | alreadyEscaped =>
    cases chars with
    | nil => cases h; exact ⟨fun _ => rfl, fun _ _ h => by cases h⟩
    | cons c cs => cases h; exact ⟨(fun h => by cases h), fun _ _ h => by cases h; simp⟩
  | none =>
    cases chars with
    | nil => cases h; exact ⟨fun _ => rfl, fun _ _ h => by cases h⟩
    | cons c cs =>
      obtain ⟨d, a', rfl, h2⟩ := nextChar_some _ _ _ h
      exact ⟨(fun h => by cases h), fun _ _ h => by cases h; rw [h2]; simp⟩
  | single b => cases h; exact ⟨(fun h => by cases h), fun _ _ h => by cases h; simp⟩
  | unicode o cp =>
    cases o with
    | none => cases h; exact ⟨(fun h => by cases h), fun _ _ h => by cases h; simp⟩
    | some k =>
      simp only [] at h
      split at h <;> (cases h; exact ⟨(fun h => by cases h), fun _ _ h => by cases h; simp⟩)

theorem collect_lower : ∀ fuel (a : AsJson) out af, AsJson.collectFuel fuel a = .ok (out, af) → a.chars.length ≤ out.length := by
  intro fuel
  induction fuel with
  | zero => intro a out af h; cases h
  | succ n ih =>
    intro a out af h
    rw [AsJson.collectFuel] at h
    cases hn : a.next with
    | panic p => rw [hn] at h; cases h
    | ok o =>
      rw [hn] at h
      obtain ⟨k1, k2⟩ := next_chars a o hn
      cases o with
      | none => rw [k1 rfl]; exact Nat.zero_le _
      | some p =>
        obtain ⟨c, a'⟩ := p
        simp only [] at h
        cases hr : AsJson.collectFuel n a' with
        | panic p => rw [hr] at h; cases h
        | ok q =>
          obtain ⟨cs, af'⟩ := q
          rw [hr] at h
          cases h
          have := ih _ _ _ hr
          have hle := k2 _ _ rfl
          simp
          omega

theorem len_le_chars (s : Str) : Str.len s ≤ 4 * s.length := by
  induction s with
  | nil => exact Nat.le_refl _
  | cons c s ih =>
    have : lenUtf8 c ≤ 4 := by
      unfold lenUtf8 encodeChar; rw [String.length_utf8EncodeChar]
      have := c.utf8Size_pos
      have := c.utf8Size_le_four
      omega
    rw [Str.len_cons', List.length_cons]
    omega

theorem chars_le_len (s : Str) : s.length ≤ Str.len s := by
  induction s with
  | nil => exact Nat.le_refl _
  | cons c s ih =>
    have : 1 ≤ lenUtf8 c := by
      unfold lenUtf8 encodeChar; rw [String.length_utf8EncodeChar]
      have := c.utf8Size_pos
      have := c.utf8Size_le_four
      omega
    rw [Str.len_cons', List.length_cons]
    omega

/-- `b` is what an iterator is after any number of calls of `next`. -/
inductive AsJson.Reaches (a : AsJson) : AsJson → Prop where
  | refl : Reaches a a
  | next (b c : AsJson) (ch : Char) : Reaches a b → b.next = .ok (some (ch, c)) → Reaches a c

/-- The hint of an iterator brackets what it will yield. -/
def AsJson.HintOk (a : AsJson) : Prop :=
  ∀ out, (∃ fuel af, a.collectFuel fuel = .ok (out, af)) → a.sizeHint.1 ≤ out.length ∧ ∀ u, a.sizeHint.2 = some u → out.length ≤ u

/-- The full claim: at every point of iterating over the JSON rendering of any string, the size hint
brackets the number of characters still to come. -/
def C47_full : Prop :=
  ∀ j : JsonString, Obtainable j → ∀ a, (AsJson.new j.source j.info).Reaches a → a.HintOk

/-- **C47, partial** (the full claim is false, see `C47_refuted`): the lower bound always holds. Missing: the upper
bound, for text that was converted and needs escapes. -/
theorem C47_lower_bound_partial (a : AsJson) (out : Str) (h : ∃ fuel af, a.collectFuel fuel = .ok (out, af)) :
    a.sizeHint.1 ≤ out.length := by
  obtain ⟨fuel, af, h⟩ := h
  have h1 := collect_lower _ _ _ _ h
  have h2 := len_le_chars a.chars
  show (Str.len a.chars + 3) / 4 ≤ _
  omega

theorem collect_escaped : ∀ fuel (a : AsJson) out af, a.state = .alreadyEscaped → AsJson.collectFuel fuel a = .ok (out, af) →
    out = a.chars := by
  intro fuel
  induction fuel with
  | zero => intro a out af _ h; cases h
  | succ n ih =>
    intro a out af hs h
    obtain ⟨chars, state, info⟩ := a
    cases hs
    rw [AsJson.collectFuel] at h
    unfold AsJson.next at h
    cases chars with
    | nil => cases h; rfl
    | cons c cs =>
      simp only [] at h
      cases hr : AsJson.collectFuel n ⟨cs, .alreadyEscaped, info⟩ with
      | panic p => rw [hr] at h; cases h
      | ok q =>
        obtain ⟨o2, af'⟩ := q
        rw [hr] at h
        cases h
        rw [ih _ _ _ rfl hr]

theorem reaches_escaped {a b : AsJson} (h : a.Reaches b) (hs : a.state = .alreadyEscaped) : b.state = .alreadyEscaped := by
  induction h with
  | refl => exact hs
  | next b c ch _ hn ih =>
    obtain ⟨chars, state, info⟩ := b
    cases ih
    unfold AsJson.next at hn
    cases chars with
    | nil => cases hn
    | cons c cs => cases hn; rfl

/-- **C47, partial.** For strings kept as JSON source, which are all parsed strings and all converted texts that need
no escapes, both bounds hold throughout. -/
theorem C47_json_source_partial (j : JsonString) (s : AnyStr) (hj : j.asJsonStr = some s) (a : AsJson)
    (ha : (AsJson.new j.source j.info).Reaches a) : a.HintOk := by
  obtain ⟨src, info⟩ := j
  have hs : (AsJson.new src info).state = .alreadyEscaped := by
    cases src with
    | json _ => rfl
    | raw _ => cases hj
  intro out h
  refine ⟨C47_lower_bound_partial a out h, ?_⟩
  intro u hu
  obtain ⟨fuel, af, h⟩ := h
  rw [collect_escaped _ _ _ _ (reaches_escaped ha hs) h]
  have hu : some (Str.len a.chars) = some u := hu
  injection hu with hu
  rw [← hu]
  exact chars_le_len _

theorem collect_det : ∀ f1 f2 (a : AsJson) o1 o2 af1 af2, AsJson.collectFuel f1 a = .ok (o1, af1) → AsJson.collectFuel f2 a = .ok (o2, af2) →
    o1 = o2 := by
  intro f1
  induction f1 with
  | zero => intro f2 a o1 o2 af1 af2 h; cases h
  | succ n ih =>
    intro f2 a o1 o2 af1 af2 h h2
    cases f2 with
    | zero => cases h2
    | succ m =>
      rw [AsJson.collectFuel] at h h2
      cases hn : a.next with
      | panic p => rw [hn] at h; cases h
      | ok o =>
        rw [hn] at h h2
        cases o with
        | none => cases h; cases h2; rfl
        | some p =>
          obtain ⟨c, a'⟩ := p
          simp only [] at h h2
          cases hr : AsJson.collectFuel n a' with
          | panic p => rw [hr] at h; cases h
          | ok q =>
            cases hr2 : AsJson.collectFuel m a' with
            | panic p => rw [hr2] at h2; cases h2
            | ok q2 =>
              obtain ⟨c1, e1⟩ := q
              obtain ⟨c2, e2⟩ := q2
              rw [hr] at h
              rw [hr2] at h2
              cases h
              cases h2
              rw [ih _ _ _ _ _ _ hr hr2]

/-- **C47, the exact condition.** The hint of the iterator over the rendering of a converted text brackets the number of
its characters if and only if that is at most the number of bytes of the text. -/
theorem C47_exact_partial (s : Str) (j : JsonString) (r : Str) (hf : SliceFits (utf8 s)) (hj : FromText j s)
    (hr : j.asJson = .ok r) : (AsJson.new j.source j.info).HintOk ↔ r.length ≤ (utf8 s).length := by
  have hchars : (AsJson.new j.source j.info).chars = s := by
    rcases fromText_cases hf hj with ⟨a, ha, rfl, _⟩ | ⟨a, ha, rfl, _⟩ <;> exact ha
  have hh : (AsJson.new j.source j.info).sizeHint.2 = some (utf8 s).length := by
    show some (Str.len (AsJson.new j.source j.info).chars) = _
    rw [hchars]; rfl
  have hcol : ∃ fuel af, (AsJson.new j.source j.info).collectFuel fuel = .ok (r, af) := by
    unfold JsonString.asJson AsJson.collect at hr
    cases hc : AsJson.collectFuel (6 * (AsJson.new j.source j.info).chars.length + 7) (AsJson.new j.source j.info) with
    | panic p => rw [hc] at hr; cases hr
    | ok q =>
      rw [hc] at hr
      obtain ⟨o, af⟩ := q
      cases hr
      exact ⟨_, af, hc⟩
  constructor
  · intro h
    exact (h r hcol).2 _ hh
  · intro h out ho
    refine ⟨C47_lower_bound_partial _ out ho, ?_⟩
    intro u hu
    rw [hh] at hu
    cases hu
    obtain ⟨f1, a1, h1⟩ := hcol
    obtain ⟨f2, a2, h2⟩ := ho
    rw [collect_det _ _ _ _ _ _ _ h2 h1]
    exact h

end

theorem hint_facts (A : Arch) : JsonString.fromStr ['\n'] = .ok ⟨.raw (.borrowed ['\n']), .new true 2⟩
    ∧ SliceFits (utf8 ['\n'])
    ∧ (AsJson.collectFuel 9 (AsJson.new (.raw (.borrowed ['\n'])) (.new true 2)) >>= fun q => (.ok q.1 : Res Str)) = .ok ['\\', 'n']
    ∧ (AsJson.new (.raw (.borrowed ['\n'])) (.new true 2)).sizeHint = (1, some 1) := by
  unfold SliceFits
  rcases arch_cases A with rfl | rfl <;> decide +kernel

section
variable [Arch]

/-- **C47** is false of the code: the rendering of `"\n"` is announced as at most one character, and is two. -/
theorem C47_refuted : ¬ C47_full := by
  intro h
  obtain ⟨h1, h2, h3, h4⟩ := hint_facts ‹_›
  have h5 := h _ (.fromStr _ _ h2 h1) _ .refl
  cases h6 : AsJson.collectFuel 9 (AsJson.new (.raw (.borrowed ['\n'])) (.new true 2)) with
  | panic p => rw [h6] at h3; cases h3
  | ok q =>
    obtain ⟨o, af⟩ := q
    rw [h6] at h3
    cases h3
    have := (h5 _ ⟨9, af, h6⟩).2 1 (by rw [h4])
    revert this; decide

end

/-! ## Concrete cases -/

deriving instance DecidableEq for EscapeState
deriving instance DecidableEq for AsJson

section Examples
attribute [local instance] arch64

/-- a text with a quote, a line feed, a character of two bytes and one of four -/
def rendEx : Str := ['a', '"', '\n', 'é', Char.ofNat 0x1F600]
/-- what it is converted to -/
def rendExJ : JsonString := ⟨.raw (.borrowed rendEx), .new true 10⟩

-- C24, C25, C46, C48: the text is converted; it is rendered; all its characters are `Renderable`
example : FromText rendExJ rendEx ∧ 12 * (utf8 rendEx).length + 2 ≤ 2 ^ (Arch.bits - 1) - 1
    ∧ rendExJ.asJson = .ok ['a', '\\', '"', '\\', 'n', 'é', Char.ofNat 0x1F600] :=
  ⟨.inl (by decide +kernel), by decide +kernel, by decide +kernel⟩
example : ∀ c ∈ rendEx, Renderable c := by unfold Renderable; decide +kernel
-- the length is one short: `é` is counted as one byte
example : rendExJ.len = 10 ∧ (utf8 ['a', '\\', '"', '\\', 'n', 'é', Char.ofNat 0x1F600]).length = 11 := by decide +kernel
-- C46: texts that need no escapes
example : NeedsNoEscape ['a', 'é', Char.ofNat 0x1F600] := by unfold NeedsNoEscape; decide +kernel
-- C47: an iterator in the middle of an escape
example : AsJson.Reaches (AsJson.new rendExJ.source rendExJ.info) ⟨['\n', 'é', Char.ofNat 0x1F600], .single 0x22, .new true 13⟩ :=
  .next ⟨['"', '\n', 'é', Char.ofNat 0x1F600], .none, .new true 11⟩ _ '\\' (.next _ _ 'a' .refl (by decide +kernel)) (by decide +kernel)

end Examples

/-! ## Instances: each theorem above applied to a concrete case that meets its hypotheses -/
section Instances
attribute [local instance] arch64

theorem rendEx_fits : SliceFits (utf8 rendEx) := by lit
theorem rendEx_from : FromText rendExJ rendEx := by unfold FromText; decide +kernel

example := C48_no_panic_partial rendEx (.inl (by decide +kernel))
example := C48_exact_partial rendEx rendEx_fits
example := C24_roundtrip_partial rendEx rendExJ (by decide +kernel) rendEx_from
example := C25_lengths_partial rendEx rendExJ rendEx_fits rendEx_from
example := C25_exact_partial rendEx rendExJ rendEx_fits rendEx_from
example := C46_plain_text_is_kept "héllo".toList (by lit) (by unfold NeedsNoEscape; decide +kernel)
example := C47_exact_partial rendEx rendExJ (hf := rendEx_fits) (hj := rendEx_from) (r := "a\\\"\\né".toList ++ [Char.ofNat 0x1F600]) (by decide +kernel)

end Instances
end JustJson
