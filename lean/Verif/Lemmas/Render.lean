import Verif.Lemmas.Decode
/-! # Rendering raw text as a JSON string body -/

namespace JustJson
open Spec

set_option linter.unusedSectionVars false

/-- the character the code writes for a nibble -/
def nib (n : Nat) : Char := byteChar (if n < 10 then UInt8.ofNat (n + 48) else UInt8.ofNat (n + 97))

/-- the letter of a two-character escape, if the code uses one -/
def shortEsc (c : Char) : Option Char :=
  if c = '"' then some '"' else if c = '\\' then some '\\' else if c = Char.ofNat 7 then some 'b'
  else if c = '\n' then some 'n' else if c = '\r' then some 'r' else if c = '\t' then some 't'
  else if c = Char.ofNat 12 then some 'f' else none

/-- what the code writes for a character of raw text -/
def rend (c : Char) : Str :=
  match shortEsc c with
  | some e => ['\\', e]
  | none => if c.toNat < 0x20 then ['\\', 'u', nib (c.toNat % 16), nib (c.toNat / 16), '0', '0'] else [c]

/-- the character is escaped -/
def escC (c : Char) : Bool := (c.toNat < 0x20) || c == '"' || c == '\\'

/-- what the code adds to the length for a character -/
def cnt (c : Char) : Nat :=
  match shortEsc c with
  | some _ => 2
  | none => if c.toNat < 0x20 then 6 else if c.toNat ≤ 0xFF then 1 else lenUtf8 c

/-- the rendering -/
def render (s : Str) : Str := s.flatMap rend
/-- the length the code counts -/
def cntS : Str → Nat
  | [] => 0
  | c :: s => cnt c + cntS s

theorem shortEsc_escC {c e : Char} (h : shortEsc c = some e) : escC c = true := by
  unfold shortEsc at h
  split at h
  · subst_vars; rfl
  split at h
  · subst_vars; rfl
  split at h
  · subst_vars; rfl
  split at h
  · subst_vars; rfl
  split at h
  · subst_vars; rfl
  split at h
  · subst_vars; rfl
  split at h
  · subst_vars; rfl
  · cases h

theorem shortEsc_none {c : Char} (h : shortEsc c = none) : escC c = decide (c.toNat < 0x20) := by
  unfold shortEsc at h
  by_cases h1 : c = '"'
  · rw [if_pos h1] at h; cases h
  by_cases h2 : c = '\\'
  · rw [if_neg h1, if_pos h2] at h; cases h
  unfold escC
  rw [beq_eq_false_iff_ne.mpr h1, beq_eq_false_iff_ne.mpr h2, Bool.or_false, Bool.or_false]

theorem rend_length_le (c : Char) : 1 ≤ (rend c).length ∧ (rend c).length ≤ 6 := by
  unfold rend
  split
  · simp
  · split <;> simp

theorem cnt_le (c : Char) : cnt c ≤ 6 * lenUtf8 c := by
  have := lenUtf8_pos c
  unfold cnt
  split
  · omega
  · split
    · omega
    · split <;> omega

theorem cnt_le_plain {c : Char} (h : escC c = false) : cnt c ≤ lenUtf8 c := by
  have := lenUtf8_pos c
  unfold cnt
  cases hs : shortEsc c with
  | some e => rw [shortEsc_escC hs] at h; cases h
  | none =>
    rw [shortEsc_none hs] at h
    simp only []
    rw [if_neg (of_decide_eq_false h)]
    split <;> omega

theorem rend_plain {c : Char} (h : escC c = false) : rend c = [c] := by
  unfold rend
  cases hs : shortEsc c with
  | some e => rw [shortEsc_escC hs] at h; cases h
  | none =>
    rw [shortEsc_none hs] at h
    simp only []
    rw [if_neg (of_decide_eq_false h)]

theorem cntS_le (s : Str) : cntS s ≤ 6 * Str.len s := by
  induction s with
  | nil => simp [cntS]
  | cons c s ih => have := cnt_le c; rw [cntS, Str.len_cons']; omega

theorem render_length_le (s : Str) : (render s).length ≤ 6 * s.length := by
  induction s with
  | nil => simp [render]
  | cons c s ih =>
    have := rend_length_le c
    simp only [render, List.flatMap_cons, List.length_append, List.length_cons] at *
    omega

theorem cntS_le_plain {s : Str} (h : s.any escC = false) : cntS s ≤ Str.len s := by
  induction s with
  | nil => simp [cntS]
  | cons c s ih =>
    simp only [List.any_cons, Bool.or_eq_false_iff] at h
    have := cnt_le_plain h.1
    have := ih h.2
    rw [cntS, Str.len_cons']; omega

theorem render_plain {s : Str} (h : s.any escC = false) : render s = s := by
  induction s with
  | nil => rfl
  | cons c s ih =>
    simp only [List.any_cons, Bool.or_eq_false_iff] at h
    have := ih h.2
    simp only [render, List.flatMap_cons] at *
    rw [rend_plain h.1, this]; rfl

section
variable [Arch]

/-- `a` yields the characters `out` and is then `a'` -/
def Yields (a : AsJson) (out : Str) (a' : AsJson) : Prop :=
  ∀ k, AsJson.collectFuel (k + out.length) a = match AsJson.collectFuel k a' with
    | .ok (cs, af) => .ok (out ++ cs, af)
    | .panic p => .panic p

theorem yields_one {a a' : AsJson} {c : Char} (h : a.next = .ok (some (c, a'))) : Yields a [c] a' := by
  intro k
  show AsJson.collectFuel (k + 1) a = _
  rw [AsJson.collectFuel, h]
  rfl

theorem Yields.trans {a b c : AsJson} {o1 o2 : Str} (h1 : Yields a o1 b) (h2 : Yields b o2 c) : Yields a (o1 ++ o2) c := by
  intro k
  rw [List.length_append, show k + (o1.length + o2.length) = (k + o2.length) + o1.length by omega, h1, h2]
  cases AsJson.collectFuel k c with
  | ok r => simp
  | panic p => rfl

/-- the low nibble, in the form the code computes it -/
theorem land15 (n : Nat) : n % 256 &&& 0xF = n % 16 := by
  rw [show (0xF : Nat) = 2 ^ 4 - 1 from rfl, Nat.and_two_pow_sub_one_eq_mod]
  omega

theorem nextChar_plain {cs : Str} {e : Bool} {n : Nat} {c : Char} (h : escC c = false) (hn : n + cnt c < LIM) :
    AsJson.nextChar ⟨cs, .none, .new e n⟩ c = .ok (some (c, ⟨cs, .none, .new e (n + cnt c)⟩)) := by
  have hs : shortEsc c = none := by
    cases hs : shortEsc c with
    | some e => rw [shortEsc_escC hs] at h; cases h
    | none => rfl
  have h2 := h
  rw [shortEsc_none hs] at h2
  have h2 := of_decide_eq_false h2
  unfold AsJson.nextChar
  simp only []
  have hc : cnt c = if c.toNat ≤ 0xFF then 1 else lenUtf8 c := by
    unfold cnt; rw [hs]; simp only []; rw [if_neg h2]
  by_cases h3 : c.toNat ≤ 0xFF
  · rw [if_pos h3] at hc
    rw [if_pos h3]
    have hsafe : safeLookup SAFE_STRING_BYTES (UInt8.ofNat c.toNat) = true := by
      rw [safe_iff, toNat_ofNat_u8 (by omega)]
      refine ⟨by omega, ?_, ?_⟩
      · intro he
        have : c = '"' := char_ext he
        subst this; cases h
      · intro he
        have : c = '\\' := char_ext he
        subst this; cases h
    rw [if_pos hsafe, info_addBytes (by omega), hc]
    rfl
  · rw [if_neg h3] at hc
    rw [if_neg h3, ← hc, info_addBytes hn]
    rfl

/-- The escaped characters below U+0080, one by one. -/
theorem escC_cases {c : Char} (h : escC c = true) : c.toNat < 0x20 ∨ c = '"' ∨ c = '\\' := by
  unfold escC at h
  simp at h
  rcases h with (h | h) | h
  · exact .inl h
  · exact .inr (.inl h)
  · exact .inr (.inr h)

/-- state after the backslash of an escape -/
def escState (c : Char) : EscapeState :=
  match shortEsc c with
  | some e => .single (UInt8.ofNat e.toNat)
  | none => .unicode none c.toNat

theorem forall_ctl {P : Char → Prop} (h : ∀ n : Fin 32, P (Char.ofNat n.val)) {c : Char} (hc : c.toNat < 0x20) : P c := by
  have := h ⟨c.toNat, hc⟩
  rwa [ofNat_toNat_char] at this

theorem nextChar_esc' {a : AsJson} {c : Char} (h : escC c = true) :
    AsJson.nextChar a c = ((Res.orPanic .overflow (a.info.addBytesFromEscape (cnt c))) >>= fun info =>
      (.ok (some ('\\', { a with state := escState c, info := info })) : Res _)) := by
  rcases escC_cases h with hc | rfl | rfl
  · refine forall_ctl (P := fun c => AsJson.nextChar a c = ((Res.orPanic .overflow (a.info.addBytesFromEscape (cnt c))) >>= fun info =>
      (.ok (some ('\\', { a with state := escState c, info := info })) : Res _))) ?_ hc
    intro n
    obtain ⟨n, hn⟩ := n
    have hn : n < 32 := hn
    have : n = 0 ∨ n = 1 ∨ n = 2 ∨ n = 3 ∨ n = 4 ∨ n = 5 ∨ n = 6 ∨ n = 7 ∨ n = 8 ∨ n = 9 ∨ n = 10 ∨ n = 11 ∨ n = 12
      ∨ n = 13 ∨ n = 14 ∨ n = 15 ∨ n = 16 ∨ n = 17 ∨ n = 18 ∨ n = 19 ∨ n = 20 ∨ n = 21 ∨ n = 22 ∨ n = 23 ∨ n = 24
      ∨ n = 25 ∨ n = 26 ∨ n = 27 ∨ n = 28 ∨ n = 29 ∨ n = 30 ∨ n = 31 := by omega
    rcases this with rfl | rfl | rfl | rfl | rfl | rfl | rfl | rfl | rfl | rfl | rfl | rfl | rfl | rfl | rfl | rfl
      | rfl | rfl | rfl | rfl | rfl | rfl | rfl | rfl | rfl | rfl | rfl | rfl | rfl | rfl | rfl | rfl <;> rfl
  · rfl
  · rfl

theorem yields_tail {cs : Str} {i : JsonStringInfo} {c : Char} (h : escC c = true) :
    ∃ t, rend c = '\\' :: t ∧ Yields ⟨cs, escState c, i⟩ t ⟨cs, .none, i⟩ := by
  unfold rend escState
  cases hs : shortEsc c with
  | some e =>
    refine ⟨[e], rfl, ?_⟩
    have : byteChar (UInt8.ofNat e.toNat) = e := by
      have he : e.toNat < 0x80 := by
        unfold shortEsc at hs
        split at hs; · cases hs; decide
        split at hs; · cases hs; decide
        split at hs; · cases hs; decide
        split at hs; · cases hs; decide
        split at hs; · cases hs; decide
        split at hs; · cases hs; decide
        split at hs; · cases hs; decide
        · cases hs
      unfold byteChar
      rw [toNat_ofNat_u8 (by omega), ofNat_toNat_char]
    refine yields_one ?_
    show Res.ok (some (byteChar (UInt8.ofNat e.toNat), _)) = _
    rw [this]
  | none =>
    rw [shortEsc_none hs] at h
    have h := of_decide_eq_true h
    simp only []
    rw [if_pos h]
    refine ⟨_, rfl, ?_⟩
    have hsh : ∀ n : Nat, n >>> 4 = n / 16 := fun n => Nat.shiftRight_eq_div_pow n 4
    have n1 : ∀ k m, k < 3 → AsJson.next ⟨cs, .unicode (some k) m, i⟩ = .ok (some (nib (m % 16), ⟨cs, .unicode (some (k + 1)) (m / 16), i⟩)) := by
      intro k m hk
      unfold AsJson.next
      simp only [land15, hsh]
      rw [if_neg (by omega)]
      rfl
    have n2 : ∀ m, AsJson.next ⟨cs, .unicode (some 3) m, i⟩ = .ok (some (nib (m % 16), ⟨cs, .none, i⟩)) := by
      intro m
      unfold AsJson.next
      simp only [land15]
      rfl
    have y0 : Yields ⟨cs, .unicode none c.toNat, i⟩ ['u'] ⟨cs, .unicode (some 0) c.toNat, i⟩ := yields_one rfl
    have y := (((y0.trans (yields_one (n1 0 _ (by omega)))).trans (yields_one (n1 1 _ (by omega)))).trans
      (yields_one (n1 2 _ (by omega)))).trans (yields_one (n2 _))
    have e1 : c.toNat / 16 % 16 = c.toNat / 16 := by omega
    have e2 : c.toNat / 16 / 16 % 16 = 0 := by omega
    have e3 : c.toNat / 16 / 16 / 16 % 16 = 0 := by omega
    rw [e1, e2, e3] at y
    exact y

theorem yields_char {cs : Str} {e : Bool} {n : Nat} {c : Char} (hn : n + cnt c < LIM) :
    Yields ⟨c :: cs, .none, .new e n⟩ (rend c) ⟨cs, .none, .new (e || escC c) (n + cnt c)⟩ := by
  cases h : escC c with
  | false =>
    rw [rend_plain h, Bool.or_false]
    exact yields_one (nextChar_plain h hn)
  | true =>
    obtain ⟨t, ht, hy⟩ := yields_tail (cs := cs) (i := .new true (n + cnt c)) h
    rw [ht, Bool.or_true]
    refine Yields.trans (o1 := ['\\']) (yields_one ?_) hy
    show AsJson.nextChar _ c = _
    rw [nextChar_esc' h]
    show (Res.orPanic _ ((JsonStringInfo.new e n).addBytesFromEscape (cnt c)) >>= _) = _
    rw [info_addEscape hn]
    rfl

theorem yields_str (s : Str) {e : Bool} {n : Nat} (hn : n + cntS s < LIM) :
    Yields ⟨s, .none, .new e n⟩ (render s) ⟨[], .none, .new (e || s.any escC) (n + cntS s)⟩ := by
  induction s generalizing e n with
  | nil =>
    intro k
    rw [show render [] = ([] : Str) from rfl, show cntS [] = 0 from rfl]
    simp only [List.any_nil, Bool.or_false, Nat.add_zero, List.length_nil]
    cases AsJson.collectFuel k _ <;> rfl
  | cons c s ih =>
    rw [cntS] at hn ⊢
    have h1 := yields_char (cs := s) (e := e) (n := n) (c := c) (by omega)
    have h2 := ih (e := e || escC c) (n := n + cnt c) (by omega)
    have h3 := h1.trans h2
    rw [List.any_cons, ← Bool.or_assoc, ← Nat.add_assoc]
    exact h3

theorem collect_raw (s : Str) {e : Bool} {n : Nat} (hn : n + cntS s < LIM) :
    AsJson.collect ⟨s, .none, .new e n⟩ = .ok (render s, ⟨[], .none, .new (e || s.any escC) (n + cntS s)⟩) := by
  unfold AsJson.collect
  have := render_length_le s
  obtain ⟨k, hk⟩ : ∃ k, 6 * s.length + 7 = (k + 1) + (render s).length := ⟨6 * s.length + 6 - (render s).length, by omega⟩
  show AsJson.collectFuel (6 * s.length + 7) _ = _
  rw [hk, yields_str s hn (k + 1)]
  rw [AsJson.collectFuel]
  simp [AsJson.next]

/-- Once the counted length no longer fits, the addition panics. -/
theorem collect_overflow : ∀ (s : Str) {e : Bool} {n fuel : Nat}, n < LIM → LIM ≤ n + cntS s →
    (e = true ∨ (s.any escC = true ∧ n + Str.len s < LIM)) → 6 * s.length < fuel →
    AsJson.collectFuel fuel ⟨s, .none, .new e n⟩ = .panic .overflow := by
  intro s
  induction s with
  | nil => intro e n fuel h1 h2 _ _; simp [cntS] at h2; omega
  | cons c s ih =>
    intro e n fuel h1 h2 h3 h4
    have hr := rend_length_le c
    rw [cntS] at h2
    simp only [List.length_cons] at h4
    by_cases hc : n + cnt c < LIM
    · obtain ⟨k, hk⟩ : ∃ k, fuel = k + (rend c).length := ⟨fuel - (rend c).length, by omega⟩
      rw [hk, yields_char hc k]
      rw [ih (by omega) (by omega) ?_ (by omega)]
      rcases h3 with rfl | ⟨h3, h5⟩
      · exact .inl rfl
      · cases he : escC c with
        | true => exact .inl (by simp)
        | false =>
          rw [List.any_cons, he, Bool.false_or] at h3
          rw [Str.len_cons'] at h5
          have := cnt_le_plain he
          exact .inr ⟨h3, by omega⟩
    · have hp : AsJson.next ⟨c :: s, .none, .new e n⟩ = .panic .overflow := by
        show AsJson.nextChar ⟨s, .none, .new e n⟩ c = _
        cases he : escC c with
        | true =>
          rw [nextChar_esc' he]
          have : (JsonStringInfo.new e n).addBytesFromEscape (cnt c) = none := by
            have hw : HAS_ESCAPES_MASK ||| (JsonStringInfo.new e n).word = LIM + n := by
              rw [HAS_ESCAPES_MASK_eq]
              cases e with
              | true => rw [new_true h1]; exact lim_or' h1
              | false => exact lim_or h1
            unfold JsonStringInfo.addBytesFromEscape checkedAdd
            rw [hw, if_neg (by rw [USIZE_MAX_eq]; omega)]
            rfl
          show (Res.orPanic _ ((JsonStringInfo.new e n).addBytesFromEscape (cnt c)) >>= _) = _
          rw [this]
          rfl
        | false =>
          rcases h3 with rfl | ⟨_, h5⟩
          · have hb : ∀ k, LIM ≤ n + k → (JsonStringInfo.new true n).addBytes k = none := by
              intro k hk
              unfold JsonStringInfo.addBytes checkedAdd
              rw [new_true h1]
              simp only []
              rw [if_neg (by rw [USIZE_MAX_eq]; omega)]
              rfl
            have hs : shortEsc c = none := by
              cases hs : shortEsc c with
              | some e => rw [shortEsc_escC hs] at he; cases he
              | none => rfl
            have h2' := he
            rw [shortEsc_none hs] at h2'
            have h2' := of_decide_eq_false h2'
            have hcn : cnt c = if c.toNat ≤ 0xFF then 1 else lenUtf8 c := by
              unfold cnt; rw [hs]; simp only []; rw [if_neg h2']
            unfold AsJson.nextChar
            simp only []
            by_cases h3 : c.toNat ≤ 0xFF
            · rw [if_pos h3] at hcn
              rw [if_pos h3]
              have hsafe : safeLookup SAFE_STRING_BYTES (UInt8.ofNat c.toNat) = true := by
                rw [safe_iff, toNat_ofNat_u8 (by omega)]
                refine ⟨by omega, ?_, ?_⟩
                · intro hq
                  have : c = '"' := char_ext hq
                  subst this; cases he
                · intro hq
                  have : c = '\\' := char_ext hq
                  subst this; cases he
              rw [if_pos hsafe, hb 1 (by omega)]
              rfl
            · rw [if_neg h3] at hcn
              rw [if_neg h3, hb _ (by omega)]
              rfl
          · rw [Str.len_cons'] at h5
            have := cnt_le_plain he
            omega
      obtain ⟨k, rfl⟩ : ∃ k, fuel = k + 1 := ⟨fuel - 1, by omega⟩
      rw [AsJson.collectFuel, hp]

/-! ## `From<&str>`, `From<String>` -/

theorem from_cases (s : Str) (hf : Str.len s < LIM) :
    AsJson.collect (AsJson.new (.raw (.borrowed s)) .NONE)
      = if s.any escC = true ∧ LIM ≤ cntS s then .panic .overflow
        else .ok (render s, ⟨[], .none, .new (s.any escC) (cntS s)⟩) := by
  show AsJson.collect ⟨s, .none, .new false 0⟩ = _
  by_cases h : s.any escC = true ∧ LIM ≤ cntS s
  · rw [if_pos h]
    unfold AsJson.collect
    exact collect_overflow s (LIM_pos) (by omega) (.inr ⟨h.1, by omega⟩) (by show 6 * s.length < 6 * s.length + 7; omega)
  · rw [if_neg h, collect_raw s, Bool.false_or, Nat.zero_add]
    by_cases h1 : s.any escC = true
    · have : ¬ LIM ≤ cntS s := fun hc => h ⟨h1, hc⟩
      omega
    · have := cntS_le_plain (s := s) (by simpa using h1)
      omega

theorem fromStr_eq (s : Str) (hf : Str.len s < LIM) :
    JsonString.fromStr s = if s.any escC = true then
        (if LIM ≤ cntS s then .panic .overflow else .ok ⟨.raw (.borrowed s), .new true (cntS s)⟩)
      else .ok ⟨.json (.borrowed s), .new false (cntS s)⟩ := by
  unfold JsonString.fromStr
  simp only []
  rw [from_cases s hf]
  by_cases h1 : s.any escC = true
  · rw [if_pos h1]
    by_cases h2 : LIM ≤ cntS s
    · rw [if_pos ⟨h1, h2⟩, if_pos h2]; rfl
    · rw [if_neg (fun h => h2 h.2), if_neg h2, Res.bind_eq]
      simp only [h1]
      rw [info_hasEscapes (by omega)]
      rfl
  · rw [if_neg h1, if_neg (fun h => h1 h.1), Res.bind_eq]
    have h1 : s.any escC = false := by simpa using h1
    have := cntS_le_plain h1
    simp only [h1]
    rw [info_hasEscapes (by omega)]
    rfl

theorem fromString_eq (s : Str) (hf : Str.len s < LIM) :
    JsonString.fromString s = if s.any escC = true then
        (if LIM ≤ cntS s then .panic .overflow else .ok ⟨.raw (.owned s), .new true (cntS s)⟩)
      else .ok ⟨.json (.owned s), .new false (cntS s)⟩ := by
  unfold JsonString.fromString
  simp only []
  rw [from_cases s hf]
  by_cases h1 : s.any escC = true
  · rw [if_pos h1]
    by_cases h2 : LIM ≤ cntS s
    · rw [if_pos ⟨h1, h2⟩, if_pos h2]; rfl
    · rw [if_neg (fun h => h2 h.2), if_neg h2, Res.bind_eq]
      simp only [h1]
      rw [info_hasEscapes (by omega)]
      rfl
  · rw [if_neg h1, if_neg (fun h => h1 h.1), Res.bind_eq]
    have h1 : s.any escC = false := by simpa using h1
    have := cntS_le_plain h1
    simp only [h1]
    rw [info_hasEscapes (by omega)]
    rfl

theorem asJson_json (a : AnyStr) (i : JsonStringInfo) : JsonString.asJson ⟨.json a, i⟩ = .ok a.asStr := by
  have key : ∀ (s : Str) fuel, s.length < fuel →
      AsJson.collectFuel fuel ⟨s, .alreadyEscaped, i⟩ = .ok (s, ⟨[], .alreadyEscaped, i⟩) := by
    intro s
    induction s with
    | nil =>
      intro fuel h
      obtain ⟨f, rfl⟩ : ∃ f, fuel = f + 1 := ⟨fuel - 1, by omega⟩
      rfl
    | cons c s ih =>
      intro fuel h
      simp at h
      obtain ⟨f, rfl⟩ : ∃ f, fuel = f + 1 := ⟨fuel - 1, by omega⟩
      rw [AsJson.collectFuel]
      simp only [AsJson.next]
      rw [ih f (by omega)]
  unfold JsonString.asJson AsJson.new AsJson.collect
  simp only []
  rw [key _ _ (by omega)]
  rfl

theorem asJson_raw (a : AnyStr) {n : Nat} (h1 : n < LIM) (h2 : n + cntS a.asStr < LIM) :
    JsonString.asJson ⟨.raw a, .new true n⟩ = .ok (render a.asStr) := by
  unfold JsonString.asJson AsJson.new
  simp only []
  rw [collect_raw _ h2]
  rfl

theorem asJson_raw_overflow (a : AnyStr) {n : Nat} (h1 : n < LIM) (h2 : LIM ≤ n + cntS a.asStr) :
    JsonString.asJson ⟨.raw a, .new true n⟩ = .panic .overflow := by
  unfold JsonString.asJson AsJson.new AsJson.collect
  simp only []
  rw [collect_overflow _ h1 h2 (.inl rfl) (by omega)]
  rfl

end
end JustJson
