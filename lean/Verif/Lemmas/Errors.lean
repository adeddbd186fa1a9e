import Verif.Lemmas.Outcome
import Verif.Spec.Errors
/-! # What an error says about the source: the tokenizer -/

namespace JustJson
open Spec

set_option linter.unusedSectionVars false

theorem bind_err_inv {σ ε α β : Type} {m : M σ ε α} {f : α → M σ ε β} {s s' : σ} {e : ε}
    (h : (m >>= f) s = .err e s') : m s = .err e s' ∨ ∃ a s1, m s = .ok a s1 ∧ f a s1 = .err e s' := by
  rw [M.bind_eq] at h
  cases hm : m s with
  | ok a s1 => rw [hm] at h; exact .inr ⟨a, s1, rfl, h⟩
  | err e s1 => rw [hm] at h; injection h with h1 h2; subst h1; subst h2; exact .inl rfl
  | panic p => rw [hm] at h; cases h

section
variable {src : List UInt8}

theorem take_of_adv {a o : Nat} {p : List UInt8} (h : Adv src a p o) : src.take o = src.take a ++ p := by
  rw [h.1, List.take_add, h.2]
  simp

theorem Before.adv {a o : Nat} {p q : List UInt8} (h : Adv src a p o) (hb : Before src a q) : Before src o (q ++ p) := by
  obtain ⟨r, hr⟩ := hb
  refine ⟨r, ?_⟩
  rw [take_of_adv h, ← hr, List.append_assoc]

theorem Before.of_adv {a o : Nat} {p : List UInt8} (h : Adv src a p o) : Before src o p :=
  Before.adv h (List.nil_suffix (l := src.take a))

theorem Before.sub {o : Nat} {p q : List UInt8} (h : Before src o (q ++ p)) : Before src o p :=
  (List.suffix_append q p).trans h

/-- the byte before -/
theorem Before.last {o : Nat} {p : List UInt8} (h : Before src o p) (hp : p ≠ []) (ha : ∀ b ∈ p, b.toNat < 0x80) :
    ∃ c : UInt8, c.toNat < 0x80 ∧ Before src o [c] := by
  refine ⟨p.getLast hp, ha _ (List.getLast_mem hp), ?_⟩
  refine Before.sub (q := p.dropLast) ?_
  rw [List.dropLast_concat_getLast hp]
  exact h

theorem Before.edge {o : Nat} {p : List UInt8} (h : Before src o p) (hp : p ≠ []) (ha : ∀ b ∈ p, b.toNat < 0x80) :
    Edge src o := .inr (.inr (.inl (h.last hp ha)))

theorem Here.of {o : Nat} {b : UInt8} {t : List UInt8} (h : src.drop o = b :: t) : Here src o [b] := ⟨t, by rw [h]; rfl⟩

theorem Here.edge {o : Nat} {b : UInt8} (h : Here src o [b]) (hb : b.toNat < 0x80) : Edge src o :=
  .inr (.inr (.inr ⟨b, hb, h⟩))

theorem edge_end : Edge src src.length := .inr (.inl rfl)

theorem end_of_nil {o : Nat} (hl : o ≤ src.length) (h : src.drop o = []) : o = src.length := by
  have := List.drop_eq_nil_iff.mp h
  omega

theorem hex_ascii {b : UInt8} (h : (hexVal b).isSome) : b.toNat < 0x80 := by
  unfold hexVal at h
  split at h
  · omega
  split at h
  · omega
  split at h
  · omega
  · simp at h

section
variable {cfg : ParseConfig}

/-- the claim about a tokenizer error -/
def TErr (cfg : ParseConfig) (src : List UInt8) {δ : Type} (e : Error δ) : Prop :=
  ErrSpec cfg src e.offset e.kind ∧ Edge src e.offset

theorem terr_eof {δ : Type} {o : Nat} {k : ErrorKind δ} (ho : o = src.length)
    (hk : k = .unexpectedEof ∨ k = .unclosedString ∨ k = .unclosedArray ∨ k = .unclosedObject) : TErr cfg src ⟨o, k⟩ := by
  subst ho
  refine ⟨?_, edge_end⟩
  rcases hk with rfl | rfl | rfl | rfl <;> rfl

theorem err_readOr {k : ErrorKind Empty} {off s : Nat} {e : Error Empty} (hl : off ≤ src.length)
    (h : readOr src k off = .err e s) : e = ⟨src.length, k⟩ := by
  cases hd : src.drop off with
  | nil =>
    rw [readOr_nil k hd] at h
    injection h with h _
    rw [← h, end_of_nil hl hd]
  | cons b t => rw [readOr_cons k hd] at h; cases h

theorem ok_readOr {k : ErrorKind Empty} {off s : Nat} {r : Nat × UInt8} (hl : off ≤ src.length)
    (h : readOr src k off = .ok r s) : r.1 = off ∧ s = off + 1 ∧ ∃ t, src.drop off = r.2 :: t := by
  cases hd : src.drop off with
  | nil => rw [readOr_nil k hd] at h; cases h
  | cons b t =>
    rw [readOr_cons k hd] at h
    injection h with h1 h2
    subst h1
    exact ⟨rfl, h2.symm, t, rfl⟩

theorem err_readHex : ∀ (n acc : Nat) {off s : Nat} {e : Error Empty} {ds : List UInt8}, off ≤ src.length →
    Before src off ([0x5C, 0x75] ++ ds) → ds.length + n = 4 → (∀ d ∈ ds, (hexVal d).isSome) →
    readHex src n acc off = .err e s → TErr cfg src e := by
  intro n
  induction n with
  | zero => intro acc off s e ds _ _ _ _ h; cases h
  | succ n ih =>
    intro acc off s e ds hl hb hn hx h
    cases hd : src.drop off with
    | nil =>
      rw [readHex, M.bind_err (read_nil hd)] at h
      injection h with h _
      subst h
      exact terr_eof (end_of_nil hl hd) (.inl rfl)
    | cons b t =>
      have hlt := lt_of_drop_cons hd
      cases hv : hexVal b with
      | none =>
        rw [readHex_bad hd hv] at h
        injection h with h _
        subst h
        refine ⟨⟨⟨ds, by omega, hx, hb⟩, b, Here.of hd, hv⟩, hb.edge (by simp) ?_⟩
        intro x hx'
        simp only [List.cons_append, List.nil_append, List.mem_cons] at hx'
        rcases hx' with rfl | rfl | hx'
        · decide
        · decide
        · exact hex_ascii (hx x hx')
      | some v =>
        rw [readHex_step hd hv] at h
        refine ih _ (ds := ds ++ [b]) (by omega) ?_ (by simp; omega) ?_ h
        · have := hb.adv (Adv.cons hd)
          rwa [List.append_assoc] at this
        · intro x hx'
          rcases List.mem_append.mp hx' with hx' | hx'
          · exact hx x hx'
          · simp at hx'; subst hx'; simp [hv]

theorem err_readHex4 {off s : Nat} {e : Error Empty} (hl : off ≤ src.length) (hb : Before src off [0x5C, 0x75])
    (h : readHex src 4 0 off = .err e s) : TErr cfg src e :=
  err_readHex 4 0 (ds := []) hl hb (by simp) (by simp) h

theorem readLow_some {off cp : Nat} {lo : Hex4} {r : List UInt8} (hcp : 0xD800 ≤ cp ∧ cp ≤ 0xDBFF) (hv : lo.Valid)
    (h1 : 0xDC00 ≤ lo.val) (h2 : lo.val ≤ 0xDFFF) (hd : src.drop off = [0x5C, 0x75] ++ lo.bytes ++ r) :
    ∃ m s, readLowSurrogate src cp off = .ok (some m) s := by
  have e2 : src.drop off = 0x5C :: 0x75 :: (lo.bytes ++ r) := by rw [hd]; simp
  have e3 := drop_succ_of_cons e2
  have e4 := drop_succ_of_cons e3
  unfold readLowSurrogate
  rw [if_pos (show HIGH_SURROGATE_MIN ≤ cp ∧ cp ≤ HIGH_SURROGATE_MAX from hcp), M.bind_ok (read_cons e2)]
  simp only
  rw [if_pos (by simp), M.bind_ok (read_cons e3)]
  simp only
  rw [if_pos (by simp), M.bind_ok (readHex4_eq hv e4), if_pos ⟨h1, h2⟩, mergeSurrogatePair_eq hcp.1 h1]
  exact ⟨_, _, rfl⟩

theorem readLow_none {off cp s : Nat} (hcp : 0xD800 ≤ cp ∧ cp ≤ 0xDBFF) (h : readLowSurrogate src cp off = .ok none s) :
    ¬ LowFollows (src.drop off) := by
  rintro ⟨lo, hv, h1, h2, r, hr⟩
  obtain ⟨m, s', hm⟩ := readLow_some hcp hv h1 h2 hr.symm
  rw [hm] at h
  cases h

theorem err_readLow {off cp s : Nat} {e : Error Empty} (hl : off ≤ src.length)
    (h : readLowSurrogate src cp off = .err e s) : TErr cfg src e := by
  unfold readLowSurrogate at h
  split at h
  · rename_i hcp
    rcases bind_err_inv h with h | ⟨⟨o1, b1⟩, s1, h1, h⟩
    · rw [err_readOr hl h]; exact terr_eof rfl (.inl rfl)
    obtain ⟨-, hs1, t1, hd1⟩ := ok_readOr hl h1
    have hlt := lt_of_drop_cons hd1
    simp only at h hd1
    split at h
    · rename_i hb1
      rcases bind_err_inv h with h | ⟨⟨o2, b2⟩, s2, h2, h⟩
      · rw [err_readOr (by omega) h]; exact terr_eof rfl (.inl rfl)
      obtain ⟨-, hs2, t2, hd2⟩ := ok_readOr (by omega) h2
      have hlt2 := lt_of_drop_cons hd2
      simp only at h hd2
      split at h
      · rename_i hb2
        rcases bind_err_inv h with h | ⟨second, s3, h3, h⟩
        · rw [hb1] at hd1
          rw [hb2] at hd2
          refine err_readHex4 (by omega) ?_ h
          have a1 := Adv.cons hd1
          have a2 := Adv.cons hd2
          rw [hs1] at a2
          rw [hs2, hs1]
          exact Before.of_adv (a1.trans a2)
        · split at h
          · rename_i hs
            rw [mergeSurrogatePair_eq hcp.1 hs.1] at h
            cases h
          · cases h
      · cases h
    · cases h
  · cases h

end
end

section
variable {src : List UInt8} [Arch] {cfg : ParseConfig}
attribute [local irreducible] Char.ofNat lenUtf8 charFromU32

theorem err_readStringEscape {off n s : Nat} {e' : Bool} {e : Error Empty} (hl : off ≤ src.length)
    (hb : Before src off [0x5C])
    (hlim : n + (src.length - off) < LIM) (h : readStringEscape src (.new e' n) off = .err e s) : TErr cfg src e := by
  unfold readStringEscape at h
  rcases bind_err_inv h with h | ⟨⟨o1, b1⟩, s1, h1, h⟩
  · rw [err_readOr hl h]; exact terr_eof rfl (.inl rfl)
  obtain ⟨ho, hs1, t1, hd1⟩ := ok_readOr hl h1
  have hlt := lt_of_drop_cons hd1
  simp only at h hd1 ho
  split at h
  · rw [info_addEscape (by omega)] at h; cases h
  rename_i hne
  split at h
  · rename_i hb1
    rw [hb1] at hd1
    have a1 := Adv.cons hd1
    rcases bind_err_inv h with h | ⟨cp, s2, h2, h⟩
    · refine err_readHex4 (by omega) ?_ h
      rw [hs1]
      exact hb.adv a1
    obtain ⟨hx, hv, rfl, ha2⟩ := (wp_readHex4 s1 (by omega)).elim_ok h2
    have hl2 := ha2.le (by omega)
    have hs2 := ha2.1
    rw [Hex4.length_bytes] at hs2
    cases hc : charFromU32 hx.val with
    | some c =>
      rw [hc] at h
      simp only at h
      have h4 := (lenUtf8_le c)
      obtain ⟨-, rfl⟩ := charFromU32_some_iff hc
      have hiv : (Item.uni hx).Valid := ⟨hv, by have := (charFromU32_some_iff hc).1; omega⟩
      have := Item.codeLen_le hiv
      rw [info_addEscape (by omega)] at h
      cases h
    | none =>
      rw [hc] at h
      simp only at h
      rcases bind_err_inv h with h | ⟨r, s3, h3, h⟩
      · exact err_readLow hl2 h
      cases r with
      | none =>
        simp only at h
        injection h with h _
        subst h
        have hsur := charFromU32_surrogate hc (by have := Hex4.val_lt hx; omega)
        have hcons : src.drop o1 = 0x75 :: (hx.bytes ++ src.drop s2) := by
          rw [ho, hd1, ← drop_succ_of_cons hd1, ← hs1, ha2.2]
        refine ⟨.inl ⟨by rw [ho]; exact hb, hx, src.drop s2, hv, hcons, ?_⟩, ?_⟩
        · by_cases hh : hx.val ≤ 0xDBFF
          · exact .inr ⟨hsur.1, hh, readLow_none ⟨hsur.1, hh⟩ h3⟩
          · exact .inl ⟨by omega, hsur.2⟩
        · exact (Here.of (show src.drop o1 = 0x75 :: _ from hcons)).edge (by decide)
      | some m =>
        have h3' := (wp_readLowSurrogate (cp := hx.val) hl2).elim_ok h3
        obtain ⟨-, -, lo, hlv, hc1, hc2, hc3, hc4, rfl, ha3⟩ := h3'
        have hs3 := ha3.1
        have hl3 := ha3.le hl2
        simp [Hex4.bytes] at hs3
        have hun := charFromU32Unchecked_ok (mergedCp_scalar hc2 hc4)
        have h4 := lenUtf8_le (Char.ofNat (mergedCp hx.val lo.val))
        generalize mergedCp hx.val lo.val = m at h4 hun h
        simp only at h
        rw [hun, M.bind_ok (by rfl)] at h
        rw [info_addEscape (by generalize lenUtf8 (Char.ofNat m) = k at *; omega)] at h
        cases h
  · rename_i hnu
    injection h with h _
    subst h
    refine ⟨⟨by rw [ho]; exact hb, b1, by rw [ho]; exact Here.of hd1, ?_⟩, by
      show Edge src o1
      rw [ho]; exact hb.edge (by simp) (by simp)⟩
    simp only [List.mem_cons, List.not_mem_nil, or_false]
    intro hm
    rcases hm with h | h | h | h | h | h | h | h | h <;> simp [h] at hne hnu

/-- what stands around the offset when the string loop is entered -/
def LoopAt (src : List UInt8) (off : Nat) : Prop :=
  (∃ c : UInt8, c.toNat < 0x80 ∧ Before src off [c]) ∨ (∀ b, Here src off [b] → b.toNat < 0x80)

theorem err_readStringLoop {start : Nat} : ∀ (fuel : Nat) {n off s : Nat} {e' : Bool} {e : Error Empty} {pre : List UInt8},
    off ≤ src.length → Adv src (start + 1) pre off → start + 1 ≤ src.length → (∃ sp : Str, utf8 sp = pre) →
    LoopAt src off → n + (src.length - off) < LIM → src.length - off + 1 ≤ fuel →
    readStringLoop src false start fuel (.new e' n) off = .err e s → TErr cfg src e := by
  intro fuel
  induction fuel with
  | zero => intros; omega
  | succ fuel ih =>
    intro n off s e' e pre hl hadv hst hsp hat hlim hf h
    cases hd : src.drop off with
    | nil =>
      rw [readStringLoop, M.bind_err (readOr_nil _ hd)] at h
      injection h with h _
      subst h
      exact terr_eof (end_of_nil hl hd) (.inr (.inl rfl))
    | cons b t =>
      have hlt := lt_of_drop_cons hd
      obtain ⟨sp, hsp⟩ := hsp
      rcases byte_cases b with hb | rfl | rfl | hb | hb
      · rw [loop_step_safe hd ((safe_false_iff b).mpr hb) (by omega)] at h
        refine ih (by omega) (hadv.trans (Adv.cons hd)) hst ⟨sp ++ [byteChar b], ?_⟩
          (.inl ⟨b, hb.2.2.2, Before.of_adv (Adv.cons hd)⟩) (by omega) (by omega) h
        rw [utf8_append, hsp]
        congr 1
        simp [utf8_cons, encode_byteChar hb.2.2.2]
      · rw [loop_quote hd, hadv.slice hst, ← hsp] at h
        simp only [utf8Decode_utf8] at h
        cases h
      · rw [loop_backslash hd] at h
        rcases bind_err_inv h with h | ⟨info, s1, h1, h⟩
        · exact err_readStringEscape (by omega) (Before.of_adv (Adv.cons hd)) (by omega) h
        obtain ⟨i, hiv, hie, rfl, t', hbt, ha1⟩ :=
          (wp_readStringEscape (n := n) (e := e') (by omega) (by omega)).elim_ok h1
        have hl1 := ha1.le (by omega)
        have hai : Adv src off i.bytes s1 := by rw [hbt]; exact (Adv.cons hd).trans ha1
        have hs1 := hai.1
        have hcl := Item.codeLen_le hiv
        have hip := Item.bytes_pos i
        refine ih hl1 (hadv.trans hai) hst ⟨sp ++ i.chars, by rw [utf8_append, hsp, Item.utf8_chars hiv]⟩
          (.inl ((Before.of_adv hai).last ?_ (Item.escape_ascii hiv hie))) (by omega) (by omega) h
        intro hn
        rw [hn] at hip
        simp at hip
      · rw [loop_control hd hb] at h
        injection h with h _
        subst h
        exact ⟨.inl ⟨Here.of hd, .inr (.inl hb)⟩, (Here.of hd).edge (by omega)⟩
      · have hsplit : t = t.take (runLen (fun b => decide ((128 : UInt8) ≤ b)) t)
            ++ t.drop (runLen (fun b => decide ((128 : UInt8) ≤ b)) t) := (List.take_append_drop _ _).symm
        generalize hbs : t.take (runLen (fun b => decide ((128 : UInt8) ≤ b)) t) = bs at hsplit
        generalize hrr : t.drop (runLen (fun b => decide ((128 : UInt8) ≤ b)) t) = r at hsplit
        have h1 : ∀ x ∈ b :: bs, 0x80 ≤ x.toNat := by
          intro x hx
          rcases List.mem_cons.mp hx with rfl | hx
          · exact hb
          · rw [← hbs] at hx
            exact (ge128_iff x).mp (runLen_take _ _ x hx)
        have h2 : ∀ x, r.head? = some x → x.toNat < 0x80 := by
          intro x hx
          rw [← hrr] at hx
          have := runLen_drop _ _ x hx
          rw [← Bool.not_eq_true, ge128_iff] at this
          omega
        have hbef : ∃ c : UInt8, c.toNat < 0x80 ∧ Before src off [c] := by
          rcases hat with hat | hat
          · exact hat
          · exact absurd (hat b (Here.of hd)) (by omega)
        rw [hsplit] at hd
        have hadv1 : Adv src off (b :: bs) (off + (bs.length + 1)) :=
          Adv.of_drop (bs := b :: bs) hd
        have hl1 := hadv1.le hl
        rw [loop_high hd h1 h2 (by omega)] at h
        cases hdec : utf8Decode (b :: bs) with
        | none =>
          rw [hdec] at h
          injection h with h _
          subst h
          refine ⟨.inr ⟨hbef, b :: bs, r, hd, by simp, h1, h2, ?_⟩, .inr (.inr (.inl hbef))⟩
          rintro ⟨s, hs⟩
          rw [← hs, utf8Decode_utf8] at hdec
          cases hdec
        | some cs =>
          rw [hdec] at h
          refine ih hl1 (hadv.trans hadv1) hst ⟨sp ++ cs, by rw [utf8_append, hsp, utf8_of_decode hdec]⟩ (.inr ?_)
            (by omega) (by omega) h
          rintro x ⟨t', ht'⟩
          refine h2 x ?_
          have : src.drop (off + (bs.length + 1)) = r := by
            rw [← List.drop_drop, hd]
            simp
          rw [← this, ← ht']
          rfl

theorem err_readString {start s : Nat} {e : Error Empty} {t : List UInt8} (h : src.drop start = 0x22 :: t)
    (hlim : src.length < LIM) (he : readString src false start (start + 1) = .err e s) : TErr cfg src e := by
  have hlt := lt_of_drop_cons h
  unfold readString at he
  rw [NONE_eq] at he
  exact err_readStringLoop (start := start) (src.length + 1) (pre := []) hlt (Adv.refl _) hlt ⟨[], rfl⟩
    (.inl ⟨0x22, by decide, Before.of_adv (Adv.cons h)⟩) (by omega) (by omega) he

/-! ## Numbers -/

theorem err_readDigits1 {k : ErrorKind Empty} {off s : Nat} {e : Error Empty}
    (h : readDigits1 src k off = .err e s) : e = ⟨off, k⟩ ∧ NoDigit src off := by
  unfold readDigits1 at h
  rw [M.bind_ok (M.get_eq _), M.bind_ok (M.modify_eq _ _)] at h
  split at h
  · rename_i h0
    rw [h0] at h
    injection h with h _
    refine ⟨h.symm, ?_⟩
    rintro b ⟨t, ht⟩ hb
    rw [← ht] at h0
    simp [runLen, isDigit_iff.mpr hb] at h0
  · cases h

theorem err_readInt {st : InitialNumberState} {off s : Nat} {e : Error Empty} (h : readInt src st off = .err e s) :
    st = .sign ∧ e = ⟨off, .expectedDigit⟩ ∧ NoDigit src off := by
  unfold readInt at h
  cases st with
  | zero => cases h
  | digit =>
    rw [if_neg (by decide), M.bind_ok (M.get_eq _)] at h
    have e : (InitialNumberState.digit == .digit) = true := by decide
    rw [e, intLoop_true] at h
    simp only at h
    rw [M.bind_ok (M.modify_eq _ _), if_pos (by simp)] at h
    cases h
  | sign =>
    rw [if_neg (by decide), M.bind_ok (M.get_eq _)] at h
    have e : (InitialNumberState.sign == .digit) = false := by decide
    rw [e, intLoop_false] at h
    refine ⟨rfl, ?_⟩
    cases hd : src.drop off with
    | nil =>
      rw [hd] at h
      simp only at h
      rw [M.bind_ok (M.modify_eq _ _)] at h
      injection h with h _
      refine ⟨by rw [← h]; rfl, ?_⟩
      rintro b ⟨t, ht⟩ _
      rw [hd] at ht
      cases ht
    | cons b t =>
      rw [hd] at h
      simp only at h
      split at h
      · rw [M.bind_ok (M.modify_eq _ _)] at h; cases h
      split at h
      · rw [M.bind_ok (M.modify_eq _ _)] at h; cases h
      · rename_i hb
        rw [M.bind_ok (M.modify_eq _ _)] at h
        injection h with h _
        refine ⟨by rw [← h]; rfl, ?_⟩
        rintro b' ⟨t', ht'⟩ hb'
        rw [hd] at ht'
        injection ht' with h1 _
        subst h1
        exact hb (isDigit_iff.mpr hb')

theorem err_readFrac {off s : Nat} {e : Error Empty} (h : readFrac src off = .err e s) : TErr cfg src e := by
  unfold readFrac at h
  rw [M.bind_ok (peekByte_eq _)] at h
  split at h
  · rename_i hb
    obtain ⟨t, hd⟩ := head_some hb
    rw [M.bind_ok (nextByte_cons hd)] at h
    obtain ⟨rfl, h1⟩ := err_readDigits1 h
    have := Before.of_adv (Adv.cons hd)
    exact ⟨⟨this, h1⟩, this.edge (by simp) (by simp)⟩
  · cases h

theorem err_readExp {off s : Nat} {e : Error Empty} (h : readExp src off = .err e s) : TErr cfg src e := by
  unfold readExp at h
  rw [M.bind_ok (peekByte_eq _)] at h
  split at h
  · rename_i hb
    obtain ⟨x, t, hx, hd⟩ : ∃ x t, (x = 0x65 ∨ x = 0x45) ∧ src.drop off = x :: t := by
      rcases hb with hb | hb
      · obtain ⟨t, ht⟩ := head_some hb; exact ⟨_, t, .inl rfl, ht⟩
      · obtain ⟨t, ht⟩ := head_some hb; exact ⟨_, t, .inr rfl, ht⟩
    rw [M.bind_ok (nextByte_cons hd), M.bind_ok (peekByte_eq _)] at h
    split at h
    · rename_i hc
      obtain ⟨c, t2, hcc, hd2⟩ : ∃ c t2, (c = 0x2B ∨ c = 0x2D) ∧ src.drop (off + 1) = c :: t2 := by
        rcases hc with hc | hc
        · obtain ⟨t, ht⟩ := head_some hc; exact ⟨_, t, .inr rfl, ht⟩
        · obtain ⟨t, ht⟩ := head_some hc; exact ⟨_, t, .inl rfl, ht⟩
      rw [M.bind_ok (nextByte_cons hd2)] at h
      obtain ⟨rfl, h1⟩ := err_readDigits1 h
      have := Before.of_adv (Adv.cons hd2)
      refine ⟨⟨⟨c, this, ?_⟩, h1⟩, this.edge (by simp) ?_⟩
      · rcases hcc with rfl | rfl <;> simp
      · rcases hcc with rfl | rfl <;> simp
    · obtain ⟨rfl, h1⟩ := err_readDigits1 h
      have := Before.of_adv (Adv.cons hd)
      refine ⟨⟨⟨x, this, ?_⟩, h1⟩, this.edge (by simp) ?_⟩
      · rcases hx with rfl | rfl <;> simp
      · rcases hx with rfl | rfl <;> simp
  · cases h

theorem err_readNumber {start s : Nat} {b : UInt8} {t : List UInt8} {e : Error Empty} (hb : b = 0x2D ∨ IsDigit b)
    (hd : src.drop start = b :: t) (h : readNumber src (numStart b) start (start + 1) = .err e s) : TErr cfg src e := by
  have hw := wp_readNumber hb hd
  unfold readNumber at h
  rcases bind_err_inv h with h' | ⟨_, s1, h1, h2⟩
  · obtain ⟨h1, rfl, h3⟩ := err_readInt h'
    have hb1 : b = 0x2D := by
      unfold numStart at h1
      split at h1
      · assumption
      split at h1 <;> cases h1
    rw [hb1] at hd
    have := Before.of_adv (Adv.cons hd)
    exact ⟨⟨this, h3⟩, this.edge (by simp) (by simp)⟩
  rcases bind_err_inv h2 with h' | ⟨_, s2, h3, h4⟩
  · exact err_readFrac h'
  rcases bind_err_inv h4 with h' | ⟨_, s3, h5, h6⟩
  · exact err_readExp h'
  exfalso
  rw [M.bind_ok (M.get_eq _)] at h6
  rcases bind_err_inv h6 with h' | ⟨_, s4, h7, h8⟩
  · revert h'
    cases sliceBytes src start s3 <;> (intro h'; cases h')
  rcases bind_err_inv h8 with h' | ⟨str, s5, h9, h10⟩
  · revert h'
    rename_i a
    cases utf8Decode a <;> (intro h'; cases h')
  · cases h10

/-! ## Literals and tokens -/

theorem err_readLiteral : ∀ (ls : List UInt8) {pre lit : List UInt8} {off s : Nat} {e : Error Empty}, off ≤ src.length →
    lit ∈ literals → lit = pre ++ ls → pre ≠ [] → (∀ b ∈ lit, b.toNat < 0x80) → Before src off pre →
    readLiteral src ls off = .err e s → TErr cfg src e := by
  intro ls
  induction ls with
  | nil => intro pre lit off s e _ _ _ _ _ _ h; cases h
  | cons l ls ih =>
    intro pre lit off s e hl hlit hpre hne hasc hb h
    rw [readLiteral] at h
    have h0 := h
    clear h
    rcases bind_err_inv h0 with h | ⟨⟨o, b⟩, s1, h1, h⟩
    · rw [err_readOr hl h]; exact terr_eof rfl (.inl rfl)
    clear h0
    obtain ⟨ho, hs1, t, hd⟩ := ok_readOr hl h1
    have hlt := lt_of_drop_cons hd
    simp only at h hd ho
    subst ho
    split at h
    · rename_i hbl
      injection h with h _
      subst h
      exact ⟨.inl ⟨Here.of hd, .inr (.inr ⟨lit, hlit, pre, l, ls, hpre, hne, Ne.symm hbl, hb⟩)⟩,
        hb.edge hne (fun x hx => hasc x (by rw [hpre]; simp [hx]))⟩
    · rename_i hbl
      have hbl : b = l := by simpa using hbl
      subst hbl
      refine ih (pre := pre ++ [b]) (by omega) hlit (by rw [hpre]; simp) (by simp) hasc ?_ h
      rw [hs1]
      exact hb.adv (Adv.cons hd)

theorem err_readPeek {o s : Nat} {b : UInt8} {t : List UInt8} {e : Error Empty} (h : src.drop o = b :: t)
    (hlim : src.length < LIM) (he : readPeek src false o b (o + 1) = .err e s) 
    : ErrSpec cfg src e.offset e.kind ∧ (Edge src o → Edge src e.offset) := by
  have wk : TErr cfg src e → ErrSpec cfg src e.offset e.kind ∧ (Edge src o → Edge src e.offset) := fun h => ⟨h.1, fun _ => h.2⟩
  have hlt := lt_of_drop_cons h
  by_cases hnum : b = 0x2D ∨ IsDigit b
  · rw [readPeek_num hnum] at he
    rcases bind_err_inv he with he | ⟨_, _, _, he⟩
    · exact wk (err_readNumber hnum h he)
    · cases he
  · by_cases h1 : b = 0x7B
    · subst h1; cases he
    by_cases h2 : b = 0x7D
    · subst h2; cases he
    by_cases h3 : b = 0x5B
    · subst h3; cases he
    by_cases h4 : b = 0x5D
    · subst h4; cases he
    by_cases h5 : b = 0x2C
    · subst h5; cases he
    by_cases h6 : b = 0x3A
    · subst h6; cases he
    by_cases h7 : b = 0x22
    · subst h7
      rw [readPeek_quote] at he
      rcases bind_err_inv he with he | ⟨_, _, _, he⟩
      · exact wk (err_readString h hlim he)
      · cases he
    have hlit : ∀ (ls : List UInt8), b :: ls ∈ literals → (∀ x ∈ b :: ls, x.toNat < 0x80) → ∀ tok,
        (readLiteral src ls >>= fun _ => (pure tok : TokM Token)) (o + 1) = .err e s → TErr cfg src e := by
      intro ls hm hasc tok he
      rcases bind_err_inv he with he | ⟨_, _, _, he⟩
      · exact err_readLiteral ls (pre := [b]) hlt hm rfl (by simp) hasc (Before.of_adv (Adv.cons h)) he
      · cases he
    by_cases h8 : b = 0x74
    · subst h8
      exact wk (hlit [0x72, 0x75, 0x65] (by decide) (by decide) _ he)
    by_cases h9 : b = 0x66
    · subst h9
      exact wk (hlit [0x61, 0x6C, 0x73, 0x65] (by decide) (by decide) _ he)
    by_cases h10 : b = 0x6E
    · subst h10
      exact wk (hlit [0x75, 0x6C, 0x6C] (by decide) (by decide) _ he)
    unfold readPeek at he
    rw [if_neg h1, if_neg h2, if_neg h3, if_neg h4, if_neg h5, if_neg h6, if_neg h7,
      if_neg (fun h => hnum (.inl h)), if_neg (fun h => hnum (.inr (by rw [h]; decide))),
      if_neg (fun h => hnum (.inr (isDigit_of_first h).1)), if_neg h8, if_neg h9, if_neg h10] at he
    injection he with he _
    subst he
    refine ⟨.inl ⟨Here.of h, .inl ?_⟩, ?_⟩
    · rintro (hm | hd)
      · simp only [List.mem_cons, List.not_mem_nil, or_false] at hm
        rcases hm with h | h | h | h | h | h | h | h | h | h | h <;> simp_all
      · exact hnum (.inr hd)
    · exact id

/-! ## Error offsets are not before the token -/

theorem lb_readOr {k : ErrorKind Empty} {off s : Nat} {e : Error Empty} (hl : off ≤ src.length)
    (h : readOr src k off = .err e s) : off ≤ e.offset := by rw [err_readOr hl h]; exact hl

theorem lb_readHex : ∀ (n acc : Nat) {off s : Nat} {e : Error Empty}, off ≤ src.length →
    readHex src n acc off = .err e s → off ≤ e.offset := by
  intro n
  induction n with
  | zero => intro acc off s e _ h; cases h
  | succ n ih =>
    intro acc off s e hl h
    cases hd : src.drop off with
    | nil =>
      rw [readHex, M.bind_err (read_nil hd)] at h
      injection h with h _
      subst h
      exact Nat.le_refl _
    | cons b t =>
      have hlt := lt_of_drop_cons hd
      cases hv : hexVal b with
      | none =>
        rw [readHex_bad hd hv] at h
        injection h with h _
        subst h
        exact Nat.le_refl _
      | some v =>
        rw [readHex_step hd hv] at h
        have := ih _ (by omega) h
        omega

theorem lb_readLow {off cp s : Nat} {e : Error Empty} (hl : off ≤ src.length)
    (h : readLowSurrogate src cp off = .err e s) : off ≤ e.offset := by
  unfold readLowSurrogate at h
  split at h
  · rename_i hcp
    rcases bind_err_inv h with h | ⟨⟨o1, b1⟩, s1, h1, h⟩
    · exact lb_readOr hl h
    obtain ⟨-, hs1, t1, hd1⟩ := ok_readOr hl h1
    have hlt := lt_of_drop_cons hd1
    simp only at h hd1
    split at h
    · rcases bind_err_inv h with h | ⟨⟨o2, b2⟩, s2, h2, h⟩
      · have := lb_readOr (by omega) h; omega
      obtain ⟨-, hs2, t2, hd2⟩ := ok_readOr (by omega) h2
      have hlt2 := lt_of_drop_cons hd2
      simp only at h hd2
      split at h
      · rcases bind_err_inv h with h | ⟨second, s3, h3, h⟩
        · have := lb_readHex 4 0 (by omega) h; omega
        · split at h
          · rename_i hs
            rw [mergeSurrogatePair_eq hcp.1 hs.1] at h
            cases h
          · cases h
      · cases h
    · cases h
  · cases h

theorem lb_readStringEscape {off s : Nat} {info : JsonStringInfo} {e : Error Empty} (hl : off ≤ src.length)
    (h : readStringEscape src info off = .err e s) : off ≤ e.offset := by
  unfold readStringEscape at h
  rcases bind_err_inv h with h | ⟨⟨o1, b1⟩, s1, h1, h⟩
  · exact lb_readOr hl h
  obtain ⟨ho, hs1, t1, hd1⟩ := ok_readOr hl h1
  have hlt := lt_of_drop_cons hd1
  simp only at h hd1 ho
  split at h
  · revert h
    cases info.addBytesFromEscape 1 <;> (intro h; cases h)
  split at h
  · rcases bind_err_inv h with h | ⟨cp, s2, h2, h⟩
    · have := lb_readHex 4 0 (by omega) h; omega
    obtain ⟨hx, hv, rfl, ha2⟩ := (wp_readHex4 s1 (by omega)).elim_ok h2
    have hl2 := ha2.le (by omega)
    have hm2 := ha2.mono
    cases hc : charFromU32 hx.val with
    | some c =>
      rw [hc] at h
      simp only at h
      revert h
      cases info.addBytesFromEscape (lenUtf8 c) <;> (intro h; cases h)
    | none =>
      rw [hc] at h
      simp only at h
      rcases bind_err_inv h with h | ⟨r, s3, h3, h⟩
      · have := lb_readLow hl2 h; omega
      cases r with
      | none =>
        injection h with h _
        subst h
        exact Nat.le_of_eq ho.symm
      | some m =>
        simp only at h
        rcases bind_err_inv h with h | ⟨c, s4, h4, h⟩
        · revert h
          cases charFromU32Unchecked m <;> (intro h; cases h)
        · revert h
          cases info.addBytesFromEscape (lenUtf8 c) <;> (intro h; cases h)
  · injection h with h _
    subst h
    exact Nat.le_of_eq ho.symm

theorem lb_readStringLoop {start : Nat} : ∀ (fuel : Nat) {n off s : Nat} {e' : Bool} {e : Error Empty},
    off ≤ src.length → n + (src.length - off) < LIM → src.length - off + 1 ≤ fuel →
    readStringLoop src false start fuel (.new e' n) off = .err e s → off ≤ e.offset := by
  intro fuel
  induction fuel with
  | zero => intros; omega
  | succ fuel ih =>
    intro n off s e' e hl hlim hf h
    cases hd : src.drop off with
    | nil =>
      rw [readStringLoop, M.bind_err (readOr_nil _ hd)] at h
      injection h with h _
      subst h
      exact Nat.le_refl _
    | cons b t =>
      have hlt := lt_of_drop_cons hd
      rcases byte_cases b with hb | rfl | rfl | hb | hb
      · rw [loop_step_safe hd ((safe_false_iff b).mpr hb) (by omega)] at h
        have := ih (by omega) (by omega) (by omega) h
        omega
      · rw [loop_quote hd] at h
        revert h
        cases sliceBytes src (start + 1) off with
        | none => intro h; cases h
        | some body =>
          simp only
          cases utf8Decode body <;> (intro h; cases h)
      · rw [loop_backslash hd] at h
        rcases bind_err_inv h with h | ⟨info, s1, h1, h⟩
        · have := lb_readStringEscape (by omega) h; omega
        obtain ⟨i, hiv, hie, rfl, t', hbt, ha1⟩ :=
          (wp_readStringEscape (n := n) (e := e') (by omega) (by omega)).elim_ok h1
        have hl1 := ha1.le (by omega)
        have hai : Adv src off i.bytes s1 := by rw [hbt]; exact (Adv.cons hd).trans ha1
        have hs1 := hai.1
        have hcl := Item.codeLen_le hiv
        have hip := Item.bytes_pos i
        have := ih hl1 (by omega) (by omega) h
        omega
      · rw [loop_control hd hb] at h
        injection h with h _
        subst h
        exact Nat.le_refl _
      · have hsplit : t = t.take (runLen (fun b => decide ((128 : UInt8) ≤ b)) t)
            ++ t.drop (runLen (fun b => decide ((128 : UInt8) ≤ b)) t) := (List.take_append_drop _ _).symm
        generalize hbs : t.take (runLen (fun b => decide ((128 : UInt8) ≤ b)) t) = bs at hsplit
        generalize hrr : t.drop (runLen (fun b => decide ((128 : UInt8) ≤ b)) t) = r at hsplit
        have h1 : ∀ x ∈ b :: bs, 0x80 ≤ x.toNat := by
          intro x hx
          rcases List.mem_cons.mp hx with rfl | hx
          · exact hb
          · rw [← hbs] at hx
            exact (ge128_iff x).mp (runLen_take _ _ x hx)
        have h2 : ∀ x, r.head? = some x → x.toNat < 0x80 := by
          intro x hx
          rw [← hrr] at hx
          have := runLen_drop _ _ x hx
          rw [← Bool.not_eq_true, ge128_iff] at this
          omega
        rw [hsplit] at hd
        have hadv1 : Adv src off (b :: bs) (off + (bs.length + 1)) :=
          Adv.of_drop (bs := b :: bs) hd
        have hl1 := hadv1.le hl
        rw [loop_high hd h1 h2 (by omega)] at h
        cases hdec : utf8Decode (b :: bs) with
        | none =>
          rw [hdec] at h
          injection h with h _
          subst h
          exact Nat.le_refl _
        | some cs =>
          rw [hdec] at h
          have := ih hl1 (by omega) (by omega) h
          omega

theorem lb_readNumber {start s : Nat} {b : UInt8} {t : List UInt8} {e : Error Empty}
    (hd : src.drop start = b :: t) (h : readNumber src (numStart b) start (start + 1) = .err e s) : start ≤ e.offset := by
  have hlt := lt_of_drop_cons hd
  unfold readNumber at h
  rcases bind_err_inv h with h' | ⟨_, s1, h1, h2⟩
  · obtain ⟨-, rfl, -⟩ := err_readInt h'
    exact Nat.le_succ _
  obtain ⟨ds, -, ha1⟩ := (wp_readInt (src := src) (by omega)).elim_ok h1
  have m1 := ha1.mono
  have l1 := ha1.le (by omega)
  rcases bind_err_inv h2 with h' | ⟨_, s2, h3, h4⟩
  · unfold readFrac at h'
    rw [M.bind_ok (peekByte_eq _)] at h'
    split at h'
    · rename_i hb
      obtain ⟨t, hd⟩ := head_some hb
      rw [M.bind_ok (nextByte_cons hd)] at h'
      obtain ⟨rfl, -⟩ := err_readDigits1 h'
      show start ≤ s1 + 1
      omega
    · cases h'
  obtain ⟨f, -, ha2, -⟩ := (wp_readFrac (src := src) l1).elim_ok h3
  have m2 := ha2.mono
  rcases bind_err_inv h4 with h' | ⟨_, s3, h5, h6⟩
  · unfold readExp at h'
    rw [M.bind_ok (peekByte_eq _)] at h'
    split at h'
    · rename_i hb
      obtain ⟨x, t, hd⟩ : ∃ x t, src.drop s2 = x :: t := by
        rcases hb with hb | hb
        · obtain ⟨t, ht⟩ := head_some hb; exact ⟨_, t, ht⟩
        · obtain ⟨t, ht⟩ := head_some hb; exact ⟨_, t, ht⟩
      rw [M.bind_ok (nextByte_cons hd), M.bind_ok (peekByte_eq _)] at h'
      split at h'
      · rename_i hc
        obtain ⟨c, t2, hd2⟩ : ∃ c t2, src.drop (s2 + 1) = c :: t2 := by
          rcases hc with hc | hc
          · obtain ⟨t, ht⟩ := head_some hc; exact ⟨_, t, ht⟩
          · obtain ⟨t, ht⟩ := head_some hc; exact ⟨_, t, ht⟩
        rw [M.bind_ok (nextByte_cons hd2)] at h'
        obtain ⟨rfl, -⟩ := err_readDigits1 h'
        show start ≤ s2 + 1 + 1
        omega
      · obtain ⟨rfl, -⟩ := err_readDigits1 h'
        show start ≤ s2 + 1
        omega
    · cases h'
  exfalso
  rw [M.bind_ok (M.get_eq _)] at h6
  rcases bind_err_inv h6 with h' | ⟨_, s4, h7, h8⟩
  · revert h'
    cases sliceBytes src start s3 <;> (intro h'; cases h')
  rcases bind_err_inv h8 with h' | ⟨str, s5, h9, h10⟩
  · revert h'
    rename_i a
    cases utf8Decode a <;> (intro h'; cases h')
  · cases h10

theorem lb_readLiteral : ∀ (ls : List UInt8) {off s : Nat} {e : Error Empty}, off ≤ src.length →
    readLiteral src ls off = .err e s → off ≤ e.offset := by
  intro ls
  induction ls with
  | nil => intro off s e _ h; cases h
  | cons l ls ih =>
    intro off s e hl h
    rw [readLiteral] at h
    have h0 := h
    clear h
    rcases bind_err_inv h0 with h | ⟨⟨o, b⟩, s1, h1, h⟩
    · exact lb_readOr hl h
    clear h0
    obtain ⟨ho, hs1, t, hd⟩ := ok_readOr hl h1
    have hlt := lt_of_drop_cons hd
    simp only at h hd ho
    split at h
    · injection h with h _
      subst h
      exact Nat.le_of_eq ho.symm
    · have := ih (by omega) h
      omega

theorem lb_readPeek {o s : Nat} {b : UInt8} {t : List UInt8} {e : Error Empty} (h : src.drop o = b :: t)
    (hlim : src.length < LIM) (he : readPeek src false o b (o + 1) = .err e s) : o ≤ e.offset := by
  have hlt := lt_of_drop_cons h
  by_cases hnum : b = 0x2D ∨ IsDigit b
  · rw [readPeek_num hnum] at he
    rcases bind_err_inv he with he | ⟨_, _, _, he⟩
    · exact lb_readNumber h he
    · cases he
  · by_cases h1 : b = 0x7B
    · subst h1; cases he
    by_cases h2 : b = 0x7D
    · subst h2; cases he
    by_cases h3 : b = 0x5B
    · subst h3; cases he
    by_cases h4 : b = 0x5D
    · subst h4; cases he
    by_cases h5 : b = 0x2C
    · subst h5; cases he
    by_cases h6 : b = 0x3A
    · subst h6; cases he
    by_cases h7 : b = 0x22
    · subst h7
      rw [readPeek_quote] at he
      rcases bind_err_inv he with he | ⟨_, _, _, he⟩
      · unfold readString at he
        rw [NONE_eq] at he
        have := lb_readStringLoop (start := o) (src.length + 1) hlt (by omega) (by omega) he
        omega
      · cases he
    have hlit : ∀ (ls : List UInt8), ∀ tok,
        (readLiteral src ls >>= fun _ => (pure tok : TokM Token)) (o + 1) = .err e s → o ≤ e.offset := by
      intro ls tok he
      rcases bind_err_inv he with he | ⟨_, _, _, he⟩
      · have := lb_readLiteral ls hlt he; omega
      · cases he
    by_cases h8 : b = 0x74
    · subst h8
      exact hlit [0x72, 0x75, 0x65] _ he
    by_cases h9 : b = 0x66
    · subst h9
      exact hlit [0x61, 0x6C, 0x73, 0x65] _ he
    by_cases h10 : b = 0x6E
    · subst h10
      exact hlit [0x75, 0x6C, 0x6C] _ he
    unfold readPeek at he
    rw [if_neg h1, if_neg h2, if_neg h3, if_neg h4, if_neg h5, if_neg h6, if_neg h7,
      if_neg (fun h => hnum (.inl h)), if_neg (fun h => hnum (.inr (by rw [h]; decide))),
      if_neg (fun h => hnum (.inr (isDigit_of_first h).1)), if_neg h8, if_neg h9, if_neg h10] at he
    injection he with he _
    subst he
    exact Nat.le_refl _

theorem err_offset_ge {off s : Nat} {e : Error Empty} (hlim : src.length < LIM) (hl : off ≤ src.length)
    (h : nextOrEof src false off = .err e s) : off ≤ e.offset := by
  unfold nextOrEof at h
  obtain ⟨w, hw, hd | ⟨b, t, hd, hb, ha, hd'⟩⟩ := ws_cases hl
  · rw [M.bind_err (readNonWs_nil hw hd.1 hl)] at h
    injection h with h _
    subst h
    exact hl
  · rw [M.bind_ok (readNonWs_cons hw hd hb)] at h
    have := lb_readPeek hd' hlim h
    omega

/-! ## Tokens after whitespace -/

/-- where a token may begin -/
def Start (src : List UInt8) (o : Nat) : Prop := o = 0 ∨ ∃ c : UInt8, c.toNat < 0x80 ∧ Before src o [c]

theorem Start.edge {o : Nat} (h : Start src o) : Edge src o := by
  rcases h with h | h
  · exact .inl h
  · exact .inr (.inr (.inl h))

theorem ws_ascii {w : List UInt8} (hw : Ws w) : ∀ b ∈ w, b.toNat < 0x80 := by
  intro b hb
  rcases hw b hb with rfl | rfl | rfl | rfl <;> decide

theorem Start.ws {o o' : Nat} {w : List UInt8} (h : Start src o) (hw : Ws w) (ha : Adv src o w o') : Start src o' := by
  cases w with
  | nil => have := ha.1; simp at this; rw [this]; exact h
  | cons b t => exact .inr ((Before.of_adv ha).last (by simp) (ws_ascii hw))

theorem err_next' {off s : Nat} {e : Error Empty} (hl : off ≤ src.length) (hlim : src.length < LIM)
    (h : nextOrEof src false off = .err e s) :
    ErrSpec cfg src e.offset e.kind ∧ (Start src off → Edge src e.offset) := by
  unfold nextOrEof at h
  obtain ⟨w, hw, hd | ⟨b, t, hd, hb, ha, hd'⟩⟩ := ws_cases hl
  · rw [M.bind_err (readNonWs_nil hw hd.1 hl)] at h
    injection h with h _
    subst h
    exact ⟨rfl, fun _ => edge_end⟩
  · rw [M.bind_ok (readNonWs_cons hw hd hb)] at h
    obtain ⟨h1, h2⟩ := err_readPeek (cfg := cfg) hd' hlim h
    exact ⟨h1, fun hst => h2 (hst.ws hw ha).edge⟩

theorem err_next {off s : Nat} {e : Error Empty} (hl : off ≤ src.length) (hlim : src.length < LIM) (hst : Start src off)
    (h : nextOrEof src false off = .err e s) : TErr cfg src e :=
  let ⟨h1, h2⟩ := err_next' (cfg := cfg) hl hlim h
  ⟨h1, h2 hst⟩

/-- the first byte of a lexeme -/
def Lex.First : Lex → UInt8 → Prop
  | .objO, b => b = 0x7B
  | .objC, b => b = 0x7D
  | .arrO, b => b = 0x5B
  | .arrC, b => b = 0x5D
  | .comma, b => b = 0x2C
  | .colon, b => b = 0x3A
  | .null, b => b = 0x6E
  | .bool v, b => b = if v then 0x74 else 0x66
  | .num _, b => b = 0x2D ∨ IsDigit b
  | .str _, b => b = 0x22

theorem Lex.first {l : Lex} (hv : l.Valid) : ∃ b t, l.bytes = b :: t ∧ l.First b := by
  cases l with
  | bool b => cases b <;> exact ⟨_, _, rfl, rfl⟩
  | num n =>
    show ∃ b t, n.bytes = b :: t ∧ _
    unfold NumLit.bytes
    cases n.minus with
    | true => exact ⟨0x2D, n.int ++ fracBytes n.frac ++ expBytes n.exp, by simp, .inl rfl⟩
    | false =>
      have h1 := hv.1.1
      cases hi : n.int with
      | nil => exact absurd hi h1.1
      | cons d ds => exact ⟨d, ds ++ fracBytes n.frac ++ expBytes n.exp, by simp, .inr (h1.2 d (by rw [hi]; simp))⟩
  | str is => exact ⟨_, _, rfl, rfl⟩
  | _ => exact ⟨_, _, rfl, rfl⟩

theorem Lex.last_ascii {l : Lex} (hv : l.Valid) : ∃ i c, l.bytes = i ++ [c] ∧ c.toNat < 0x80 := by
  have key : (∀ b ∈ l.bytes, b.toNat < 0x80) → ∃ i c, l.bytes = i ++ [c] ∧ c.toNat < 0x80 := by
    intro h
    have hne : l.bytes ≠ [] := by
      have := Lex.bytes_pos hv
      intro h'
      rw [h'] at this
      cases this
    exact ⟨l.bytes.dropLast, l.bytes.getLast hne, (List.dropLast_concat_getLast hne).symm, h _ (List.getLast_mem hne)⟩
  cases l with
  | num n => exact key (NumLit.ascii hv)
  | str is => exact ⟨0x22 :: bodyBytes is, 0x22, by simp [Lex.bytes, strBytes], by decide⟩
  | bool b => cases b <;> exact key (by decide)
  | _ => exact key (by decide)

theorem Lex.first_nonws {l : Lex} {b : UInt8} (h : l.First b) : ¬ Ws [b] := by
  intro hw
  have := hw b (by simp)
  cases l with
  | bool v => cases v <;> (simp only [Lex.First] at h; subst h; revert this; decide)
  | num n =>
    rcases h with rfl | h
    · revert this; decide
    · rcases this with rfl | rfl | rfl | rfl <;> revert h <;> decide
  | _ => simp only [Lex.First] at h; subst h; revert this; decide

/-- what is known after a token -/
theorem lex_facts {off off' : Nat} {w : List UInt8} {l : Lex} (hw : Ws w) (hv : l.Valid)
    (ha : Adv src off (w ++ l.bytes) off') :
    (∃ b, NextSig src off b ∧ l.First b) ∧ Start src off' := by
  obtain ⟨b, t, hb, hf⟩ := Lex.first hv
  obtain ⟨i, c, hc, hasc⟩ := Lex.last_ascii hv
  refine ⟨⟨b, ⟨Lex.first_nonws hf, w, hw, t ++ src.drop off', ?_⟩, hf⟩, .inr ⟨c, hasc, ?_⟩⟩
  · rw [ha.2, hb]; simp
  · rw [hc] at ha
    have := Before.of_adv ha
    rw [← List.append_assoc] at this
    exact this.sub

theorem NextSig.unique {off : Nat} {b b' : UInt8} (h : NextSig src off b) (h' : NextSig src off b') : b = b' := by
  obtain ⟨hb, w, hw, t, ht⟩ := h
  obtain ⟨hb', w', hw', t', ht'⟩ := h'
  have h1 := skipWs_of (src := src) (off := off) (w := w) (r := b :: t) hw (by rw [← ht]; simp)
    (by
      intro x hx
      simp at hx; subst hx
      rw [← Bool.not_eq_true]
      exact fun h => hb (ws_iff.mpr (by simpa using h)))
  have h2 := skipWs_of (src := src) (off := off) (w := w') (r := b' :: t') hw' (by rw [← ht']; simp)
    (by
      intro x hx
      simp at hx; subst hx
      rw [← Bool.not_eq_true]
      exact fun h => hb' (ws_iff.mpr (by simpa using h)))
  have hlen : w.length = w'.length := by rw [← h1, ← h2]
  have he : w ++ (b :: t) = w' ++ (b' :: t') := by
    have := ht.trans ht'.symm
    simpa using this
  have := (List.append_inj he hlen).2
  injection this

/-! ## The parser -/

/-- result of a part of the parser -/
def EWp {α : Type} (cfg : ParseConfig) (src : List UInt8) (off : Nat) (P : α → PState Unit → Prop)
    (out : Out (PState Unit) (Error Empty) α) : Prop :=
  PWp out (fun a s' => off < s'.offset ∧ s'.offset ≤ src.length ∧ Start src s'.offset ∧ P a s')
    (fun e _ => TErr cfg src e) (fun _ => True)

theorem ewp_liftTok {s : PState Unit} (hl : s.offset ≤ src.length) (hlim : src.length < LIM) (hst : Start src s.offset) :
    PWp (liftTok unitDelegate (nextOrEof src false) s)
      (fun tok s' => ∃ (w : List UInt8) (l : Lex), Ws w ∧ l.Valid ∧ Adv src s.offset (w ++ l.bytes) s'.offset ∧ tok = l.token
        ∧ s.offset < s'.offset ∧ s'.offset ≤ src.length ∧ Start src s'.offset ∧ (∃ b, NextSig src s.offset b ∧ l.First b))
      (fun e _ => TErr cfg src e) (fun _ => True) := by
  unfold liftTok
  have h := wp_next (g := false) hl hlim (fun h => by cases h)
  cases hm : nextOrEof src false s.offset with
  | ok a off =>
    rw [hm] at h
    obtain ⟨w, l, h1, h2, h3, h4, h5, h6, h7, _⟩ := h
    obtain ⟨h8, h9⟩ := lex_facts h1 h2 h3
    exact ⟨w, l, h1, h2, h3, h4, h6, h7, h9, h8⟩
  | err e off =>
    have := err_next (cfg := cfg) hl hlim hst hm
    obtain ⟨o, k⟩ := e
    obtain ⟨h1, h2⟩ := this
    refine ⟨?_, h2⟩
    show ErrSpec cfg src o (ErrorKind.intoFallable k)
    cases k with
    | errorFromDelegate x => exact x.elim
    | _ => exact h1
  | panic p => exact True.intro

theorem TErr.eofTo {k : ErrorKind Empty} (hk : k = .unclosedArray ∨ k = .unclosedObject) {e : Error Empty}
    (h : TErr cfg src e) : TErr cfg src (JustJson.eofTo k e) := by
  obtain ⟨o, kd⟩ := e
  cases kd with
  | unexpectedEof => exact terr_eof h.1 (.inr (.inr hk))
  | _ => exact h

theorem before_token {off off' : Nat} {w : List UInt8} {l : Lex} {b : UInt8} (hb : l.bytes = [b])
    (ha : Adv src off (w ++ l.bytes) off') : Before src off' [b] := by
  rw [hb] at ha
  exact (Before.of_adv ha).sub

/-- What is at the offset of every error of validation. -/
theorem run_errors (hlim : src.length < LIM) : ∀ fuel : Nat,
    (∀ s : PState Unit, s.offset ≤ src.length → Start src s.offset → 3 * (src.length - s.offset) + 1 ≤ fuel →
      EWp cfg src s.offset (fun v _ => ∃ b, NextSig src s.offset b ∧ (b = 0x7B → v = .object) ∧ (b = 0x5B → v = .array))
        (readTokens false src cfg unitDelegate fuel s))
    ∧ (∀ s : PState Unit, s.offset ≤ src.length → Before src s.offset [0x7B] → 3 * (src.length - s.offset) + 3 ≤ fuel →
      EWp cfg src s.offset (fun v _ => v = .object) (readObject false src cfg unitDelegate fuel s))
    ∧ (∀ (s : PState Unit) (o : Nat), s.offset ≤ src.length → Before src s.offset [if o = 0 then 0x7B else 0x2C] →
      3 * (src.length - s.offset) + 2 ≤ fuel →
      EWp cfg src s.offset (fun _ _ => True) (readObjectLoop false src cfg unitDelegate fuel o s))
    ∧ (∀ s : PState Unit, s.offset ≤ src.length → Before src s.offset [0x5B] → 3 * (src.length - s.offset) + 3 ≤ fuel →
      EWp cfg src s.offset (fun v _ => v = .array) (readArray false src cfg unitDelegate fuel s))
    ∧ (∀ (s : PState Unit) (a : Nat), s.offset ≤ src.length → Before src s.offset [if a = 0 then 0x5B else 0x2C] →
      3 * (src.length - s.offset) + 2 ≤ fuel →
      EWp cfg src s.offset (fun _ _ => True) (readArrayLoop false src cfg unitDelegate fuel a s)) := by
  have tt : ∀ {α : Type} {a : α} {s : PState Unit}, tokOffset unitDelegate s = .ok s.offset s := fun {_ _ _} => rfl
  have st1 : ∀ {o : Nat} {b : UInt8}, b.toNat < 0x80 → Before src o [b] → Start src o := fun hb h => .inr ⟨_, hb, h⟩
  have nest : ∀ {off : Nat} {s : PState Unit}, Start src off → (∃ b, NextSig src off b ∧ b ∈ [(0x7B : UInt8), 0x5B]) →
      PWp (beginNest cfg unitDelegate off s) (fun _ s' => s'.offset = s.offset) (fun e _ => TErr cfg src e) (fun _ => True) := by
    intro off s hst hb
    unfold beginNest
    split
    · rename_i hc
      split
      · rfl
      · exact ⟨⟨hc, hb⟩, hst.edge⟩
    · rfl
  intro fuel
  induction fuel with
  | zero => refine ⟨?_, ?_, ?_, ?_, ?_⟩ <;> (intros; omega)
  | succ fuel ih =>
    obtain ⟨ihT, ihO, ihOL, ihA, ihAL⟩ := ih
    refine ⟨?_, ?_, ?_, ?_, ?_⟩
    · intro s hl hst hfuel
      unfold EWp
      rw [readTokens, M.bind_ok (tokOffset_eq (D := unitDelegate) s)]
      refine PWp.bind (ewp_liftTok hl hlim hst) ?_
      rintro tok s1 ⟨w, l, hw, hv, ha, rfl, h1, h2, h3, b, hb, hfb⟩
      have bad : ∀ c : UInt8, b = c → c ∈ [(0x7D : UInt8), 0x5D, 0x3A, 0x2C] → TErr (δ := Empty) cfg src ⟨s.offset, .unexpected c⟩ := by
        rintro c rfl hc
        exact ⟨.inr ⟨hb, hc⟩, hst.edge⟩
      have good : ∀ v, b ≠ 0x7B → b ≠ 0x5B → s.offset < s1.offset ∧ s1.offset ≤ src.length ∧ Start src s1.offset ∧
          ∃ b, NextSig src s.offset b ∧ (b = 0x7B → v = JsonKind.object) ∧ (b = 0x5B → v = .array) :=
        fun v n1 n2 => ⟨h1, h2, h3, b, hb, (fun h => absurd h n1), (fun h => absurd h n2)⟩
      cases l with
      | null => exact good _ (by rw [hfb]; decide) (by rw [hfb]; decide)
      | bool v => exact good _ (by rw [hfb]; cases v <;> decide) (by rw [hfb]; cases v <;> decide)
      | num n =>
        refine good _ ?_ ?_ <;>
        · rintro rfl
          rcases hfb with h | h
          · revert h; decide
          · revert h; decide
      | str is => exact good _ (by rw [hfb]; decide) (by rw [hfb]; decide)
      | objC => exact bad _ hfb (by decide)
      | arrC => exact bad _ hfb (by decide)
      | comma => exact bad _ hfb (by decide)
      | colon => exact bad _ hfb (by decide)
      | objO =>
        refine PWp.bind (nest hst ⟨b, hb, by rw [hfb]; decide⟩) ?_
        intro _ s2 e1
        refine PWp.mapErr ?_ (fun e s h => h.eofTo (.inr rfl))
        refine PWp.mono (ihO s2 (by omega) (by rw [e1]; exact before_token (l := .objO) rfl ha) (by omega)) ?_
          (fun _ _ h => h) (fun _ h => h)
        rintro _ s3 ⟨e3, e4, e5, rfl⟩
        exact ⟨by omega, e4, e5, b, hb, (fun _ => rfl), (fun h => by rw [hfb] at h; cases h)⟩
      | arrO =>
        refine PWp.bind (nest hst ⟨b, hb, by rw [hfb]; decide⟩) ?_
        intro _ s2 e1
        refine PWp.mapErr ?_ (fun e s h => h.eofTo (.inl rfl))
        refine PWp.mono (ihA s2 (by omega) (by rw [e1]; exact before_token (l := .arrO) rfl ha) (by omega)) ?_
          (fun _ _ h => h) (fun _ h => h)
        rintro _ s3 ⟨e3, e4, e5, rfl⟩
        exact ⟨by omega, e4, e5, b, hb, (fun h => by rw [hfb] at h; cases h), (fun _ => rfl)⟩
    · intro s hl hb hfuel
      unfold EWp
      rw [readObject, M.bind_ok (tokOffset_eq (D := unitDelegate) s)]
      rw [M.bind_ok (show liftD unitDelegate s.offset unitDelegate.beginObject s = .ok 0 s from rfl)]
      refine PWp.bind (ihOL s 0 hl hb (by omega)) ?_
      rintro o s2 ⟨e2, e3, e4, -⟩
      rw [M.bind_ok (tokOffset_eq (D := unitDelegate) s2)]
      rw [M.bind_ok (show liftD unitDelegate s2.offset (unitDelegate.endObject o) s2 = .ok .object s2 from rfl)]
      refine PWp.bind (P := fun _ s' => s'.offset = s2.offset) ?_ ?_
      · unfold endNest
        split <;> exact rfl
      · intro _ s4 e6
        refine ⟨by rw [e6]; exact e2, by rw [e6]; exact e3, by rw [e6]; exact e4, rfl⟩
    · intro s o hl hb hfuel
      have hst : Start src s.offset := st1 (by split <;> decide) hb
      unfold EWp
      rw [readObjectLoop, M.bind_ok (tokOffset_eq (D := unitDelegate) s)]
      refine PWp.bind (ewp_liftTok hl hlim hst) ?_
      rintro tok s1 ⟨w, l, hw, hv, ha, rfl, h1, h2, h3, b, hnb, hfb⟩
      have mustStr : (b ∈ [(0x7B : UInt8), 0x5B, 0x2D, 0x74, 0x66, 0x6E] ∨ IsDigit b) →
          TErr (δ := Empty) cfg src ⟨s.offset, .objectKeysMustBeStrings⟩ := fun hc => ⟨⟨b, hnb, hc⟩, hst.edge⟩
      have expKey : b ∈ [(0x5D : UInt8), 0x3A, 0x2C] →
          TErr (δ := Empty) cfg src ⟨s.offset, .expectedObjectKey⟩ := fun hc => ⟨⟨b, hnb, hc⟩, hst.edge⟩
      cases l with
      | null => exact mustStr (.inl (by rw [hfb]; decide))
      | bool v => exact mustStr (.inl (by rw [hfb]; cases v <;> decide))
      | num n =>
        refine mustStr ?_
        rcases hfb with rfl | h
        · exact .inl (by decide)
        · exact .inr h
      | arrC => exact expKey (by rw [hfb]; decide)
      | comma => exact expKey (by rw [hfb]; decide)
      | colon => exact expKey (by rw [hfb]; decide)
      | objO => exact mustStr (.inl (by rw [hfb]; decide))
      | arrO => exact mustStr (.inl (by rw [hfb]; decide))
      | objC =>
        simp only [Lex.token]
        split
        · exact ⟨h1, h2, h3, True.intro⟩
        · rename_i htc
          rw [M.bind_ok (show liftQ unitDelegate (unitDelegate.objectIsEmpty · o) s1 = .ok (o == 0) s1 from rfl)]
          split
          · exact ⟨h1, h2, h3, True.intro⟩
          · rename_i ho
            rw [if_neg (by simpa using ho)] at hb
            exact ⟨⟨by simpa using htc, hb, b, hnb, by rw [hfb]; decide⟩, hst.edge⟩
      | str is =>
        simp only [Lex.token]
        rw [M.bind_ok (show liftD unitDelegate s.offset (unitDelegate.objectKey o (canonStr is)) s1 = .ok (o, ()) s1 from rfl)]
        simp only
        rw [M.bind_ok (tokOffset_eq (D := unitDelegate) s1)]
        have hquote : Before src s1.offset [0x22] := by
          have : (Lex.str is).bytes = (0x22 :: bodyBytes is) ++ [0x22] := by simp [Lex.bytes, strBytes]
          rw [this, ← List.append_assoc] at ha
          exact (Before.of_adv ha).sub
        have hcolon : PWp (nextColon false src unitDelegate s1)
            (fun tok s' => s1.offset < s'.offset ∧ s'.offset ≤ src.length
              ∧ (tok = .colon → Start src s'.offset) ∧ (tok ≠ .colon → ¬ NextSig src s1.offset 0x3A))
            (fun e _ => TErr cfg src e) (fun _ => True) := by
          have h := wp_next (g := false) h2 hlim (fun h => by cases h)
          unfold nextColon
          cases hm : nextOrEof src false s1.offset with
          | ok a off =>
            rw [hm] at h
            obtain ⟨w', l', h1', h2', h3', h4', h5', h6', h7', _⟩ := h
            obtain ⟨⟨b', hb', hf'⟩, h9⟩ := lex_facts h1' h2' h3'
            refine ⟨h6', h7', (fun _ => h9), ?_⟩
            rintro hne hc
            have := hb'.unique hc
            subst this
            cases l' with
            | colon => exact hne h4'
            | bool v => cases v <;> cases hf'
            | num n => rcases hf' with h | h <;> revert h <;> decide
            | _ => cases hf'
          | err e off =>
            have h9 := err_next (cfg := cfg) h2 hlim h3 hm
            refine ⟨⟨s1.offset, ?_, hquote, ?_⟩, h9.2⟩
            · show s1.offset ≤ e.offset
              exact err_offset_ge hlim h2 hm
            · rintro ⟨_, w', hw', t', ht'⟩
              have := nextOrEof_complete (g := false) (l := .colon) (r := t') hw' True.intro
                (by rw [← ht']; simp [Lex.bytes]) True.intro hlim
              rw [this] at hm
              cases hm
          | panic p => exact True.intro
        refine PWp.bind hcolon ?_
        rintro tok s3 ⟨e3, e4, e5, e6⟩
        split
        · rename_i hne
          exact ⟨⟨s1.offset, Nat.le_refl _, hquote, e6 hne⟩, h3.edge⟩
        · rename_i hne
          rw [M.bind_ok (tokOffset_eq (D := unitDelegate) s3)]
          refine PWp.bind (ihT s3 e4 (e5 (by simpa using hne)) (by omega)) ?_
          rintro v s4 ⟨e7, e8, e9, -⟩
          rw [M.bind_ok (show liftD unitDelegate s3.offset (unitDelegate.objectValue o () v) s4 = .ok (o + 1) s4 from rfl)]
          rw [M.bind_ok (tokOffset_eq (D := unitDelegate) s4)]
          refine PWp.bind (ewp_liftTok e8 hlim e9) ?_
          rintro tok s6 ⟨w', l', hw', hv', ha', rfl, h1', h2', h3', b', hnb', hfb'⟩
          split
          · exact ⟨by omega, h2', h3', True.intro⟩
          split
          · rename_i n1 n2
            refine ⟨⟨b', hnb', ?_⟩, e9.edge⟩
            intro hm
            simp only [List.mem_cons, List.not_mem_nil, or_false] at hm
            cases l' with
            | comma => exact n2 rfl
            | objC => exact n1 rfl
            | bool v => cases v <;> (rw [hfb'] at hm; revert hm; decide)
            | num n =>
              rcases hm with rfl | rfl <;> (rcases hfb' with h | h <;> revert h <;> decide)
            | _ => rw [hfb'] at hm; revert hm; decide
          · rename_i n1 n2
            have hcm : l' = .comma := by
              cases l' <;> first | rfl | (exfalso; apply n2; intro h; cases h)
            subst hcm
            refine PWp.mono (ihOL s6 (o + 1) h2' (before_token (l := .comma) rfl ha') (by omega)) ?_ (fun _ _ h => h) (fun _ h => h)
            rintro _ s7 ⟨e10, e11, e12, -⟩
            exact ⟨by omega, e11, e12, True.intro⟩
    · intro s hl hb hfuel
      unfold EWp
      rw [readArray, M.bind_ok (tokOffset_eq (D := unitDelegate) s)]
      rw [M.bind_ok (show liftD unitDelegate s.offset unitDelegate.beginArray s = .ok 0 s from rfl)]
      refine PWp.bind (ihAL s 0 hl hb (by omega)) ?_
      rintro o s2 ⟨e2, e3, e4, -⟩
      rw [M.bind_ok (show liftD unitDelegate s.offset (unitDelegate.endArray o) s2 = .ok .array s2 from rfl)]
      refine PWp.bind (P := fun _ s' => s'.offset = s2.offset) ?_ ?_
      · unfold endNest
        split <;> exact rfl
      · intro _ s4 e6
        refine ⟨by rw [e6]; exact e2, by rw [e6]; exact e3, by rw [e6]; exact e4, rfl⟩
    · intro s a hl hb hfuel
      have hst : Start src s.offset := st1 (by split <;> decide) hb
      unfold EWp
      rw [readArrayLoop, M.bind_ok (tokOffset_eq (D := unitDelegate) s)]
      have hp := wp_peek (g := false) hl (fun h => by cases h)
      obtain ⟨w, hw, ha, h1, -, h3, h4, -⟩ := hp.elim_ok (tokPeek_eq s.offset)
      have hpk : liftTok unitDelegate (tokPeek src) s
          = .ok ((src.drop (s.offset + runLen isWs (src.drop s.offset))).head?.map peekKind)
              { s with offset := s.offset + runLen isWs (src.drop s.offset) } := by
        unfold liftTok
        rw [tokPeek_eq]
      rw [M.bind_ok hpk]
      split
      · rename_i hk
        have ha1 := h4 hk
        have hl1 := ha1.le h1
        have hst1 : Start src (s.offset + runLen isWs (src.drop s.offset) + 1) := st1 (by decide) (Before.of_adv ha1)
        rw [M.bind_ok (M.modify_eq _ _)]
        simp only
        split
        · exact ⟨by show s.offset < _ + 1; omega, hl1, hst1, True.intro⟩
        · rename_i htc
          rw [M.bind_ok (show liftQ unitDelegate (unitDelegate.arrayIsEmpty · a) _ = .ok (a == 0) _ from rfl)]
          split
          · exact ⟨by show s.offset < _ + 1; omega, hl1, hst1, True.intro⟩
          · rename_i ho
            rw [if_neg (by simpa using ho)] at hb
            refine ⟨⟨by simpa using htc, hb, 0x5D, ⟨(fun h => by have := h 0x5D (by simp); revert this; decide), w, hw, ?_⟩, by decide⟩, hst.edge⟩
            have := ha.trans ha1
            exact ⟨_, this.2.symm⟩
      · have hmono := ha.mono
        refine PWp.bind (ihT _ h1 (hst.ws hw ha) (by simp only; omega)) ?_
        rintro v s4 ⟨e7, e8, e9, -⟩
        simp only at e7
        rw [M.bind_ok (tokOffset_eq (D := unitDelegate) s4)]
        rw [M.bind_ok (show liftD unitDelegate s4.offset (unitDelegate.arrayValue a v) s4 = .ok (a + 1) s4 from rfl)]
        rw [M.bind_ok (tokOffset_eq (D := unitDelegate) s4)]
        refine PWp.bind (ewp_liftTok e8 hlim e9) ?_
        rintro tok s6 ⟨w', l', hw', hv', ha', rfl, h1', h2', h3', b', hnb', hfb'⟩
        split
        · exact ⟨by omega, h2', h3', True.intro⟩
        split
        · rename_i n1 n2
          refine ⟨⟨b', hnb', ?_⟩, e9.edge⟩
          intro hm
          simp only [List.mem_cons, List.not_mem_nil, or_false] at hm
          cases l' with
          | comma => exact n2 rfl
          | arrC => exact n1 rfl
          | bool v => cases v <;> (rw [hfb'] at hm; revert hm; decide)
          | num n =>
            rcases hm with rfl | rfl <;> (rcases hfb' with h | h <;> revert h <;> decide)
          | _ => rw [hfb'] at hm; revert hm; decide
        · rename_i n1 n2
          have hcm : l' = .comma := by
            cases l' <;> first | rfl | (exfalso; apply n2; intro h; cases h)
          subst hcm
          refine PWp.mono (ihAL s6 (a + 1) h2' (before_token (l := .comma) rfl ha') (by omega)) ?_ (fun _ _ h => h) (fun _ h => h)
          rintro _ s7 ⟨e10, e11, e12, -⟩
          exact ⟨by omega, e11, e12, True.intro⟩

theorem validate_errors (hlim : src.length < LIM) {e : Error Empty} {s : PState Unit}
    (h : parseBytes false src cfg unitDelegate () = .err e s) : TErr cfg src e := by
  unfold parseBytes parseM at h
  obtain ⟨hT, -, -, -, -⟩ := run_errors (cfg := cfg) hlim (parseFuel src)
  have h0 := hT ⟨0, (), cfg.recursionLimit.getD USIZE_MAX⟩ (Nat.zero_le _) (.inl rfl) (by unfold parseFuel; simp only; omega)
  unfold EWp at h0
  rcases bind_err_inv h with h | ⟨v, s1, h1, h⟩
  · rw [h] at h0
    exact h0
  rw [h1] at h0
  obtain ⟨e1, e2, e3, b, hb, hb1, hb2⟩ := h0
  have fin : ∀ rej : Bool, (rej = true → cfg.allowAllTypesAtRoot = false ∧ v ≠ .object ∧ v ≠ .array) →
      (if rej = true then perr unitDelegate 0 ErrorKind.payloadsShouldBeObjectOrArray
        else (do
          match ← liftTok unitDelegate (nextNonWs src) with
            | none => pure v
            | some (offset, _) => perr unitDelegate offset ErrorKind.trailingNonWhitespace : PM unitDelegate JsonKind)) s1
        = .err e s → TErr cfg src e := by
    intro rej hrej h
    split at h
    · rename_i hr
      injection h with h _
      subst h
      obtain ⟨r1, r2, r3⟩ := hrej hr
      refine ⟨⟨rfl, r1, b, hb, ?_⟩, .inl rfl⟩
      intro hm
      simp only [List.mem_cons, List.not_mem_nil, or_false] at hm
      rcases hm with hm | hm
      · exact r2 (hb1 hm)
      · exact r3 (hb2 hm)
    · obtain ⟨w, hw, hd | ⟨c, t, hd, hc, ha, hd'⟩⟩ := ws_cases e2
      · have : nextNonWs src s1.offset = .ok none src.length := by
          unfold nextNonWs
          rw [M.bind_ok (skipWs_eq _), skipWs_of (r := []) hw (by simpa using hd.1) (by simp), hd.2]
          exact nextByte_nil (by simp)
        have hl : liftTok unitDelegate (nextNonWs src) s1 = .ok none { s1 with offset := src.length } := by
          unfold liftTok; rw [this]
        rw [M.bind_ok hl] at h
        cases h
      · have : nextNonWs src s1.offset = .ok (some (s1.offset + w.length, c)) (s1.offset + w.length + 1) := by
          unfold nextNonWs
          rw [M.bind_ok (skipWs_eq _), skipWs_of hw hd (by simpa using hc)]
          exact nextByte_cons hd'
        have hl : liftTok unitDelegate (nextNonWs src) s1 = .ok (some (s1.offset + w.length, c)) { s1 with offset := s1.offset + w.length + 1 } := by
          unfold liftTok; rw [this]
        rw [M.bind_ok hl] at h
        injection h with h _
        subst h
        refine ⟨⟨c, Here.of hd', ?_⟩, (e3.ws hw ha).edge⟩
        intro hws
        rw [ws_iff.mp hws c (by simp)] at hc
        cases hc
  by_cases hall : cfg.allowAllTypesAtRoot = true
  · exact fin false (fun h => by cases h) (by simp only [hall] at h; exact h)
  · refine fin (!(v == .object || v == .array)) ?_ ?_
    · intro h
      refine ⟨by simpa using hall, ?_⟩
      cases v <;> simp_all
    · simp only [hall] at h
      exact h

end
end JustJson
