import Verif.Lemmas.Errors
/-! # A source and its extensions: the same reads, up to the end of the shorter one -/

namespace JustJson
open Spec

set_option linter.unusedSectionVars false

/-- no result -/
def NotOk {σ ε α : Type} (o : Out σ ε α) : Prop := ∀ a s, o ≠ .ok a s

theorem NotOk.bind {σ ε α β : Type} {m : M σ ε α} {f : α → M σ ε β} {s : σ} (h : NotOk (m s)) : NotOk ((m >>= f) s) := by
  intro a s'
  rw [M.bind_eq]
  cases hm : m s with
  | ok a s1 => exact absurd hm (h a s1)
  | err e s1 => intro h; cases h
  | panic p => intro h; cases h

theorem NotOk.of_err {σ ε α : Type} {o : Out σ ε α} {e : ε} {s : σ} (h : o = .err e s) : NotOk o := by
  intro a s' h'; rw [h] at h'; cases h'

theorem NotOk.mapErr {σ ε ε' α : Type} {f : ε → ε'} {m : M σ ε α} {s : σ} (h : NotOk (m s)) : NotOk (M.mapErr f m s) := by
  intro a s'
  unfold M.mapErr
  cases hm : m s with
  | ok a s1 => exact absurd hm (h a s1)
  | err e s1 => intro h; cases h
  | panic p => intro h; cases h

/-- the source ends within a run of bytes above `0x7F` that is not (yet) UTF-8 -/
def Cut (src : List UInt8) {δ : Type} (e : Error δ) : Prop := e.kind = .utf8 ∧ ∀ b ∈ src.drop e.offset, 0x80 ≤ b.toNat

section
variable {src t : List UInt8}

theorem drop_ext {off : Nat} (h : off ≤ src.length) : (src ++ t).drop off = src.drop off ++ t :=
  List.drop_append_of_le_length h

theorem drop_ext_cons {off : Nat} {b : UInt8} {r : List UInt8} (h : src.drop off = b :: r) :
    (src ++ t).drop off = b :: (r ++ t) := by
  rw [drop_ext (Nat.le_of_lt (lt_of_drop_cons h)), h]; rfl

/-- reads of parts of a string: equal results, unless the source ended -/
def TRel (src : List UInt8) {α : Type} (out out' : Out Nat (Error Empty) α) : Prop :=
  match out with
  | .ok a s => s ≤ src.length ∧ out' = .ok a s
  | .err e _ => e.offset = src.length ∨ (∃ s', out' = .err e s') ∨ Cut src e
  | .panic _ => True

theorem TRel.bind {α β : Type} {m m' : TokM α} {f f' : α → TokM β} {s : Nat} (h : TRel src (m s) (m' s))
    (hf : ∀ a s', s' ≤ src.length → m s = .ok a s' → TRel src (f a s') (f' a s')) : TRel src ((m >>= f) s) ((m' >>= f') s) := by
  cases hm : m s with
  | ok a s1 =>
    rw [hm] at h
    rw [M.bind_ok hm, M.bind_ok h.2]
    exact hf a s1 h.1 hm
  | err e s1 =>
    rw [hm] at h
    rw [M.bind_err hm]
    rcases h with h | ⟨s', h⟩ | h
    · exact .inl h
    · exact .inr (.inl ⟨s', M.bind_err h⟩)
    · exact .inr (.inr h)
  | panic p => rw [M.bind_eq, hm]; exact True.intro

theorem trel_tokErr {α : Type} {s o : Nat} {k : ErrorKind Empty} :
    TRel src ((tokErr o k : TokM α) s) ((tokErr o k : TokM α) s) := .inr (.inl ⟨_, rfl⟩)

theorem trel_orPanic {α : Type} {s : Nat} {p : Panic} (o : Option α) (hs : s ≤ src.length) :
    TRel src ((M.orPanic p o : TokM α) s) ((M.orPanic p o : TokM α) s) := by
  cases o with
  | none => exact True.intro
  | some a => exact ⟨hs, rfl⟩

theorem trel_readOr {k : ErrorKind Empty} {off : Nat} (h : off ≤ src.length) : TRel src (readOr src k off) (readOr (src ++ t) k off) := by
  cases hd : src.drop off with
  | nil => rw [readOr_nil k hd]; exact .inl (end_of_nil h hd)
  | cons b r =>
    rw [readOr_cons k hd, readOr_cons k (drop_ext_cons hd)]
    exact ⟨lt_of_drop_cons hd, rfl⟩

theorem trel_readHex : ∀ (n acc : Nat) {off : Nat}, off ≤ src.length → TRel src (readHex src n acc off) (readHex (src ++ t) n acc off)
  | 0, acc, off, h => ⟨h, rfl⟩
  | n + 1, acc, off, h => by
    rw [readHex, readHex]
    refine TRel.bind (trel_readOr h) ?_
    rintro ⟨o, d⟩ s' hs' -
    simp only
    split
    · exact trel_tokErr
    · exact trel_readHex n _ hs'

theorem trel_readLow {cp off : Nat} (h : off ≤ src.length) : TRel src (readLowSurrogate src cp off) (readLowSurrogate (src ++ t) cp off) := by
  unfold readLowSurrogate
  split
  · refine TRel.bind (trel_readOr h) ?_
    rintro ⟨o, d⟩ s' hs' -
    simp only
    split
    · refine TRel.bind (trel_readOr hs') ?_
      rintro ⟨o, d⟩ s2 hs2 -
      simp only
      split
      · refine TRel.bind (trel_readHex _ _ hs2) ?_
        intro x s3 hs3 _
        split
        · refine TRel.bind (trel_orPanic _ hs3) ?_
          intro _ s4 hs4 _
          exact ⟨hs4, rfl⟩
        · exact ⟨hs3, rfl⟩
      · exact ⟨hs2, rfl⟩
    · exact ⟨hs', rfl⟩
  · exact ⟨h, rfl⟩

variable [Arch]

theorem trel_readStringEscape {info : JsonStringInfo} {off : Nat} (h : off ≤ src.length) :
    TRel src (readStringEscape src info off) (readStringEscape (src ++ t) info off) := by
  unfold readStringEscape
  refine TRel.bind (trel_readOr h) ?_
  rintro ⟨o, d⟩ s' hs' -
  simp only
  split
  · exact trel_orPanic _ hs'
  split
  · refine TRel.bind (trel_readHex _ _ hs') ?_
    intro x s2 hs2 _
    cases charFromU32 x with
    | some ch => exact trel_orPanic _ hs2
    | none =>
      simp only
      refine TRel.bind (trel_readLow hs2) ?_
      intro y s3 hs3 _
      cases y with
      | some m =>
        refine TRel.bind ?_ (fun _ s4 hs4 _ => trel_orPanic _ hs4)
        cases charFromU32Unchecked m with
        | ok c => exact ⟨hs3, rfl⟩
        | panic p => exact True.intro
      | none => exact trel_tokErr
  · exact trel_tokErr

theorem slice_ext {a b : Nat} (hb : b ≤ src.length) : sliceBytes (src ++ t) a b = sliceBytes src a b := by
  unfold sliceBytes
  by_cases hab : a ≤ b
  · rw [if_pos ⟨hab, by simp; omega⟩, if_pos ⟨hab, hb⟩, drop_ext (by omega), List.take_append_of_le_length (by simp; omega)]
  · rw [if_neg (fun h => hab h.1), if_neg (fun h => hab h.1)]

theorem runLen_ext' (p : UInt8 → Bool) (l : List UInt8) :
    runLen p (l ++ t) = runLen p l ∨ (runLen p l = l.length ∧ ∃ c r, t = c :: r ∧ p c = true) := by
  induction l with
  | nil =>
    cases t with
    | nil => exact .inl rfl
    | cons c r =>
      by_cases h : p c = true
      · exact .inr ⟨rfl, c, r, rfl, h⟩
      · left; simp only [List.nil_append, runLen, h]; rfl
  | cons b l ih =>
    simp only [runLen, List.cons_append]
    split
    · rcases ih with h | ⟨h, h2⟩
      · left; rw [h]
      · right; rw [h]; exact ⟨rfl, h2⟩
    · exact .inl rfl

theorem runLen_ext (p : UInt8 → Bool) (l : List UInt8) : runLen p (l ++ t) = runLen p l ∨ runLen p l = l.length := by
  rcases runLen_ext' (t := t) p l with h | h
  · exact .inl h
  · exact .inr h.1

theorem trel_readStringLoop {start : Nat} : ∀ (fuel fuel' : Nat) {info : JsonStringInfo} {off : Nat}, fuel ≤ fuel' → off ≤ src.length →
    TRel src (readStringLoop src false start fuel info off) (readStringLoop (src ++ t) false start fuel' info off)
  | 0, _, _, _, _, _ => True.intro
  | fuel + 1, 0, _, _, hf, _ => by omega
  | fuel + 1, fuel' + 1, info, off, hf, h => by
    have ih := fun {info off} => @trel_readStringLoop start fuel fuel' info off (by omega)
    rw [readStringLoop, readStringLoop]
    refine TRel.bind (trel_readOr h) ?_
    rintro ⟨o, d⟩ s' hs' hr
    obtain ⟨e1, e2, r, e3⟩ := ok_readOr h hr
    simp only at e1 e2 e3 ⊢
    subst e1
    subst e2
    simp only [Bool.false_eq_true, if_false]
    split
    · refine TRel.bind (trel_orPanic _ hs') ?_
      intro x s2 hs2 _
      exact ih hs2
    split
    · rw [slice_ext h]
      refine TRel.bind (trel_orPanic _ hs') ?_
      intro x s2 hs2 _
      refine TRel.bind (trel_orPanic _ hs2) ?_
      intro y s3 hs3 _
      exact ⟨hs3, rfl⟩
    split
    · refine TRel.bind (trel_readStringEscape hs') ?_
      intro x s2 hs2 _
      exact ih hs2
    split
    · rename_i hhigh
      rw [M.bind_ok (M.modify_eq _ _), M.bind_ok (M.get_eq _), M.bind_ok (M.modify_eq _ _), M.bind_ok (M.get_eq _)]
      have hle := runLen_le (fun b => decide (128 ≤ b)) (src.drop (o + 1))
      rw [List.length_drop] at hle
      rw [drop_ext (t := t) hs']
      rcases runLen_ext (t := t) (fun b => decide (128 ≤ b)) (src.drop (o + 1)) with he | he
      · rw [he]
        have hend : o + 1 + runLen (fun b => decide (128 ≤ b)) (src.drop (o + 1)) ≤ src.length := by omega
        refine TRel.bind (trel_orPanic _ hend) ?_
        intro x s2 hs2 _
        rw [slice_ext hend]
        refine TRel.bind (trel_orPanic _ hs2) ?_
        intro y s3 hs3 _
        cases utf8Decode y with
        | none => exact trel_tokErr
        | some u => exact ih hs3
      · -- the run reaches the end of the source
        have hend : o + 1 + runLen (fun b => decide (128 ≤ b)) (src.drop (o + 1)) = src.length := by
          rw [he, List.length_drop]; omega
        rw [hend]
        have hall : ∀ b ∈ src.drop o, 0x80 ≤ b.toNat := by
          intro b hb
          rw [e3] at hb
          rcases List.mem_cons.mp hb with rfl | hb
          · exact UInt8.le_iff_toNat_le.mp hhigh
          · have h1 := runLen_take (fun b => decide (128 ≤ b)) (src.drop (o + 1))
            rw [he, List.take_length, drop_succ_of_cons e3] at h1
            exact UInt8.le_iff_toNat_le.mp (of_decide_eq_true (h1 b hb))
        cases ha : info.addBytes (src.length - o) with
        | none => exact True.intro
        | some info' =>
          rw [M.bind_ok (m := M.orPanic .overflow (some info')) (a := info') (s' := src.length) rfl]
          cases hs : sliceBytes src o src.length with
          | none => exact True.intro
          | some run =>
            rw [M.bind_ok (m := M.orPanic .index (some run)) (a := run) (s' := src.length) rfl]
            cases utf8Decode run with
            | none => exact .inr (.inr ⟨rfl, hall⟩)
            | some u =>
              -- the loop stops at the end
              simp only
              cases fuel with
              | zero => exact True.intro
              | succ fuel =>
                rw [readStringLoop, M.bind_err (readOr_nil (off := src.length) _ (by simp))]
                exact .inl rfl
    split
    · exact trel_tokErr
    · exact True.intro

theorem trel_readLiteral : ∀ (ls : List UInt8) {off : Nat}, off ≤ src.length → TRel src (readLiteral src ls off) (readLiteral (src ++ t) ls off)
  | [], off, h => ⟨h, rfl⟩
  | x :: ls, off, h => by
    rw [readLiteral, readLiteral]
    refine TRel.bind (trel_readOr h) ?_
    rintro ⟨o, d⟩ s' hs' -
    simp only
    split
    · exact trel_tokErr
    · exact trel_readLiteral ls hs'

/-! ## Numbers -/

/-- a text that begins with a byte that can continue a number -/
def NumCont (t : List UInt8) : Prop := ∃ c r, t = c :: r ∧ (IsDigit c ∨ c = 0x2E ∨ c = 0x65 ∨ c = 0x45)

/-- reads of parts of a number: equal results, unless the source ended -/
def NRel (src t : List UInt8) {α : Type} (out out' : Out Nat (Error Empty) α) : Prop :=
  match out with
  | .ok a s => s ≤ src.length ∧ (out' = .ok a s ∨ (s = src.length ∧ NumCont t))
  | .err e _ => e.offset = src.length ∨ ∃ s', out' = .err e s'
  | .panic _ => True

theorem digit_cont (h : ∃ c r, t = c :: r ∧ isDigit c = true) : NumCont t := by
  obtain ⟨c, r, h1, h2⟩ := h
  exact ⟨c, r, h1, .inl (isDigit_iff.mp h2)⟩

theorem NRel.bind {α β : Type} {m m' : TokM α} {f f' : α → TokM β} {s : Nat} (h : NRel src t (m s) (m' s))
    (hf : ∀ a s', s' ≤ src.length → NRel src t (f a s') (f' a s'))
    (hend : ∀ a, (∃ b, f a src.length = .ok b src.length) ∨ ∃ p, f a src.length = .panic p) : NRel src t ((m >>= f) s) ((m' >>= f') s) := by
  cases hm : m s with
  | ok a s1 =>
    rw [hm] at h
    rw [M.bind_ok hm]
    obtain ⟨h1, h2 | ⟨h2, h3⟩⟩ := h
    · rw [M.bind_ok h2]; exact hf a s1 h1
    · rw [h2]
      rcases hend a with ⟨b, hb⟩ | ⟨p, hb⟩
      · rw [hb]; exact ⟨Nat.le_refl _, .inr ⟨rfl, h3⟩⟩
      · rw [hb]; exact True.intro
  | err e s1 =>
    rw [hm] at h
    rw [M.bind_err hm]
    rcases h with h | ⟨s', h⟩
    · exact .inl h
    · exact .inr ⟨s', M.bind_err h⟩
  | panic p => rw [M.bind_eq, hm]; exact True.intro

theorem nrel_digits {k : ErrorKind Empty} {off : Nat} (h : off ≤ src.length) :
    NRel src t (readDigits1 src k off) (readDigits1 (src ++ t) k off) := by
  unfold readDigits1
  rw [M.bind_ok (M.get_eq _), M.bind_ok (M.get_eq _), M.bind_ok (M.modify_eq _ _), M.bind_ok (M.modify_eq _ _), drop_ext h]
  have hle := runLen_le isDigit (src.drop off)
  rw [List.length_drop] at hle
  rcases runLen_ext' (t := t) isDigit (src.drop off) with he | ⟨he, hc⟩
  · rw [he]
    split
    · exact .inr ⟨_, rfl⟩
    · exact ⟨by omega, .inl rfl⟩
  · rw [List.length_drop] at he
    split
    · rename_i h0
      exact .inl (by show off + runLen isDigit (src.drop off) = _; omega)
    · exact ⟨by omega, .inr ⟨by omega, digit_cont hc⟩⟩

theorem nrel_int {st : InitialNumberState} {off : Nat} (h : off ≤ src.length) :
    NRel src t (readInt src st off) (readInt (src ++ t) st off) := by
  unfold readInt
  cases st with
  | zero => exact ⟨h, .inl rfl⟩
  | digit =>
    rw [if_neg (by decide), if_neg (by decide), M.bind_ok (M.get_eq _), M.bind_ok (M.get_eq _)]
    have e : (InitialNumberState.digit == .digit) = true := by decide
    rw [e, intLoop_true, intLoop_true]
    simp only
    rw [M.bind_ok (M.modify_eq _ _), M.bind_ok (M.modify_eq _ _), drop_ext h]
    have hle := runLen_le isDigit (src.drop off)
    rw [List.length_drop] at hle
    rcases runLen_ext' (t := t) isDigit (src.drop off) with he | ⟨he, hc⟩
    · rw [he]; exact ⟨by omega, .inl rfl⟩
    · rw [List.length_drop] at he; exact ⟨by omega, .inr ⟨by omega, digit_cont hc⟩⟩
  | sign =>
    rw [if_neg (by decide), if_neg (by decide), M.bind_ok (M.get_eq _), M.bind_ok (M.get_eq _)]
    have e : (InitialNumberState.sign == .digit) = false := by decide
    rw [e, intLoop_false, intLoop_false]
    cases hd : src.drop off with
    | nil =>
      simp only
      rw [M.bind_ok (M.modify_eq _ _)]
      exact .inl (end_of_nil h hd)
    | cons b r =>
      rw [drop_ext_cons hd]
      have hlt := lt_of_drop_cons hd
      simp only
      split
      · rw [M.bind_ok (M.modify_eq _ _)]
        exact ⟨hlt, .inl rfl⟩
      split
      · rw [M.bind_ok (M.modify_eq _ _), M.bind_ok (M.modify_eq _ _)]
        show NRel src t (.ok () (off + (runLen isDigit r + 1))) (.ok () (off + (runLen isDigit (r ++ t) + 1)))
        have hlen : r.length = src.length - off - 1 := by
          have := congrArg List.length hd
          simp at this; omega
        have hle := runLen_le isDigit r
        rcases runLen_ext' (t := t) isDigit r with he | ⟨he, hc⟩
        · rw [he]; exact ⟨by omega, .inl rfl⟩
        · exact ⟨by omega, .inr ⟨by omega, digit_cont hc⟩⟩
      · rw [M.bind_ok (M.modify_eq _ _)]
        exact .inr ⟨_, rfl⟩

theorem head_ext {off : Nat} (h : off < src.length) : ((src ++ t).drop off).head? = (src.drop off).head? := by
  cases hd : src.drop off with
  | nil => have := List.drop_eq_nil_iff.mp hd; omega
  | cons b r => rw [drop_ext_cons hd]; rfl

theorem readFrac_end : readFrac src src.length = .ok () src.length := by
  unfold readFrac
  rw [M.bind_ok (peekByte_eq _), List.drop_length]
  rfl

theorem readExp_end : readExp src src.length = .ok () src.length := by
  unfold readExp
  rw [M.bind_ok (peekByte_eq _), List.drop_length]
  rfl

theorem nrel_frac {off : Nat} (h : off ≤ src.length) : NRel src t (readFrac src off) (readFrac (src ++ t) off) := by
  by_cases hl : off = src.length
  · subst hl
    rw [readFrac_end]
    by_cases ht : t.head? = some 0x2E
    · obtain ⟨r, hr⟩ := head_some ht
      exact ⟨Nat.le_refl _, .inr ⟨rfl, _, r, hr, .inr (.inl rfl)⟩⟩
    · refine ⟨Nat.le_refl _, .inl ?_⟩
      unfold readFrac
      rw [M.bind_ok (peekByte_eq _), drop_ext (Nat.le_refl _), List.drop_length, List.nil_append, if_neg ht]
      rfl
  · unfold readFrac
    rw [M.bind_ok (peekByte_eq _), M.bind_ok (peekByte_eq _), head_ext (by omega)]
    split
    · rename_i hb
      obtain ⟨r, hd⟩ := head_some hb
      rw [M.bind_ok (nextByte_cons hd), M.bind_ok (nextByte_cons (drop_ext_cons hd))]
      exact nrel_digits (lt_of_drop_cons hd)
    · exact ⟨h, .inl rfl⟩

theorem nrel_exp {off : Nat} (h : off ≤ src.length) : NRel src t (readExp src off) (readExp (src ++ t) off) := by
  by_cases hl : off = src.length
  · subst hl
    rw [readExp_end]
    by_cases ht : t.head? = some 0x65 ∨ t.head? = some 0x45
    · refine ⟨Nat.le_refl _, .inr ⟨rfl, ?_⟩⟩
      rcases ht with ht | ht
      · obtain ⟨r, hr⟩ := head_some ht
        exact ⟨_, r, hr, .inr (.inr (.inl rfl))⟩
      · obtain ⟨r, hr⟩ := head_some ht
        exact ⟨_, r, hr, .inr (.inr (.inr rfl))⟩
    · refine ⟨Nat.le_refl _, .inl ?_⟩
      unfold readExp
      rw [M.bind_ok (peekByte_eq _), drop_ext (Nat.le_refl _), List.drop_length, List.nil_append, if_neg ht]
      rfl
  · unfold readExp
    rw [M.bind_ok (peekByte_eq _), M.bind_ok (peekByte_eq _), head_ext (by omega)]
    split
    · rename_i hb
      obtain ⟨x, r, hd⟩ : ∃ x r, src.drop off = x :: r := by
        rcases hb with hb | hb
        · obtain ⟨t, ht⟩ := head_some hb; exact ⟨_, t, ht⟩
        · obtain ⟨t, ht⟩ := head_some hb; exact ⟨_, t, ht⟩
      have hlt := lt_of_drop_cons hd
      rw [M.bind_ok (nextByte_cons hd), M.bind_ok (nextByte_cons (drop_ext_cons hd)), M.bind_ok (peekByte_eq _), M.bind_ok (peekByte_eq _)]
      by_cases hl1 : off + 1 = src.length
      · rw [hl1, List.drop_length]
        rw [if_neg (by simp)]
        show NRel src t (readDigits1 src _ _) _
        unfold readDigits1
        rw [M.bind_ok (M.get_eq _)]
        simp only
        rw [M.bind_ok (M.modify_eq _ _), List.drop_length]
        exact .inl rfl
      · rw [head_ext (by omega)]
        split
        · rename_i hc
          obtain ⟨c, t2, hd2⟩ : ∃ c t2, src.drop (off + 1) = c :: t2 := by
            rcases hc with hc | hc
            · obtain ⟨t, ht⟩ := head_some hc; exact ⟨_, t, ht⟩
            · obtain ⟨t, ht⟩ := head_some hc; exact ⟨_, t, ht⟩
          rw [M.bind_ok (nextByte_cons hd2), M.bind_ok (nextByte_cons (drop_ext_cons hd2))]
          exact nrel_digits (lt_of_drop_cons hd2)
        · exact nrel_digits hlt
    · exact ⟨h, .inl rfl⟩

theorem nrel_number {st : InitialNumberState} {start off : Nat} (h : off ≤ src.length) :
    NRel src t (readNumber src st start off) (readNumber (src ++ t) st start off) := by
  have last : ∀ s : Nat, s ≤ src.length → NRel src t
      ((do let lit ← M.orPanic .index (sliceBytes src start (← M.get)); let s ← M.orPanic .ub (utf8Decode lit); return ⟨.borrowed s⟩ : TokM JsonNumber) s)
      ((do let lit ← M.orPanic .index (sliceBytes (src ++ t) start (← M.get)); let s ← M.orPanic .ub (utf8Decode lit); return ⟨.borrowed s⟩ : TokM JsonNumber) s) := by
    intro s hs
    rw [M.bind_ok (M.get_eq _), M.bind_ok (M.get_eq _), slice_ext hs]
    cases sliceBytes src start s with
    | none => exact True.intro
    | some l =>
      rw [M.bind_ok (m := M.orPanic .index (some l)) (a := l) (s' := s) rfl]
      cases utf8Decode l with
      | none => exact True.intro
      | some u => exact ⟨hs, .inl rfl⟩
  have lastEnd : (∃ b, (do let lit ← M.orPanic .index (sliceBytes src start (← M.get)); let s ← M.orPanic .ub (utf8Decode lit); return ⟨.borrowed s⟩ : TokM JsonNumber) src.length = .ok b src.length)
      ∨ ∃ p, (do let lit ← M.orPanic .index (sliceBytes src start (← M.get)); let s ← M.orPanic .ub (utf8Decode lit); return ⟨.borrowed s⟩ : TokM JsonNumber) src.length = .panic p := by
    rw [M.bind_ok (M.get_eq _)]
    cases sliceBytes src start src.length with
    | none => exact .inr ⟨_, rfl⟩
    | some l =>
      rw [M.bind_ok (m := M.orPanic .index (some l)) (a := l) (s' := src.length) rfl]
      cases utf8Decode l with
      | none => exact .inr ⟨_, rfl⟩
      | some u => exact .inl ⟨_, rfl⟩
  unfold readNumber
  refine NRel.bind (nrel_int h) ?_ ?_
  · intro _ s1 h1
    refine NRel.bind (nrel_frac h1) ?_ ?_
    · intro _ s2 h2
      refine NRel.bind (nrel_exp h2) ?_ ?_
      · intro _ s3 h3
        exact last s3 h3
      · intro _; exact lastEnd
    · intro _
      rw [M.bind_ok readExp_end]
      exact lastEnd
  · intro _
    rw [M.bind_ok readFrac_end, M.bind_ok readExp_end]
    exact lastEnd

/-! ## Tokens -/

/-- whenever a token is read it is a number -/
def OnlyNum (out : Out Nat (Error Empty) Token) : Prop := ∀ tok s, out = .ok tok s → ∃ n, tok = .number n
/-- whenever a token is read it is a string -/
def OnlyStr (out : Out Nat (Error Empty) Token) : Prop := ∀ tok s, out = .ok tok s → ∃ n, tok = .string n

/-- the next token in a source and in an extension -/
def KRel (src t : List UInt8) (out out' : Out Nat (Error Empty) Token) : Prop :=
  match out with
  | .ok a s => s ≤ src.length ∧ (out' = .ok a s ∨ (s = src.length ∧ (∃ n, a = .number n) ∧ OnlyNum out' ∧ NumCont t))
  | .err e _ => e.offset = src.length ∨ (∃ s', out' = .err e s') ∨ (Cut src e ∧ OnlyStr out')
  | .panic _ => True

theorem bind_ok_inv' {σ ε α β : Type} {m : M σ ε α} {f : α → M σ ε β} {s s' : σ} {b : β}
    (h : (m >>= f) s = .ok b s') : ∃ a s1, m s = .ok a s1 ∧ f a s1 = .ok b s' := by
  rw [M.bind_eq] at h
  cases hm : m s with
  | ok a s1 => rw [hm] at h; exact ⟨a, s1, rfl, h⟩
  | err e s1 => rw [hm] at h; cases h
  | panic p => rw [hm] at h; cases h

theorem krel_of_trel {out out' : Out Nat (Error Empty) Token} (h : TRel src out out') (hs : OnlyStr out') : KRel src t out out' := by
  cases out with
  | ok a s => exact ⟨h.1, .inl h.2⟩
  | err e s =>
    rcases h with h | h | h
    · exact .inl h
    · exact .inr (.inl h)
    · exact .inr (.inr ⟨h, hs⟩)
  | panic p => exact True.intro

theorem krel_peek {o : Nat} {b : UInt8} (h : o + 1 ≤ src.length) :
    KRel src t (readPeek src false o b (o + 1)) (readPeek (src ++ t) false o b (o + 1)) := by
  by_cases hnum : b = 0x2D ∨ IsDigit b
  · rw [readPeek_num hnum, readPeek_num hnum]
    have hr := nrel_number (t := t) (st := numStart b) (start := o) h
    have hon : OnlyNum ((do return .number (← readNumber (src ++ t) (numStart b) o) : TokM Token) (o + 1)) := by
      intro tok s h
      obtain ⟨n, s1, _, h2⟩ := bind_ok_inv' h
      injection h2 with h2
      exact ⟨n, h2.symm⟩
    cases hm : readNumber src (numStart b) o (o + 1) with
    | ok n s =>
      rw [hm] at hr
      rw [M.bind_ok hm]
      obtain ⟨h1, h2 | ⟨h2, hc⟩⟩ := hr
      · rw [M.bind_ok h2]; exact ⟨h1, .inl rfl⟩
      · exact ⟨h1, .inr ⟨h2, ⟨n, rfl⟩, hon, hc⟩⟩
    | err e s =>
      rw [hm] at hr
      rw [M.bind_err hm]
      rcases hr with hr | ⟨s', hr⟩
      · exact .inl hr
      · exact .inr (.inl ⟨s', M.bind_err hr⟩)
    | panic p => rw [M.bind_eq, hm]; exact True.intro
  · have lit : ∀ (ls : List UInt8) (tok : Token), KRel src t
        ((do readLiteral src ls; return tok : TokM Token) (o + 1)) ((do readLiteral (src ++ t) ls; return tok : TokM Token) (o + 1)) := by
      intro ls tok
      have hr := trel_readLiteral (t := t) ls h
      cases hm : readLiteral src ls (o + 1) with
      | ok n s =>
        rw [hm] at hr
        rw [M.bind_ok hm, M.bind_ok hr.2]
        exact ⟨hr.1, .inl rfl⟩
      | err e s =>
        have hx : e.kind ≠ .utf8 := by
          clear hr
          revert hm
          generalize o + 1 = off
          intro hm
          induction ls generalizing off with
          | nil => cases hm
          | cons x ls ih =>
            rw [readLiteral] at hm
            rcases bind_err_inv hm with hm | ⟨⟨o, d⟩, s1, h1, hm⟩
            · unfold readOr at hm
              rcases bind_err_inv hm with hm | ⟨a, s1, h1, hm⟩
              · unfold nextByte at hm
                split at hm <;> cases hm
              · cases a with
                | none =>
                  simp only at hm
                  rw [M.bind_ok (M.get_eq _)] at hm
                  injection hm with hm _
                  rw [← hm]; intro h; cases h
                | some r => cases hm
            · simp only at hm
              split at hm
              · injection hm with hm _
                rw [← hm]; intro h; cases h
              · exact ih _ hm
        rw [hm] at hr
        rw [M.bind_err hm]
        rcases hr with hr | ⟨s', hr⟩ | hr
        · exact .inl hr
        · exact .inr (.inl ⟨s', M.bind_err hr⟩)
        · exact absurd hr.1 hx
      | panic p => rw [M.bind_eq, hm]; exact True.intro
    have e : ∀ tok : Token, KRel src t ((M.pure tok : TokM Token) (o + 1)) ((M.pure tok : TokM Token) (o + 1)) := fun tok => ⟨h, .inl rfl⟩
    have n1 : b ≠ 0x2D := fun h => hnum (.inl h)
    have n2 : b ≠ 0x30 := fun h => hnum (.inr (by subst h; decide))
    have n3 : ¬ (0x31 ≤ b ∧ b ≤ 0x39) := by
      rintro ⟨h1, h2⟩
      refine hnum (.inr ?_)
      rw [UInt8.le_iff_toNat_le] at h1 h2
      unfold IsDigit
      change 49 ≤ b.toNat at h1
      change b.toNat ≤ 57 at h2
      omega
    unfold readPeek
    by_cases c0 : b = 0x7B
    · rw [if_pos c0, if_pos c0]
      exact e _
    rw [if_neg c0, if_neg c0]
    by_cases c1 : b = 0x7D
    · rw [if_pos c1, if_pos c1]
      exact e _
    rw [if_neg c1, if_neg c1]
    by_cases c2 : b = 0x5B
    · rw [if_pos c2, if_pos c2]
      exact e _
    rw [if_neg c2, if_neg c2]
    by_cases c3 : b = 0x5D
    · rw [if_pos c3, if_pos c3]
      exact e _
    rw [if_neg c3, if_neg c3]
    by_cases c4 : b = 0x2C
    · rw [if_pos c4, if_pos c4]
      exact e _
    rw [if_neg c4, if_neg c4]
    by_cases c5 : b = 0x3A
    · rw [if_pos c5, if_pos c5]
      exact e _
    rw [if_neg c5, if_neg c5]
    by_cases c6 : b = 0x22
    · rw [if_pos c6, if_pos c6]
      refine krel_of_trel (TRel.bind ?_ (fun a s hs _ => ⟨hs, rfl⟩)) ?_
      · unfold readString
        exact trel_readStringLoop _ _ (by simp) h
      · intro tok s h
        obtain ⟨n, s1, _, h2⟩ := bind_ok_inv' h
        injection h2 with h2
        exact ⟨n, h2.symm⟩
    rw [if_neg c6, if_neg c6]
    rw [if_neg n1, if_neg n1, if_neg n2, if_neg n2, if_neg n3, if_neg n3]
    by_cases d0 : b = 0x74
    · rw [if_pos d0, if_pos d0]
      exact lit _ _
    rw [if_neg d0, if_neg d0]
    by_cases d1 : b = 0x66
    · rw [if_pos d1, if_pos d1]
      exact lit _ _
    rw [if_neg d1, if_neg d1]
    by_cases d2 : b = 0x6E
    · rw [if_pos d2, if_pos d2]
      exact lit _ _
    rw [if_neg d2, if_neg d2]
    exact .inr (.inl ⟨_, rfl⟩)

theorem krel_next {off : Nat} (h : off ≤ src.length) :
    KRel src t (nextOrEof src false off) (nextOrEof (src ++ t) false off) := by
  obtain ⟨w, hw, hd | ⟨b, r, hd, hb, ha, hd'⟩⟩ := ws_cases h
  · unfold nextOrEof
    rw [M.bind_err (readNonWs_nil hw hd.1 h)]
    exact .inl rfl
  · unfold nextOrEof
    rw [M.bind_ok (readNonWs_cons hw hd hb), M.bind_ok (readNonWs_cons (t := r ++ t) hw (by rw [drop_ext h, hd]; simp) hb)]
    exact krel_peek (lt_of_drop_cons hd')

/-! ## The parser -/

variable {cfg : ParseConfig}

/-- parts of the parser that end with a closing bracket -/
def SRel (src : List UInt8) {α : Type} (out out' : Out (PState Unit) (Error Empty) α) : Prop :=
  match out with
  | .ok a s => s.offset ≤ src.length ∧ out' = .ok a s
  | .err e _ => e.offset = src.length ∨ NotOk out' ∨ Cut src e
  | .panic _ => True

/-- a value: a number may be cut -/
def VRel (src : List UInt8) {α : Type} (out out' : Out (PState Unit) (Error Empty) α) : Prop :=
  match out with
  | .ok a s => s.offset ≤ src.length ∧ (out' = .ok a s ∨ (s.offset = src.length ∧ ∀ a' s', out' = .ok a' s' → a' = a))
  | .err e _ => e.offset = src.length ∨ NotOk out' ∨ Cut src e
  | .panic _ => True

theorem SRel.vrel {α : Type} {out out' : Out (PState Unit) (Error Empty) α} (h : SRel src out out') : VRel src out out' := by
  cases out with
  | ok a s => exact ⟨h.1, .inl h.2⟩
  | err e s => exact h
  | panic p => exact True.intro

theorem SRel.bind {α β : Type} {m m' : PM unitDelegate α} {f f' : α → PM unitDelegate β} {s : PState Unit} (h : SRel src (m s) (m' s))
    (hf : ∀ a s', s'.offset ≤ src.length → SRel src (f a s') (f' a s')) : SRel src ((m >>= f) s) ((m' >>= f') s) := by
  cases hm : m s with
  | ok a s1 =>
    rw [hm] at h
    rw [M.bind_ok hm, M.bind_ok h.2]
    exact hf a s1 h.1
  | err e s1 =>
    rw [hm] at h
    rw [M.bind_err hm]
    rcases h with h | h | h
    · exact .inl h
    · exact .inr (.inl h.bind)
    · exact .inr (.inr h)
  | panic p => rw [M.bind_eq, hm]; exact True.intro

/-- after a value something must follow -/
theorem VRel.bind {α β : Type} {m m' : PM unitDelegate α} {f f' : α → PM unitDelegate β} {s : PState Unit} (h : VRel src (m s) (m' s))
    (hf : ∀ a s', s'.offset ≤ src.length → SRel src (f a s') (f' a s'))
    (hend : ∀ a s', s'.offset = src.length → ∃ e s'', f a s' = .err e s'' ∧ e.offset = src.length) :
    SRel src ((m >>= f) s) ((m' >>= f') s) := by
  cases hm : m s with
  | ok a s1 =>
    rw [hm] at h
    rw [M.bind_ok hm]
    rcases h.2 with h2 | ⟨h2, -⟩
    · rw [M.bind_ok h2]; exact hf a s1 h.1
    · obtain ⟨e, s'', h3, h4⟩ := hend a s1 h2
      rw [h3]
      exact .inl h4
  | err e s1 =>
    rw [hm] at h
    rw [M.bind_err hm]
    rcases h with h | h | h
    · exact .inl h
    · exact .inr (.inl h.bind)
    · exact .inr (.inr h)
  | panic p => rw [M.bind_eq, hm]; exact True.intro

theorem srel_perr {α : Type} {s : PState Unit} {o : Nat} {k : ErrorKind Empty} {out' : Out (PState Unit) (Error Empty) α} (h : NotOk out') :
    SRel src ((perr unitDelegate o k : PM unitDelegate α) s) out' := .inr (.inl h)

theorem notOk_perr {α : Type} {s : PState Unit} {o : Nat} {k : ErrorKind Empty} :
    NotOk ((perr unitDelegate o k : PM unitDelegate α) s) := NotOk.of_err rfl

theorem srel_mapErr {α : Type} {m m' : PM unitDelegate α} {s : PState Unit} {k : ErrorKind Empty} (h : SRel src (m s) (m' s)) :
    SRel src (M.mapErr (eofTo k) m s) (M.mapErr (eofTo k) m' s) := by
  cases hm : m s with
  | ok a s1 =>
    rw [hm] at h
    unfold M.mapErr
    rw [hm, h.2]
    exact ⟨h.1, rfl⟩
  | err e s1 =>
    rw [hm] at h
    have e1 : M.mapErr (eofTo k) m s = .err (eofTo k e) s1 := by unfold M.mapErr; rw [hm]
    have e2 : (eofTo k e).offset = e.offset := by unfold eofTo; split <;> rfl
    rw [e1]
    rcases h with h | h | h
    · exact .inl (by rw [e2]; exact h)
    · exact .inr (.inl h.mapErr)
    · refine .inr (.inr ⟨?_, by rw [e2]; exact h.2⟩)
      unfold eofTo
      rw [h.1]
      exact h.1
  | panic p => unfold M.mapErr; rw [hm]; exact True.intro

/-- reading a token and acting on it -/
theorem token_bind {β : Type} {f f' : Token → PM unitDelegate β} {s : PState Unit} (h : s.offset ≤ src.length) {R : Out (PState Unit) (Error Empty) β → Out (PState Unit) (Error Empty) β → Prop}
    (hR : R = SRel src ∨ R = VRel src)
    (hf : ∀ a s', s'.offset ≤ src.length → R (f a s') (f' a s'))
    (hn : ∀ n n' s' s'', s'.offset = src.length → R (f (.number n) s') (f' (.number n') s''))
    (hx : ∀ n s' out, s'.offset = src.length → NotOk out → R (f (.number n) s') out) :
    R ((liftTok unitDelegate (nextOrEof src false) >>= f) s) ((liftTok unitDelegate (nextOrEof (src ++ t) false) >>= f') s) := by
  have hk := krel_next (t := t) h
  have errR : ∀ {e s1 out'}, (e.offset = src.length ∨ NotOk out' ∨ Cut src e) → R (.err e s1) out' := by
    intro e s1 out' h
    rcases hR with rfl | rfl <;> exact h
  cases hm : nextOrEof src false s.offset with
  | ok tok o =>
    rw [hm] at hk
    have e1 : liftTok unitDelegate (nextOrEof src false) s = .ok tok { s with offset := o } := by unfold liftTok; rw [hm]
    rw [M.bind_ok e1]
    obtain ⟨h1, h2 | ⟨h2, ⟨n, rfl⟩, h3, -⟩⟩ := hk
    · have e2 : liftTok unitDelegate (nextOrEof (src ++ t) false) s = .ok tok { s with offset := o } := by unfold liftTok; rw [h2]
      rw [M.bind_ok e2]
      exact hf _ _ h1
    · cases hm' : nextOrEof (src ++ t) false s.offset with
      | ok tok' o' =>
        obtain ⟨n', rfl⟩ := h3 _ _ hm'
        have e2 : liftTok unitDelegate (nextOrEof (src ++ t) false) s = .ok (.number n') { s with offset := o' } := by unfold liftTok; rw [hm']
        rw [M.bind_ok e2]
        exact hn _ _ _ _ h2
      | err e' o' =>
        have e2 : liftTok unitDelegate (nextOrEof (src ++ t) false) s = .err e'.intoFallable { s with offset := o' } := by unfold liftTok; rw [hm']
        rw [M.bind_err e2]
        exact hx _ _ _ h2 (NotOk.of_err rfl)
      | panic p =>
        have e2 : liftTok unitDelegate (nextOrEof (src ++ t) false) s = .panic p := by unfold liftTok; rw [hm']
        rw [M.bind_eq (liftTok unitDelegate (nextOrEof (src ++ t) false)), e2]
        exact hx _ _ _ h2 (fun _ _ h => by cases h)
  | err e o =>
    rw [hm] at hk
    have e1 : liftTok unitDelegate (nextOrEof src false) s = .err e.intoFallable { s with offset := o } := by unfold liftTok; rw [hm]
    rw [M.bind_err e1]
    refine errR ?_
    rcases hk with hk | hk | ⟨hk, -⟩
    · exact .inl hk
    · refine .inr (.inl (NotOk.bind ?_))
      intro a s'
      unfold liftTok
      cases hm' : nextOrEof (src ++ t) false s.offset with
      | ok a o => exact absurd hm' (by obtain ⟨_, hk⟩ := hk; exact NotOk.of_err hk _ _)
      | err e o => intro h; cases h
      | panic p => intro h; cases h
    · refine .inr (.inr ⟨?_, hk.2⟩)
      show ErrorKind.intoFallable e.kind = _
      rw [hk.1]; rfl
  | panic p =>
    have e1 : liftTok unitDelegate (nextOrEof src false) s = .panic p := by unfold liftTok; rw [hm]
    rw [M.bind_eq, e1]
    rcases hR with rfl | rfl <;> exact True.intro

/-- at the end of the source there is no token -/
theorem token_end {β : Type} {f : Token → PM unitDelegate β} {s : PState Unit} (h : s.offset = src.length) :
    ∃ e s'', (liftTok unitDelegate (nextOrEof src false) >>= f) s = .err e s'' ∧ e.offset = src.length := by
  have : liftTok unitDelegate (nextOrEof src false) s = .err ⟨src.length, .unexpectedEof⟩ { s with offset := src.length } := by
    unfold liftTok nextOrEof
    rw [h, M.bind_err (readNonWs_nil (w := []) (by intro b hb; cases hb) (by simp) (Nat.le_refl _))]
    rfl
  rw [M.bind_err this]
  exact ⟨_, _, rfl, rfl⟩

/-- The parser on a source and on an extension of it. -/
theorem run_ext : ∀ fuel fuel' : Nat, fuel ≤ fuel' →
    (∀ s : PState Unit, s.offset ≤ src.length →
      VRel src (readTokens false src cfg unitDelegate fuel s) (readTokens false (src ++ t) cfg unitDelegate fuel' s))
    ∧ (∀ s : PState Unit, s.offset ≤ src.length →
      SRel src (readObject false src cfg unitDelegate fuel s) (readObject false (src ++ t) cfg unitDelegate fuel' s))
    ∧ (∀ (s : PState Unit) (o : Nat), s.offset ≤ src.length →
      SRel src (readObjectLoop false src cfg unitDelegate fuel o s) (readObjectLoop false (src ++ t) cfg unitDelegate fuel' o s))
    ∧ (∀ s : PState Unit, s.offset ≤ src.length →
      SRel src (readArray false src cfg unitDelegate fuel s) (readArray false (src ++ t) cfg unitDelegate fuel' s))
    ∧ (∀ (s : PState Unit) (a : Nat), s.offset ≤ src.length →
      SRel src (readArrayLoop false src cfg unitDelegate fuel a s) (readArrayLoop false (src ++ t) cfg unitDelegate fuel' a s)) := by
  have nest : ∀ {off : Nat} {s : PState Unit}, s.offset ≤ src.length →
      SRel src (beginNest cfg unitDelegate off s) (beginNest cfg unitDelegate off s) := by
    intro off s h
    unfold beginNest
    split
    · split
      · exact ⟨h, rfl⟩
      · exact .inr (.inl (NotOk.of_err rfl))
    · exact ⟨h, rfl⟩
  have unnest : ∀ {s : PState Unit}, s.offset ≤ src.length →
      SRel src (endNest cfg unitDelegate s) (endNest cfg unitDelegate s) := by
    intro s h
    unfold endNest
    split <;> exact ⟨h, rfl⟩
  intro fuel
  induction fuel with
  | zero => intro fuel' _; exact ⟨fun _ _ => True.intro, fun _ _ => True.intro, fun _ _ _ => True.intro, fun _ _ => True.intro, fun _ _ _ => True.intro⟩
  | succ fuel ih =>
    intro fuel' hf
    obtain ⟨fuel', rfl⟩ : ∃ k, fuel' = k + 1 := ⟨fuel' - 1, by omega⟩
    obtain ⟨ihT, ihO, ihOL, ihA, ihAL⟩ := ih fuel' (by omega)
    refine ⟨?_, ?_, ?_, ?_, ?_⟩
    · intro s h
      rw [readTokens, readTokens, M.bind_ok (tokOffset_eq (D := unitDelegate) s), M.bind_ok (tokOffset_eq (D := unitDelegate) s)]
      refine token_bind h (.inr rfl) ?_ ?_ ?_
      · intro tok s1 h1
        cases tok with
        | null => exact ⟨h1, .inl rfl⟩
        | bool b => exact ⟨h1, .inl rfl⟩
        | string x => exact ⟨h1, .inl rfl⟩
        | number n => exact ⟨h1, .inl rfl⟩
        | objectEnd => exact (srel_perr notOk_perr).vrel
        | arrayEnd => exact (srel_perr notOk_perr).vrel
        | colon => exact (srel_perr notOk_perr).vrel
        | comma => exact (srel_perr notOk_perr).vrel
        | object => exact (SRel.bind (nest h1) (fun _ s2 h2 => srel_mapErr (ihO s2 h2))).vrel
        | array => exact (SRel.bind (nest h1) (fun _ s2 h2 => srel_mapErr (ihA s2 h2))).vrel
      · intro n n' s' s'' h'
        refine ⟨Nat.le_of_eq h', .inr ⟨h', ?_⟩⟩
        intro a' s3 h3
        injection h3 with h3 _
        exact h3.symm
      · intro n s' out h' hout
        exact ⟨Nat.le_of_eq h', .inr ⟨h', fun a' s3 h3 => absurd h3 (hout _ _)⟩⟩
    · intro s h
      rw [readObject, readObject, M.bind_ok (tokOffset_eq (D := unitDelegate) s), M.bind_ok (tokOffset_eq (D := unitDelegate) s)]
      rw [M.bind_ok (show liftD unitDelegate s.offset unitDelegate.beginObject s = .ok 0 s from rfl),
        M.bind_ok (show liftD unitDelegate s.offset unitDelegate.beginObject s = .ok 0 s from rfl)]
      refine SRel.bind (ihOL s 0 h) ?_
      intro o s2 h2
      rw [M.bind_ok (tokOffset_eq (D := unitDelegate) s2)]
      rw [M.bind_ok (show liftD unitDelegate s2.offset (unitDelegate.endObject o) s2 = .ok .object s2 from rfl)]
      exact SRel.bind (unnest h2) (fun _ s3 h3 => ⟨h3, rfl⟩)
    · intro s o h
      rw [readObjectLoop, readObjectLoop, M.bind_ok (tokOffset_eq (D := unitDelegate) s), M.bind_ok (tokOffset_eq (D := unitDelegate) s)]
      refine token_bind h (.inl rfl) ?_ ?_ ?_
      · intro tok s1 h1
        cases tok with
        | null => exact srel_perr notOk_perr
        | bool b => exact srel_perr notOk_perr
        | number n => exact srel_perr notOk_perr
        | object => exact srel_perr notOk_perr
        | array => exact srel_perr notOk_perr
        | arrayEnd => exact srel_perr notOk_perr
        | colon => exact srel_perr notOk_perr
        | comma => exact srel_perr notOk_perr
        | objectEnd =>
          simp only
          split
          · exact ⟨h1, rfl⟩
          · rw [M.bind_ok (show liftQ unitDelegate (unitDelegate.objectIsEmpty · o) s1 = .ok (o == 0) s1 from rfl)]
            split
            · exact ⟨h1, rfl⟩
            · exact srel_perr notOk_perr
        | string key =>
          simp only
          rw [M.bind_ok (show liftD unitDelegate s.offset (unitDelegate.objectKey o key) s1 = .ok (o, ()) s1 from rfl),
            M.bind_ok (show liftD unitDelegate s.offset (unitDelegate.objectKey o key) s1 = .ok (o, ()) s1 from rfl)]
          simp only
          rw [M.bind_ok (tokOffset_eq (D := unitDelegate) s1), M.bind_ok (tokOffset_eq (D := unitDelegate) s1)]
          have hk := krel_next (t := t) h1
          have rest : ∀ (tok : Token) (s2 : PState Unit), s2.offset ≤ src.length → SRel src
              ((if tok ≠ .colon then perr unitDelegate s1.offset .expectedColon
                else (do
                  let offset ← tokOffset unitDelegate
                  let value ← readTokens false src cfg unitDelegate fuel
                  let object ← liftD unitDelegate offset (unitDelegate.objectValue o () value)
                  let offset ← tokOffset unitDelegate
                  let token ← liftTok unitDelegate (nextOrEof src false)
                  if token = .objectEnd then return object
                  else if token ≠ .comma then perr unitDelegate offset .expectedCommaOrEndOfObject
                  else readObjectLoop false src cfg unitDelegate fuel object) : PM unitDelegate Nat) s2)
              ((if tok ≠ .colon then perr unitDelegate s1.offset .expectedColon
                else (do
                  let offset ← tokOffset unitDelegate
                  let value ← readTokens false (src ++ t) cfg unitDelegate fuel'
                  let object ← liftD unitDelegate offset (unitDelegate.objectValue o () value)
                  let offset ← tokOffset unitDelegate
                  let token ← liftTok unitDelegate (nextOrEof (src ++ t) false)
                  if token = .objectEnd then return object
                  else if token ≠ .comma then perr unitDelegate offset .expectedCommaOrEndOfObject
                  else readObjectLoop false (src ++ t) cfg unitDelegate fuel' object) : PM unitDelegate Nat) s2) := by
            intro tok s2 h2
            split
            · exact srel_perr notOk_perr
            · rw [M.bind_ok (tokOffset_eq (D := unitDelegate) s2), M.bind_ok (tokOffset_eq (D := unitDelegate) s2)]
              refine VRel.bind (ihT s2 h2) ?_ ?_
              · intro v s3 h3
                rw [M.bind_ok (show liftD unitDelegate s2.offset (unitDelegate.objectValue o () v) s3 = .ok (o + 1) s3 from rfl),
                  M.bind_ok (show liftD unitDelegate s2.offset (unitDelegate.objectValue o () v) s3 = .ok (o + 1) s3 from rfl)]
                rw [M.bind_ok (tokOffset_eq (D := unitDelegate) s3), M.bind_ok (tokOffset_eq (D := unitDelegate) s3)]
                refine token_bind h3 (.inl rfl) ?_ ?_ ?_
                · intro tok s4 h4
                  split
                  · exact ⟨h4, rfl⟩
                  split
                  · exact srel_perr notOk_perr
                  · exact ihOL s4 _ h4
                · intro n n' s' s'' _
                  rw [if_neg (by simp), if_pos (by simp), if_neg (by simp), if_pos (by simp)]
                  exact srel_perr notOk_perr
                · intro n s' out _ hout
                  rw [if_neg (by simp), if_pos (by simp)]
                  exact srel_perr hout
              · intro v s3 h3
                rw [M.bind_ok (show liftD unitDelegate s2.offset (unitDelegate.objectValue o () v) s3 = .ok (o + 1) s3 from rfl)]
                rw [M.bind_ok (tokOffset_eq (D := unitDelegate) s3)]
                exact token_end h3
          cases hm : nextOrEof src false s1.offset with
          | ok tok off =>
            rw [hm] at hk
            have e1 : nextColon false src unitDelegate s1 = .ok tok { s1 with offset := off } := by unfold nextColon; rw [hm]
            rw [M.bind_ok e1]
            obtain ⟨h2, h3 | ⟨h3, ⟨n, rfl⟩, h4, -⟩⟩ := hk
            · have e2 : nextColon false (src ++ t) unitDelegate s1 = .ok tok { s1 with offset := off } := by unfold nextColon; rw [h3]
              rw [M.bind_ok e2]
              exact rest tok _ h2
            · rw [if_pos (by simp)]
              refine srel_perr ?_
              cases hm' : nextOrEof (src ++ t) false s1.offset with
              | ok tok' o' =>
                obtain ⟨n', rfl⟩ := h4 _ _ hm'
                have e2 : nextColon false (src ++ t) unitDelegate s1 = .ok (.number n') { s1 with offset := o' } := by unfold nextColon; rw [hm']
                rw [M.bind_ok e2, if_pos (by simp)]
                exact notOk_perr
              | err e' o' =>
                refine NotOk.bind ?_
                intro a s'; unfold nextColon; rw [hm']; intro h; cases h
              | panic p =>
                refine NotOk.bind ?_
                intro a s'; unfold nextColon; rw [hm']; intro h; cases h
          | err e off =>
            rw [hm] at hk
            have e1 : nextColon false src unitDelegate s1 = .err (toExpectedColon e) { s1 with offset := off } := by unfold nextColon; rw [hm]
            rw [M.bind_err e1]
            rcases hk with hk | hk | ⟨-, hk⟩
            · exact .inl hk
            · refine .inr (.inl (NotOk.bind ?_))
              intro a s'; unfold nextColon
              cases hm' : nextOrEof (src ++ t) false s1.offset with
              | ok a o => exact absurd hm' (by obtain ⟨_, hk⟩ := hk; exact NotOk.of_err hk _ _)
              | err e o => intro h; cases h
              | panic p => intro h; cases h
            · refine .inr (.inl ?_)
              cases hm' : nextOrEof (src ++ t) false s1.offset with
              | ok tok' o' =>
                obtain ⟨x, rfl⟩ := hk _ _ hm'
                have e2 : nextColon false (src ++ t) unitDelegate s1 = .ok (.string x) { s1 with offset := o' } := by unfold nextColon; rw [hm']
                rw [M.bind_ok e2, if_pos (by simp)]
                exact notOk_perr
              | err e' o' =>
                refine NotOk.bind ?_
                intro a s'; unfold nextColon; rw [hm']; intro h; cases h
              | panic p =>
                refine NotOk.bind ?_
                intro a s'; unfold nextColon; rw [hm']; intro h; cases h
          | panic p =>
            have e1 : nextColon false src unitDelegate s1 = .panic p := by unfold nextColon; rw [hm]
            rw [M.bind_eq, e1]
            exact True.intro
      · intro n n' s' s'' _
        exact srel_perr notOk_perr
      · intro n s' out _ hout
        exact srel_perr hout
    · intro s h
      rw [readArray, readArray, M.bind_ok (tokOffset_eq (D := unitDelegate) s), M.bind_ok (tokOffset_eq (D := unitDelegate) s)]
      rw [M.bind_ok (show liftD unitDelegate s.offset unitDelegate.beginArray s = .ok 0 s from rfl),
        M.bind_ok (show liftD unitDelegate s.offset unitDelegate.beginArray s = .ok 0 s from rfl)]
      refine SRel.bind (ihAL s 0 h) ?_
      intro o s2 h2
      rw [M.bind_ok (show liftD unitDelegate s.offset (unitDelegate.endArray o) s2 = .ok .array s2 from rfl)]
      exact SRel.bind (unnest h2) (fun _ s3 h3 => ⟨h3, rfl⟩)
    · intro s a h
      rw [readArrayLoop, readArrayLoop, M.bind_ok (tokOffset_eq (D := unitDelegate) s), M.bind_ok (tokOffset_eq (D := unitDelegate) s)]
      have hpk : ∀ src : List UInt8, liftTok unitDelegate (tokPeek src) s
          = .ok ((src.drop (s.offset + runLen isWs (src.drop s.offset))).head?.map peekKind)
              { s with offset := s.offset + runLen isWs (src.drop s.offset) } := by
        intro src
        unfold liftTok
        rw [tokPeek_eq]
      rw [M.bind_ok (hpk src), M.bind_ok (hpk (src ++ t)), drop_ext h]
      have hle := runLen_le isWs (src.drop s.offset)
      rw [List.length_drop] at hle
      by_cases hlt : s.offset + runLen isWs (src.drop s.offset) < src.length
      · have he : runLen isWs (src.drop s.offset ++ t) = runLen isWs (src.drop s.offset) := by
          rcases runLen_ext (t := t) isWs (src.drop s.offset) with he | he
          · exact he
          · rw [List.length_drop] at he; omega
        rw [he, head_ext hlt]
        split
        · rw [M.bind_ok (M.modify_eq _ _)]
          split
          · exact ⟨hlt, rfl⟩
          · rw [M.bind_ok (show liftQ unitDelegate (unitDelegate.arrayIsEmpty · a) _ = .ok (a == 0) _ from rfl)]
            split
            · exact ⟨hlt, rfl⟩
            · exact srel_perr notOk_perr
        · refine VRel.bind (ihT _ (Nat.le_of_lt hlt)) ?_ ?_
          · intro v s3 h3
            rw [M.bind_ok (tokOffset_eq (D := unitDelegate) s3), M.bind_ok (tokOffset_eq (D := unitDelegate) s3)]
            rw [M.bind_ok (show liftD unitDelegate s3.offset (unitDelegate.arrayValue a v) s3 = .ok (a + 1) s3 from rfl),
              M.bind_ok (show liftD unitDelegate s3.offset (unitDelegate.arrayValue a v) s3 = .ok (a + 1) s3 from rfl)]
            rw [M.bind_ok (tokOffset_eq (D := unitDelegate) s3), M.bind_ok (tokOffset_eq (D := unitDelegate) s3)]
            refine token_bind h3 (.inl rfl) ?_ ?_ ?_
            · intro tok s4 h4
              split
              · exact ⟨h4, rfl⟩
              split
              · exact srel_perr notOk_perr
              · exact ihAL s4 _ h4
            · intro n n' s' s'' _
              rw [if_neg (by simp), if_pos (by simp), if_neg (by simp), if_pos (by simp)]
              exact srel_perr notOk_perr
            · intro n s' out _ hout
              rw [if_neg (by simp), if_pos (by simp)]
              exact srel_perr hout
          · intro v s3 h3
            rw [M.bind_ok (tokOffset_eq (D := unitDelegate) s3)]
            rw [M.bind_ok (show liftD unitDelegate s3.offset (unitDelegate.arrayValue a v) s3 = .ok (a + 1) s3 from rfl)]
            rw [M.bind_ok (tokOffset_eq (D := unitDelegate) s3)]
            exact token_end h3
      · have hend : s.offset + runLen isWs (src.drop s.offset) = src.length := by omega
        rw [hend, List.drop_length]
        rw [if_neg (by simp)]
        cases fuel with
        | zero => exact True.intro
        | succ fuel =>
          obtain ⟨e, s'', h1, h2⟩ := token_end (src := src) (s := { s with offset := src.length }) rfl
            (f := fun token => match token with
              | .null => liftD unitDelegate src.length unitDelegate.null
              | .object => do
                beginNest cfg unitDelegate src.length
                M.mapErr (eofTo .unclosedObject) (readObject false src cfg unitDelegate fuel)
              | .array => do
                beginNest cfg unitDelegate src.length
                M.mapErr (eofTo .unclosedArray) (readArray false src cfg unitDelegate fuel)
              | .objectEnd => perr unitDelegate src.length (.unexpected 0x7D)
              | .arrayEnd => perr unitDelegate src.length (.unexpected 0x5D)
              | .colon => perr unitDelegate src.length (.unexpected 0x3A)
              | .comma => perr unitDelegate src.length (.unexpected 0x2C)
              | .bool b => liftD unitDelegate src.length (unitDelegate.boolean b)
              | .string s => liftD unitDelegate src.length (unitDelegate.string s)
              | .number n => liftD unitDelegate src.length (unitDelegate.number n))
          have h3 : readTokens false src cfg unitDelegate (fuel + 1) { s with offset := src.length } = .err e s'' := by
            rw [readTokens, M.bind_ok (tokOffset_eq (D := unitDelegate) _)]
            exact h1
          rw [M.bind_err h3]
          exact .inl h2

/-- **The parse of a source that fails before its end fails on every extension.** -/
theorem parse_ext {e : Error Empty} {s : PState Unit} (h : parseBytes false src cfg unitDelegate () = .err e s) :
    e.offset = src.length ∨ NotOk (parseBytes false (src ++ t) cfg unitDelegate ()) ∨ Cut src e := by
  unfold parseBytes parseM at h ⊢
  have hT := (run_ext (cfg := cfg) (src := src) (t := t) (parseFuel src) (parseFuel (src ++ t))
    (by unfold parseFuel; simp; omega)).1 ⟨0, (), cfg.recursionLimit.getD USIZE_MAX⟩ (Nat.zero_le _)
  rcases bind_err_inv h with h | ⟨v, s1, h1, h⟩
  · rw [h] at hT
    rcases hT with hT | hT | hT
    · exact .inl hT
    · exact .inr (.inl hT.bind)
    · exact .inr (.inr hT)
  · rw [h1] at hT
    -- the value was read
    have rej : ∀ (s1 : PState Unit) (src : List UInt8), ∃ rj : Bool, (do
        let reject ← if cfg.allowAllTypesAtRoot then M.pure false else do
          let k ← liftQ unitDelegate (unitDelegate.kindOf · v)
          M.pure (!(k == .object || k == .array))
        if reject then perr unitDelegate 0 .payloadsShouldBeObjectOrArray
        else
          match ← liftTok unitDelegate (nextNonWs src) with
          | none => return v
          | some (offset, _) => perr unitDelegate offset .trailingNonWhitespace : PM unitDelegate JsonKind) s1
        = (if rj then perr unitDelegate 0 .payloadsShouldBeObjectOrArray
        else (do
          match ← liftTok unitDelegate (nextNonWs src) with
          | none => return v
          | some (offset, _) => perr unitDelegate offset .trailingNonWhitespace) : PM unitDelegate JsonKind) s1
        ∧ rj = (!cfg.allowAllTypesAtRoot && !(v == .object || v == .array)) := by
      intro s1 src
      by_cases hall : cfg.allowAllTypesAtRoot = true
      · exact ⟨false, by simp only [hall]; rfl, by simp [hall]⟩
      · refine ⟨!(v == .object || v == .array), ?_, by simp [hall]⟩
        simp only [hall]
        rfl
    obtain ⟨hle, hT⟩ := hT
    obtain ⟨r1, hr1, hr1'⟩ := rej s1 src
    replace h := hr1.symm.trans h
    by_cases hr : r1 = true
    · -- rejected for its kind
      refine .inr (.inl ?_)
      cases h2 : readTokens false (src ++ t) cfg unitDelegate (parseFuel (src ++ t)) ⟨0, (), cfg.recursionLimit.getD USIZE_MAX⟩ with
      | err e s => exact NotOk.bind (NotOk.of_err h2)
      | panic p => exact NotOk.bind (fun a s h => by rw [h2] at h; cases h)
      | ok v' s2 =>
        rw [M.bind_ok h2]
        have hv : v' = v := by
          rcases hT with hT | ⟨_, hT⟩
          · rw [hT] at h2; injection h2 with h2; exact h2.symm
          · exact hT _ _ h2
        subst hv
        obtain ⟨r2, hr2, hr2'⟩ := rej s2 (src ++ t)
        intro a s' hh
        replace hh := hr2.symm.trans hh
        rw [hr2', ← hr1', if_pos hr] at hh
        cases hh
    · rw [if_neg hr] at h
      obtain ⟨w, hw, hd | ⟨c, r, hd, hc, ha, hd'⟩⟩ := ws_cases hle
      · have hl : liftTok unitDelegate (nextNonWs src) s1 = .ok none { s1 with offset := src.length } := by
          unfold liftTok; rw [nextNonWs_nil hw hd.1 hle]
        rw [M.bind_ok hl] at h
        cases h
      · -- something after the value
        have hlt := lt_of_drop_cons hd'
        rcases hT with hT | ⟨hT, _⟩
        · refine .inr (.inl ?_)
          rw [M.bind_ok hT]
          obtain ⟨r2, hr2, hr2'⟩ := rej s1 (src ++ t)
          intro a s' hh
          replace hh := hr2.symm.trans hh
          rw [hr2', ← hr1', if_neg hr] at hh
          have hl : liftTok unitDelegate (nextNonWs (src ++ t)) s1 = .ok (some (s1.offset + w.length, c)) { s1 with offset := s1.offset + w.length + 1 } := by
            unfold liftTok; rw [nextNonWs_cons (t := r ++ t) hw (by rw [drop_ext hle, hd]; simp) hc]
          rw [M.bind_ok hl] at hh
          cases hh
        · omega

end
end JustJson
