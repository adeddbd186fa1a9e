import Verif.Lemmas.StringTok
/-! # Reading number literals -/

namespace JustJson
open Spec

set_option linter.unusedSectionVars false

/-- The bytes after a literal do not continue it. -/
def NumStop (n : NumLit) (r : List UInt8) : Prop := ∀ b, r.head? = some b →
  (n.exp.isSome → ¬ IsDigit b)
  ∧ (n.exp = none → b ≠ 0x65 ∧ b ≠ 0x45
      ∧ (n.frac.isSome → ¬ IsDigit b)
      ∧ (n.frac = none → b ≠ 0x2E ∧ (n.int ≠ [0x30] → ¬ IsDigit b)))

instance (b : UInt8) : Decidable (IsDigit b) := inferInstanceAs (Decidable (_ ∧ _))

theorem isDigit_false_iff {b : UInt8} : isDigit b = false ↔ ¬ IsDigit b := by
  rw [← isDigit_iff, Bool.not_eq_true]

section
variable {src : List UInt8}

/-! ## Digits -/

theorem readDigits1_eq {k : ErrorKind Empty} {off : Nat} {ds r : List UInt8} (hd : Digits ds)
    (h : src.drop off = ds ++ r) (hr : ∀ b, r.head? = some b → ¬ IsDigit b) :
    readDigits1 src k off = .ok () (off + ds.length) := by
  have hrun : runLen isDigit (src.drop off) = ds.length := by
    rw [h]
    exact runLen_append (fun b hb => isDigit_iff.mpr (hd.2 b hb))
      (fun b hb => isDigit_false_iff.mpr (hr b hb))
  unfold readDigits1
  rw [M.bind_ok (M.get_eq _)]
  rw [hrun, M.bind_ok (M.modify_eq _ _), if_neg]
  · rfl
  · have := hd.1
    cases ds <;> simp_all

theorem wp_readDigits1 {k : ErrorKind Empty} {off : Nat} (hl : off ≤ src.length) :
    Wp src off (readDigits1 src k off) fun _ off' =>
      ∃ ds, Digits ds ∧ Adv src off ds off' ∧ (∀ b, (src.drop off').head? = some b → ¬ IsDigit b) := by
  unfold readDigits1
  rw [M.bind_ok (M.get_eq _)]
  rw [M.bind_ok (M.modify_eq _ _)]
  generalize hn : runLen isDigit (src.drop off) = n
  have hle : n ≤ (src.drop off).length := hn ▸ runLen_le _ _
  have hadv : Adv src off ((src.drop off).take n) (off + n) := by
    have := Adv.of_drop (src := src) (off := off) (bs := (src.drop off).take n) (r := (src.drop off).drop n)
      (List.take_append_drop _ _).symm
    rwa [List.length_take, Nat.min_eq_left hle] at this
  rw [List.length_drop] at hle
  split
  · rename_i h0
    subst h0
    exact ⟨by simp, by simpa using hl, by simpa using hl⟩
  · refine ⟨(src.drop off).take n, ⟨?_, ?_⟩, hadv, ?_⟩
    · intro he
      have := congrArg List.length he
      rw [List.length_take, List.length_drop] at this
      simp at this
      omega
    · intro b hb
      rw [← hn] at hb
      exact isDigit_iff.mp (runLen_take _ _ b hb)
    · intro b hb
      rw [← List.drop_drop] at hb
      rw [← hn] at hb
      exact isDigit_false_iff.mp (runLen_drop _ _ b hb)

theorem intLoop_true (l : List UInt8) : intLoop l true = (true, runLen isDigit l) := by
  induction l with
  | nil => rfl
  | cons b t ih =>
    simp only [intLoop, runLen]
    rw [if_neg (by simp)]
    split <;> simp_all

theorem intLoop_false (l : List UInt8) : intLoop l false = match l with
    | [] => (false, 0)
    | b :: t => if b = 0x30 then (true, 1) else if isDigit b then (true, runLen isDigit t + 1) else (false, 0) := by
  cases l with
  | nil => rfl
  | cons b t =>
    simp only [intLoop, intLoop_true]
    by_cases h : b = 0x30 <;> simp [h]

/-- what the integer digits after the first byte are -/
def IntRest (st : InitialNumberState) (ds r : List UInt8) : Prop :=
  match st with
  | .zero => ds = []
  | .digit => (∀ b ∈ ds, IsDigit b) ∧ (∀ b, r.head? = some b → ¬ IsDigit b)
  | .sign => IntPart ds ∧ (ds ≠ [0x30] → ∀ b, r.head? = some b → ¬ IsDigit b)

theorem IntPart.ne_zero {b : UInt8} {ds : List UInt8} (h : IntPart (b :: ds)) (hb : b = 0x30) :
    ds = [] := by
  have := h.2 (by simp [hb])
  simpa using congrArg List.tail this

theorem readInt_eq {st : InitialNumberState} {off : Nat} {ds r : List UInt8}
    (h : src.drop off = ds ++ r) (hr : IntRest st ds r) :
    readInt src st off = .ok () (off + ds.length) := by
  unfold readInt
  cases st with
  | zero => simp only [IntRest] at hr; subst hr; rfl
  | digit =>
    rw [if_neg (by decide), M.bind_ok (M.get_eq _)]
    have : intLoop (src.drop off) (InitialNumberState.digit == .digit) = (true, ds.length) := by
      have e : (InitialNumberState.digit == .digit) = true := by decide
      rw [e, intLoop_true, h]
      rw [runLen_append (fun b hb => isDigit_iff.mpr (hr.1 b hb))
        (fun b hb => isDigit_false_iff.mpr (hr.2 b hb))]
    rw [this, M.bind_ok (M.modify_eq _ _)]
    rfl
  | sign =>
    rw [if_neg (by decide), M.bind_ok (M.get_eq _)]
    have : intLoop (src.drop off) (InitialNumberState.sign == .digit) = (true, ds.length) := by
      have e : (InitialNumberState.sign == .digit) = false := by decide
      rw [e, intLoop_false, h]
      obtain ⟨h1, h2⟩ := hr
      match ds, h1, h2 with
      | [], h1, _ => exact absurd rfl h1.1.1
      | b :: ds, h1, h2 =>
        simp only [List.cons_append]
        split
        · rename_i hb
          rw [IntPart.ne_zero h1 hb]
          rfl
        · rename_i hb
          rw [if_pos (isDigit_iff.mpr (h1.1.2 b (by simp)))]
          rw [runLen_append (fun x hx => isDigit_iff.mpr (h1.1.2 x (by simp [hx])))
            (fun x hx => isDigit_false_iff.mpr (h2 (by simp [hb]) x hx))]
          rfl
    rw [this, M.bind_ok (M.modify_eq _ _)]
    rfl

theorem adv_take {off n : Nat} (h : n ≤ src.length - off) :
    Adv src off ((src.drop off).take n) (off + n) := by
  have := Adv.of_drop (src := src) (off := off) (bs := (src.drop off).take n) (r := (src.drop off).drop n)
    (List.take_append_drop _ _).symm
  rwa [List.length_take, List.length_drop, Nat.min_eq_left h] at this

theorem wp_readInt {st : InitialNumberState} {off : Nat} (hl : off ≤ src.length) :
    Wp src off (readInt src st off) fun _ off' =>
      ∃ ds, IntRest st ds (src.drop off') ∧ Adv src off ds off' := by
  unfold readInt
  cases st with
  | zero => exact ⟨[], rfl, Adv.refl _⟩
  | digit =>
    rw [if_neg (by decide), M.bind_ok (M.get_eq _)]
    have e : (InitialNumberState.digit == .digit) = true := by decide
    rw [e, intLoop_true]
    simp only
    rw [M.bind_ok (M.modify_eq _ _), if_pos (by simp)]
    have hle := runLen_le isDigit (src.drop off)
    rw [List.length_drop] at hle
    refine ⟨(src.drop off).take (runLen isDigit (src.drop off)), ⟨?_, ?_⟩, adv_take hle⟩
    · intro b hb; exact isDigit_iff.mp (runLen_take _ _ b hb)
    · intro b hb
      rw [← List.drop_drop] at hb
      exact isDigit_false_iff.mp (runLen_drop _ _ b hb)
  | sign =>
    rw [if_neg (by decide), M.bind_ok (M.get_eq _)]
    have e : (InitialNumberState.sign == .digit) = false := by decide
    rw [e, intLoop_false]
    cases h : src.drop off with
    | nil =>
      simp only
      rw [M.bind_ok (M.modify_eq _ _)]
      exact ⟨by simp, by simpa using hl, by simpa using hl⟩
    | cons b t =>
      have hlt := lt_of_drop_cons h
      simp only
      split
      · rename_i hb
        subst hb
        rw [M.bind_ok (M.modify_eq _ _)]
        refine ⟨[0x30], ⟨⟨⟨by simp, ?_⟩, fun _ => rfl⟩, fun h => absurd rfl h⟩, Adv.cons h⟩
        intro x hx; simp at hx; subst hx; decide
      split
      · rename_i hb0 hb
        rw [M.bind_ok (M.modify_eq _ _), if_pos (by simp)]
        have hle := runLen_le isDigit t
        have hadv : Adv src off ([b] ++ t.take (runLen isDigit t)) (off + 1 + runLen isDigit t) := by
          apply (Adv.cons h).trans
          have h1 := drop_succ_of_cons h
          have := adv_take (src := src) (off := off + 1) (n := runLen isDigit t)
            (by rw [← h1, List.length_drop] at hle; rw [h1] at hle; exact hle)
          rwa [h1] at this
        have e2 : off + (runLen isDigit t + 1) = off + 1 + runLen isDigit t := by omega
        refine ⟨[b] ++ t.take (runLen isDigit t), ⟨⟨⟨by simp, ?_⟩, ?_⟩, ?_⟩, ?_⟩
        · intro x hx
          rcases List.mem_append.mp hx with hx | hx
          · simp at hx; subst hx; exact isDigit_iff.mp hb
          · exact isDigit_iff.mp (runLen_take _ _ x hx)
        · intro hx
          simp at hx
          exact absurd hx hb0
        · intro _ x hx
          rw [e2, ← List.drop_drop, drop_succ_of_cons h] at hx
          exact isDigit_false_iff.mp (runLen_drop _ _ x hx)
        · rw [e2]; exact hadv
      · rw [M.bind_ok (M.modify_eq _ _)]
        exact ⟨by simp, by simpa using hl, by simpa using hl⟩

/-! ## Fraction and exponent -/

/-- parts of `NumStop` -/
def FracStop (f : Option (List UInt8)) (r : List UInt8) : Prop := ∀ b, r.head? = some b →
  (f.isSome → ¬ IsDigit b) ∧ (f = none → b ≠ 0x2E)

/-- parts of `NumStop` -/
def ExpStop (x : Option (UInt8 × Option UInt8 × List UInt8)) (r : List UInt8) : Prop :=
  ∀ b, r.head? = some b → (x.isSome → ¬ IsDigit b) ∧ (x = none → b ≠ 0x65 ∧ b ≠ 0x45)

theorem readFrac_eq {off : Nat} {f : Option (List UInt8)} {r : List UInt8}
    (hf : ∀ ds, f = some ds → Digits ds) (h : src.drop off = fracBytes f ++ r) (hr : FracStop f r) :
    readFrac src off = .ok () (off + (fracBytes f).length) := by
  unfold readFrac
  rw [M.bind_ok (peekByte_eq _)]
  cases f with
  | none =>
    rw [if_neg]
    · rfl
    · intro hb
      rw [h] at hb
      exact (hr 0x2E hb).2 rfl rfl
  | some ds =>
    have h' : src.drop off = 0x2E :: (ds ++ r) := h
    rw [if_pos (by rw [h']; rfl), M.bind_ok (nextByte_cons h'),
      readDigits1_eq (hf ds rfl) (drop_succ_of_cons h') (fun b hb => (hr b hb).1 rfl)]
    simp [fracBytes]; omega

theorem wp_readFrac {off : Nat} (_hl : off ≤ src.length) :
    Wp src off (readFrac src off) fun _ off' =>
      ∃ f, (∀ ds, f = some ds → Digits ds) ∧ Adv src off (fracBytes f) off'
        ∧ FracStop f (src.drop off') := by
  unfold readFrac
  rw [M.bind_ok (peekByte_eq _)]
  split
  · rename_i hb
    obtain ⟨t, h⟩ : ∃ t, src.drop off = 0x2E :: t := by
      cases h : src.drop off with
      | nil => rw [h] at hb; simp at hb
      | cons b t => rw [h] at hb; simp at hb; exact ⟨t, by rw [hb]⟩
    have hlt := lt_of_drop_cons h
    rw [M.bind_ok (nextByte_cons h)]
    refine (wp_readDigits1 (off := off + 1) (by omega)).mono (by omega) ?_
    rintro _ off' ⟨ds, hd, ha, hs⟩
    refine ⟨some ds, by simpa using hd, (Adv.cons h).trans ha, ?_⟩
    intro b hb
    exact ⟨fun _ => hs b hb, by simp⟩
  · rename_i hb
    refine ⟨none, by simp, Adv.refl _, ?_⟩
    intro b hb'
    refine ⟨by simp, fun _ h => hb ?_⟩
    rw [← h, ← hb']

theorem readExp_eq {off : Nat} {x : Option (UInt8 × Option UInt8 × List UInt8)} {r : List UInt8}
    (hx : ∀ e s ds, x = some (e, s, ds) →
      (e = 0x65 ∨ e = 0x45) ∧ (∀ c, s = some c → c = 0x2B ∨ c = 0x2D) ∧ Digits ds)
    (h : src.drop off = expBytes x ++ r) (hr : ExpStop x r) :
    readExp src off = .ok () (off + (expBytes x).length) := by
  unfold readExp
  rw [M.bind_ok (peekByte_eq _)]
  cases x with
  | none =>
    have h' : src.drop off = r := h
    rw [if_neg]
    · rfl
    · intro hb
      rw [h'] at hb
      rcases hb with hb | hb
      · exact ((hr _ hb).2 rfl).1 rfl
      · exact ((hr _ hb).2 rfl).2 rfl
  | some y =>
    obtain ⟨e, s, ds⟩ := y
    obtain ⟨h1, h2, h3⟩ := hx e s ds rfl
    have h' : src.drop off = e :: (s.toList ++ ds ++ r) := h
    have hs : ∀ b, r.head? = some b → ¬ IsDigit b := fun b hb => (hr b hb).1 rfl
    rw [if_pos (by rw [h']; simpa using h1), M.bind_ok (nextByte_cons h'), M.bind_ok (peekByte_eq _)]
    have hd := drop_succ_of_cons h'
    cases s with
    | none =>
      have hd' : src.drop (off + 1) = ds ++ r := hd
      rw [if_neg]
      · refine (readDigits1_eq h3 hd' hs).trans ?_
        simp [expBytes]; omega
      · rw [hd']
        intro hc
        match ds, h3 with
        | [], h3 => exact h3.1 rfl
        | d :: ds, h3 =>
          have := h3.2 d (by simp)
          simp at hc
          rcases hc with rfl | rfl <;> revert this <;> decide
    | some c =>
      have hd' : src.drop (off + 1) = c :: (ds ++ r) := by rw [hd]; simp
      rw [if_pos (by rw [hd']; simpa [or_comm] using h2 c rfl), M.bind_ok (nextByte_cons hd')]
      refine (readDigits1_eq h3 (drop_succ_of_cons hd') hs).trans ?_
      simp [expBytes]; omega

theorem head_some {l : List UInt8} {b : UInt8} (h : l.head? = some b) : ∃ t, l = b :: t := by
  cases l with
  | nil => simp at h
  | cons a t => simp at h; exact ⟨t, by rw [h]⟩

theorem wp_readExp {off : Nat} (_hl : off ≤ src.length) :
    Wp src off (readExp src off) fun _ off' =>
      ∃ x : Option (UInt8 × Option UInt8 × List UInt8),
        (∀ e s ds, x = some (e, s, ds) →
          (e = 0x65 ∨ e = 0x45) ∧ (∀ c, s = some c → c = 0x2B ∨ c = 0x2D) ∧ Digits ds)
        ∧ Adv src off (expBytes x) off' ∧ ExpStop x (src.drop off') := by
  unfold readExp
  rw [M.bind_ok (peekByte_eq _)]
  split
  · rename_i hb
    obtain ⟨e, t, he, h⟩ : ∃ e t, (e = 0x65 ∨ e = 0x45) ∧ src.drop off = e :: t := by
      rcases hb with hb | hb
      · obtain ⟨t, ht⟩ := head_some hb; exact ⟨_, t, .inl rfl, ht⟩
      · obtain ⟨t, ht⟩ := head_some hb; exact ⟨_, t, .inr rfl, ht⟩
    have hlt := lt_of_drop_cons h
    rw [M.bind_ok (nextByte_cons h), M.bind_ok (peekByte_eq _)]
    split
    · rename_i hc
      obtain ⟨c, t2, hcc, h2⟩ : ∃ c t2, (c = 0x2B ∨ c = 0x2D) ∧ src.drop (off + 1) = c :: t2 := by
        rcases hc with hc | hc
        · obtain ⟨t, ht⟩ := head_some hc; exact ⟨_, t, .inr rfl, ht⟩
        · obtain ⟨t, ht⟩ := head_some hc; exact ⟨_, t, .inl rfl, ht⟩
      have hlt2 := lt_of_drop_cons h2
      rw [M.bind_ok (nextByte_cons h2)]
      refine (wp_readDigits1 (off := off + 1 + 1) (by omega)).mono (by omega) ?_
      rintro _ off' ⟨ds, hd, ha, hs⟩
      refine ⟨some (e, some c, ds), ?_, (Adv.cons h).trans ((Adv.cons h2).trans ha), ?_⟩
      · intro e' s' ds' heq
        simp only [Option.some.injEq, Prod.mk.injEq] at heq
        obtain ⟨rfl, rfl, rfl⟩ := heq
        exact ⟨he, by simpa using hcc, hd⟩
      · intro b hb; exact ⟨fun _ => hs b hb, by simp⟩
    · refine (wp_readDigits1 (off := off + 1) (by omega)).mono (by omega) ?_
      rintro _ off' ⟨ds, hd, ha, hs⟩
      refine ⟨some (e, none, ds), ?_, (Adv.cons h).trans ha, ?_⟩
      · intro e' s' ds' heq
        simp only [Option.some.injEq, Prod.mk.injEq] at heq
        obtain ⟨rfl, rfl, rfl⟩ := heq
        exact ⟨he, by simp, hd⟩
      · intro b hb; exact ⟨fun _ => hs b hb, by simp⟩
  · rename_i hb
    refine ⟨none, by simp, Adv.refl _, ?_⟩
    intro b hb'
    refine ⟨by simp, fun _ => ⟨?_, ?_⟩⟩
    · rintro rfl; exact hb (.inl hb')
    · rintro rfl; exact hb (.inr hb')

/-! ## Whole literals -/

/-- the state the tokenizer starts a number in -/
def numStart (b : UInt8) : InitialNumberState :=
  if b = 0x2D then .sign else if b = 0x30 then .zero else .digit

theorem IntPart.cons_digit {b : UInt8} {ds : List UInt8} (hb : IsDigit b) (h0 : b ≠ 0x30)
    (hd : ∀ x ∈ ds, IsDigit x) : IntPart (b :: ds) := by
  refine ⟨⟨by simp, ?_⟩, ?_⟩
  · intro x hx
    rcases List.mem_cons.mp hx with rfl | hx
    · exact hb
    · exact hd x hx
  · intro h; simp at h; exact absurd h h0

theorem wp_readNumber {start : Nat} {b : UInt8} {t : List UInt8} (hb : b = 0x2D ∨ IsDigit b)
    (h : src.drop start = b :: t) :
    Wp src (start + 1) (readNumber src (numStart b) start (start + 1)) fun r off' =>
      ∃ n : NumLit, n.Valid ∧ Adv src start n.bytes off' ∧ NumStop n (src.drop off') ∧ r = canonNum n := by
  have hlt := lt_of_drop_cons h
  unfold readNumber
  refine Wp.bind (wp_readInt (by omega)) ?_
  rintro _ s1 ⟨ds, hi, ha1⟩
  have hl1 := ha1.le (by omega)
  have hm1 := ha1.mono
  refine Wp.bind ((wp_readFrac hl1).mono (by omega) fun _ _ h => h) ?_
  rintro _ s2 ⟨f, hf, ha2, hfs⟩
  have hl2 := ha2.le hl1
  have hm2 := ha2.mono
  refine Wp.bind ((wp_readExp hl2).mono (by omega) fun _ _ h => h) ?_
  rintro _ s3 ⟨x, hx, ha3, hxs⟩
  have hl3 := ha3.le hl2
  have hm3 := ha3.mono
  -- the literal
  obtain ⟨n, hn1, hn2, hn3, hn4, hn5⟩ : ∃ n : NumLit, IntPart n.int ∧ n.frac = f ∧ n.exp = x
      ∧ (if n.minus then [0x2D] else []) ++ n.int = b :: ds
      ∧ (n.int ≠ [0x30] → ∀ b, (src.drop s1).head? = some b → ¬ IsDigit b) := by
    unfold numStart at hi
    split at hi
    · rename_i h1
      exact ⟨⟨true, ds, f, x⟩, hi.1, rfl, rfl, by simp [h1], hi.2⟩
    split at hi
    · rename_i h1 h2
      simp only [IntRest] at hi
      subst hi
      refine ⟨⟨false, [0x30], f, x⟩, ⟨⟨by simp, ?_⟩, fun _ => rfl⟩, rfl, rfl, by simp [h2], by simp⟩
      intro y hy; simp at hy; subst hy; decide
    · rename_i h1 h2
      have hbd : IsDigit b := by rcases hb with hb | hb; exact absurd hb h1; exact hb
      exact ⟨⟨false, b :: ds, f, x⟩, IntPart.cons_digit hbd h2 hi.1, rfl, rfl, by simp, fun _ => hi.2⟩
  have hv : n.Valid := ⟨hn1, by rw [hn2]; exact hf, by rw [hn3]; exact hx⟩
  have hbytes : n.bytes = b :: ds ++ fracBytes f ++ expBytes x := by
    unfold NumLit.bytes; rw [hn4, hn2, hn3]
  have hadv : Adv src start n.bytes s3 := by
    rw [hbytes]
    exact (((Adv.cons h).trans ha1).trans ha2).trans ha3
  rw [M.bind_ok (M.get_eq _), hadv.slice (by omega), M.orPanic_some, M.bind_ok (M.pure_eq' _ _),
    utf8Decode_num hv]
  refine ⟨n, hv, hadv, ?_, rfl⟩
  intro y hy
  refine ⟨?_, ?_⟩
  · rw [hn3]; exact (hxs y hy).1
  · intro hnx
    rw [hn3] at hnx
    have hs23 : src.drop s2 = src.drop s3 := by
      have := ha3.2; rw [hnx] at this; simpa [expBytes] using this
    obtain ⟨h1, h2⟩ := (hxs y hy).2 hnx
    refine ⟨h1, h2, ?_, ?_⟩
    · rw [hn2]; intro hfsome
      exact (hfs y (by rw [hs23]; exact hy)).1 hfsome
    · rw [hn2]; intro hfn
      have hs12 : src.drop s1 = src.drop s2 := by
        have := ha2.2; rw [hfn] at this; simpa [fracBytes] using this
      exact ⟨(hfs y (by rw [hs23]; exact hy)).2 hfn,
        fun hne => hn5 hne y (by rw [hs12, hs23]; exact hy)⟩

theorem head_append {a b : List UInt8} : (a ++ b).head? = if a = [] then b.head? else a.head? := by
  cases a <;> simp

theorem readNumber_eq {start : Nat} {n : NumLit} {r : List UInt8} (hv : n.Valid)
    (h : src.drop start = n.bytes ++ r) (hstop : NumStop n r) :
    ∃ b t, src.drop start = b :: t ∧ (b = 0x2D ∨ IsDigit b) ∧
      readNumber src (numStart b) start (start + 1) = .ok (canonNum n) (start + n.bytes.length) := by
  obtain ⟨hv1, hv2, hv3⟩ := hv
  -- first byte
  obtain ⟨b, ds, hbd, hb, hst⟩ : ∃ b ds, (if n.minus then [0x2D] else []) ++ n.int = b :: ds
      ∧ (b = 0x2D ∨ IsDigit b)
      ∧ IntRest (numStart b) ds (fracBytes n.frac ++ expBytes n.exp ++ r) := by
    have hnext : n.int ≠ [0x30] →
        ∀ x, (fracBytes n.frac ++ expBytes n.exp ++ r).head? = some x → ¬ IsDigit x := by
      intro hne x hx
      cases hf : n.frac with
      | some fs => rw [hf] at hx; simp [fracBytes] at hx; subst hx; decide
      | none =>
        rw [hf] at hx
        cases he : n.exp with
        | some y =>
          obtain ⟨e, s, es⟩ := y
          rw [he] at hx
          simp [fracBytes, expBytes] at hx
          subst hx
          rcases (hv3 e s es he).1 with rfl | rfl <;> decide
        | none =>
          rw [he] at hx
          simp [fracBytes, expBytes] at hx
          exact (((hstop x hx).2 he).2.2.2 hf).2 hne
    cases hm : n.minus with
    | true =>
      refine ⟨0x2D, n.int, by simp, .inl rfl, ?_⟩
      have : numStart 0x2D = .sign := rfl
      rw [this]
      exact ⟨hv1, hnext⟩
    | false =>
      match hi : n.int, hv1 with
      | [], hv1 => exact absurd rfl hv1.1.1
      | d :: ds, hv1 =>
        refine ⟨d, ds, by simp, .inr (hv1.1.2 d (by simp)), ?_⟩
        have hd := hv1.1.2 d (by simp)
        unfold numStart
        rw [if_neg (by rintro rfl; revert hd; decide)]
        split
        · rename_i h0
          exact IntPart.ne_zero hv1 h0
        · rename_i h0
          exact ⟨fun x hx => hv1.1.2 x (by simp [hx]), hnext (by rw [hi]; simp [h0])⟩
  have hbytes : n.bytes = b :: ds ++ fracBytes n.frac ++ expBytes n.exp := by
    unfold NumLit.bytes; rw [hbd]
  have h0 : src.drop start = b :: (ds ++ (fracBytes n.frac ++ expBytes n.exp ++ r)) := by
    rw [h, hbytes]; simp
  refine ⟨b, _, h0, hb, ?_⟩
  have h1 := drop_succ_of_cons h0
  have h2 : src.drop (start + 1 + ds.length) = fracBytes n.frac ++ (expBytes n.exp ++ r) := by
    rw [← List.drop_drop, h1]; simp
  have h3 : src.drop (start + 1 + ds.length + (fracBytes n.frac).length) = expBytes n.exp ++ r := by
    rw [← List.drop_drop, h2]; simp
  have hfs : FracStop n.frac (expBytes n.exp ++ r) := by
    intro x hx
    cases he : n.exp with
    | some y =>
      obtain ⟨e, s, es⟩ := y
      rw [he] at hx
      simp [expBytes] at hx
      subst hx
      rcases (hv3 e s es he).1 with rfl | rfl <;> exact ⟨fun _ => by decide, fun _ => by decide⟩
    | none =>
      rw [he] at hx
      simp [expBytes] at hx
      have := (hstop x hx).2 he
      exact ⟨this.2.2.1, fun hf => (this.2.2.2 hf).1⟩
  have hxs : ExpStop n.exp r := by
    intro x hx
    exact ⟨(hstop x hx).1, fun he => ⟨((hstop x hx).2 he).1, ((hstop x hx).2 he).2.1⟩⟩
  have hadv : Adv src start n.bytes (start + n.bytes.length) := Adv.of_drop h
  have hlen : start + 1 + ds.length + (fracBytes n.frac).length + (expBytes n.exp).length
      = start + n.bytes.length := by rw [hbytes]; simp; omega
  have hlt := lt_of_drop_cons h0
  unfold readNumber
  rw [M.bind_ok (readInt_eq h1 hst), M.bind_ok (readFrac_eq hv2 h2 hfs), M.bind_ok (readExp_eq hv3 h3 hxs),
    hlen, M.bind_ok (M.get_eq _), hadv.slice (by omega), M.orPanic_some, M.bind_ok (M.pure_eq' _ _),
    utf8Decode_num ⟨hv1, hv2, hv3⟩]
  rfl

end
end JustJson
