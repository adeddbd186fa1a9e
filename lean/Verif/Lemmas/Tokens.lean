import Verif.Lemmas.Outcome
import Verif.Spec.Tok
/-! # Tokenizers in any state -/

namespace JustJson
open Spec

set_option linter.unusedSectionVars false

section
variable {src : List UInt8} [Arch]

/-- In UTF-8 text a quote is followed by a character boundary, wherever the reader stands. -/
theorem boundary_after_quote (s : Str) : ∀ {o : Nat} {t : List UInt8}, (utf8 s).drop o = 0x22 :: t →
    ∃ s', t = utf8 s' := by
  induction s with
  | nil => intro o t h; simp [utf8] at h
  | cons c cs ih =>
    intro o t h
    rw [utf8_cons] at h
    by_cases ho : (encodeChar c).length ≤ o
    · rw [List.drop_append, List.drop_eq_nil_of_le ho, List.nil_append] at h
      exact ih h
    · obtain ⟨b0, u, e, h0, h1⟩ := encodeChar_tail_cont c
      rw [e] at h ho
      cases o with
      | zero =>
        simp at h
        obtain ⟨rfl, h⟩ := h
        have hc : c.toNat < 0x80 := by
          rcases Nat.lt_or_ge c.toNat 0x80 with h | h
          · exact h
          · have := encodeChar_high h 0x22 (by rw [e]; simp)
            simp at this
        have := encodeChar_ascii hc
        rw [e] at this
        simp at this
        rw [this.2] at h
        exact ⟨cs, by simpa using h.symm⟩
      | succ o =>
        exfalso
        simp at ho
        simp only [List.cons_append, List.drop_succ_cons] at h
        rw [List.drop_append_of_le_length (by omega)] at h
        cases hd : u.drop o with
        | nil => have := congrArg List.length hd; simp at this; omega
        | cons x y =>
          rw [hd] at h
          simp at h
          have hx : x ∈ u := List.mem_of_mem_drop (by rw [hd]; simp : x ∈ u.drop o)
          have := h1 x hx
          rw [h.1] at this
          exact absurd this (by decide)

theorem readPeek_agree_any {s : Str} (hs : src = utf8 s) (hlim : src.length < LIM) {o : Nat} {b : UInt8}
    {t : List UInt8} (h : src.drop o = b :: t) :
    readPeek src true o b (o + 1) = readPeek src false o b (o + 1) := by
  have hlt := lt_of_drop_cons h
  by_cases hq : b = 0x22
  · subst hq
    rw [readPeek_quote, readPeek_quote, M.bind_eq, M.bind_eq, readString_agree (by omega) hlim]
    rw [hs] at h
    obtain ⟨s', rfl⟩ := boundary_after_quote s h
    apply Boundary.of_utf8 (s := s')
    rw [← List.drop_drop, hs, h]
    rfl
  · unfold readPeek
    simp only [if_neg hq]

/-- Outcomes of reading a token whose first byte is at `o`. -/
theorem readPeek_any {g : Bool} (hi : Input g src) {o : Nat} {b : UInt8} {t : List UInt8} (h : src.drop o = b :: t) :
    Wp src (o + 1) (readPeek src g o b (o + 1)) fun tok off' =>
      ∃ l : Lex, l.Valid ∧ Adv src o l.bytes off' ∧ tok = l.token ∧ l.Stop (src.drop off') := by
  have hg : readPeek src g o b (o + 1) = readPeek src false o b (o + 1) := by
    cases g with
    | false => rfl
    | true =>
      obtain ⟨s, hs⟩ := hi.2 rfl
      exact readPeek_agree_any hs hi.lim h
  rw [hg]
  exact wp_readPeek h hi.lim

/-- The state a tokenizer can be in. -/
inductive TokCase (src : List UInt8) (g : Bool) (off : Nat) : Prop where
  | eof (hw : Ws (src.drop off)) (hn : tokNext src g off = .ok none src.length)
      (he : nextOrEof src g off = .err ⟨src.length, .unexpectedEof⟩ src.length)
      (hp : tokPeek src off = .ok none src.length)
  | tok (w : List UInt8) (b : UInt8) (t : List UInt8) (l : Lex) (off' : Nat) (hw : Ws w)
      (hd : src.drop off = w ++ b :: t) (hb : isWs b = false) (hv : l.Valid)
      (ha : Adv src (off + w.length) l.bytes off') (hs : l.Stop (src.drop off'))
      (hlt : off + w.length + 1 ≤ off') (hle : off' ≤ src.length)
      (hn : tokNext src g off = .ok (some l.token) off') (he : nextOrEof src g off = .ok l.token off')
      (hp : tokPeek src off = .ok (some (peekKind b)) (off + w.length))
  | err (w : List UInt8) (b : UInt8) (t : List UInt8) (e : Error Empty) (off' : Nat) (hw : Ws w)
      (hd : src.drop off = w ++ b :: t) (hb : isWs b = false)
      (hlt : off + w.length + 1 ≤ off') (hle : off' ≤ src.length) (heo : e.offset ≤ src.length)
      (hrp : readPeek src g (off + w.length) b (off + w.length + 1) = .err e off')
      (hn : tokNext src g off = .err e off') (he : nextOrEof src g off = .err e off')
      (hp : tokPeek src off = .ok (some (peekKind b)) (off + w.length))

theorem tok_cases {g : Bool} (hi : Input g src) {off : Nat} (hl : off ≤ src.length) : TokCase src g off := by
  obtain ⟨w, hw, h | ⟨b, t, h, hb, ha, hd⟩⟩ := ws_cases hl
  · refine .eof (by rw [h.1]; exact hw) ?_ (nextOrEof_eof hw h.1 hl) ?_
    · unfold tokNext
      rw [M.bind_ok (nextNonWs_nil hw h.1 hl)]
      rfl
    · rw [tokPeek_eq, skipWs_of (r := []) hw (by simpa using h.1) (by simp), h.2]
      simp
  · have hp : tokPeek src off = .ok (some (peekKind b)) (off + w.length) := by
      rw [tokPeek_eq, skipWs_of hw h (by simpa using hb), hd]
      rfl
    have hr := readPeek_any hi hd
    have hn : tokNext src g off = (readPeek src g (off + w.length) b >>= fun t => (pure (some t) : TokM (Option Token)))
        (off + w.length + 1) := by
      unfold tokNext
      rw [M.bind_ok (nextNonWs_cons hw h hb)]
    have he : nextOrEof src g off = readPeek src g (off + w.length) b (off + w.length + 1) := by
      unfold nextOrEof
      rw [M.bind_ok (readNonWs_cons hw h hb)]
    rw [M.bind_eq] at hn
    have hlt := lt_of_drop_cons hd
    cases ho : readPeek src g (off + w.length) b (off + w.length + 1) with
    | ok tok off' =>
      rw [ho] at hn he hr
      obtain ⟨l, hv, ha', rfl, hs⟩ := hr
      have := Lex.bytes_pos hv
      have h1 := ha'.1
      exact .tok w b t l off' hw h hb hv ha' hs (by omega) (ha'.le (by omega)) hn he hp
    | err e off' =>
      rw [ho] at hn he hr
      exact .err w b t e off' hw h hb hr.1 hr.2.1 hr.2.2 ho hn he hp
    | panic p => rw [ho] at hr; exact hr.elim

theorem peekKind_token {src : List UInt8} {o off' : Nat} {b : UInt8} {t : List UInt8} {l : Lex} (hv : l.Valid)
    (hd : src.drop o = b :: t) (ha : Adv src o l.bytes off') : peekKind b = l.token.kind := by
  have h2 := ha.2
  rw [hd] at h2
  have dig : ∀ b : UInt8, b = 0x2D ∨ IsDigit b → peekKind b = .number := by
    apply forall_u8
    decide +kernel
  cases l with
  | num n =>
    obtain ⟨hi, -, -⟩ := hv
    apply dig
    simp only [Lex.bytes, NumLit.bytes] at h2
    cases hm : n.minus
    · cases hint : n.int with
      | nil => exact absurd hint hi.1.1
      | cons d ds =>
        rw [hint, hm] at h2
        simp at h2
        right
        rw [h2.1]
        exact hi.1.2 d (by rw [hint]; simp)
    · rw [hm] at h2
      simp at h2
      exact .inl h2.1
  | bool x => cases x <;> (simp [Lex.bytes] at h2; rw [h2.1]; rfl)
  | str is => simp [Lex.bytes, strBytes] at h2; rw [h2.1]; rfl
  | _ => (simp [Lex.bytes] at h2; rw [h2.1]; rfl)

theorem unrecognized_err {g : Bool} {o : Nat} {b : UInt8} (h : peekKind b = .unrecognized) :
    readPeek src g o b (o + 1) = .err ⟨o, .unexpected b⟩ (o + 1) := by
  have key : ∀ b : UInt8, peekKind b = .unrecognized → b ≠ 0x7B ∧ b ≠ 0x7D ∧ b ≠ 0x5B ∧ b ≠ 0x5D ∧ b ≠ 0x2C ∧ b ≠ 0x3A
      ∧ b ≠ 0x22 ∧ b ≠ 0x2D ∧ b ≠ 0x30 ∧ ¬ (0x31 ≤ b ∧ b ≤ 0x39) ∧ b ≠ 0x74 ∧ b ≠ 0x66 ∧ b ≠ 0x6E := by
    apply forall_u8
    decide +kernel
  obtain ⟨h1, h2, h3, h4, h5, h6, h7, h8, h9, h10, h11, h12, h13⟩ := key b h
  unfold readPeek
  rw [if_neg h1, if_neg h2, if_neg h3, if_neg h4, if_neg h5, if_neg h6, if_neg h7, if_neg h8, if_neg h9, if_neg h10,
    if_neg h11, if_neg h12, if_neg h13]
  rfl

end

/-! ## Longest match -/

theorem digits_le {a a' r r' : List UInt8} (ha : ∀ b ∈ a, IsDigit b) (ha' : ∀ b ∈ a', IsDigit b)
    (hr : ∀ b, r.head? = some b → ¬ IsDigit b) (h : a ++ r = a' ++ r') :
    ∃ d, a = a' ++ d ∧ r' = d ++ r := by
  induction a generalizing a' with
  | nil =>
    cases a' with
    | nil => exact ⟨[], rfl, by simpa using h.symm⟩
    | cons b t =>
      simp at h
      exact absurd (ha' b (by simp)) (hr b (by rw [h]; rfl))
  | cons b t ih =>
    cases a' with
    | nil => exact ⟨b :: t, rfl, by simpa using h.symm⟩
    | cons b' t' =>
      simp at h
      obtain ⟨rfl, h⟩ := h
      obtain ⟨d, h1, h2⟩ := ih (fun x hx => ha x (by simp [hx])) (fun x hx => ha' x (by simp [hx])) h
      exact ⟨d, by rw [h1]; rfl, h2⟩

theorem exp_longest {e e' : Option (UInt8 × Option UInt8 × List UInt8)} {r r' : List UInt8}
    (h3 : ∀ x s ds, e = some (x, s, ds) → (x = 0x65 ∨ x = 0x45) ∧ (∀ c, s = some c → c = 0x2B ∨ c = 0x2D) ∧ Digits ds)
    (h3' : ∀ x s ds, e' = some (x, s, ds) → (x = 0x65 ∨ x = 0x45) ∧ (∀ c, s = some c → c = 0x2B ∨ c = 0x2D) ∧ Digits ds)
    (hs : ∀ b, r.head? = some b → (e.isSome → ¬ IsDigit b) ∧ (e = none → b ≠ 0x65 ∧ b ≠ 0x45))
    (h : expBytes e ++ r = expBytes e' ++ r') : (expBytes e').length ≤ (expBytes e).length := by
  cases e' with
  | none => simp [expBytes]
  | some x' =>
    obtain ⟨x', s', ds'⟩ := x'
    obtain ⟨hx', hs', hd'⟩ := h3' x' s' ds' rfl
    cases e with
    | none =>
      simp [expBytes] at h
      have := (hs x' (by rw [h]; rfl)).2 rfl
      rcases hx' with h | h
      · exact absurd h this.1
      · exact absurd h this.2
    | some x =>
      obtain ⟨x, s, ds⟩ := x
      obtain ⟨hx, hsg, hd⟩ := h3 x s ds rfl
      have hr : ∀ b, r.head? = some b → ¬ IsDigit b := fun b hb => (hs b hb).1 rfl
      have key : ∀ {c : UInt8} {ds : List UInt8}, Digits ds → ds.head? = some c → (c = 0x2B ∨ c = 0x2D) → False := by
        intro c ds hd hm hc
        have := hd.2 c (List.mem_of_mem_head? hm)
        rcases hc with rfl | rfl <;> exact absurd this (by decide)
      simp only [expBytes, List.cons_append, List.cons.injEq, List.append_assoc] at h
      obtain ⟨-, h⟩ := h
      cases s with
      | none =>
        cases s' with
        | none =>
          simp at h
          obtain ⟨d, h1, _⟩ := digits_le hd.2 hd'.2 hr h
          simp [expBytes, h1]
        | some c =>
          exfalso
          simp at h
          cases ds with
          | nil => exact hd.1 rfl
          | cons y ys =>
            simp at h
            exact key hd rfl (by rw [h.1]; exact hs' c rfl)
      | some c =>
        cases s' with
        | none =>
          exfalso
          simp at h
          cases ds' with
          | nil => exact hd'.1 rfl
          | cons y ys =>
            simp at h
            exact key hd' rfl (by rw [← h.1]; exact hsg c rfl)
        | some c' =>
          simp at h
          obtain ⟨d, h1, _⟩ := digits_le hd.2 hd'.2 hr h.2
          simp [expBytes, h1]

theorem num_longest {n n' : NumLit} (hv : n.Valid) (hv' : n'.Valid) {r r' : List UInt8} (hs : NumStop n r)
    (h : n.bytes ++ r = n'.bytes ++ r') : n'.bytes.length ≤ n.bytes.length := by
  obtain ⟨m, i, f, e⟩ := n
  obtain ⟨m', i', f', e'⟩ := n'
  obtain ⟨⟨⟨h1, h1d⟩, hz⟩, h2, h3⟩ := hv
  obtain ⟨⟨⟨h1', h1d'⟩, hz'⟩, h2', h3'⟩ := hv'
  simp only at *
  unfold NumStop at hs
  simp only at hs
  simp only [NumLit.bytes] at h ⊢
  have hm : m = m' := by
    cases m <;> cases m'
    · rfl
    · cases i with
      | nil => exact absurd rfl h1
      | cons d t =>
        simp at h
        have := h1d d (by simp)
        rw [h.1] at this
        exact absurd this (by decide)
    · cases i' with
      | nil => exact absurd rfl h1'
      | cons d t =>
        simp at h
        have := h1d' d (by simp)
        rw [← h.1] at this
        exact absurd this (by decide)
    · rfl
  subst hm
  have h : i ++ (fracBytes f ++ (expBytes e ++ r)) = i' ++ (fracBytes f' ++ (expBytes e' ++ r')) := by
    simp only [List.append_assoc] at h
    exact List.append_cancel_left h
  have hexp : ∀ {e : Option (UInt8 × Option UInt8 × List UInt8)}, 
      (∀ x s ds, e = some (x, s, ds) → (x = 0x65 ∨ x = 0x45) ∧ (∀ c, s = some c → c = 0x2B ∨ c = 0x2D) ∧ Digits ds) →
      ∀ {b}, (expBytes e).head? = some b → ¬ IsDigit b ∧ b ≠ 0x2E := by
    intro e h3 b hb
    rcases exp_head h3 b hb with rfl | rfl <;> decide
  -- what follows the integer part of `n` is not a digit, unless the part is `0`
  have hrest : i ≠ [0x30] → ∀ b, (fracBytes f ++ (expBytes e ++ r)).head? = some b → ¬ IsDigit b := by
    intro hi b hb
    cases f with
    | some ds => simp [fracBytes] at hb; rw [← hb]; decide
    | none =>
      cases e with
      | none =>
        simp [fracBytes, expBytes] at hb
        exact (((hs b hb).2 rfl).2.2.2 rfl).2 hi
      | some x =>
        refine (hexp h3 (b := b) ?_).1
        simpa [fracBytes, expBytes] using hb
  -- compare the integer parts
  have hint : ∃ d, i = i' ++ d ∧ fracBytes f' ++ (expBytes e' ++ r') = d ++ (fracBytes f ++ (expBytes e ++ r)) := by
    by_cases hi : i = [0x30]
    · subst hi
      cases i' with
      | nil => exact absurd rfl h1'
      | cons d t =>
        simp at h
        obtain ⟨rfl, h⟩ := h
        have := hz' rfl
        simp at this
        subst this
        exact ⟨[], rfl, by simpa using h.symm⟩
    · exact digits_le h1d h1d' (hrest hi) h
  obtain ⟨d, hd1, hd2⟩ := hint
  have hdig : ∀ b ∈ d, IsDigit b := fun b hb => h1d b (by rw [hd1]; simp [hb])
  cases d with
  | cons x d =>
    -- `n'` ends inside the integer part of `n`
    have hx := hdig x (by simp)
    have hf' : f' = none := by
      cases f' with
      | none => rfl
      | some ds =>
        simp [fracBytes] at hd2
        rw [← hd2.1] at hx
        exact absurd hx (by decide)
    subst hf'
    have he' : e' = none := by
      cases e' with
      | none => rfl
      | some y =>
        simp only [fracBytes, List.nil_append] at hd2
        have := (hexp h3' (b := x) (by
          cases hy : expBytes (some y) with
          | nil => simp [expBytes] at hy
          | cons a b => rw [hy] at hd2; simp at hd2; simp [hd2.1])).1
        exact absurd hx this
    subst he'
    simp [fracBytes, expBytes, hd1]
  | nil =>
    simp at hd1 hd2
    subst hd1
    cases f' with
    | none =>
      cases f with
      | none =>
        simp [fracBytes] at hd2
        have := exp_longest h3 h3' (r := r) (r' := r') (fun b hb => ⟨(hs b hb).1, fun h => ⟨((hs b hb).2 h).1, ((hs b hb).2 h).2.1⟩⟩) hd2.symm
        simp [fracBytes]; omega
      | some ds =>
        have he' : e' = none := by
          cases e' with
          | none => rfl
          | some y =>
            have := (hexp h3' (b := 0x2E) (by
              simp [fracBytes, expBytes] at hd2
              simp [expBytes, hd2.1])).2
            exact absurd rfl this
        subst he'
        simp [fracBytes, expBytes]
    | some ds' =>
      cases f with
      | none =>
        exfalso
        cases e with
        | none =>
          simp [fracBytes, expBytes] at hd2
          have := (((hs 0x2E (by rw [← hd2]; rfl)).2 rfl).2.2.2 rfl).1
          exact this rfl
        | some y =>
          have := (hexp h3 (b := 0x2E) (by
              simp [fracBytes, expBytes] at hd2
              simp [expBytes, ← hd2.1])).2
          exact absurd rfl this
      | some ds =>
        simp [fracBytes] at hd2
        have hr : ∀ b, (expBytes e ++ r).head? = some b → ¬ IsDigit b := by
          intro b hb
          cases e with
          | none =>
            simp [expBytes] at hb
            exact ((hs b hb).2 rfl).2.2.1 rfl
          | some y =>
            refine (hexp h3 (b := b) ?_).1
            simpa [expBytes] using hb
        obtain ⟨d, hd3, hd4⟩ := digits_le (h2 ds rfl).2 (h2' ds' rfl).2 hr hd2.symm
        cases d with
        | cons x d =>
          have hx : IsDigit x := (h2 ds rfl).2 x (by rw [hd3]; simp)
          have he' : e' = none := by
            cases e' with
            | none => rfl
            | some y =>
              have := (hexp h3' (b := x) (by
                cases hy : expBytes (some y) with
                | nil => simp [expBytes] at hy
                | cons a b => rw [hy] at hd4; simp at hd4; simp [hd4.1])).1
              exact absurd hx this
          subst he'
          simp [fracBytes, expBytes, hd3]
        | nil =>
          simp at hd3 hd4
          subst hd3
          have := exp_longest h3 h3' (r := r) (r' := r') (fun b hb => ⟨(hs b hb).1, fun h => ⟨((hs b hb).2 h).1, ((hs b hb).2 h).2.1⟩⟩) hd4.symm
          simp [fracBytes]; omega

end JustJson
