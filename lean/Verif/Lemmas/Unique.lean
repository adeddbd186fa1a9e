import Verif.Lemmas.Valid
/-! # A text denotes one tree only -/

namespace JustJson
open Spec

set_option linter.unusedSectionVars false

theorem encodeChar_prefix {c c' : Char} {r r' : List UInt8} (h : encodeChar c ++ r = encodeChar c' ++ r') :
    c = c' ∧ r = r' := by
  have hc : c = c' := by
    rcases encodeChar_cases c with ⟨_, x, e, hx⟩ | ⟨_, _, x, y, e, hx, hy⟩ |
      ⟨_, _, x, y, z, e, hx, hy, hz⟩ | ⟨_, _, x, y, z, w, e, hx, hy, hz, hw⟩ <;>
    rcases encodeChar_cases c' with ⟨_, x', e', hx'⟩ | ⟨_, _, x', y', e', hx', hy'⟩ |
      ⟨_, _, x', y', z', e', hx', hy', hz'⟩ | ⟨_, _, x', y', z', w', e', hx', hy', hz', hw'⟩ <;>
    rw [e, e'] at h <;> simp only [List.cons_append, List.nil_append, List.cons.injEq] at h <;>
    apply char_ext
    all_goals
      first
      | (have h1 := congrArg UInt8.toNat h.1; omega)
      | (have h1 := congrArg UInt8.toNat h.1; have h2 := congrArg UInt8.toNat h.2.1; omega)
      | (have h1 := congrArg UInt8.toNat h.1; have h2 := congrArg UInt8.toNat h.2.1
         have h3 := congrArg UInt8.toNat h.2.2.1; omega)
      | (have h1 := congrArg UInt8.toNat h.1; have h2 := congrArg UInt8.toNat h.2.1
         have h3 := congrArg UInt8.toNat h.2.2.1; have h4 := congrArg UInt8.toNat h.2.2.2.1; omega)
  subst hc
  exact ⟨rfl, List.append_cancel_left h⟩

/-- The first byte of an unescaped item. -/
theorem plain_head {c : Char} (hv : (Item.plain c).Valid) : ∃ b t, encodeChar c = b :: t ∧ b ≠ 0x5C ∧ b ≠ 0x22
    ∧ 0x20 ≤ b.toNat := by
  obtain ⟨h0, h1, h2⟩ := hv
  by_cases ha : c.toNat < 0x80
  · refine ⟨_, [], encodeChar_ascii ha, ?_, ?_, ?_⟩
    · intro h
      apply h2
      apply char_ext
      have := congrArg UInt8.toNat h
      rw [toNat_ofNat_u8 (by omega)] at this
      exact this
    · intro h
      apply h1
      apply char_ext
      have := congrArg UInt8.toNat h
      rw [toNat_ofNat_u8 (by omega)] at this
      exact this
    · rw [toNat_ofNat_u8 (by omega)]; exact h0
  · obtain ⟨b, t, e, _, _⟩ := encodeChar_tail_cont c
    have := encodeChar_high (by omega : 0x80 ≤ c.toNat) b (by rw [e]; simp)
    refine ⟨b, t, e, ?_, ?_, by omega⟩
    · intro h; subst h; simp at this
    · intro h; subst h; simp at this

theorem esc_ne_u {e : UInt8} (h : (Item.esc e).Valid) : e ≠ 0x75 := by
  rintro rfl
  simp [Item.Valid] at h

theorem item_prefix {i i' : Item} (hv : i.Valid) (hv' : i'.Valid) {r r' : List UInt8}
    (h : i.bytes ++ r = i'.bytes ++ r') : i = i' ∧ r = r' := by
  cases i with
  | plain c =>
    obtain ⟨b, t, e, h1, h2, _⟩ := plain_head hv
    cases i' with
    | plain c' =>
      obtain ⟨rfl, hr⟩ := encodeChar_prefix h
      exact ⟨rfl, hr⟩
    | _ => rw [Item.bytes, e] at h; simp [Item.bytes] at h; exact absurd h.1 h1
  | esc e =>
    cases i' with
    | plain c =>
      obtain ⟨b, t, e, h1, h2, _⟩ := plain_head hv'
      simp only [Item.bytes] at h
      rw [e] at h; simp at h; exact absurd h.1.symm h1
    | esc e' => simp [Item.bytes] at h; simp [h]
    | uni h4 => simp [Item.bytes] at h; exact absurd h.1 (esc_ne_u hv)
    | pair hi lo => simp [Item.bytes] at h; exact absurd h.1 (esc_ne_u hv)
  | uni a =>
    cases i' with
    | plain c =>
      obtain ⟨b, t, e, h1, h2, _⟩ := plain_head hv'
      simp only [Item.bytes] at h
      rw [e] at h; simp at h; exact absurd h.1.symm h1
    | esc e' => simp [Item.bytes] at h; exact absurd h.1.symm (esc_ne_u hv')
    | uni h4 =>
      obtain ⟨x, y, z, w⟩ := a
      obtain ⟨x', y', z', w'⟩ := h4
      simp [Item.bytes, Hex4.bytes] at h
      simp [h]
    | pair hi lo =>
      obtain ⟨x, y, z, w⟩ := a
      obtain ⟨x', y', z', w'⟩ := hi
      simp [Item.bytes, Hex4.bytes] at h
      obtain ⟨rfl, rfl, rfl, rfl, _⟩ := h
      obtain ⟨_, h1⟩ := hv
      obtain ⟨_, _, h2, h3, _⟩ := hv'
      omega
  | pair hi lo =>
    cases i' with
    | plain c =>
      obtain ⟨b, t, e, h1, h2, _⟩ := plain_head hv'
      simp only [Item.bytes] at h
      rw [e] at h; simp at h; exact absurd h.1.symm h1
    | esc e' => simp [Item.bytes] at h; exact absurd h.1.symm (esc_ne_u hv')
    | uni a =>
      obtain ⟨x, y, z, w⟩ := a
      obtain ⟨x', y', z', w'⟩ := hi
      simp [Item.bytes, Hex4.bytes] at h
      obtain ⟨rfl, rfl, rfl, rfl, _⟩ := h
      obtain ⟨_, h1⟩ := hv'
      obtain ⟨_, _, h2, h3, _⟩ := hv
      omega
    | pair hi' lo' =>
      obtain ⟨x, y, z, w⟩ := lo
      obtain ⟨x', y', z', w'⟩ := hi
      obtain ⟨a, b, c, d⟩ := lo'
      obtain ⟨a', b', c', d'⟩ := hi'
      simp [Item.bytes, Hex4.bytes] at h
      simp [h]

/-- No item starts with a quote. -/
theorem item_head {i : Item} (hv : i.Valid) : ∃ b t, i.bytes = b :: t ∧ b ≠ 0x22 ∧ 0x20 ≤ b.toNat := by
  cases i with
  | plain c => obtain ⟨b, t, e, _, h, h'⟩ := plain_head hv; exact ⟨b, t, e, h, h'⟩
  | _ => exact ⟨0x5C, _, rfl, by decide, by decide⟩

theorem body_prefix {is is' : List Item} (hv : ItemsValid is) (hv' : ItemsValid is') {r r' : List UInt8}
    (h : bodyBytes is ++ 0x22 :: r = bodyBytes is' ++ 0x22 :: r') : is = is' ∧ r = r' := by
  induction is generalizing is' with
  | nil =>
    cases is' with
    | nil => simp [bodyBytes] at h; exact ⟨rfl, h⟩
    | cons i' is' =>
      obtain ⟨b, t, e, hb, _⟩ := item_head (ItemsValid.cons.mp hv').1
      simp [bodyBytes, e] at h
      exact absurd h.1.symm hb
  | cons i is ih =>
    cases is' with
    | nil =>
      obtain ⟨b, t, e, hb, _⟩ := item_head (ItemsValid.cons.mp hv).1
      simp [bodyBytes, e] at h
      exact absurd h.1 hb
    | cons i' is' =>
      rw [ItemsValid.cons] at hv hv'
      have h' : i.bytes ++ (bodyBytes is ++ 0x22 :: r) = i'.bytes ++ (bodyBytes is' ++ 0x22 :: r') := by
        simpa [bodyBytes] using h
      obtain ⟨rfl, h2⟩ := item_prefix hv.1 hv'.1 h'
      obtain ⟨rfl, h3⟩ := ih hv.2 hv'.2 h2
      exact ⟨rfl, h3⟩

theorem bodyBytes_inj {is is' : List Item} (hv : ItemsValid is) (hv' : ItemsValid is')
    (h : bodyBytes is = bodyBytes is') : is = is' :=
  (body_prefix (r := []) (r' := []) hv hv' (by rw [h])).1

theorem str_prefix {is is' : List Item} (hv : ItemsValid is) (hv' : ItemsValid is') {r r' : List UInt8}
    (h : strBytes is ++ r = strBytes is' ++ r') : is = is' ∧ r = r' := by
  apply body_prefix hv hv'
  simpa [strBytes] using h

/-! ## Numbers -/

theorem digits_span {a a' r r' : List UInt8} (ha : ∀ b ∈ a, IsDigit b) (ha' : ∀ b ∈ a', IsDigit b)
    (hr : ∀ b, r.head? = some b → ¬ IsDigit b) (hr' : ∀ b, r'.head? = some b → ¬ IsDigit b)
    (h : a ++ r = a' ++ r') : a = a' ∧ r = r' := by
  induction a generalizing a' with
  | nil =>
    cases a' with
    | nil => exact ⟨rfl, h⟩
    | cons b t =>
      simp at h
      exact absurd (ha' b (by simp)) (hr b (by rw [h]; rfl))
  | cons b t ih =>
    cases a' with
    | nil =>
      simp at h
      exact absurd (ha b (by simp)) (hr' b (by rw [← h]; rfl))
    | cons b' t' =>
      simp at h
      obtain ⟨rfl, h⟩ := h
      obtain ⟨rfl, h3⟩ := ih (fun x hx => ha x (by simp [hx])) (fun x hx => ha' x (by simp [hx])) h
      exact ⟨rfl, h3⟩

theorem exp_head {e : Option (UInt8 × Option UInt8 × List UInt8)}
    (h3 : ∀ x s ds, e = some (x, s, ds) → (x = 0x65 ∨ x = 0x45) ∧ (∀ c, s = some c → c = 0x2B ∨ c = 0x2D) ∧ Digits ds) :
    ∀ b, (expBytes e).head? = some b → b = 0x65 ∨ b = 0x45 := by
  intro b hb
  cases e with
  | none => simp [expBytes] at hb
  | some x =>
    obtain ⟨x, s, ds⟩ := x
    simp [expBytes] at hb
    rw [← hb]
    exact (h3 x s ds rfl).1

theorem exp_inj {e e' : Option (UInt8 × Option UInt8 × List UInt8)}
    (h3 : ∀ x s ds, e = some (x, s, ds) → (x = 0x65 ∨ x = 0x45) ∧ (∀ c, s = some c → c = 0x2B ∨ c = 0x2D) ∧ Digits ds)
    (h3' : ∀ x s ds, e' = some (x, s, ds) → (x = 0x65 ∨ x = 0x45) ∧ (∀ c, s = some c → c = 0x2B ∨ c = 0x2D) ∧ Digits ds)
    (h : expBytes e = expBytes e') : e = e' := by
  cases e with
  | none =>
    cases e' with
    | none => rfl
    | some x => simp [expBytes] at h
  | some x =>
    cases e' with
    | none => simp [expBytes] at h
    | some x' =>
      obtain ⟨x, s, ds⟩ := x
      obtain ⟨x', s', ds'⟩ := x'
      obtain ⟨-, h1, h2, h4⟩ := h3 x s ds rfl
      obtain ⟨-, h1', h2', h4'⟩ := h3' x' s' ds' rfl
      simp only [expBytes, List.cons.injEq] at h
      obtain ⟨rfl, h⟩ := h
      have key : ∀ {c : UInt8} {ds : List UInt8}, Digits ds → c ∈ ds → (c = 0x2B ∨ c = 0x2D) → False := by
        intro c ds hd hm hc
        have := hd.2 c hm
        rcases hc with rfl | rfl <;> exact absurd this (by decide)
      cases s with
      | none =>
        cases s' with
        | none => simp at h; rw [h]
        | some c =>
          simp at h
          exact (key ⟨h2, h4⟩ (by rw [h]; simp) (h1' c rfl)).elim
      | some c =>
        cases s' with
        | none =>
          simp at h
          exact (key ⟨h2', h4'⟩ (by rw [← h]; simp) (h1 c rfl)).elim
        | some c' => simp at h; rw [h.1, h.2]

theorem not_digit_e {b : UInt8} (h : b = 0x65 ∨ b = 0x45) : ¬ IsDigit b := by
  rcases h with rfl | rfl <;> decide

theorem num_inj {n n' : NumLit} (hv : n.Valid) (hv' : n'.Valid) (h : n.bytes = n'.bytes) : n = n' := by
  obtain ⟨m, i, f, e⟩ := n
  obtain ⟨m', i', f', e'⟩ := n'
  obtain ⟨⟨⟨h1, h1d⟩, _⟩, h2, h3⟩ := hv
  obtain ⟨⟨⟨h1', h1d'⟩, _⟩, h2', h3'⟩ := hv'
  simp only at *
  simp only [NumLit.bytes] at h
  have hm : m = m' := by
    cases m <;> cases m'
    · rfl
    · cases i with
      | nil => exact absurd rfl h1
      | cons d t =>
        simp at h
        have := h1d d (by simp)
        rw [h.1] at this
        exact absurd this (by decide)
    · cases i' with
      | nil => exact absurd rfl h1'
      | cons d t =>
        simp at h
        have := h1d' d (by simp)
        rw [← h.1] at this
        exact absurd this (by decide)
    · rfl
  subst hm
  have h : i ++ (fracBytes f ++ expBytes e) = i' ++ (fracBytes f' ++ expBytes e') := by
    simp only [List.append_assoc] at h
    exact List.append_cancel_left h
  have hs : ∀ {f : Option (List UInt8)} {e : Option (UInt8 × Option UInt8 × List UInt8)},
      (∀ x s ds, e = some (x, s, ds) → (x = 0x65 ∨ x = 0x45) ∧ (∀ c, s = some c → c = 0x2B ∨ c = 0x2D) ∧ Digits ds) →
      ∀ b, (fracBytes f ++ expBytes e).head? = some b → ¬ IsDigit b := by
    intro f e h3 b hb
    cases f with
    | none => exact not_digit_e (exp_head h3 b hb)
    | some ds => simp [fracBytes] at hb; rw [← hb]; decide
  obtain ⟨rfl, h⟩ := digits_span h1d h1d' (hs h3) (hs h3') h
  have he : ∀ {e : Option (UInt8 × Option UInt8 × List UInt8)} {t : List UInt8},
      (∀ x s ds, e = some (x, s, ds) → (x = 0x65 ∨ x = 0x45) ∧ (∀ c, s = some c → c = 0x2B ∨ c = 0x2D) ∧ Digits ds) →
      expBytes e ≠ 0x2E :: t := by
    intro e t h3 h
    rcases exp_head h3 0x2E (by rw [h]; rfl) with h | h <;> exact absurd h (by decide)
  cases f with
  | none =>
    cases f' with
    | none => simp [fracBytes] at h; rw [exp_inj h3 h3' h]
    | some ds => simp [fracBytes] at h; exact absurd h (he h3)
  | some ds =>
    cases f' with
    | none => simp [fracBytes] at h; exact absurd h.symm (he h3')
    | some ds' =>
      simp [fracBytes] at h
      obtain ⟨rfl, h4⟩ := digits_span (h2 ds rfl).2 (h2' ds' rfl).2
        (fun b hb => not_digit_e (exp_head h3 b hb)) (fun b hb => not_digit_e (exp_head h3' b hb)) h
      rw [exp_inj h3 h3' h4]

/-! ## Leading whitespace -/

theorem ws_cancel [Arch] {w w1 : List UInt8} {c c' : UInt8} {t t' : List UInt8} (h1 : Ws w) (h2 : Ws w1)
    (h3 : isWs c = false) (h4 : isWs c' = false) (h : w ++ c :: t = w1 ++ c' :: t') : c :: t = c' :: t' := by
  induction w generalizing w1 with
  | nil =>
    cases w1 with
    | nil => simpa using h
    | cons x w1 =>
      simp at h
      have := (ws_iff.mp h2) x (by simp)
      rw [← h.1, h3] at this
      cases this
  | cons x w ih =>
    cases w1 with
    | nil =>
      simp at h
      have := (ws_iff.mp h1) x (by simp)
      rw [h.1, h4] at this
      cases this
    | cons y w1 =>
      simp at h
      exact ih (fun b hb => h1 b (by simp [hb])) (fun b hb => h2 b (by simp [hb])) h.2

/-! ## Trees -/

section
variable [Arch]

theorem strDenotes_inj {s : JsonString} {is is' : List Item} (hv : ItemsValid is) (hv' : ItemsValid is')
    (h : StrDenotes s is) (h' : StrDenotes s is') : is = is' := by
  obtain ⟨t, h1, h2⟩ := h
  obtain ⟨t', h1', h2'⟩ := h'
  rw [h1] at h1'
  simp at h1'
  subst h1'
  exact bodyBytes_inj hv hv' (h2.symm.trans h2')

theorem denotes_inj : (∀ j, JValid j → ∀ v j', JValid j' → Denotes v j → Denotes v j' → j = j')
    ∧ (∀ ms, MsValid ms → ∀ v ms', MsValid ms' → DenotesMembers v ms → DenotesMembers v ms' → ms = ms')
    ∧ ∀ js, JsValid js → ∀ v js', JsValid js' → DenotesElems v js → DenotesElems v js' → js = js' := by
  apply Json.induct
  · intro _ v j' hv' h h'; cases h; cases h'; rfl
  · intro b _ v j' hv' h h'; cases h; cases h'; rfl
  · intro n hv v j' hv' h h'
    cases h with
    | num x _ h1 =>
      cases h' with
      | num _ n' h2 =>
        rw [num_inj hv hv' (h1.symm.trans h2)]
  · intro is hv v j' hv' h h'
    cases h with
    | str x _ h1 =>
      cases h' with
      | str _ n' h2 => rw [strDenotes_inj hv hv' h1 h2]
  · intro ms ih hv v j' hv' h h'
    cases h with
    | obj x _ h1 =>
      cases h' with
      | obj _ n' h2 => rw [ih hv _ _ hv' h1 h2]
  · intro js ih hv v j' hv' h h'
    cases h with
    | arr x _ h1 =>
      cases h' with
      | arr _ n' h2 => rw [ih hv _ _ hv' h1 h2]
  · intro _ v ms' hv' h h'; cases h; cases h'; rfl
  · intro k j ms ihj ihm hv v ms' hv' h h'
    cases h with
    | cons _ _ _ _ _ _ h1 h2 h3 =>
      cases h' with
      | cons _ _ _ _ _ _ h1' h2' h3' =>
        rw [strDenotes_inj hv.1 hv'.1 h1 h1', ihj hv.2.1 _ _ hv'.2.1 h2 h2', ihm hv.2.2 _ _ hv'.2.2 h3 h3']
  · intro _ v ms' hv' h h'; cases h; cases h'; rfl
  · intro j js ihj ihm hv v ms' hv' h h'
    cases h with
    | cons _ _ _ _ h1 h2 =>
      cases h' with
      | cons _ _ _ _ h1' h2' =>
        rw [ihj hv.1 _ _ hv'.1 h1 h1', ihm hv.2 _ _ hv'.2 h2 h2']

theorem ofJson_inj {j j' : Json} (hv : JValid j) (hv' : JValid j') (h : ofJson j = ofJson j') : j = j' :=
  denotes_inj.1 j hv (ofJson j) j' hv' (ofJson_denotes.1 j hv) (h ▸ ofJson_denotes.1 j' hv')

end

/-- A text (short enough to be a slice) denotes at most one tree. -/
theorem text_unique [Arch] {tc : Bool} {src : List UInt8} {j j' : Json} (hlim : src.length < LIM)
    (h : Text tc src j) (h' : Text tc src j') : j = j' := by
  have hd : ∀ j, DepthOk ⟨tc, none, true⟩ j := fun j n hn => by simp at hn
  obtain ⟨s, hs⟩ := value_complete (g := false) (cfg := ⟨tc, none, true⟩) hlim h (hd _) (.inl rfl)
  obtain ⟨s', hs'⟩ := value_complete (g := false) (cfg := ⟨tc, none, true⟩) hlim h' (hd _) (.inl rfl)
  rw [hs] at hs'
  injection hs' with h1 _
  exact ofJson_inj (text_valid h) (text_valid h') h1

end JustJson
