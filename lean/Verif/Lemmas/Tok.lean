import Verif.Lemmas.NumberTok
/-! # Tokens: soundness, completeness and independence from `GUARANTEED_UTF8` -/

namespace JustJson
open Spec

set_option linter.unusedSectionVars false

/-- A lexeme of JSON. -/
inductive Lex where
  | objO | objC | arrO | arrC | comma | colon | null
  | bool (b : Bool)
  | num (n : NumLit)
  | str (is : List Item)

/-- well-formed lexeme -/
def Lex.Valid : Lex → Prop
  | .num n => n.Valid
  | .str is => ItemsValid is
  | _ => True

/-- its bytes -/
def Lex.bytes : Lex → List UInt8
  | .objO => [0x7B]
  | .objC => [0x7D]
  | .arrO => [0x5B]
  | .arrC => [0x5D]
  | .comma => [0x2C]
  | .colon => [0x3A]
  | .null => [0x6E, 0x75, 0x6C, 0x6C]
  | .bool true => [0x74, 0x72, 0x75, 0x65]
  | .bool false => [0x66, 0x61, 0x6C, 0x73, 0x65]
  | .num n => n.bytes
  | .str is => strBytes is

/-- A number must not be continued by what follows. -/
def Lex.Stop : Lex → List UInt8 → Prop
  | .num n, r => NumStop n r
  | _, _ => True

section
variable {src : List UInt8} [Arch]

/-- its token -/
def Lex.token : Lex → Token
  | .objO => .object
  | .objC => .objectEnd
  | .arrO => .array
  | .arrC => .arrayEnd
  | .comma => .comma
  | .colon => .colon
  | .null => .null
  | .bool b => .bool b
  | .num n => .number (canonNum n)
  | .str is => .string (canonStr is)

/-! ## Literals -/

theorem readLiteral_eq (ls : List UInt8) {off : Nat} {r : List UInt8} (h : src.drop off = ls ++ r) :
    readLiteral src ls off = .ok () (off + ls.length) := by
  induction ls generalizing off with
  | nil => rfl
  | cons l ls ih =>
    have h' : src.drop off = l :: (ls ++ r) := h
    rw [readLiteral, M.bind_ok (readOr_cons _ h')]
    simp only
    rw [if_neg (by simp), ih (drop_succ_of_cons h')]
    simp; omega

theorem wp_readLiteral (ls : List UInt8) {off : Nat} (hl : off ≤ src.length) :
    Wp src off (readLiteral src ls off) fun _ off' => Adv src off ls off' := by
  induction ls generalizing off with
  | nil => exact Adv.refl _
  | cons l ls ih =>
    cases h : src.drop off with
    | nil => rw [readLiteral, M.bind_err (readOr_nil _ h)]; exact ⟨Nat.le_refl _, hl, hl⟩
    | cons b t =>
      have hlt := lt_of_drop_cons h
      rw [readLiteral, M.bind_ok (readOr_cons _ h)]
      simp only
      split
      · exact ⟨by omega, by omega, hl⟩
      · rename_i hb
        have hb : b = l := by simpa using hb
        refine (ih (by omega)).mono (by omega) ?_
        intro _ off' ha
        rw [hb] at h
        exact (Adv.cons h).trans ha

/-! ## One token -/

theorem first_digit {b : UInt8} (h : IsDigit b) (h0 : b ≠ 0x30) : (0x31 : UInt8) ≤ b ∧ b ≤ 0x39 := by
  have h1 : b.toNat ≠ 0x30 := fun h' => h0 (uint8_ext h')
  simp only [UInt8.le_iff_toNat_le]
  have : (0x31 : UInt8).toNat = 0x31 := rfl
  have : (0x39 : UInt8).toNat = 0x39 := rfl
  unfold IsDigit at h
  omega

theorem isDigit_of_first {b : UInt8} (h : (0x31 : UInt8) ≤ b ∧ b ≤ 0x39) : IsDigit b ∧ b ≠ 0x30 := by
  simp only [UInt8.le_iff_toNat_le] at h
  have : (0x31 : UInt8).toNat = 0x31 := rfl
  have : (0x39 : UInt8).toNat = 0x39 := rfl
  unfold IsDigit
  refine ⟨by omega, ?_⟩
  rintro rfl
  have : (0x30 : UInt8).toNat = 0x30 := rfl
  omega

theorem isDigit_ne {b c : UInt8} (h : IsDigit b) (hc : ¬ IsDigit c) : b ≠ c := by
  rintro rfl; exact hc h

/-- `readPeek` on the first byte of a number -/
theorem readPeek_num {g : Bool} {o : Nat} {b : UInt8} (hb : b = 0x2D ∨ IsDigit b) :
    readPeek src g o b = (do return .number (← readNumber src (numStart b) o) : TokM Token) := by
  by_cases h1 : b = 0x2D
  · subst h1; rfl
  · have hd : IsDigit b := hb.resolve_left h1
    unfold readPeek numStart
    rw [if_neg (isDigit_ne hd (by decide)), if_neg (isDigit_ne hd (by decide)), if_neg (isDigit_ne hd (by decide)),
      if_neg (isDigit_ne hd (by decide)), if_neg (isDigit_ne hd (by decide)), if_neg (isDigit_ne hd (by decide)),
      if_neg (isDigit_ne hd (by decide)), if_neg h1]
    by_cases h2 : b = 0x30
    · rw [if_pos h2, if_neg h1, if_pos h2]
    · rw [if_neg h2, if_pos (first_digit hd h2), if_neg h1, if_neg h2]

theorem readPeek_quote {g : Bool} {o : Nat} :
    readPeek src g o 0x22 = (do return .string (← readString src g o) : TokM Token) := rfl

/-- The lexemes by their first byte, for `readPeek`. -/
theorem wp_readPeek {o : Nat} {b : UInt8} {t : List UInt8} (h : src.drop o = b :: t)
    (hlim : src.length < LIM) :
    Wp src (o + 1) (readPeek src false o b (o + 1)) fun tok off' =>
      ∃ l : Lex, l.Valid ∧ Adv src o l.bytes off' ∧ tok = l.token ∧ l.Stop (src.drop off') := by
  have hlt := lt_of_drop_cons h
  have hadv := Adv.cons h
  by_cases hnum : b = 0x2D ∨ IsDigit b
  · rw [readPeek_num hnum]
    refine Wp.bind (wp_readNumber hnum h) ?_
    rintro r off' ⟨n, hv, ha, hs, rfl⟩
    exact ⟨.num n, hv, ha, rfl, hs⟩
  · have hlit : ∀ (ls : List UInt8) (l : Lex), l.bytes = b :: ls → l.Valid → (∀ r, l.Stop r) → ∀ tok, tok = l.token →
        Wp src (o + 1) ((readLiteral src ls >>= fun _ => (pure tok : TokM Token)) (o + 1)) fun tok off' =>
          ∃ l : Lex, l.Valid ∧ Adv src o l.bytes off' ∧ tok = l.token ∧ l.Stop (src.drop off') := by
      intro ls l hbytes hv hs tok htok
      refine Wp.bind (wp_readLiteral ls (off := o + 1) (by omega)) ?_
      intro _ off' ha
      exact ⟨l, hv, by rw [hbytes]; exact hadv.trans ha, htok, hs _⟩
    by_cases h1 : b = 0x7B
    · subst h1; exact ⟨.objO, trivial, hadv, rfl, trivial⟩
    by_cases h2 : b = 0x7D
    · subst h2; exact ⟨.objC, trivial, hadv, rfl, trivial⟩
    by_cases h3 : b = 0x5B
    · subst h3; exact ⟨.arrO, trivial, hadv, rfl, trivial⟩
    by_cases h4 : b = 0x5D
    · subst h4; exact ⟨.arrC, trivial, hadv, rfl, trivial⟩
    by_cases h5 : b = 0x2C
    · subst h5; exact ⟨.comma, trivial, hadv, rfl, trivial⟩
    by_cases h6 : b = 0x3A
    · subst h6; exact ⟨.colon, trivial, hadv, rfl, trivial⟩
    by_cases h7 : b = 0x22
    · subst h7
      rw [readPeek_quote]
      refine Wp.bind (wp_readString (start := o) (by omega) hlim) ?_
      rintro r off' ⟨is, hv, ha, rfl⟩
      exact ⟨.str is, hv, hadv.trans ha, rfl, trivial⟩
    by_cases h8 : b = 0x74
    · subst h8
      exact hlit [0x72, 0x75, 0x65] (.bool true) rfl trivial (fun _ => trivial) _ rfl
    by_cases h9 : b = 0x66
    · subst h9
      exact hlit [0x61, 0x6C, 0x73, 0x65] (.bool false) rfl trivial (fun _ => trivial) _ rfl
    by_cases h10 : b = 0x6E
    · subst h10
      exact hlit [0x75, 0x6C, 0x6C] .null rfl trivial (fun _ => trivial) _ rfl
    unfold readPeek
    rw [if_neg h1, if_neg h2, if_neg h3, if_neg h4, if_neg h5, if_neg h6, if_neg h7,
      if_neg (fun h => hnum (.inl h)), if_neg (fun h => hnum (.inr (by rw [h]; decide))),
      if_neg (fun h => hnum (.inr (isDigit_of_first h).1)), if_neg h8, if_neg h9, if_neg h10]
    exact ⟨Nat.le_refl _, by omega, by show o ≤ _; omega⟩

theorem readPeek_complete {g : Bool} {o : Nat} {l : Lex} {r : List UInt8} (hv : l.Valid)
    (h : src.drop o = l.bytes ++ r) (hs : l.Stop r) (hlim : src.length < LIM) :
    ∃ b t, src.drop o = b :: t ∧ isWs b = false ∧
      readPeek src g o b (o + 1) = .ok l.token (o + l.bytes.length) := by
  have hlit : ∀ (b : UInt8) (ls : List UInt8) (tok : Token), src.drop o = b :: ls ++ r →
      (readLiteral src ls >>= fun _ => (pure tok : TokM Token)) (o + 1) = .ok tok (o + (b :: ls).length) := by
    intro b ls tok h
    rw [M.bind_ok (readLiteral_eq ls (r := r) (drop_succ_of_cons h)), M.pure_eq]
    congr 1
    simp; omega
  cases l with
  | objO => exact ⟨_, _, h, by decide, rfl⟩
  | objC => exact ⟨_, _, h, by decide, rfl⟩
  | arrO => exact ⟨_, _, h, by decide, rfl⟩
  | arrC => exact ⟨_, _, h, by decide, rfl⟩
  | comma => exact ⟨_, _, h, by decide, rfl⟩
  | colon => exact ⟨_, _, h, by decide, rfl⟩
  | null => exact ⟨_, _, h, by decide, hlit _ _ _ h⟩
  | bool b =>
    cases b
    · exact ⟨_, _, h, by decide, hlit _ _ _ h⟩
    · exact ⟨_, _, h, by decide, hlit _ _ _ h⟩
  | num n =>
    obtain ⟨b, t, h1, h2, h3⟩ := readNumber_eq hv h hs
    refine ⟨b, t, h1, ?_, ?_⟩
    · rw [← Bool.not_eq_true, isWs_iff]
      rcases h2 with rfl | h2
      · decide
      · rintro (rfl | rfl | rfl | rfl) <;> revert h2 <;> decide
    · rw [readPeek_num h2, M.bind_ok h3]
      rfl
  | str is =>
    have h' : src.drop o = strBytes is ++ r := h
    refine ⟨0x22, _, h, by decide, ?_⟩
    rw [readPeek_quote, M.bind_ok (readString_complete hv h' hlim)]
    rfl

theorem readPeek_agree {o : Nat} {b : UInt8} {t : List UInt8} (h : src.drop o = b :: t)
    (hlim : src.length < LIM) (hb : Boundary src o) :
    readPeek src true o b (o + 1) = readPeek src false o b (o + 1) := by
  have hlt := lt_of_drop_cons h
  by_cases hq : b = 0x22
  · subst hq
    rw [readPeek_quote, readPeek_quote, M.bind_eq, M.bind_eq,
      readString_agree (by omega) hlim (hb.adv_ascii (Adv.cons h) (by simp))]
  · unfold readPeek
    simp only [if_neg hq]

/-! ## Leading whitespace -/

theorem ws_iff {w : List UInt8} : Ws w ↔ ∀ b ∈ w, isWs b = true := by
  simp only [Ws, isWs_iff]

theorem ws_split {off : Nat} (hl : off ≤ src.length) :
    ∃ w, Ws w ∧ Adv src off w (off + runLen isWs (src.drop off))
      ∧ off + runLen isWs (src.drop off) ≤ src.length
      ∧ ∀ b, (src.drop (off + runLen isWs (src.drop off))).head? = some b → isWs b = false := by
  have hle := runLen_le isWs (src.drop off)
  rw [List.length_drop] at hle
  refine ⟨(src.drop off).take (runLen isWs (src.drop off)), ws_iff.mpr (runLen_take _ _), adv_take hle,
    by omega, ?_⟩
  intro b hb
  rw [← List.drop_drop] at hb
  exact runLen_drop _ _ b hb

theorem skipWs_of {off : Nat} {w r : List UInt8} (hw : Ws w) (h : src.drop off = w ++ r)
    (hr : ∀ b, r.head? = some b → isWs b = false) : runLen isWs (src.drop off) = w.length := by
  rw [h]; exact runLen_append (ws_iff.mp hw) hr

theorem readNonWs_cons {off : Nat} {w t : List UInt8} {b : UInt8} (hw : Ws w)
    (h : src.drop off = w ++ b :: t) (hb : isWs b = false) :
    readNonWs src off = .ok (off + w.length, b) (off + w.length + 1) := by
  unfold readNonWs
  rw [M.bind_ok (skipWs_eq off), skipWs_of hw h (by simpa using hb)]
  apply read_cons (t := t)
  rw [← List.drop_drop, h]; simp

theorem readNonWs_nil {off : Nat} {w : List UInt8} (hw : Ws w) (h : src.drop off = w)
    (hl : off ≤ src.length) :
    readNonWs src off = .err ⟨src.length, .unexpectedEof⟩ src.length := by
  have hlen : off + w.length = src.length := by
    have := congrArg List.length h
    simp at this; omega
  unfold readNonWs
  rw [M.bind_ok (skipWs_eq off), skipWs_of (r := []) hw (by simpa using h) (by simp), hlen]
  apply read_nil
  simp

/-- `off` is followed by whitespace only, or by whitespace and a significant byte. -/
theorem ws_cases {off : Nat} (hl : off ≤ src.length) : ∃ w, Ws w ∧
    ((src.drop off = w ∧ off + w.length = src.length)
      ∨ ∃ b t, src.drop off = w ++ b :: t ∧ isWs b = false ∧ Adv src off w (off + w.length)
        ∧ src.drop (off + w.length) = b :: t) := by
  obtain ⟨w, hw, ha, hle, hr⟩ := ws_split hl
  have hlen := ha.1
  refine ⟨w, hw, ?_⟩
  rw [hlen] at ha hr
  cases h : src.drop (off + w.length) with
  | nil =>
    left
    have h2 := ha.2
    rw [h, List.append_nil] at h2
    refine ⟨h2, ?_⟩
    have := congrArg List.length h2
    simp at this; omega
  | cons b t =>
    right
    have h2 := ha.2
    rw [h] at h2
    exact ⟨b, t, h2, hr b (by rw [h]; rfl), ha, rfl⟩

/-- Soundness of `next_or_eof`. -/
theorem wp_nextOrEof {off : Nat} (hl : off ≤ src.length) (hlim : src.length < LIM) :
    Wp src off (nextOrEof src false off) fun tok off' =>
      ∃ (w : List UInt8) (l : Lex), Ws w ∧ l.Valid ∧ Adv src off (w ++ l.bytes) off' ∧ tok = l.token
        ∧ l.Stop (src.drop off') := by
  unfold nextOrEof
  obtain ⟨w, hw, h | ⟨b, t, h, hb, ha, hd⟩⟩ := ws_cases hl
  · rw [M.bind_err (readNonWs_nil hw h.1 hl)]
    exact ⟨hl, Nat.le_refl _, Nat.le_refl _⟩
  · rw [M.bind_ok (readNonWs_cons hw h hb)]
    refine (wp_readPeek hd hlim).mono (by omega) ?_
    rintro tok off' ⟨l, hv, ha', ht, hs⟩
    exact ⟨w, l, hw, hv, ha.trans ha', ht, hs⟩

/-- Completeness of `next_or_eof`. -/
theorem nextOrEof_complete {g : Bool} {off : Nat} {w r : List UInt8} {l : Lex} (hw : Ws w)
    (hv : l.Valid) (h : src.drop off = w ++ (l.bytes ++ r)) (hs : l.Stop r) (hlim : src.length < LIM) :
    nextOrEof src g off = .ok l.token (off + w.length + l.bytes.length) := by
  have hd : src.drop (off + w.length) = l.bytes ++ r := by rw [← List.drop_drop, h]; simp
  obtain ⟨b, t, h1, h2, h3⟩ := readPeek_complete (g := g) hv hd hs hlim
  unfold nextOrEof
  rw [M.bind_ok (readNonWs_cons hw (by rw [h, ← hd, h1]) h2)]
  exact h3

theorem nextOrEof_eof {g : Bool} {off : Nat} {w : List UInt8} (hw : Ws w) (h : src.drop off = w)
    (hl : off ≤ src.length) :
    nextOrEof src g off = .err ⟨src.length, .unexpectedEof⟩ src.length := by
  unfold nextOrEof
  rw [M.bind_err (readNonWs_nil hw h hl)]

theorem Boundary.ws {off off' : Nat} {w : List UInt8} (h : Boundary src off) (hw : Ws w)
    (ha : Adv src off w off') : Boundary src off' := by
  apply h.adv_ascii ha
  intro b hb
  rcases hw b hb with rfl | rfl | rfl | rfl <;> decide

/-- `GUARANTEED_UTF8` makes no difference on valid UTF-8. -/
theorem nextOrEof_agree {off : Nat} (hl : off ≤ src.length) (hlim : src.length < LIM)
    (hb : Boundary src off) : nextOrEof src true off = nextOrEof src false off := by
  unfold nextOrEof
  obtain ⟨w, hw, h | ⟨b, t, h, hbw, ha, hd⟩⟩ := ws_cases hl
  · rw [M.bind_err (readNonWs_nil hw h.1 hl), M.bind_err (readNonWs_nil hw h.1 hl)]
  · rw [M.bind_ok (readNonWs_cons hw h hbw), M.bind_ok (readNonWs_cons hw h hbw)]
    exact readPeek_agree hd hlim (hb.ws hw ha)

theorem Lex.bytes_utf8 {l : Lex} (hv : l.Valid) : ∃ s, utf8 s = l.bytes := by
  have key : ∀ {bs : List UInt8}, (∀ b ∈ bs, b.toNat < 0x80) → ∃ s, utf8 s = bs :=
    fun h => ⟨_, utf8_map_byteChar h⟩
  cases l with
  | num n => exact key (NumLit.ascii hv)
  | str is =>
    refine ⟨'"' :: (bodyChars is ++ ['"']), ?_⟩
    rw [utf8_cons, utf8_append, utf8_bodyChars hv]
    rfl
  | bool b => cases b <;> exact key (by decide)
  | _ => exact key (by decide)

theorem ws_utf8 {w : List UInt8} (hw : Ws w) : ∃ s, utf8 s = w := by
  refine ⟨w.map byteChar, utf8_map_byteChar ?_⟩
  intro b hb
  rcases hw b hb with rfl | rfl | rfl | rfl <;> decide

/-- Tokens end at character boundaries. -/
theorem Boundary.lex {off off' : Nat} {w : List UInt8} {l : Lex} (h : Boundary src off) (hw : Ws w)
    (hv : l.Valid) (ha : Adv src off (w ++ l.bytes) off') : Boundary src off' := by
  obtain ⟨s, hs⟩ := Lex.bytes_utf8 hv
  obtain ⟨s', hs'⟩ := ws_utf8 hw
  exact h.adv (s := s' ++ s) (by rw [utf8_append, hs, hs']; exact ha)

theorem Lex.bytes_pos {l : Lex} (hv : l.Valid) : 0 < l.bytes.length := by
  cases l with
  | num n =>
    simp only [Lex.bytes, NumLit.bytes, List.length_append]
    have := hv.1.1.1
    have : 0 < n.int.length := by
      cases h : n.int with
      | nil => exact absurd h this
      | cons => simp
    omega
  | str is => simp [Lex.bytes, strBytes]
  | bool b => cases b <;> simp [Lex.bytes]
  | _ => simp [Lex.bytes]

end
end JustJson
