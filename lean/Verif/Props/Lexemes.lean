import Verif.Props.Tokenizer
import Verif.Props.Accept
import Verif.Spec.Lexeme
/-! # Tokens are lexemes: C50 -/

namespace JustJson
open Spec

set_option linter.unusedSectionVars false

section
variable [Arch]

theorem Lex.lexeme {l : Lex} (hv : l.Valid) : Lexeme l.bytes l.token := by
  cases l with
  | objO => exact .objectOpen
  | objC => exact .objectClose
  | arrO => exact .arrayOpen
  | arrC => exact .arrayClose
  | comma => exact .comma
  | colon => exact .colon
  | null => exact .null
  | bool b => cases b; exact .false; exact .true
  | num n => exact .number n _ hv (canonNum_denotes hv)
  | str is => exact .string is _ hv (canonStr_denotes hv)

theorem Lexeme.lex {b : List UInt8} {t : Token} (h : Lexeme b t) :
    ∃ l : Lex, l.Valid ∧ l.bytes = b ∧ t.kind = l.token.kind := by
  cases h with
  | objectOpen => exact ⟨.objO, True.intro, rfl, rfl⟩
  | objectClose => exact ⟨.objC, True.intro, rfl, rfl⟩
  | arrayOpen => exact ⟨.arrO, True.intro, rfl, rfl⟩
  | arrayClose => exact ⟨.arrC, True.intro, rfl, rfl⟩
  | comma => exact ⟨.comma, True.intro, rfl, rfl⟩
  | colon => exact ⟨.colon, True.intro, rfl, rfl⟩
  | null => exact ⟨.null, True.intro, rfl, rfl⟩
  | «true» => exact ⟨.bool Bool.true, True.intro, rfl, rfl⟩
  | «false» => exact ⟨.bool Bool.false, True.intro, rfl, rfl⟩
  | number n x hv hd => exact ⟨.num n, hv, rfl, rfl⟩
  | string is s hv hd => exact ⟨.str is, hv, rfl, rfl⟩

theorem next_lex {src : List UInt8} {g : Bool} (hi : Input g src) {off : Nat} (hl : off ≤ src.length)
    {w r : List UInt8} {l : Lex} (hw : Ws w) (hv : l.Valid) (h : src.drop off = w ++ (l.bytes ++ r)) (hs : l.Stop r) :
    Call.next.run src g off = (.token l.token, off + w.length + l.bytes.length)
    ∧ Call.nextOrEof.run src g off = (.token l.token, off + w.length + l.bytes.length) := by
  have hc := nextOrEof_complete (g := g) hw hv h hs hi.lim
  cases tok_cases hi hl with
  | eof hw hn he hp => rw [he] at hc; cases hc
  | tok w' b t l' off' hw' hd hb hv' ha hs' hlt hle hn he hp =>
    rw [he] at hc
    injection hc with h1 h2
    simp only [Call.run, hn, he]
    rw [h1, h2]
    exact ⟨rfl, rfl⟩
  | err w b t e off' hw hd hb hlt hle heo hrp hn he hp => rw [he] at hc; cases hc

/-! ## C50 -/

/-- **C50.** A token is the lexeme that stands at the tokenizer's position, after optional whitespace, and the
tokenizer moves just past it. After any calls, errors included. -/
theorem C50_token_is_lexeme (g : Bool) (src : List UInt8) (h : Input g src) (cs : List Call) (c : Call) (t : Token)
    (ht : (c.run src g (offsetAfter src g cs)).1 = .token t) :
    ∃ w b r, Ws w ∧ Lexeme b t ∧ src.drop (offsetAfter src g cs) = w ++ (b ++ r)
      ∧ (c.run src g (offsetAfter src g cs)).2 = offsetAfter src g cs + w.length + b.length := by
  have hl : offsetAfter src g cs ≤ src.length := (history_offset h cs (Nat.zero_le _)).2
  cases tok_cases h hl with
  | eof hw hn he hp => cases c <;> simp [Call.run, hn, he, hp] at ht
  | tok w b t' l off' hw hd hb hv ha hs hlt hle hn he hp =>
    have hlen := ha.1
    have hdrop : src.drop (offsetAfter src g cs) = w ++ (l.bytes ++ src.drop off') := by
      rw [hd]
      congr 1
      rw [← ha.2, ← List.drop_drop, hd]
      simp
    cases c with
    | peek => simp [Call.run, hp] at ht
    | next =>
      simp only [Call.run, hn] at ht ⊢
      injection ht with ht
      subst ht
      exact ⟨w, l.bytes, _, hw, Lex.lexeme hv, hdrop, hlen⟩
    | nextOrEof =>
      simp only [Call.run, he] at ht ⊢
      injection ht with ht
      subst ht
      exact ⟨w, l.bytes, _, hw, Lex.lexeme hv, hdrop, hlen⟩
  | err w b t e off' hw hd hb hlt hle heo hrp hn he hp => cases c <;> simp [Call.run, hn, he, hp] at ht

/-- **C50**, conversely: if a lexeme stands there (and, for a number, the next byte does not continue it) then
`next` and `next_or_eof` return its token and move just past it. -/
theorem C50_lexeme_is_token (g : Bool) (src : List UInt8) (h : Input g src) (cs : List Call) (c : Call)
    (hc : c ≠ .peek) (w b r : List UInt8) (t : Token) (hw : Ws w) (hb : Lexeme b t)
    (hd : src.drop (offsetAfter src g cs) = w ++ (b ++ r))
    (hr : t.kind = .number → ∀ x, r.head? = some x → ¬ IsDigit x ∧ x ≠ 0x2E ∧ x ≠ 0x65 ∧ x ≠ 0x45) :
    ∃ t', Lexeme b t' ∧ t'.kind = t.kind
      ∧ c.run src g (offsetAfter src g cs) = (.token t', offsetAfter src g cs + w.length + b.length) := by
  have hl : offsetAfter src g cs ≤ src.length := (history_offset h cs (Nat.zero_le _)).2
  obtain ⟨l, hv, rfl, hk⟩ := hb.lex
  have hs : l.Stop r := by
    cases l with
    | num n =>
      intro x hx
      obtain ⟨h1, h2, h3, h4⟩ := hr hk x hx
      exact ⟨fun _ => h1, fun _ => ⟨h3, h4, fun _ => h1, fun _ => ⟨h2, fun _ => h1⟩⟩⟩
    | _ => exact True.intro
  obtain ⟨h1, h2⟩ := next_lex h hl hw hv hd hs
  refine ⟨l.token, Lex.lexeme hv, hk.symm, ?_⟩
  cases c with
  | next => exact h1
  | nextOrEof => exact h2
  | peek => exact absurd rfl hc

/-- **C50**, for a whole run: if calling `next` yields the tokens `ts` and then `None`, the source is their
lexemes in order with whitespace between: nothing is skipped, nothing is read twice. -/
theorem C50_stream_covers_source (g : Bool) (src : List UInt8) (h : Input g src) (n : Nat) (ts : List Token)
    (hh : (history src g (List.replicate n .next) 0).1.map Prod.snd = ts.map .token ++ [.none]) :
    Spelled src ts := by
  have key : ∀ (n : Nat) (cs : List Call) (ts : List Token),
      (history src g (List.replicate n .next) (offsetAfter src g cs)).1.map Prod.snd = ts.map .token ++ [.none] →
      Spelled (src.drop (offsetAfter src g cs)) ts := by
    intro n
    induction n with
    | zero => intro cs ts hh; simp [history] at hh
    | succ n ih =>
      intro cs ts hh
      have happ : offsetAfter src g (cs ++ [.next]) = (Call.next.run src g (offsetAfter src g cs)).2 := by
        have : ∀ (a b : List Call) (off : Nat),
            (history src g (a ++ b) off).2 = (history src g b (history src g a off).2).2 := by
          intro a
          induction a with
          | nil => intro b off; rfl
          | cons c a ih => intro b off; simp only [List.cons_append, history]; exact ih b _
        unfold offsetAfter
        rw [this]
        rfl
      rw [List.replicate_succ, history, ← happ] at hh
      simp only [List.map_cons] at hh
      cases ts with
      | nil =>
        simp only [List.map_nil, List.nil_append, List.cons.injEq] at hh
        have hl : offsetAfter src g cs ≤ src.length := (history_offset h cs (Nat.zero_le _)).2
        cases tok_cases h hl with
        | eof hw hn he hp => exact .nil _ hw
        | tok w b t' l off' hw hd hb hv ha hs hlt hle hn he hp => simp [Call.run, hn] at hh
        | err w b t e off' hw hd hb hlt hle heo hrp hn he hp => simp [Call.run, hn] at hh
      | cons t ts =>
        simp only [List.map_cons, List.cons_append, List.cons.injEq] at hh
        obtain ⟨w, b, r, hw, hb, hd, ho⟩ := C50_token_is_lexeme g src h cs .next t hh.1
        have := ih (cs ++ [.next]) ts hh.2
        rw [happ, ho, Nat.add_assoc, ← List.drop_drop, hd, ← List.append_assoc, ← List.length_append,
          List.drop_left] at this
        rw [hd]
        exact .cons w b r t ts hw hb this
  have := key n [] ts hh
  exact this

/-! ### The tokens of an accepted text -/

theorem TokYields.append {src : List UInt8} {g : Bool} {ts ts' : List Token} : ∀ {off off1 off2 : Nat},
    TokYields src g off ts off1 → TokYields src g off1 ts' off2 → TokYields src g off (ts ++ ts') off2 := by
  induction ts with
  | nil => intro off off1 off2 h1 h2; injection h1 with _ h1; subst h1; exact h2
  | cons t ts ih =>
    intro off off1 off2 h1 h2
    unfold TokYields at h1 ⊢
    simp only [List.length_cons, List.replicate_succ, history, List.map_cons, Prod.mk.injEq, List.cons.injEq,
      List.cons_append] at h1 ⊢
    obtain ⟨⟨h3, h4⟩, h5⟩ := h1
    have := ih (off := (Call.next.run src g off).2) (off1 := off1) (by unfold TokYields; rw [← h4, ← h5]) h2
    unfold TokYields at this
    rw [this]
    exact ⟨⟨h3, rfl⟩, rfl⟩

theorem TokYields.one {src : List UInt8} {g : Bool} {t : Token} {off off' : Nat}
    (h : Call.next.run src g off = (.token t, off')) : TokYields src g off [t] off' := by
  unfold TokYields
  simp [history, h]

theorem TokYields.lex {src : List UInt8} {g : Bool} (hi : Input g src) {off : Nat}
    {w r : List UInt8} {l : Lex} (hw : Ws w) (hv : l.Valid) (h : src.drop off = w ++ (l.bytes ++ r)) (hs : l.Stop r) :
    TokYields src g off [l.token] (off + w.length + l.bytes.length) := by
  have hl : off ≤ src.length := by
    rcases Nat.lt_or_ge src.length off with hlt | hge
    · rw [List.drop_eq_nil_of_le (by omega)] at h
      have := congrArg List.length h
      have := Lex.bytes_pos hv
      simp at *
      omega
    · exact hge
  exact .one (next_lex hi hl hw hv h hs).1

theorem value_tokens {src : List UInt8} {g : Bool} (hi : Input g src) {b : List UInt8} {j : Json} (hb : GValue false b j) :
    ∀ off w r, Ws w → src.drop off = w ++ (b ++ r) → StopAfter j r →
      TokYields src g off (ofJson j).tokens (off + w.length + b.length) := by
  have hsep : ∀ {w r : List UInt8} {c : UInt8} (j : Json), Ws w → Sep c → StopAfter j (w ++ c :: r) :=
    fun j hw hc => stopAfter_of (sep_ws hw hc) j
  have scal : ∀ (l : Lex) (j : Json), l.Valid → (ofJson j).tokens = [l.token] → (∀ r, StopAfter j r → l.Stop r) →
      ∀ off w r, Ws w → src.drop off = w ++ (l.bytes ++ r) → StopAfter j r →
      TokYields src g off (ofJson j).tokens (off + w.length + l.bytes.length) := by
    intro l j hv ht hst off w r hw h hs
    rw [ht]
    exact TokYields.lex hi hw hv h (hst r hs)
  -- a single byte lexeme
  have byte : ∀ (l : Lex) (c : UInt8), l.bytes = [c] → l.Valid → (∀ r, l.Stop r) → ∀ off w r, Ws w →
      src.drop off = w ++ c :: r → TokYields src g off [l.token] (off + w.length + 1)
        ∧ src.drop (off + w.length + 1) = r := by
    intro l c hl hv hst off w r hw h
    have h' : src.drop off = w ++ (l.bytes ++ r) := by rw [hl]; exact h
    have := TokYields.lex hi hw hv h' (hst r)
    rw [hl] at this
    refine ⟨this, ?_⟩
    have h'' : src.drop off = (w ++ [c]) ++ r := by rw [h]; simp
    have := drop_step h''
    rwa [List.length_append, ← Nat.add_assoc] at this
  have elems_cons : ∀ (j : Json) (js : List Json), js ≠ [] →
      elemTokens (ofJsons (j :: js)) = (ofJson j).tokens ++ .comma :: elemTokens (ofJsons js) := by
    intro j js hj
    cases js with
    | nil => exact absurd rfl hj
    | cons j' js => simp [ofJsons, elemTokens]
  have members_cons : ∀ (k : List Item) (j : Json) (ms : List (List Item × Json)), ms ≠ [] →
      entryTokens (ofMembers ((k, j) :: ms))
        = .string (canonStr k) :: .colon :: ((ofJson j).tokens ++ .comma :: entryTokens (ofMembers ms)) := by
    intro k j ms hj
    cases ms with
    | nil => exact absurd rfl hj
    | cons m ms => obtain ⟨k', j'⟩ := m; simp [ofMembers, entryTokens]
  -- key, colon
  have key : ∀ (w w1 : List UInt8) (k : List Item), Ws w → ItemsValid k → Ws w1 → ∀ off r,
      src.drop off = w ++ strBytes k ++ w1 ++ 0x3A :: r →
      TokYields src g off [.string (canonStr k), .colon] (off + (w ++ strBytes k ++ w1).length + 1)
        ∧ src.drop (off + (w ++ strBytes k ++ w1).length + 1) = r := by
    intro w w1 k hw hk hw1 off r h
    have h1 : src.drop off = w ++ ((Lex.str k).bytes ++ (w1 ++ 0x3A :: r)) := by rw [h]; simp [Lex.bytes]
    have y1 := TokYields.lex (l := .str k) hi hw hk h1 True.intro
    have h2 : src.drop (off + w.length + (Lex.str k).bytes.length) = w1 ++ 0x3A :: r := by
      rw [Nat.add_assoc, ← List.length_append]
      exact drop_step (by rw [h1]; simp)
    obtain ⟨y2, h3⟩ := byte .colon 0x3A rfl True.intro (fun _ => True.intro) _ w1 r hw1 h2
    have hlen : off + w.length + (Lex.str k).bytes.length + w1.length + 1 = off + (w ++ strBytes k ++ w1).length + 1 := by
      simp [Lex.bytes]; omega
    rw [hlen] at y2 h3
    exact ⟨y1.append y2, h3⟩
  refine GValue.rec
    (motive_1 := fun b j _ => ∀ off w r, Ws w → src.drop off = w ++ (b ++ r) → StopAfter j r →
      TokYields src g off (ofJson j).tokens (off + w.length + b.length))
    (motive_2 := fun b js _ => js ≠ [] ∧ ∀ off r, src.drop off = b ++ 0x5D :: r →
      TokYields src g off (elemTokens (ofJsons js) ++ [.arrayEnd]) (off + b.length + 1))
    (motive_3 := fun b ms _ => ms ≠ [] ∧ ∀ off r, src.drop off = b ++ 0x7D :: r →
      TokYields src g off (entryTokens (ofMembers ms) ++ [.objectEnd]) (off + b.length + 1))
    ?_ ?_ ?_ ?_ ?_ ?_ ?_ ?_ ?_ ?_ ?_ ?_ ?_ ?_ ?_ hb
  · exact scal .null .null True.intro rfl (fun _ _ => True.intro)
  · exact scal (.bool true) (.bool true) True.intro rfl (fun _ _ => True.intro)
  · exact scal (.bool false) (.bool false) True.intro rfl (fun _ _ => True.intro)
  · intro n hv
    exact scal (.num n) (.num n) hv rfl (fun _ h => h)
  · intro s hv
    exact scal (.str s) (.str s) hv rfl (fun _ _ => True.intro)
  · -- empty array
    intro v hv off w r hw h _
    obtain ⟨y1, h1⟩ := byte .arrO 0x5B rfl True.intro (fun _ => True.intro) off w (v ++ 0x5D :: r) hw (by rw [h]; simp)
    obtain ⟨y2, _⟩ := byte .arrC 0x5D rfl True.intro (fun _ => True.intro) _ v r hv h1
    have := y1.append y2
    simp only [List.length_cons, List.length_append, List.length_nil] at *
    rw [show off + w.length + (v.length + (0 + 1) + 1) = off + w.length + 1 + v.length + 1 by omega]
    exact this
  · -- array
    intro body js _ ih off w r hw h _
    obtain ⟨y1, h1⟩ := byte .arrO 0x5B rfl True.intro (fun _ => True.intro) off w (body ++ 0x5D :: r) hw (by rw [h]; simp)
    have := y1.append (ih.2 _ r h1)
    simp only [List.length_cons, List.length_append, List.length_nil] at *
    rw [show off + w.length + (body.length + (0 + 1) + 1) = off + w.length + 1 + body.length + 1 by omega]
    exact this
  · -- empty object
    intro v hv off w r hw h _
    obtain ⟨y1, h1⟩ := byte .objO 0x7B rfl True.intro (fun _ => True.intro) off w (v ++ 0x7D :: r) hw (by rw [h]; simp)
    obtain ⟨y2, _⟩ := byte .objC 0x7D rfl True.intro (fun _ => True.intro) _ v r hv h1
    have := y1.append y2
    simp only [List.length_cons, List.length_append, List.length_nil] at *
    rw [show off + w.length + (v.length + (0 + 1) + 1) = off + w.length + 1 + v.length + 1 by omega]
    exact this
  · -- object
    intro body js _ ih off w r hw h _
    obtain ⟨y1, h1⟩ := byte .objO 0x7B rfl True.intro (fun _ => True.intro) off w (body ++ 0x7D :: r) hw (by rw [h]; simp)
    have := y1.append (ih.2 _ r h1)
    simp only [List.length_cons, List.length_append, List.length_nil] at *
    rw [show off + w.length + (body.length + (0 + 1) + 1) = off + w.length + 1 + body.length + 1 by omega]
    exact this
  · -- one element
    intro w b w' j hw _ hw' ih
    refine ⟨by simp, fun off r h => ?_⟩
    have y1 := ih off w (w' ++ 0x5D :: r) hw (by rw [h]; simp) (hsep j hw' (by simp [Sep]))
    have h1 : src.drop (off + w.length + b.length) = w' ++ 0x5D :: r := by
      rw [Nat.add_assoc, ← List.length_append]
      exact drop_step (by rw [h]; simp)
    obtain ⟨y2, _⟩ := byte .arrC 0x5D rfl True.intro (fun _ => True.intro) _ w' r hw' h1
    have := y1.append y2
    simp only [List.length_append] at *
    rw [show off + (w.length + b.length + w'.length) + 1 = off + w.length + b.length + w'.length + 1 by omega]
    simpa [ofJsons, elemTokens, Lex.token] using this
  · intro w b w' w'' j ht; cases ht
  · -- more elements
    intro w b w' rest j js hw _ hw' _ ih ih2
    refine ⟨by simp, fun off r h => ?_⟩
    have y1 := ih off w (w' ++ 0x2C :: (rest ++ 0x5D :: r)) hw (by rw [h]; simp) (hsep j hw' (by simp [Sep]))
    have h1 : src.drop (off + w.length + b.length) = w' ++ 0x2C :: (rest ++ 0x5D :: r) := by
      rw [Nat.add_assoc, ← List.length_append]
      exact drop_step (by rw [h]; simp)
    obtain ⟨y2, h2⟩ := byte .comma 0x2C rfl True.intro (fun _ => True.intro) _ w' _ hw' h1
    have := y1.append (y2.append (ih2.2 _ r h2))
    rw [elems_cons j js ih2.1]
    simp only [List.length_append, List.length_cons] at *
    rw [show off + (w.length + b.length + w'.length + (rest.length + 1)) + 1
      = off + w.length + b.length + w'.length + 1 + rest.length + 1 by omega]
    simpa [Lex.token] using this
  · -- one member
    intro w w1 w2 b w' k j hw hk hw1 hw2 _ hw' ih
    refine ⟨by simp, fun off r h => ?_⟩
    obtain ⟨y0, h0⟩ := key w w1 k hw hk hw1 off (w2 ++ (b ++ (w' ++ 0x7D :: r))) (by rw [h]; simp)
    have y1 := ih _ w2 (w' ++ 0x7D :: r) hw2 h0 (hsep j hw' (by simp [Sep]))
    have h1 : src.drop (off + (w ++ strBytes k ++ w1).length + 1 + w2.length + b.length) = w' ++ 0x7D :: r := by
      rw [Nat.add_assoc _ w2.length, ← List.length_append]
      exact drop_step (by rw [h0]; simp)
    obtain ⟨y2, _⟩ := byte .objC 0x7D rfl True.intro (fun _ => True.intro) _ w' r hw' h1
    have := y0.append (y1.append y2)
    have hl : off + (w ++ strBytes k ++ w1 ++ 0x3A :: (w2 ++ b ++ w')).length + 1
        = off + (w ++ strBytes k ++ w1).length + 1 + w2.length + b.length + w'.length + 1 := by
      simp only [List.length_append, List.length_cons]; omega
    rw [hl]
    simpa [ofMembers, entryTokens, Lex.token] using this
  · intro w w1 w2 b w' w'' k j ht; cases ht
  · -- more members
    intro w w1 w2 b w' rest k j ms hw hk hw1 hw2 _ hw' _ ih ih2
    refine ⟨by simp, fun off r h => ?_⟩
    obtain ⟨y0, h0⟩ := key w w1 k hw hk hw1 off (w2 ++ (b ++ (w' ++ 0x2C :: (rest ++ 0x7D :: r)))) (by rw [h]; simp)
    have y1 := ih _ w2 (w' ++ 0x2C :: (rest ++ 0x7D :: r)) hw2 h0 (hsep j hw' (by simp [Sep]))
    have h1 : src.drop (off + (w ++ strBytes k ++ w1).length + 1 + w2.length + b.length)
        = w' ++ 0x2C :: (rest ++ 0x7D :: r) := by
      rw [Nat.add_assoc _ w2.length, ← List.length_append]
      exact drop_step (by rw [h0]; simp)
    obtain ⟨y2, h2⟩ := byte .comma 0x2C rfl True.intro (fun _ => True.intro) _ w' _ hw' h1
    have := y0.append (y1.append (y2.append (ih2.2 _ r h2)))
    have hl : off + (w ++ strBytes k ++ w1 ++ 0x3A :: (w2 ++ b ++ w' ++ 0x2C :: rest)).length + 1
        = off + (w ++ strBytes k ++ w1).length + 1 + w2.length + b.length + w'.length + 1 + rest.length + 1 := by
      simp only [List.length_append, List.length_cons]; omega
    rw [hl, members_cons k j ms ih2.1]
    simpa [Lex.token] using this

theorem yields_then_none {src : List UInt8} {g : Bool} : ∀ (ts : List Token) (off off' : Nat), TokYields src g off ts off' →
    Call.next.run src g off' = (.none, src.length) →
    (history src g (List.replicate (ts.length + 1) .next) off).1.map Prod.snd = ts.map .token ++ [.none] := by
  intro ts
  induction ts with
  | nil =>
    intro off off' y hn
    injection y with _ y
    change off = off' at y
    subst y
    simp [history, hn]
  | cons t ts ih =>
    intro off off' y hn
    unfold TokYields at y
    simp only [List.length_cons, List.replicate_succ, history, List.map_cons, Prod.mk.injEq, List.cons.injEq] at y
    obtain ⟨⟨h3, h4⟩, h5⟩ := y
    have := ih (Call.next.run src g off).2 off' (by unfold TokYields; rw [← h4, ← h5]) hn
    rw [List.length_cons, List.replicate_succ, history]
    simp only [List.map_cons, List.cons_append]
    rw [this, h3.2]

/-- **C50.** Iterating a tokenizer over an accepted text (no trailing commas) yields exactly the tokens of the
parsed `Value`, in order, and then `None`. -/
theorem C50_tokens_of_text (g : Bool) (src : List UInt8) (h : Input g src) (cfg : ParseConfig)
    (hc : cfg.allowTrailingCommas = false) (v : Value) (hv : Value.parseWithConfig g src cfg = .ok v) :
    (history src g (List.replicate (v.tokens.length + 1) .next) 0).1.map Prod.snd = v.tokens.map .token ++ [.none] := by
  obtain ⟨j, ⟨h1, h2, h3⟩, rfl⟩ := (value_ok_iff h).mp hv
  rw [hc] at h1
  obtain ⟨w, b, w', hw, hb, hw', hs⟩ := h1
  have y := value_tokens h hb 0 w w' hw (by rw [hs]; simp) (stopAfter_ws hw' j)
  have hd : src.drop (0 + w.length + b.length) = w' := by
    rw [Nat.zero_add, hs, ← List.length_append, List.drop_left]
  have hlast : Call.next.run src g (0 + w.length + b.length) = (.none, src.length) := by
    have hl : 0 + w.length + b.length ≤ src.length := by rw [hs]; simp
    cases tok_cases h hl with
    | eof hw hn he hp => simp only [Call.run, hn]
    | tok w2 b2 t' l off' hw2 hd2 hb2 hv ha hs hlt hle hn he hp =>
      rw [hd] at hd2
      have := ws_iff.mp hw' b2 (by rw [hd2]; simp)
      rw [hb2] at this; cases this
    | err w2 b2 t e off' hw2 hd2 hb2 hlt hle heo hrp hn he hp =>
      rw [hd] at hd2
      have := ws_iff.mp hw' b2 (by rw [hd2]; simp)
      rw [hb2] at this; cases this
  exact yields_then_none _ _ _ y hlast

end

/-! ## Concrete cases -/
section
attribute [local instance] arch64

/-- A token after an error: `[`, then an unknown byte, then a number. -/
example : (Call.next.run (b8 "[? -1.5e3]") false
    (offsetAfter (b8 "[? -1.5e3]") false [.next, .next])).1
      = .token (.number ⟨.borrowed ['-', '1', '.', '5', 'e', '3']⟩) := by decide +kernel
/-- the lexeme `-1.5e3` -/
example : ∃ x, Lexeme (b8 "-1.5e3") (.number x) :=
  ⟨_, Lexeme.number ⟨true, [0x31], some [0x35], some (0x65, none, [0x33])⟩ _
    ⟨⟨⟨by simp, by simp [IsDigit]⟩, by simp⟩, by simp [Digits, IsDigit], by simp [Digits, IsDigit]⟩ (canonNum_denotes
    ⟨⟨⟨by simp, by simp [IsDigit]⟩, by simp⟩, by simp [Digits, IsDigit], by simp [Digits, IsDigit]⟩)⟩
/-- a stream of six tokens and `None` -/
example : ((history (b8 "{\"a\" : [true] }") false (List.replicate 8 .next) 0).1.map Prod.snd).getLast? = some .none := by
  decide +kernel
example : ∃ v, Value.parseWithConfig false (b8 "{\"a\":[1,null],\"b\":{}}") .new = .ok v :=
  Outcome.exists_ok (by decide +kernel)

end

/-! ## Instances: each theorem above applied to a concrete case that meets its hypotheses -/
section Instances
attribute [local instance] arch64

theorem lexEx_lit : (⟨true, [0x31], some [0x35], some (0x65, none, [0x33])⟩ : NumLit).Valid :=
  ⟨⟨⟨by simp, by simp [IsDigit]⟩, by simp⟩, by simp [Digits, IsDigit], by simp [Digits, IsDigit]⟩
theorem lexEx_ws (b : List UInt8) (h : b.all (fun x => x == 0x20 || x == 0x0A || x == 0x0D || x == 0x09) = true) : Ws b := by
  rw [ws_iff]
  intro x hx
  have := List.all_eq_true.mp h x hx
  simp only [Bool.or_eq_true, beq_iff_eq] at this
  rcases this with ((rfl | rfl) | rfl) | rfl <;> decide
example := C50_token_is_lexeme false (b8 "[? -1.5e3]") (by lit) [.next, .next] .next (.number ⟨.borrowed "-1.5e3".toList⟩) (by decide +kernel)
example := C50_lexeme_is_token false (b8 "[? -1.5e3]") (by lit) [.next, .next] .next (by decide) [0x20] (b8 "-1.5e3") (b8 "]")
  (.number ⟨.borrowed "-1.5e3".toList⟩) (lexEx_ws _ (by decide +kernel)) (Lexeme.number _ _ lexEx_lit (by unfold NumDenotes; decide +kernel))
  (by decide +kernel) (fun _ x h => by
    have : x = 0x5D := by
      have e : (b8 "]").head? = some 0x5D := by decide +kernel
      rw [e] at h; cases h; rfl
    subst this; simp [IsDigit])
example := C50_stream_covers_source true (b8 "{\"a\" : [true] }") (by lit) 8
  [.object, .string ⟨.json (.borrowed ['a']), .new false 1⟩, .colon, .array, .bool true, .arrayEnd, .objectEnd] (by decide +kernel)
example := C50_tokens_of_text true exSrc (exSrc_input _) .new rfl exVal (exSrc_parses _)

end Instances
end JustJson
