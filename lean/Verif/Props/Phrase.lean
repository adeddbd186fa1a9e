import Verif.Spec.Phrase
import Verif.Props.Lexemes
/-! # The parser is the tokenizer and a grammar over tokens: C67 -/

namespace JustJson
open Spec

set_option linter.unusedSectionVars false

section
variable [Arch]

/-! ## From bytes to tokens -/

theorem value_phrase {src : List UInt8} {g : Bool} (hi : Input g src) {tc : Bool} {b : List UInt8} {j : Json} (hb : GValue tc b j) :
    ∃ ts, Phrase tc ts (ofJson j) ∧ ∀ off w r, Ws w → src.drop off = w ++ (b ++ r) → StopAfter j r →
      TokYields src g off ts (off + w.length + b.length) := by
  have hsep : ∀ {w r : List UInt8} {c : UInt8} (j : Json), Ws w → Sep c → StopAfter j (w ++ c :: r) :=
    fun j hw hc => stopAfter_of (sep_ws hw hc) j
  have scal : ∀ (l : Lex) (j : Json), l.Valid → Phrase tc [l.token] (ofJson j) → (∀ r, StopAfter j r → l.Stop r) →
      ∃ ts, Phrase tc ts (ofJson j) ∧ ∀ off w r, Ws w → src.drop off = w ++ (l.bytes ++ r) → StopAfter j r →
      TokYields src g off ts (off + w.length + l.bytes.length) := by
    intro l j hv ht hst
    exact ⟨_, ht, fun off w r hw h hs => TokYields.lex hi hw hv h (hst r hs)⟩
  -- a single byte lexeme
  have byte : ∀ (l : Lex) (c : UInt8), l.bytes = [c] → l.Valid → (∀ r, l.Stop r) → ∀ off w r, Ws w →
      src.drop off = w ++ c :: r → TokYields src g off [l.token] (off + w.length + 1)
        ∧ src.drop (off + w.length + 1) = r := by
    intro l c hl hv hst off w r hw h
    have h' : src.drop off = w ++ (l.bytes ++ r) := by rw [hl]; exact h
    have := TokYields.lex hi hw hv h' (hst r)
    rw [hl] at this
    refine ⟨this, ?_⟩
    have h'' : src.drop off = (w ++ [c]) ++ r := by rw [h]; simp
    have := drop_step h''
    rwa [List.length_append, ← Nat.add_assoc] at this
  have key : ∀ (w w1 : List UInt8) (k : List Item), Ws w → ItemsValid k → Ws w1 → ∀ off r,
      src.drop off = w ++ strBytes k ++ w1 ++ 0x3A :: r →
      TokYields src g off [.string (canonStr k), .colon] (off + (w ++ strBytes k ++ w1).length + 1)
        ∧ src.drop (off + (w ++ strBytes k ++ w1).length + 1) = r := by
    intro w w1 k hw hk hw1 off r h
    have h1 : src.drop off = w ++ ((Lex.str k).bytes ++ (w1 ++ 0x3A :: r)) := by rw [h]; simp [Lex.bytes]
    have y1 := TokYields.lex (l := .str k) hi hw hk h1 True.intro
    have h2 : src.drop (off + w.length + (Lex.str k).bytes.length) = w1 ++ 0x3A :: r := by
      rw [Nat.add_assoc, ← List.length_append]
      exact drop_step (by rw [h1]; simp)
    obtain ⟨y2, h3⟩ := byte .colon 0x3A rfl True.intro (fun _ => True.intro) _ w1 r hw1 h2
    have hlen : off + w.length + (Lex.str k).bytes.length + w1.length + 1 = off + (w ++ strBytes k ++ w1).length + 1 := by
      simp [Lex.bytes]; omega
    rw [hlen] at y2 h3
    exact ⟨y1.append y2, h3⟩
  -- the offset after whitespace and a value
  have after : ∀ {off : Nat} {w b r : List UInt8}, src.drop off = w ++ (b ++ r) → src.drop (off + w.length + b.length) = r := by
    intro off w b r h
    rw [Nat.add_assoc, ← List.length_append]
    exact drop_step (by rw [h]; simp)
  refine GValue.rec
    (motive_1 := fun b j _ => ∃ ts, Phrase tc ts (ofJson j) ∧ ∀ off w r, Ws w → src.drop off = w ++ (b ++ r) → StopAfter j r →
      TokYields src g off ts (off + w.length + b.length))
    (motive_2 := fun b js _ => ∃ ts, PhraseElems tc ts (ofJsons js) ∧ ∀ off r, src.drop off = b ++ 0x5D :: r →
      TokYields src g off (ts ++ [.arrayEnd]) (off + b.length + 1))
    (motive_3 := fun b ms _ => ∃ ts, PhraseEntries tc ts (ofMembers ms) ∧ ∀ off r, src.drop off = b ++ 0x7D :: r →
      TokYields src g off (ts ++ [.objectEnd]) (off + b.length + 1))
    ?_ ?_ ?_ ?_ ?_ ?_ ?_ ?_ ?_ ?_ ?_ ?_ ?_ ?_ ?_ hb
  · exact scal .null .null True.intro .null (fun _ _ => True.intro)
  · exact scal (.bool true) (.bool true) True.intro (.bool true) (fun _ _ => True.intro)
  · exact scal (.bool false) (.bool false) True.intro (.bool false) (fun _ _ => True.intro)
  · intro n hv
    exact scal (.num n) (.num n) hv (.number _) (fun _ h => h)
  · intro s hv
    exact scal (.str s) (.str s) hv (.string _) (fun _ _ => True.intro)
  · -- empty array
    intro v hv
    refine ⟨_, .emptyArray, fun off w r hw h _ => ?_⟩
    obtain ⟨y1, h1⟩ := byte .arrO 0x5B rfl True.intro (fun _ => True.intro) off w (v ++ 0x5D :: r) hw (by rw [h]; simp)
    obtain ⟨y2, _⟩ := byte .arrC 0x5D rfl True.intro (fun _ => True.intro) _ v r hv h1
    have := y1.append y2
    simp only [List.length_cons, List.length_append, List.length_nil] at *
    rw [show off + w.length + (v.length + (0 + 1) + 1) = off + w.length + 1 + v.length + 1 by omega]
    exact this
  · -- array
    rintro body js _ ⟨ts, hp, ih⟩
    refine ⟨_, .array ts _ hp, fun off w r hw h _ => ?_⟩
    obtain ⟨y1, h1⟩ := byte .arrO 0x5B rfl True.intro (fun _ => True.intro) off w (body ++ 0x5D :: r) hw (by rw [h]; simp)
    have := y1.append (ih _ r h1)
    simp only [List.length_cons, List.length_append, List.length_nil] at *
    rw [show off + w.length + (body.length + (0 + 1) + 1) = off + w.length + 1 + body.length + 1 by omega]
    exact this
  · -- empty object
    intro v hv
    refine ⟨_, .emptyObject, fun off w r hw h _ => ?_⟩
    obtain ⟨y1, h1⟩ := byte .objO 0x7B rfl True.intro (fun _ => True.intro) off w (v ++ 0x7D :: r) hw (by rw [h]; simp)
    obtain ⟨y2, _⟩ := byte .objC 0x7D rfl True.intro (fun _ => True.intro) _ v r hv h1
    have := y1.append y2
    simp only [List.length_cons, List.length_append, List.length_nil] at *
    rw [show off + w.length + (v.length + (0 + 1) + 1) = off + w.length + 1 + v.length + 1 by omega]
    exact this
  · -- object
    rintro body js _ ⟨ts, hp, ih⟩
    refine ⟨_, .object ts _ hp, fun off w r hw h _ => ?_⟩
    obtain ⟨y1, h1⟩ := byte .objO 0x7B rfl True.intro (fun _ => True.intro) off w (body ++ 0x7D :: r) hw (by rw [h]; simp)
    have := y1.append (ih _ r h1)
    simp only [List.length_cons, List.length_append, List.length_nil] at *
    rw [show off + w.length + (body.length + (0 + 1) + 1) = off + w.length + 1 + body.length + 1 by omega]
    exact this
  · -- one element
    rintro w b w' j hw _ hw' ⟨ts, hp, ih⟩
    refine ⟨_, .one ts _ hp, fun off r h => ?_⟩
    have h : src.drop off = w ++ (b ++ (w' ++ 0x5D :: r)) := by rw [h]; simp
    have y1 := ih off w _ hw h (hsep j hw' (by simp [Sep]))
    obtain ⟨y2, _⟩ := byte .arrC 0x5D rfl True.intro (fun _ => True.intro) _ w' r hw' (after h)
    have := y1.append y2
    simp only [List.length_append] at *
    rw [show off + (w.length + b.length + w'.length) + 1 = off + w.length + b.length + w'.length + 1 by omega]
    exact this
  · -- and a comma
    rintro w b w' w'' j ht hw _ hw' hw'' ⟨ts, hp, ih⟩
    refine ⟨_, .trailing ts _ ht hp, fun off r h => ?_⟩
    have h : src.drop off = w ++ (b ++ (w' ++ 0x2C :: (w'' ++ 0x5D :: r))) := by rw [h]; simp
    have y1 := ih off w _ hw h (hsep j hw' (by simp [Sep]))
    obtain ⟨y2, h2⟩ := byte .comma 0x2C rfl True.intro (fun _ => True.intro) _ w' _ hw' (after h)
    obtain ⟨y3, _⟩ := byte .arrC 0x5D rfl True.intro (fun _ => True.intro) _ w'' r hw'' h2
    have := (y1.append y2).append y3
    simp only [List.length_append, List.length_cons] at *
    rw [show off + (w.length + b.length + w'.length + (w''.length + 1)) + 1
      = off + w.length + b.length + w'.length + 1 + w''.length + 1 by omega]
    exact this
  · -- more elements
    rintro w b w' rest j js hw _ hw' _ ⟨ts, hp, ih⟩ ⟨ts2, hp2, ih2⟩
    refine ⟨_, .cons ts ts2 _ _ hp hp2, fun off r h => ?_⟩
    have h : src.drop off = w ++ (b ++ (w' ++ 0x2C :: (rest ++ 0x5D :: r))) := by rw [h]; simp
    have y1 := ih off w _ hw h (hsep j hw' (by simp [Sep]))
    obtain ⟨y2, h2⟩ := byte .comma 0x2C rfl True.intro (fun _ => True.intro) _ w' _ hw' (after h)
    have := y1.append (y2.append (ih2 _ r h2))
    simp only [List.length_append, List.length_cons] at *
    rw [show off + (w.length + b.length + w'.length + (rest.length + 1)) + 1
      = off + w.length + b.length + w'.length + 1 + rest.length + 1 by omega]
    simpa [Lex.token] using this
  · -- one member
    rintro w w1 w2 b w' k j hw hk hw1 hw2 _ hw' ⟨ts, hp, ih⟩
    refine ⟨_, .one ts _ _ hp, fun off r h => ?_⟩
    obtain ⟨y0, h0⟩ := key w w1 k hw hk hw1 off (w2 ++ (b ++ (w' ++ 0x7D :: r))) (by rw [h]; simp)
    have y1 := ih _ w2 (w' ++ 0x7D :: r) hw2 h0 (hsep j hw' (by simp [Sep]))
    obtain ⟨y2, _⟩ := byte .objC 0x7D rfl True.intro (fun _ => True.intro) _ w' r hw' (after h0)
    have := y0.append (y1.append y2)
    have hl : off + (w ++ strBytes k ++ w1 ++ 0x3A :: (w2 ++ b ++ w')).length + 1
        = off + (w ++ strBytes k ++ w1).length + 1 + w2.length + b.length + w'.length + 1 := by
      simp only [List.length_append, List.length_cons]; omega
    rw [hl]
    simpa [Lex.token] using this
  · -- and a comma
    rintro w w1 w2 b w' w'' k j ht hw hk hw1 hw2 _ hw' hw'' ⟨ts, hp, ih⟩
    refine ⟨_, .trailing ts _ _ ht hp, fun off r h => ?_⟩
    obtain ⟨y0, h0⟩ := key w w1 k hw hk hw1 off (w2 ++ (b ++ (w' ++ 0x2C :: (w'' ++ 0x7D :: r)))) (by rw [h]; simp)
    have y1 := ih _ w2 _ hw2 h0 (hsep j hw' (by simp [Sep]))
    obtain ⟨y2, h2⟩ := byte .comma 0x2C rfl True.intro (fun _ => True.intro) _ w' _ hw' (after h0)
    obtain ⟨y3, _⟩ := byte .objC 0x7D rfl True.intro (fun _ => True.intro) _ w'' r hw'' h2
    have := y0.append (y1.append (y2.append y3))
    have hl : off + (w ++ strBytes k ++ w1 ++ 0x3A :: (w2 ++ b ++ w' ++ 0x2C :: w'')).length + 1
        = off + (w ++ strBytes k ++ w1).length + 1 + w2.length + b.length + w'.length + 1 + w''.length + 1 := by
      simp only [List.length_append, List.length_cons]; omega
    rw [hl]
    simpa [Lex.token] using this
  · -- more members
    rintro w w1 w2 b w' rest k j ms hw hk hw1 hw2 _ hw' _ ⟨ts, hp, ih⟩ ⟨ts2, hp2, ih2⟩
    refine ⟨_, .cons ts ts2 _ _ _ hp hp2, fun off r h => ?_⟩
    obtain ⟨y0, h0⟩ := key w w1 k hw hk hw1 off (w2 ++ (b ++ (w' ++ 0x2C :: (rest ++ 0x7D :: r)))) (by rw [h]; simp)
    have y1 := ih _ w2 _ hw2 h0 (hsep j hw' (by simp [Sep]))
    obtain ⟨y2, h2⟩ := byte .comma 0x2C rfl True.intro (fun _ => True.intro) _ w' _ hw' (after h0)
    have := y0.append (y1.append (y2.append (ih2 _ r h2)))
    have hl : off + (w ++ strBytes k ++ w1 ++ 0x3A :: (w2 ++ b ++ w' ++ 0x2C :: rest)).length + 1
        = off + (w ++ strBytes k ++ w1).length + 1 + w2.length + b.length + w'.length + 1 + rest.length + 1 := by
      simp only [List.length_append, List.length_cons]; omega
    rw [hl]
    simpa [Lex.token] using this

/-! ## From tokens to bytes -/

/-- the source is these lexemes, with whitespace between them -/
inductive TokSpells : List UInt8 → List Token → Prop where
  | nil (w : List UInt8) : Ws w → TokSpells w []
  | cons (w r : List UInt8) (l : Lex) (ts : List Token) : Ws w → l.Valid → TokSpells r ts → TokSpells (w ++ (l.bytes ++ r)) (l.token :: ts)

theorem stream_spells {src : List UInt8} {g : Bool} (hi : Input g src) : ∀ (ts : List Token) (off : Nat), off ≤ src.length →
    (history src g (List.replicate (ts.length + 1) .next) off).1.map Prod.snd = ts.map .token ++ [.none] →
    TokSpells (src.drop off) ts
  | [], off, hl, hh => by
    simp only [history, List.length_nil, List.replicate_succ, List.replicate_zero, List.map_cons, List.map_nil, List.nil_append,
      List.cons.injEq] at hh
    cases tok_cases hi hl with
    | eof hw hn he hp => exact .nil _ hw
    | tok w b t' l off' hw hd hb hv ha hs hlt hle hn he hp => simp [Call.run, hn] at hh
    | err w b t e off' hw hd hb hlt hle heo hrp hn he hp => simp [Call.run, hn] at hh
  | t :: ts, off, hl, hh => by
    rw [List.length_cons, List.replicate_succ, history] at hh
    simp only [List.map_cons, List.cons_append, List.cons.injEq] at hh
    cases tok_cases hi hl with
    | eof hw hn he hp => simp [Call.run, hn] at hh
    | tok w b t' l off' hw hd hb hv ha hs hlt hle hn he hp =>
      simp only [Call.run, hn] at hh
      obtain ⟨h1, h2⟩ := hh
      injection h1 with h1
      subst h1
      have hdrop : src.drop off = w ++ (l.bytes ++ src.drop off') := by
        rw [hd]
        congr 1
        rw [← ha.2, ← List.drop_drop, hd]
        simp
      rw [hdrop]
      exact .cons _ _ _ _ hw hv (stream_spells hi ts off' hle h2)
    | err w b t e off' hw hd hb hlt hle heo hrp hn he hp => simp [Call.run, hn] at hh

theorem TokSpells.uncons {src : List UInt8} {t : Token} {ts : List Token} (h : TokSpells src (t :: ts)) :
    ∃ w r l, Ws w ∧ Lex.Valid l ∧ TokSpells r ts ∧ l.token = t ∧ src = w ++ (l.bytes ++ r) := by
  generalize hu : t :: ts = u at h
  cases h with
  | nil => cases hu
  | cons w r l ts hw hv hs => cases hu; exact ⟨w, r, l, hw, hv, hs, rfl, rfl⟩

theorem TokSpells.byte {src : List UInt8} {ts : List Token} {t : Token} (c : UInt8)
    (ht : ∀ l : Lex, l.token = t → l.bytes = [c]) (h : TokSpells src (t :: ts)) :
    ∃ w r, Ws w ∧ TokSpells r ts ∧ src = w ++ c :: r := by
  obtain ⟨w, r, l, hw, hv, hs, hl, rfl⟩ := h.uncons
  exact ⟨w, r, hw, hs, by rw [ht l hl]; rfl⟩

theorem phrase_value {tc : Bool} {ts : List Token} {v : Value} (h : Phrase tc ts v) : ∀ src rest, TokSpells src (ts ++ rest) →
    ∃ w b r j, Ws w ∧ src = w ++ (b ++ r) ∧ GValue tc b j ∧ v = ofJson j ∧ TokSpells r rest := by
  have b1 : ∀ l : Lex, l.token = .array → l.bytes = [0x5B] := by intro l h; cases l <;> first | rfl | cases h
  have b2 : ∀ l : Lex, l.token = .arrayEnd → l.bytes = [0x5D] := by intro l h; cases l <;> first | rfl | cases h
  have b3 : ∀ l : Lex, l.token = .object → l.bytes = [0x7B] := by intro l h; cases l <;> first | rfl | cases h
  have b4 : ∀ l : Lex, l.token = .objectEnd → l.bytes = [0x7D] := by intro l h; cases l <;> first | rfl | cases h
  have b5 : ∀ l : Lex, l.token = .comma → l.bytes = [0x2C] := by intro l h; cases l <;> first | rfl | cases h
  have b6 : ∀ l : Lex, l.token = .colon → l.bytes = [0x3A] := by intro l h; cases l <;> first | rfl | cases h
  have key : ∀ {src : List UInt8} {k : JsonString} {ts : List Token}, TokSpells src (.string k :: .colon :: ts) →
      ∃ w is w1 r, Ws w ∧ ItemsValid is ∧ Ws w1 ∧ k = canonStr is ∧ TokSpells r ts
        ∧ src = w ++ strBytes is ++ w1 ++ 0x3A :: r := by
    intro src k ts h
    obtain ⟨w, r, l, hw, hv, hs, hl, rfl⟩ := h.uncons
    obtain ⟨w1, r1, hw1, hs1, rfl⟩ := hs.byte _ b6
    cases l with
    | str is => cases hl; exact ⟨w, is, w1, r1, hw, hv, hw1, rfl, hs1, by simp [Lex.bytes]⟩
    | _ => cases hl
  refine Phrase.rec
    (motive_1 := fun ts v _ => ∀ src rest, TokSpells src (ts ++ rest) →
      ∃ w b r j, Ws w ∧ src = w ++ (b ++ r) ∧ GValue tc b j ∧ v = ofJson j ∧ TokSpells r rest)
    (motive_2 := fun ts vs _ => ∀ src rest, TokSpells src (ts ++ .arrayEnd :: rest) →
      ∃ b r js, src = b ++ 0x5D :: r ∧ GElems tc b js ∧ vs = ofJsons js ∧ TokSpells r rest)
    (motive_3 := fun ts es _ => ∀ src rest, TokSpells src (ts ++ .objectEnd :: rest) →
      ∃ b r ms, src = b ++ 0x7D :: r ∧ GMembers tc b ms ∧ es = ofMembers ms ∧ TokSpells r rest)
    ?_ ?_ ?_ ?_ ?_ ?_ ?_ ?_ ?_ ?_ ?_ ?_ ?_ ?_ h
  · intro src rest h
    obtain ⟨w, r, l, hw, hv, hs, hl, rfl⟩ := h.uncons
    cases l with
    | null => exact ⟨w, _, r, .null, hw, rfl, .null, rfl, hs⟩
    | _ => cases hl
  · intro b src rest h
    obtain ⟨w, r, l, hw, hv, hs, hl, rfl⟩ := h.uncons
    cases l with
    | bool c =>
      cases hl
      cases b with
      | true => exact ⟨w, _, r, .bool true, hw, rfl, .true, rfl, hs⟩
      | false => exact ⟨w, _, r, .bool false, hw, rfl, .false, rfl, hs⟩
    | _ => cases hl
  · intro n src rest h
    obtain ⟨w, r, l, hw, hv, hs, hl, rfl⟩ := h.uncons
    cases l with
    | num m => cases hl; exact ⟨w, _, r, .num m, hw, rfl, .num m hv, rfl, hs⟩
    | _ => cases hl
  · intro n src rest h
    obtain ⟨w, r, l, hw, hv, hs, hl, rfl⟩ := h.uncons
    cases l with
    | str m => cases hl; exact ⟨w, _, r, .str m, hw, rfl, .str m hv, rfl, hs⟩
    | _ => cases hl
  · intro src rest h
    obtain ⟨w, r, hw, hs, rfl⟩ := h.byte _ b1
    obtain ⟨w1, r1, hw1, hs1, rfl⟩ := hs.byte _ b2
    exact ⟨w, _, r1, .arr [], hw, by simp, .emptyArr w1 hw1, rfl, hs1⟩
  · intro ts vs _ ih src rest h
    obtain ⟨w, r, hw, hs, rfl⟩ := TokSpells.byte _ b1 h
    obtain ⟨b, r1, js, rfl, hg, rfl, hs1⟩ := ih r rest (by simpa using hs)
    exact ⟨w, _, r1, .arr js, hw, by simp, .arr b js hg, rfl, hs1⟩
  · intro src rest h
    obtain ⟨w, r, hw, hs, rfl⟩ := h.byte _ b3
    obtain ⟨w1, r1, hw1, hs1, rfl⟩ := hs.byte _ b4
    exact ⟨w, _, r1, .obj [], hw, by simp, .emptyObj w1 hw1, rfl, hs1⟩
  · intro ts vs _ ih src rest h
    obtain ⟨w, r, hw, hs, rfl⟩ := TokSpells.byte _ b3 h
    obtain ⟨b, r1, js, rfl, hg, rfl, hs1⟩ := ih r rest (by simpa using hs)
    exact ⟨w, _, r1, .obj js, hw, by simp, .obj b js hg, rfl, hs1⟩
  · intro ts v _ ih src rest h
    obtain ⟨w, b, r, j, hw, rfl, hg, rfl, hs⟩ := ih src _ h
    obtain ⟨w1, r1, hw1, hs1, rfl⟩ := hs.byte _ b2
    exact ⟨w ++ b ++ w1, r1, [j], by simp, .one w b w1 j hw hg hw1, rfl, hs1⟩
  · intro ts v htc _ ih src rest h
    obtain ⟨w, b, r, j, hw, rfl, hg, rfl, hs⟩ := ih src _ (by simpa using h)
    obtain ⟨w1, r1, hw1, hs1, rfl⟩ := hs.byte _ b5
    obtain ⟨w2, r2, hw2, hs2, rfl⟩ := hs1.byte _ b2
    exact ⟨w ++ b ++ w1 ++ 0x2C :: w2, r2, [j], by simp, .trailing w b w1 w2 j htc hw hg hw1 hw2, rfl, hs2⟩
  · intro ts ts2 v vs _ _ ih ih2 src rest h
    obtain ⟨w, b, r, j, hw, rfl, hg, rfl, hs⟩ := ih src _ (by simpa using h)
    obtain ⟨w1, r1, hw1, hs1, rfl⟩ := hs.byte _ b5
    obtain ⟨b2, r2, js, rfl, hg2, rfl, hs2⟩ := ih2 r1 rest hs1
    exact ⟨w ++ b ++ w1 ++ 0x2C :: b2, r2, j :: js, by simp, .cons w b w1 b2 j js hw hg hw1 hg2, rfl, hs2⟩
  · intro ts k v _ ih src rest h
    obtain ⟨w0, is, w1, r0, hw0, his, hw1, rfl, hs0, rfl⟩ := key h
    obtain ⟨w2, b, r, j, hw2, rfl, hg, rfl, hs⟩ := ih r0 _ hs0
    obtain ⟨w3, r1, hw3, hs1, rfl⟩ := hs.byte _ b4
    exact ⟨_, r1, [(is, j)], by simp, .one w0 w1 w2 b w3 is j hw0 his hw1 hw2 hg hw3, rfl, hs1⟩
  · intro ts k v htc _ ih src rest h
    obtain ⟨w0, is, w1, r0, hw0, his, hw1, rfl, hs0, rfl⟩ := key h
    obtain ⟨w2, b, r, j, hw2, rfl, hg, rfl, hs⟩ := ih r0 _ (by simpa using hs0)
    obtain ⟨w3, r1, hw3, hs1, rfl⟩ := hs.byte _ b5
    obtain ⟨w4, r2, hw4, hs2, rfl⟩ := hs1.byte _ b4
    exact ⟨_, r2, [(is, j)], by simp, .trailing w0 w1 w2 b w3 w4 is j htc hw0 his hw1 hw2 hg hw3 hw4, rfl, hs2⟩
  · intro ts ts2 k v vs _ _ ih ih2 src rest h
    obtain ⟨w0, is, w1, r0, hw0, his, hw1, rfl, hs0, rfl⟩ := key h
    obtain ⟨w2, b, r, j, hw2, rfl, hg, rfl, hs⟩ := ih r0 _ (by simpa using hs0)
    obtain ⟨w3, r1, hw3, hs1, rfl⟩ := hs.byte _ b5
    obtain ⟨b2, r2, js, rfl, hg2, rfl, hs2⟩ := ih2 r1 rest hs1
    exact ⟨_, r2, (is, j) :: js, by simp, .cons w0 w1 w2 b w3 b2 is j js hw0 his hw1 hw2 hg hw3 hg2, rfl, hs2⟩

theorem text_stream {src : List UInt8} {g : Bool} (h : Input g src) {tc : Bool} {j : Json} (ht : Text tc src j) :
    ∃ ts, Stream g src ts ∧ Phrase tc ts (ofJson j) := by
  obtain ⟨w, b, w', hw, hb, hw', hs⟩ := ht
  obtain ⟨ts, hp, y⟩ := value_phrase h hb
  have y := y 0 w w' hw (by rw [hs]; simp) (stopAfter_ws hw' j)
  refine ⟨ts, ?_, hp⟩
  have hd : src.drop (0 + w.length + b.length) = w' := by
    rw [Nat.zero_add, hs, ← List.length_append, List.drop_left]
  have hlast : Call.next.run src g (0 + w.length + b.length) = (.none, src.length) := by
    have hl : 0 + w.length + b.length ≤ src.length := by rw [hs]; simp
    cases tok_cases h hl with
    | eof hw hn he hp => simp only [Call.run, hn]
    | tok w2 b2 t' l off' hw2 hd2 hb2 hv ha hs hlt hle hn he hp =>
      rw [hd] at hd2
      have := ws_iff.mp hw' b2 (by rw [hd2]; simp)
      rw [hb2] at this; cases this
    | err w2 b2 t e off' hw2 hd2 hb2 hlt hle heo hrp hn he hp =>
      rw [hd] at hd2
      have := ws_iff.mp hw' b2 (by rw [hd2]; simp)
      rw [hb2] at this; cases this
  exact yields_then_none _ _ _ y hlast

theorem stream_text {src : List UInt8} {g : Bool} (h : Input g src) {tc : Bool} {ts : List Token} {v : Value}
    (hs : Stream g src ts) (hp : Phrase tc ts v) : ∃ j, Text tc src j ∧ v = ofJson j := by
  have hsp := stream_spells h ts 0 (Nat.zero_le _) hs
  obtain ⟨w, b, r, j, hw, hsrc, hg, hv, hr⟩ := phrase_value hp src [] (by simpa using hsp)
  refine ⟨j, ⟨w, b, r, hw, hg, ?_, by rw [hsrc]; simp⟩, hv⟩
  cases hr with
  | nil _ hw => exact hw

/-- **C67.** A source parses to `v` exactly if a tokenizer over it yields, without an error, the tokens of `v` in the grammar
over tokens, `v` is within the recursion limit and its root is permitted. -/
theorem C67_parser_is_tokenizer_and_grammar (g : Bool) (src : List UInt8) (h : Input g src) (cfg : ParseConfig) (v : Value) :
    Value.parseWithConfig g src cfg = .ok v ↔
      ∃ ts, Stream g src ts ∧ Phrase cfg.allowTrailingCommas ts v
        ∧ (∀ n, cfg.recursionLimit = some n → v.depth ≤ n) ∧ (cfg.allowAllTypesAtRoot = true ∨ v.IsContainer) := by
  rw [value_ok_iff h]
  constructor
  · rintro ⟨j, ⟨h1, h2, h3⟩, rfl⟩
    obtain ⟨ts, hs, hp⟩ := text_stream h h1
    refine ⟨ts, hs, hp, fun n hn => ?_, ?_⟩
    · rw [depth_ofJson.1]; exact h2 n hn
    · rw [container_ofJson]; exact h3
  · rintro ⟨ts, hs, hp, h2, h3⟩
    obtain ⟨j, hj, rfl⟩ := stream_text h hs hp
    refine ⟨j, ⟨hj, fun n hn => ?_, ?_⟩, rfl⟩
    · rw [← depth_ofJson.1]; exact h2 n hn
    · rw [container_ofJson] at h3; exact h3

theorem history_prefix {src : List UInt8} {g : Bool} : ∀ (n k off : Nat), n ≤ k →
    (history src g (List.replicate n .next) off).1 = ((history src g (List.replicate k .next) off).1).take n
  | 0, _, _, _ => by simp [history]
  | n + 1, 0, _, h => by omega
  | n + 1, k + 1, off, h => by
    simp only [List.replicate_succ, history, List.take_succ_cons]
    rw [history_prefix n k _ (by omega)]

theorem stream_unique {src : List UInt8} {g : Bool} {ts ts' : List Token} (h : Stream g src ts) (h' : Stream g src ts') :
    ts = ts' := by
  have key : ∀ {a b : List Token}, Stream g src a → Stream g src b → a.length ≤ b.length → a = b := by
    intro a b ha hb hl
    unfold Stream at ha hb
    rw [history_prefix _ _ _ (Nat.succ_le_succ hl), List.map_take, hb] at ha
    have inj : ∀ (a b : List Token), a.length ≤ b.length →
        (b.map Reply.token ++ [Reply.none]).take (a.length + 1) = a.map Reply.token ++ [Reply.none] → a = b := by
      intro a
      induction a with
      | nil =>
        intro b _ h
        cases b with
        | nil => rfl
        | cons t b => simp at h
      | cons x a ih =>
        intro b hl h
        cases b with
        | nil => simp at hl
        | cons t b =>
          simp only [List.length_cons, List.map_cons, List.cons_append, List.take_succ_cons, List.cons.injEq, Reply.token.injEq] at h
          rw [h.1, ih b (by simpa using hl) h.2]
    exact inj a b hl ha
  rcases Nat.le_total ts.length ts'.length with hl | hl
  · exact key h h' hl
  · exact (key h' h hl).symm

/-! ## The grammar is unambiguous -/

theorem Phrase.head {tc : Bool} {ts : List Token} {v : Value} (h : Phrase tc ts v) : ∃ t r, ts = t :: r ∧ t.StartsValue := by
  cases h <;> exact ⟨_, _, rfl, True.intro⟩

theorem PhraseElems.head {tc : Bool} {ts : List Token} {vs : List Value} (h : PhraseElems tc ts vs) :
    ∃ t r, ts = t :: r ∧ t.StartsValue := by
  cases h with
  | one _ _ h => exact h.head
  | trailing _ _ _ h => obtain ⟨t, r, rfl, ht⟩ := h.head; exact ⟨_, _, rfl, ht⟩
  | cons _ _ _ _ h => obtain ⟨t, r, rfl, ht⟩ := h.head; exact ⟨_, _, rfl, ht⟩

theorem PhraseEntries.head {tc : Bool} {ts : List Token} {es : Object} (h : PhraseEntries tc ts es) :
    ∃ k r, ts = .string k :: r := by
  cases h <;> exact ⟨_, _, rfl⟩

theorem phrase_prefix {tc : Bool} {ts : List Token} {v : Value} (h : Phrase tc ts v) :
    ∀ tc' ts' v' r r', Phrase tc' ts' v' → ts ++ r = ts' ++ r' → ts = ts' ∧ v = v' := by
  refine Phrase.rec
    (motive_1 := fun ts v _ => ∀ tc' ts' v' r r', Phrase tc' ts' v' → ts ++ r = ts' ++ r' → ts = ts' ∧ v = v')
    (motive_2 := fun ts vs _ => ∀ tc' ts' vs' r r', PhraseElems tc' ts' vs' → ts ++ .arrayEnd :: r = ts' ++ .arrayEnd :: r' →
      ts = ts' ∧ vs = vs')
    (motive_3 := fun ts es _ => ∀ tc' ts' es' r r', PhraseEntries tc' ts' es' → ts ++ .objectEnd :: r = ts' ++ .objectEnd :: r' →
      ts = ts' ∧ es = es')
    ?_ ?_ ?_ ?_ ?_ ?_ ?_ ?_ ?_ ?_ ?_ ?_ ?_ ?_ h
  · intro tc' ts' v' r r' h e; cases h <;> simp at e; exact ⟨rfl, rfl⟩
  · intro b tc' ts' v' r r' h e; cases h <;> simp at e; obtain ⟨rfl, _⟩ := e; exact ⟨rfl, rfl⟩
  · intro b tc' ts' v' r r' h e; cases h <;> simp at e; obtain ⟨rfl, _⟩ := e; exact ⟨rfl, rfl⟩
  · intro b tc' ts' v' r r' h e; cases h <;> simp at e; obtain ⟨rfl, _⟩ := e; exact ⟨rfl, rfl⟩
  · intro tc' ts' v' r r' h e
    cases h with
    | emptyArray => exact ⟨rfl, rfl⟩
    | array ts vs h => obtain ⟨t, q, rfl, ht⟩ := h.head; simp at e; rw [← e.1] at ht; exact ht.elim
    | _ => simp at e
  · intro ts vs hp ih tc' ts' v' r r' h e
    cases h with
    | emptyArray => obtain ⟨t, q, rfl, ht⟩ := hp.head; simp at e; rw [e.1] at ht; exact ht.elim
    | array ts' vs' h =>
      obtain ⟨rfl, rfl⟩ := ih tc' ts' vs' r r' h (by simpa using e)
      exact ⟨rfl, rfl⟩
    | _ => simp at e
  · intro tc' ts' v' r r' h e
    cases h with
    | emptyObject => exact ⟨rfl, rfl⟩
    | object ts vs h => obtain ⟨t, q, rfl⟩ := h.head; simp at e
    | _ => simp at e
  · intro ts vs hp ih tc' ts' v' r r' h e
    cases h with
    | emptyObject => obtain ⟨t, q, rfl⟩ := hp.head; simp at e
    | object ts' vs' h =>
      obtain ⟨rfl, rfl⟩ := ih tc' ts' vs' r r' h (by simpa using e)
      exact ⟨rfl, rfl⟩
    | _ => simp at e
  · intro ts v _ ih tc' ts' vs' r r' h e
    cases h with
    | one ts' v' h => obtain ⟨rfl, rfl⟩ := ih _ _ _ _ _ h e; exact ⟨rfl, rfl⟩
    | trailing ts' v' _ h =>
      rw [List.append_assoc] at e
      obtain ⟨rfl, rfl⟩ := ih _ _ _ _ _ h e
      simp at e
    | cons ts' rest v' vs h h2 =>
      rw [List.append_assoc] at e
      obtain ⟨rfl, rfl⟩ := ih _ _ _ _ _ h e
      simp at e
  · intro ts v _ _ ih tc' ts' vs' r r' h e
    rw [List.append_assoc] at e
    cases h with
    | one ts' v' h => obtain ⟨rfl, rfl⟩ := ih _ _ _ _ _ h e; simp at e
    | trailing ts' v' _ h =>
      rw [List.append_assoc] at e
      obtain ⟨rfl, rfl⟩ := ih _ _ _ _ _ h e
      exact ⟨rfl, rfl⟩
    | cons ts' rest v' vs h h2 =>
      rw [List.append_assoc] at e
      obtain ⟨rfl, rfl⟩ := ih _ _ _ _ _ h e
      obtain ⟨t, q, rfl, ht⟩ := h2.head
      simp at e
      rw [← e.1] at ht
      exact ht.elim
  · intro ts rest v vs _ hp2 ih ih2 tc' ts' vs' r r' h e
    rw [List.append_assoc] at e
    cases h with
    | one ts' v' h => obtain ⟨rfl, rfl⟩ := ih _ _ _ _ _ h e; simp at e
    | trailing ts' v' _ h =>
      rw [List.append_assoc] at e
      obtain ⟨rfl, rfl⟩ := ih _ _ _ _ _ h e
      obtain ⟨t, q, rfl, ht⟩ := hp2.head
      simp at e
      rw [e.1] at ht
      exact ht.elim
    | cons ts' rest' v' vs' h h2 =>
      rw [List.append_assoc] at e
      obtain ⟨rfl, rfl⟩ := ih _ _ _ _ _ h e
      obtain ⟨rfl, rfl⟩ := ih2 _ _ _ r r' h2 (by simpa using e)
      exact ⟨rfl, rfl⟩
  · intro ts k v _ ih tc' ts' vs' r r' h e
    cases h with
    | one ts' k' v' h =>
      simp only [List.cons_append, List.cons.injEq, Token.string.injEq, true_and] at e
      obtain ⟨rfl, e⟩ := e
      obtain ⟨rfl, rfl⟩ := ih _ _ _ _ _ h e; exact ⟨rfl, rfl⟩
    | trailing ts' k' v' _ h =>
      simp only [List.cons_append, List.cons.injEq, Token.string.injEq, true_and, List.append_assoc] at e
      obtain ⟨rfl, e⟩ := e
      obtain ⟨rfl, rfl⟩ := ih _ _ _ _ _ h e
      simp at e
    | cons ts' rest k' v' vs h h2 =>
      simp only [List.cons_append, List.cons.injEq, Token.string.injEq, true_and, List.append_assoc] at e
      obtain ⟨rfl, e⟩ := e
      obtain ⟨rfl, rfl⟩ := ih _ _ _ _ _ h e
      simp at e
  · intro ts k v _ _ ih tc' ts' vs' r r' h e
    cases h with
    | one ts' k' v' h =>
      simp only [List.cons_append, List.cons.injEq, Token.string.injEq, true_and, List.append_assoc] at e
      obtain ⟨rfl, e⟩ := e
      obtain ⟨rfl, rfl⟩ := ih _ _ _ _ _ h e; simp at e
    | trailing ts' k' v' _ h =>
      simp only [List.cons_append, List.cons.injEq, Token.string.injEq, true_and, List.append_assoc] at e
      obtain ⟨rfl, e⟩ := e
      obtain ⟨rfl, rfl⟩ := ih _ _ _ _ _ h e
      exact ⟨rfl, rfl⟩
    | cons ts' rest k' v' vs h h2 =>
      simp only [List.cons_append, List.cons.injEq, Token.string.injEq, true_and, List.append_assoc] at e
      obtain ⟨rfl, e⟩ := e
      obtain ⟨rfl, rfl⟩ := ih _ _ _ _ _ h e
      obtain ⟨t, q, rfl⟩ := h2.head
      simp at e
  · intro ts rest k v vs _ hp2 ih ih2 tc' ts' vs' r r' h e
    cases h with
    | one ts' k' v' h =>
      simp only [List.cons_append, List.cons.injEq, Token.string.injEq, true_and, List.append_assoc] at e
      obtain ⟨rfl, e⟩ := e
      obtain ⟨rfl, rfl⟩ := ih _ _ _ _ _ h e; simp at e
    | trailing ts' k' v' _ h =>
      simp only [List.cons_append, List.cons.injEq, Token.string.injEq, true_and, List.append_assoc] at e
      obtain ⟨rfl, e⟩ := e
      obtain ⟨rfl, rfl⟩ := ih _ _ _ _ _ h e
      obtain ⟨t, q, rfl⟩ := hp2.head
      simp at e
    | cons ts' rest' k' v' vs' h h2 =>
      simp only [List.cons_append, List.cons.injEq, Token.string.injEq, true_and, List.append_assoc] at e
      obtain ⟨rfl, e⟩ := e
      obtain ⟨rfl, rfl⟩ := ih _ _ _ _ _ h e
      obtain ⟨rfl, rfl⟩ := ih2 _ _ _ r r' h2 (by simpa using e)
      exact ⟨rfl, rfl⟩

/-- **C67.** The grammar over tokens is unambiguous: the tokens of a value are those of no other value, and no tokens of a value
are the beginning of the tokens of another. Permitting trailing commas does not change what tokens mean. -/
theorem C67_unambiguous (tc tc' : Bool) (ts ts' : List Token) (v v' : Value) (h : Phrase tc ts v) (h' : Phrase tc' ts' v')
    (hp : ts <+: ts') : ts = ts' ∧ v = v' := by
  obtain ⟨r, rfl⟩ := hp
  exact phrase_prefix h tc' _ v' r [] h' (by simp)

/-! ## Commas -/

/-- each two neighbours are related -/
def Chained (R : Token → Token → Prop) : List Token → Prop
  | [] => True
  | [_] => True
  | a :: b :: l => R a b ∧ Chained R (b :: l)

theorem Chained.append {R : Token → Token → Prop} : ∀ {l l' : List Token}, Chained R l → Chained R l' →
    (∀ a b, l.getLast? = some a → l'.head? = some b → R a b) → Chained R (l ++ l')
  | [], _, _, h', _ => h'
  | [a], [], _, _, _ => True.intro
  | [a], b :: l', _, h', hj => ⟨hj a b rfl rfl, h'⟩
  | a :: b :: l, l', h, h', hj => ⟨h.1, Chained.append (l := b :: l) h.2 h' (by simpa [List.getLast?_cons_cons] using hj)⟩

theorem Chained.at {R : Token → Token → Prop} {a b : Token} {post : List Token} : ∀ {pre : List Token},
    Chained R (pre ++ a :: b :: post) → R a b
  | [], h => h.1
  | [_], h => h.2.1
  | _ :: x :: pre, h => Chained.at (pre := x :: pre) h.2

/-- what commas may stand between -/
def CommaRel (tc : Bool) (a b : Token) : Prop :=
  (b = .comma → a.EndsValue) ∧ (a = .comma → b.StartsValue ∨ (tc = true ∧ b.Closes))

theorem commaRel_of {tc : Bool} {a b : Token} (ha : a ≠ .comma) (hb : b ≠ .comma) : CommaRel tc a b :=
  ⟨fun h => absurd h hb, fun h => absurd h ha⟩

theorem starts_ne {b : Token} (h : b.StartsValue) : b ≠ .comma := by rintro rfl; exact h
theorem ends_ne {b : Token} (h : b.EndsValue) : b ≠ .comma := by rintro rfl; exact h

/-- commas are well placed, and the ends are as told -/
structure Placed (tc : Bool) (S E : Token → Prop) (ts : List Token) : Prop where
  chain : Chained (CommaRel tc) ts
  first : ∃ t r, ts = t :: r ∧ S t
  last : ∃ r t, ts = r ++ [t] ∧ E t

theorem Placed.join {tc : Bool} {S E S' E' : Token → Prop} {l l' : List Token} (h : Placed tc S E l) (h' : Placed tc S' E' l')
    (hj : ∀ a b, E a → S' b → CommaRel tc a b) : Placed tc S E' (l ++ l') := by
  obtain ⟨c, ⟨t, r, rfl, ht⟩, f⟩ := h
  obtain ⟨c', f', ⟨r', t', rfl, ht'⟩⟩ := h'
  refine ⟨c.append c' ?_, ⟨t, _, rfl, ht⟩, ⟨t :: r ++ r', t', by simp, ht'⟩⟩
  intro a b ha hb
  obtain ⟨q, u, e, hu⟩ := f
  obtain ⟨u', q', e', hu'⟩ := f'
  rw [e] at ha
  rw [e'] at hb
  simp at ha hb
  rw [← ha, ← hb]
  exact hj _ _ hu hu'

theorem Placed.one {tc : Bool} {S E : Token → Prop} {t : Token} (hs : S t) (he : E t) : Placed tc S E [t] :=
  ⟨True.intro, ⟨t, [], rfl, hs⟩, ⟨[], t, rfl, he⟩⟩

theorem phrase_placed {tc : Bool} {ts : List Token} {v : Value} (h : Phrase tc ts v) :
    Placed tc Token.StartsValue Token.EndsValue ts := by
  have one : ∀ t, Placed tc (· = t) (· = t) [t] := fun t => .one rfl rfl
  have comma : ∀ {S E : Token → Prop} {l : List Token}, Placed tc S (fun t => t.EndsValue) l → (∀ t, E t ↔ t = .comma) →
      Placed tc S E (l ++ [.comma]) := by
    intro S E l h hE
    exact h.join (S' := (· = .comma)) (.one rfl ((hE _).mpr rfl)) (fun a b ha hb => ⟨fun _ => ha, fun e => absurd e (ends_ne ha)⟩)
  refine Phrase.rec
    (motive_1 := fun ts v _ => Placed tc Token.StartsValue Token.EndsValue ts)
    (motive_2 := fun ts vs _ => Placed tc Token.StartsValue (fun t => t.EndsValue ∨ (tc = true ∧ t = .comma)) ts)
    (motive_3 := fun ts es _ => Placed tc Token.StartsValue (fun t => t.EndsValue ∨ (tc = true ∧ t = .comma)) ts)
    ?_ ?_ ?_ ?_ ?_ ?_ ?_ ?_ ?_ ?_ ?_ ?_ ?_ ?_ h
  · exact .one True.intro True.intro
  · exact fun _ => .one True.intro True.intro
  · exact fun _ => .one True.intro True.intro
  · exact fun _ => .one True.intro True.intro
  · exact (Placed.one (S := Token.StartsValue) (E := (· = .array)) (t := .array) True.intro rfl).join
      (Placed.one (S := (· = .arrayEnd)) (E := Token.EndsValue) (t := .arrayEnd) rfl True.intro)
      (fun a b ha hb => commaRel_of (by rw [ha]; nofun) (by rw [hb]; nofun))
  · intro ts vs _ ih
    refine (Placed.one (S := Token.StartsValue) (E := (· = .array)) (t := .array) True.intro rfl).join (ih.join
      (Placed.one (S := (· = .arrayEnd)) (E := Token.EndsValue) (t := .arrayEnd) rfl True.intro) ?_) ?_
    · rintro a b ha rfl
      exact ⟨nofun, fun e => by subst e; rcases ha with ha | ha; exact ha.elim; exact .inr ⟨ha.1, True.intro⟩⟩
    · rintro a b rfl hb
      exact commaRel_of nofun (starts_ne hb)
  · exact (Placed.one (S := Token.StartsValue) (E := (· = .object)) (t := .object) True.intro rfl).join
      (Placed.one (S := (· = .objectEnd)) (E := Token.EndsValue) (t := .objectEnd) rfl True.intro)
      (fun a b ha hb => commaRel_of (by rw [ha]; nofun) (by rw [hb]; nofun))
  · intro ts vs _ ih
    refine (Placed.one (S := Token.StartsValue) (E := (· = .object)) (t := .object) True.intro rfl).join (ih.join
      (Placed.one (S := (· = .objectEnd)) (E := Token.EndsValue) (t := .objectEnd) rfl True.intro) ?_) ?_
    · rintro a b ha rfl
      exact ⟨nofun, fun e => by subst e; rcases ha with ha | ha; exact ha.elim; exact .inr ⟨ha.1, True.intro⟩⟩
    · rintro a b rfl hb
      exact commaRel_of nofun (starts_ne hb)
  · intro ts v _ ih
    exact ⟨ih.chain, ih.first, let ⟨r, t, e, ht⟩ := ih.last; ⟨r, t, e, .inl ht⟩⟩
  · intro ts v htc _ ih
    have := comma ih (E := (· = .comma)) (fun _ => Iff.rfl)
    exact ⟨this.chain, this.first, let ⟨r, t, e, ht⟩ := this.last; ⟨r, t, e, .inr ⟨htc, ht⟩⟩⟩
  · intro ts rest v vs _ _ ih ih2
    have := (comma ih (E := (· = .comma)) (fun _ => Iff.rfl)).join ih2
      (by rintro a b rfl hb; exact ⟨fun e => absurd e (starts_ne hb), fun _ => .inl hb⟩)
    simpa using this
  all_goals
    have kc : ∀ k, Placed tc Token.StartsValue (· = .colon) [.string k, .colon] := fun k =>
      (Placed.one (S := Token.StartsValue) (E := (· = .string k)) (t := .string k) True.intro rfl).join (one .colon)
        (fun a b ha hb => commaRel_of (by rw [ha]; nofun) (by rw [hb]; nofun))
    have kv : ∀ {k : JsonString} {l : List Token} {E : Token → Prop}, Placed tc Token.StartsValue E l →
        Placed tc Token.StartsValue E (.string k :: .colon :: l) := fun h =>
      (kc _).join h (by rintro a b rfl hb; exact commaRel_of nofun (starts_ne hb))
  · intro ts k v _ ih
    exact kv ⟨ih.chain, ih.first, let ⟨r, t, e, ht⟩ := ih.last; ⟨r, t, e, .inl ht⟩⟩
  · intro ts k v htc _ ih
    have := comma ih (E := (· = .comma)) (fun _ => Iff.rfl)
    exact kv ⟨this.chain, this.first, let ⟨r, t, e, ht⟩ := this.last; ⟨r, t, e, .inr ⟨htc, ht⟩⟩⟩
  · intro ts rest k v vs _ _ ih ih2
    have := (comma ih (E := (· = .comma)) (fun _ => Iff.rfl)).join ih2
      (by rintro a b rfl hb; exact ⟨fun e => absurd e (starts_ne hb), fun _ => .inl hb⟩)
    exact kv (by simpa using this)

/-- **C03.** In an accepted text, each comma stands directly after the last token of a value and directly before the first token
of a value (or key) or, if trailing commas are allowed, a closing bracket. So `[,]`, `{,}`, two commas in a row and a comma
before or after the root value are rejected under any configuration. -/
theorem C03_commas (g : Bool) (src : List UInt8) (h : Input g src) (cfg : ParseConfig) (v : Value)
    (hv : Value.parseWithConfig g src cfg = .ok v) (ts : List Token) (hs : Stream g src ts) (pre post : List Token)
    (hc : ts = pre ++ .comma :: post) :
    ∃ pre' a b post', pre = pre' ++ [a] ∧ post = b :: post' ∧ a.EndsValue
      ∧ (b.StartsValue ∨ (cfg.allowTrailingCommas = true ∧ b.Closes)) := by
  obtain ⟨ts', hs', hp, _⟩ := (C67_parser_is_tokenizer_and_grammar g src h cfg v).mp hv
  have := stream_unique hs hs'
  subst this
  obtain ⟨hch, ⟨t, r, e, ht⟩, r', t', e', ht'⟩ := phrase_placed hp
  rcases List.eq_nil_or_concat pre with rfl | ⟨pre', a, rfl⟩
  · rw [e] at hc; cases hc; exact ht.elim
  · cases post with
    | nil =>
      rw [e'] at hc
      have := List.append_inj_right' hc rfl
      cases this
      exact ht'.elim
    | cons b post' =>
      subst hc
      have h1 : CommaRel _ a .comma := Chained.at (pre := pre') (post := b :: post') (by simpa using hch)
      have h2 : CommaRel _ .comma b := Chained.at (pre := pre' ++ [a]) (post := post') (by simpa using hch)
      exact ⟨pre', a, b, post', by simp, rfl, h1.1 rfl, h2.2 rfl⟩

end

/-! ## Concrete cases -/
section
attribute [local instance] arch64

/-- the tokens of `{"k":[null,],}`, accepted only with trailing commas -/
def phraseEx : List Token :=
  [.object, .string ⟨.json (.borrowed ['k']), ⟨1⟩⟩, .colon, .array, .null, .comma, .arrayEnd, .comma, .objectEnd]

example : Phrase true phraseEx (.object [(⟨.json (.borrowed ['k']), ⟨1⟩⟩, .array [.null])]) :=
  .object _ _ (.trailing [.array, .null, .comma, .arrayEnd] _ _ rfl (.array [.null, .comma] _ (.trailing [.null] _ rfl .null)))
example : Stream true (b8 " {\"k\" : [null,],}") phraseEx := by unfold Stream; decide +kernel
example : ∃ v, Value.parseWithConfig true (b8 " {\"k\" : [null,],}") ParseConfig.new.allowingTrailingCommas = .ok v :=
  Outcome.exists_ok (by decide +kernel)

end

/-! ## Instances: each theorem above applied to a concrete case that meets its hypotheses -/
section Instances
attribute [local instance] arch64

theorem phraseEx_phrase : Phrase true phraseEx (.object [(⟨.json (.borrowed ['k']), ⟨1⟩⟩, .array [.null])]) :=
  .object _ _ (.trailing [.array, .null, .comma, .arrayEnd] _ _ rfl (.array [.null, .comma] _ (.trailing [.null] _ rfl .null)))
theorem phraseEx_parses : Value.parseWithConfig true (b8 " {\"k\" : [null,],}") ParseConfig.new.allowingTrailingCommas
    = .ok (.object [(⟨.json (.borrowed ['k']), ⟨1⟩⟩, .array [.null])]) := value_same (by decide +kernel)
example := (C67_parser_is_tokenizer_and_grammar true (b8 " {\"k\" : [null,],}") (by lit) ParseConfig.new.allowingTrailingCommas _).mp phraseEx_parses
example := C67_unambiguous true true phraseEx phraseEx _ _ phraseEx_phrase phraseEx_phrase (List.prefix_refl _)
example := C03_commas true (b8 " {\"k\" : [null,],}") (by lit) ParseConfig.new.allowingTrailingCommas _ phraseEx_parses phraseEx
  (by unfold Stream; decide +kernel) (phraseEx.take 5) (phraseEx.drop 6) rfl

end Instances
end JustJson
