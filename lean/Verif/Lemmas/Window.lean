import Verif.Lemmas.Tokens
import Verif.Spec.Stream
/-! # A tokenizer on a part of a source

`q` is a source by itself, and `p ++ (q ++ t)` a source that contains it. A state within `q` is shifted by `k = p.length`. -/

namespace JustJson
open Spec

set_option linter.unusedSectionVars false

/-- The state is before the end of the part, or nothing follows the part. -/
def InPart (q t : List UInt8) (s : Nat) : Prop := s < q.length ∨ t = []

theorem InPart.mono {q t : List UInt8} {s s' : Nat} (h : InPart q t s') (hs : s ≤ s') : InPart q t s := by
  rcases h with h | h
  · exact .inl (by omega)
  · exact .inr h

/-- The outcome on the part and on the whole. -/
def Win (q t : List UInt8) (k off : Nat) {α : Type} (f : α → α) (out out' : Out Nat (Error Empty) α) : Prop :=
  match out with
  | .ok a s => off ≤ s ∧ (InPart q t s → out' = .ok (f a) (s + k))
  | .err e s => off ≤ s ∧ (InPart q t s → out' = .err (laterError k e) (s + k))
  | .panic _ => True

section
variable {p q t : List UInt8} {k : Nat}

theorem Win.bind {α β : Type} {off : Nat} {f : α → α} {f2 : β → β} {m m' : TokM α} {h h' : α → TokM β}
    (hm : Win q t k off f (m off) (m' (off + k)))
    (hh : ∀ a s, off ≤ s → Win q t k s f2 (h a s) (h' (f a) (s + k))) :
    Win q t k off f2 ((m >>= h) off) ((m' >>= h') (off + k)) := by
  rw [M.bind_eq, M.bind_eq]
  cases hx : m off with
  | ok a s =>
    rw [hx] at hm
    have h2 := hh a s hm.1
    simp only []
    cases hy : h a s with
    | ok b s2 =>
      rw [hy] at h2
      refine ⟨Nat.le_trans hm.1 h2.1, fun hg => ?_⟩
      rw [hm.2 (hg.mono h2.1)]
      exact h2.2 hg
    | err e s2 =>
      rw [hy] at h2
      refine ⟨Nat.le_trans hm.1 h2.1, fun hg => ?_⟩
      rw [hm.2 (hg.mono h2.1)]
      exact h2.2 hg
    | panic r => exact True.intro
  | err e s =>
    rw [hx] at hm
    refine ⟨hm.1, fun hg => ?_⟩
    rw [hm.2 hg]
  | panic r => exact True.intro

theorem Win.pure {α : Type} {off : Nat} {f : α → α} (a : α) : Win q t k off f (M.pure a off) (M.pure (f a) (off + k)) :=
  ⟨Nat.le_refl _, fun _ => rfl⟩

theorem Win.tokErr {α : Type} {off o : Nat} {f : α → α} (e : ErrorKind Empty) :
    Win q t k off f (tokErr o e off) (tokErr (o + k) e (off + k)) :=
  ⟨Nat.le_refl _, fun _ => rfl⟩

theorem Win.orPanic {α : Type} {off : Nat} {f : α → α} {x x' : Option α} {r : Panic} (h : ∀ a, x = some a → x' = some (f a)) :
    Win q t k off f (M.orPanic r x off) (M.orPanic r x' (off + k)) := by
  cases x with
  | none => exact True.intro
  | some a => rw [h a rfl]; exact Win.pure a

theorem Win.ite {α : Type} {off : Nat} {f : α → α} {c : Prop} [Decidable c] {a b a' b' : TokM α}
    (h1 : Win q t k off f (a off) (a' (off + k))) (h2 : Win q t k off f (b off) (b' (off + k))) :
    Win q t k off f ((if c then a else b) off) ((if c then a' else b') (off + k)) := by
  by_cases hc : c
  · rw [if_pos hc, if_pos hc]; exact h1
  · rw [if_neg hc, if_neg hc]; exact h2

variable (hk : k = p.length)
include hk

theorem win_get {off : Nat} (hoff : off < q.length ∨ t = []) : (p ++ (q ++ t))[off + k]? = q[off]? := by
  rw [List.getElem?_append_right (by omega)]
  rcases hoff with h | h
  · rw [List.getElem?_append_left (by omega)]
    congr 1; omega
  · subst h
    rw [List.append_nil]
    congr 1; omega

theorem win_nextByte (off : Nat) : Win q t k off (Option.map fun x => (x.1 + k, x.2)) (nextByte q off) (nextByte (p ++ (q ++ t)) (off + k)) := by
  unfold nextByte
  cases hb : q[off]? with
  | none =>
    refine ⟨Nat.le_refl _, fun hg => ?_⟩
    rw [win_get hk hg, hb]
    rfl
  | some b =>
    have hl : off < q.length := (List.getElem?_eq_some_iff.mp hb).1
    refine ⟨by omega, fun _ => ?_⟩
    rw [win_get hk (.inl hl), hb]
    simp only [Option.map_some]
    rw [show off + 1 + k = off + k + 1 by omega]

theorem win_peekByte (off : Nat) : Win q t k off id (peekByte q off) (peekByte (p ++ (q ++ t)) (off + k)) := by
  unfold peekByte
  exact ⟨Nat.le_refl _, fun hg => by rw [win_get hk hg]; rfl⟩

theorem win_drop {off : Nat} (h : off ≤ q.length ∨ t = []) : (p ++ (q ++ t)).drop (off + k) = q.drop off ++ t := by
  rw [show off + k = p.length + off by omega, ← List.drop_drop, List.drop_left]
  rcases h with h | h
  · rw [List.drop_append_of_le_length h]
  · subst h; simp

omit hk in
theorem runLen_part {f : UInt8 → Bool} : ∀ {x y : List UInt8}, runLen f x < x.length ∨ y = [] → runLen f (x ++ y) = runLen f x
  | [], y, h => by
    rcases h with h | h
    · simp at h
    · subst h; rfl
  | b :: x, y, h => by
    simp only [List.cons_append, runLen]
    split
    · rename_i hb
      rw [runLen_part]
      rcases h with h | h
      · simp only [runLen, hb, if_true, List.length_cons] at h; exact .inl (by omega)
      · exact .inr h
    · rfl

theorem win_runLen {off : Nat} (f : UInt8 → Bool) (h : InPart q t (off + runLen f (q.drop off))) :
    runLen f ((p ++ (q ++ t)).drop (off + k)) = runLen f (q.drop off) := by
  rcases h with h | h
  · rw [win_drop hk (.inl (by omega)), runLen_part (.inl (by rw [List.length_drop]; omega))]
  · rw [win_drop hk (.inr h), runLen_part (.inr h)]

theorem win_skipWs (off : Nat) : Win q t k off id (skipWs q off) (skipWs (p ++ (q ++ t)) (off + k)) := by
  unfold skipWs
  refine ⟨by omega, fun hg => ?_⟩
  rw [win_runLen hk isWs hg]
  simp only [id]
  congr 1; omega

theorem win_readOr (e : ErrorKind Empty) (off : Nat) :
    Win q t k off (fun x => (x.1 + k, x.2)) (readOr q e off) (readOr (p ++ (q ++ t)) e (off + k)) := by
  unfold readOr
  refine Win.bind (win_nextByte hk off) fun a s hs => ?_
  cases a with
  | none => exact ⟨Nat.le_refl _, fun _ => rfl⟩
  | some r => exact Win.pure _

theorem win_read (off : Nat) : Win q t k off (fun x => (x.1 + k, x.2)) (read q off) (read (p ++ (q ++ t)) (off + k)) :=
  win_readOr hk _ off

theorem win_nextNonWs (off : Nat) :
    Win q t k off (Option.map fun x => (x.1 + k, x.2)) (nextNonWs q off) (nextNonWs (p ++ (q ++ t)) (off + k)) := by
  unfold nextNonWs
  exact Win.bind (win_skipWs hk off) fun _ s _ => win_nextByte hk s

theorem win_readNonWs (off : Nat) :
    Win q t k off (fun x => (x.1 + k, x.2)) (readNonWs q off) (readNonWs (p ++ (q ++ t)) (off + k)) := by
  unfold readNonWs
  exact Win.bind (win_skipWs hk off) fun _ s _ => win_read hk s

theorem win_readHex : ∀ (n acc off : Nat), Win q t k off id (readHex q n acc off) (readHex (p ++ (q ++ t)) n acc (off + k))
  | 0, acc, off => Win.pure _
  | n + 1, acc, off => by
    unfold readHex
    refine Win.bind (win_read hk off) fun a s _ => ?_
    simp only []
    split
    · exact Win.tokErr _
    · exact win_readHex n _ s

theorem win_slice {a b : Nat} {x : List UInt8} (h : sliceBytes q a b = some x) :
    sliceBytes (p ++ (q ++ t)) (a + k) (b + k) = some x := by
  unfold sliceBytes at h ⊢
  split at h
  · rename_i hab
    rw [if_pos (by simp; omega)]
    injection h with h
    rw [win_drop hk (.inl (by omega)), show b + k - (a + k) = b - a by omega, List.take_append_of_le_length (by rw [List.length_drop]; omega), h]
  · cases h

theorem win_readLowSurrogate (d off : Nat) :
    Win q t k off id (readLowSurrogate q d off) (readLowSurrogate (p ++ (q ++ t)) d (off + k)) := by
  unfold readLowSurrogate
  split
  · refine Win.bind (win_read hk off) fun a s _ => ?_
    simp only []
    split
    · refine Win.bind (win_read hk s) fun a s _ => ?_
      simp only []
      split
      · refine Win.bind (win_readHex hk _ _ s) fun a s _ => ?_
        simp only [id]
        split
        · exact Win.bind (f := id) (Win.orPanic fun a h => h) fun a s _ => Win.pure _
        · exact Win.pure _
      · exact Win.pure _
    · exact Win.pure _
  · exact Win.pure _

variable [Arch]

theorem win_readStringEscape (info : JsonStringInfo) (off : Nat) :
    Win q t k off id (readStringEscape q info off) (readStringEscape (p ++ (q ++ t)) info (off + k)) := by
  unfold readStringEscape
  refine Win.bind (win_read hk off) fun a s _ => ?_
  simp only []
  split
  · exact Win.orPanic fun a h => h
  · split
    · refine Win.bind (win_readHex hk _ _ s) fun d s _ => ?_
      simp only [id]
      cases charFromU32 d with
      | some ch => exact Win.orPanic fun a h => h
      | none =>
        refine Win.bind (win_readLowSurrogate hk d s) fun x s _ => ?_
        cases x with
        | some m =>
          refine Win.bind (f := id) ?_ fun x s _ => Win.orPanic fun a h => h
          unfold M.ofRes
          cases charFromU32Unchecked m with
          | ok => exact Win.pure _
          | panic => exact True.intro
        | none => exact Win.tokErr _
    · exact Win.tokErr _

theorem win_readStringLoop (g : Bool) (start : Nat) : ∀ (n n' : Nat) (info : JsonStringInfo) (off : Nat), n ≤ n' →
    Win q t k off id (readStringLoop q g start n info off) (readStringLoop (p ++ (q ++ t)) g (start + k) n' info (off + k))
  | 0, _, info, off, _ => True.intro
  | n + 1, 0, info, off, h => by omega
  | n + 1, n' + 1, info, off, h => by
    unfold readStringLoop
    refine Win.bind (win_readOr hk _ off) fun a s _ => ?_
    obtain ⟨o, b⟩ := a
    simp only []
    by_cases hsafe : safeLookup (if g then SAFE_STRING_BYTES else SAFE_STRING_BYTES_VERIFY_UTF8) b = true
    · rw [if_pos hsafe, if_pos hsafe]
      refine Win.bind (f := id) (Win.orPanic fun a h => h) fun a s _ => ?_
      exact win_readStringLoop g start n n' _ s (by omega)
    · rw [if_neg hsafe, if_neg hsafe]
      split
      · refine Win.bind (f := id) (Win.orPanic fun a h => ?_) fun a s _ => ?_
        · rw [show start + k + 1 = start + 1 + k by omega]
          exact win_slice hk h
        · exact Win.bind (f := id) (Win.orPanic fun a h => h) fun a s _ => Win.pure _
      · split
        · refine Win.bind (win_readStringEscape hk info s) fun a s _ => ?_
          exact win_readStringLoop g start n n' _ s (by omega)
        · split
          · refine Win.bind (f := id) ?_ fun _ s _ => ?_
            · refine ⟨by simp only []; omega, fun hg => ?_⟩
              simp only [M.modify]
              rw [win_runLen hk _ hg]
              simp only [id]
              congr 1; omega
            · refine Win.bind (f := fun x => x + k) ⟨Nat.le_refl _, fun _ => rfl⟩ fun u s _ => ?_
              rw [show u + k - (o + k) = u - o by omega]
              refine Win.bind (f := id) (Win.orPanic fun a h => h) fun info s _ => ?_
              refine Win.bind (f := id) (Win.orPanic fun a h => win_slice hk h) fun r s _ => ?_
              simp only [id]
              cases utf8Decode r with
              | none => exact Win.tokErr _
              | some _ => exact win_readStringLoop g start n n' _ s (by omega)
          · split
            · exact Win.tokErr _
            · exact True.intro

theorem win_readString (g : Bool) (start off : Nat) :
    Win q t k off id (readString q g start off) (readString (p ++ (q ++ t)) g (start + k) (off + k)) := by
  unfold readString
  exact win_readStringLoop hk g start _ _ _ off (by simp; omega)

omit [Arch]

omit hk in
theorem intLoop_part : ∀ {x y : List UInt8} {rd : Bool}, (intLoop x rd).2 < x.length ∨ y = [] → intLoop (x ++ y) rd = intLoop x rd
  | [], y, rd, h => by
    rcases h with h | h
    · simp [intLoop] at h
    · subst h; rfl
  | b :: x, y, rd, h => by
    simp only [List.cons_append, intLoop]
    split
    · rfl
    · split
      · rename_i h1 hb
        rw [intLoop_part]
        rcases h with h | h
        · simp only [intLoop, h1, hb, if_true, if_false, List.length_cons] at h; exact .inl (by omega)
        · exact .inr h
      · rfl

theorem win_readDigits1 (e : ErrorKind Empty) (off : Nat) :
    Win q t k off id (readDigits1 q e off) (readDigits1 (p ++ (q ++ t)) e (off + k)) := by
  have e1 : ∀ (src : List UInt8) (o : Nat), readDigits1 src e o =
      if runLen isDigit (src.drop o) = 0 then .err ⟨o, e⟩ o else .ok () (o + runLen isDigit (src.drop o)) := by
    intro src o
    simp only [readDigits1, M.bind_eq, M.get, M.modify]
    by_cases h : runLen isDigit (src.drop o) = 0
    · simp [h, M.bind_eq, M.get, tokErr, M.throw]
    · simp [h]
  rw [e1, e1]
  by_cases h : runLen isDigit (q.drop off) = 0
  · rw [if_pos h]
    refine ⟨Nat.le_refl _, fun hg => ?_⟩
    rw [win_runLen hk isDigit (by rw [h]; exact hg), if_pos h]
    rfl
  · rw [if_neg h]
    refine ⟨by omega, fun hg => ?_⟩
    rw [win_runLen hk isDigit hg, if_neg h]
    simp only [id]
    congr 1; omega

theorem win_intLoop {off : Nat} (rd : Bool) (h : InPart q t (off + (intLoop (q.drop off) rd).2)) :
    intLoop ((p ++ (q ++ t)).drop (off + k)) rd = intLoop (q.drop off) rd := by
  rcases h with h | h
  · rw [win_drop hk (.inl (by omega)), intLoop_part (.inl (by rw [List.length_drop]; omega))]
  · rw [win_drop hk (.inr h), intLoop_part (.inr h)]

theorem win_readInt (st : InitialNumberState) (off : Nat) :
    Win q t k off id (readInt q st off) (readInt (p ++ (q ++ t)) st (off + k)) := by
  by_cases hz : st = .zero
  · unfold readInt
    rw [if_pos hz, if_pos hz]
    exact Win.pure _
  have e1 : ∀ (src : List UInt8) (o : Nat), readInt src st o =
      if (intLoop (src.drop o) (st == .digit)).1 then .ok () (o + (intLoop (src.drop o) (st == .digit)).2)
      else .err ⟨o + (intLoop (src.drop o) (st == .digit)).2, .expectedDigit⟩ (o + (intLoop (src.drop o) (st == .digit)).2) := by
    intro src o
    simp only [readInt, hz, if_false, M.bind_eq, M.get, M.modify]
    split
    · rfl
    · simp only [M.bind_eq, M.get, tokErr, M.throw]
  rw [e1, e1]
  by_cases h : (intLoop (q.drop off) (st == .digit)).1 = true
  · rw [if_pos h]
    refine ⟨by omega, fun hg => ?_⟩
    rw [win_intLoop hk _ hg, if_pos h]
    simp only [id]
    congr 1; omega
  · rw [if_neg h]
    refine ⟨by omega, fun hg => ?_⟩
    rw [win_intLoop hk _ hg, if_neg h]
    simp only [laterError]
    rw [show off + k + (intLoop (q.drop off) (st == .digit)).2 = off + (intLoop (q.drop off) (st == .digit)).2 + k by omega]

theorem win_readFrac (off : Nat) : Win q t k off id (readFrac q off) (readFrac (p ++ (q ++ t)) (off + k)) := by
  unfold readFrac
  refine Win.bind (win_peekByte hk off) fun a s _ => ?_
  simp only [id]
  split
  · exact Win.bind (win_nextByte hk s) fun a s _ => win_readDigits1 hk _ s
  · exact Win.pure _

theorem win_readExp (off : Nat) : Win q t k off id (readExp q off) (readExp (p ++ (q ++ t)) (off + k)) := by
  unfold readExp
  refine Win.bind (win_peekByte hk off) fun a s _ => ?_
  simp only [id]
  split
  · refine Win.bind (win_nextByte hk s) fun a s _ => ?_
    refine Win.bind (win_peekByte hk s) fun a s _ => ?_
    simp only [id]
    split
    · exact Win.bind (win_nextByte hk s) fun a s _ => win_readDigits1 hk _ s
    · exact win_readDigits1 hk _ s
  · exact Win.pure _

theorem win_readNumber (st : InitialNumberState) (start off : Nat) :
    Win q t k off id (readNumber q st start off) (readNumber (p ++ (q ++ t)) st (start + k) (off + k)) := by
  unfold readNumber
  refine Win.bind (win_readInt hk st off) fun a s _ => ?_
  refine Win.bind (win_readFrac hk s) fun a s _ => ?_
  refine Win.bind (win_readExp hk s) fun a s _ => ?_
  refine Win.bind (f := fun x => x + k) ⟨Nat.le_refl _, fun _ => rfl⟩ fun u s _ => ?_
  refine Win.bind (f := id) (Win.orPanic fun a h => win_slice hk h) fun r s _ => ?_
  exact Win.bind (f := id) (Win.orPanic fun a h => h) fun r s _ => Win.pure _

theorem win_readLiteral : ∀ (l : List UInt8) (off : Nat), Win q t k off id (readLiteral q l off) (readLiteral (p ++ (q ++ t)) l (off + k))
  | [], off => Win.pure _
  | x :: l, off => by
    unfold readLiteral
    refine Win.bind (win_readOr hk _ off) fun a s _ => ?_
    simp only []
    split
    · exact Win.tokErr _
    · exact win_readLiteral l s

variable [Arch]

theorem win_readPeek (g : Bool) (o : Nat) (b : UInt8) (off : Nat) :
    Win q t k off id (readPeek q g o b off) (readPeek (p ++ (q ++ t)) g (o + k) b (off + k)) := by
  unfold readPeek
  refine Win.ite (Win.pure _) <| Win.ite (Win.pure _) <| Win.ite (Win.pure _) <| Win.ite (Win.pure _) <| Win.ite (Win.pure _) <|
    Win.ite (Win.pure _) <| Win.ite ?_ <| Win.ite ?_ <| Win.ite ?_ <| Win.ite ?_ <| Win.ite ?_ <| Win.ite ?_ <| Win.ite ?_ ?_
  · exact Win.bind (win_readString hk g o off) fun _ _ _ => Win.pure _
  · exact Win.bind (win_readNumber hk _ o off) fun _ _ _ => Win.pure _
  · exact Win.bind (win_readNumber hk _ o off) fun _ _ _ => Win.pure _
  · exact Win.bind (win_readNumber hk _ o off) fun _ _ _ => Win.pure _
  · exact Win.bind (win_readLiteral hk _ off) fun _ _ _ => Win.pure _
  · exact Win.bind (win_readLiteral hk _ off) fun _ _ _ => Win.pure _
  · exact Win.bind (win_readLiteral hk _ off) fun _ _ _ => Win.pure _
  · exact Win.tokErr _

theorem win_nextOrEof (g : Bool) (off : Nat) : Win q t k off id (nextOrEof q g off) (nextOrEof (p ++ (q ++ t)) g (off + k)) := by
  unfold nextOrEof
  exact Win.bind (win_readNonWs hk off) fun a s _ => win_readPeek hk g _ _ s

theorem win_tokNext (g : Bool) (off : Nat) : Win q t k off id (tokNext q g off) (tokNext (p ++ (q ++ t)) g (off + k)) := by
  unfold tokNext
  refine Win.bind (win_nextNonWs hk off) fun a s _ => ?_
  cases a with
  | none => exact Win.pure _
  | some r => exact Win.bind (win_readPeek hk g _ _ s) fun a s _ => Win.pure _

omit [Arch] in
theorem win_tokPeek (off : Nat) : Win q t k off id (tokPeek q off) (tokPeek (p ++ (q ++ t)) (off + k)) := by
  unfold tokPeek
  exact Win.bind (win_skipWs hk off) fun a s _ => Win.bind (win_peekByte hk s) fun a s _ => Win.pure _

end
end JustJson
