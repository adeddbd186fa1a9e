import Verif.Lemmas.Strings
/-! # Equality, order and hashing of strings -/

namespace JustJson
open Spec

set_option linter.unusedSectionVars false

/-! ## Byte order of UTF-8 is code point order -/

theorem cmpBytes_append_same (p a b : List UInt8) : cmpBytes (p ++ a) (p ++ b) = cmpBytes a b := by
  induction p with
  | nil => rfl
  | cons x p ih =>
    show (compare x.toNat x.toNat).then (cmpBytes (p ++ a) (p ++ b)) = _
    rw [ih, Nat.compare_eq_eq.mpr rfl]
    rfl

theorem cmpBytes_lt {x y : UInt8} (h : x.toNat < y.toNat) (a b : List UInt8) : cmpBytes (x :: a) (y :: b) = .lt := by
  show (compare x.toNat y.toNat).then _ = _
  rw [Nat.compare_eq_lt.mpr h]
  rfl

theorem cmpBytes_gt {x y : UInt8} (h : y.toNat < x.toNat) (a b : List UInt8) : cmpBytes (x :: a) (y :: b) = .gt := by
  show (compare x.toNat y.toNat).then _ = _
  rw [Nat.compare_eq_gt.mpr h]
  rfl

theorem cmpBytes_eq {x y : UInt8} (h : x.toNat = y.toNat) (a b : List UInt8) : cmpBytes (x :: a) (y :: b) = cmpBytes a b := by
  show (compare x.toNat y.toNat).then _ = _
  rw [Nat.compare_eq_eq.mpr h]
  rfl

theorem cmpBytes_swap : ∀ a b, cmpBytes b a = (cmpBytes a b).swap := by
  intro a
  induction a with
  | nil => intro b; cases b <;> rfl
  | cons x a ih =>
    intro b
    cases b with
    | nil => rfl
    | cons y b =>
      rcases Nat.lt_trichotomy x.toNat y.toNat with h | h | h
      · rw [cmpBytes_lt h, cmpBytes_gt h]; rfl
      · rw [cmpBytes_eq h, cmpBytes_eq h.symm, ih]
      · rw [cmpBytes_lt h, cmpBytes_gt h]; rfl

theorem cmpBytes_le {x y : UInt8} (h : x.toNat ≤ y.toNat) {a b : List UInt8} (ht : x.toNat = y.toNat → cmpBytes a b = .lt) :
    cmpBytes (x :: a) (y :: b) = .lt := by
  by_cases he : x.toNat = y.toNat
  · rw [cmpBytes_eq he, ht he]
  · exact cmpBytes_lt (by omega) a b

theorem encode_lt {c d : Char} (h : c.toNat < d.toNat) (a b : List UInt8) :
    cmpBytes (encodeChar c ++ a) (encodeChar d ++ b) = .lt := by
  rcases encodeChar_cases c with ⟨h1, b0, e, p0⟩ | ⟨h1, h2, b0, b1, e, p0, p1⟩ | ⟨h1, h2, b0, b1, b2, e, p0, p1, p2⟩
    | ⟨h1, h2, b0, b1, b2, b3, e, p0, p1, p2, p3⟩ <;>
  rcases encodeChar_cases d with ⟨k1, d0, e', q0⟩ | ⟨k1, k2, d0, d1, e', q0, q1⟩ | ⟨k1, k2, d0, d1, d2, e', q0, q1, q2⟩
    | ⟨k1, k2, d0, d1, d2, d3, e', q0, q1, q2, q3⟩ <;> rw [e, e']
  all_goals first
    | (exfalso; omega)
    | exact cmpBytes_lt (by omega) _ _
    | skip
  · refine cmpBytes_le (by omega) (fun r0 => ?_)
    exact cmpBytes_lt (by omega) _ _
  · refine cmpBytes_le (by omega) (fun r0 => ?_)
    refine cmpBytes_le (by omega) (fun r1 => ?_)
    exact cmpBytes_lt (by omega) _ _
  · refine cmpBytes_le (by omega) (fun r0 => ?_)
    refine cmpBytes_le (by omega) (fun r1 => ?_)
    refine cmpBytes_le (by omega) (fun r2 => ?_)
    exact cmpBytes_lt (by omega) _ _

theorem utf8_cons_ne (c : Char) (s : Str) : ∃ b t, utf8 (c :: s) = b :: t := by
  rw [utf8_cons]
  cases h : encodeChar c with
  | nil => exact absurd h (encodeChar_ne_nil c)
  | cons b t => exact ⟨b, t ++ utf8 s, rfl⟩

theorem cmpStr_eq : ∀ s t, cmpStr s t = cmpChars s t := by
  intro s
  unfold cmpStr
  induction s with
  | nil =>
    intro t
    cases t with
    | nil => rfl
    | cons c t => obtain ⟨b, r, h⟩ := utf8_cons_ne c t; rw [h]; rfl
  | cons c s ih =>
    intro t
    cases t with
    | nil => obtain ⟨b, r, h⟩ := utf8_cons_ne c s; rw [h]; rfl
    | cons d t =>
      rw [utf8_cons, utf8_cons, cmpChars]
      rcases Nat.lt_trichotomy c.toNat d.toNat with h | h | h
      · rw [encode_lt h, Nat.compare_eq_lt.mpr h]
      · rw [char_ext h, cmpBytes_append_same, Nat.compare_eq_eq.mpr rfl, ih]
      · rw [cmpBytes_swap, encode_lt h, Nat.compare_eq_gt.mpr h]; rfl

/-! ## The code point order -/

theorem cmpChars_compares : ∀ s t, Compares (cmpChars s t) s t := by
  intro s
  unfold Compares
  induction s with
  | nil =>
    intro t
    cases t with
    | nil => exact ⟨⟨fun h => (by cases h), fun h => (by cases h)⟩, ⟨fun _ => rfl, fun _ => rfl⟩, ⟨fun h => (by cases h), fun h => (by cases h)⟩⟩
    | cons c t =>
      exact ⟨⟨fun _ => .nil c t, fun _ => rfl⟩, ⟨fun h => (by cases h), fun h => (by cases h)⟩, ⟨fun h => (by cases h), fun h => (by cases h)⟩⟩
  | cons c s ih =>
    intro t
    cases t with
    | nil =>
      exact ⟨⟨fun h => (by cases h), fun h => (by cases h)⟩, ⟨fun h => (by cases h), fun h => (by cases h)⟩, ⟨fun _ => .nil c s, fun _ => rfl⟩⟩
    | cons d t =>
      rw [cmpChars]
      rcases Nat.lt_trichotomy c.toNat d.toNat with h | h | h
      · rw [Nat.compare_eq_lt.mpr h]
        refine ⟨⟨fun _ => .head c d s t h, fun _ => rfl⟩, ⟨fun h => (by cases h), fun he => ?_⟩, ⟨fun h => (by cases h), fun he => ?_⟩⟩
        · injection he with he; subst he; omega
        · cases he with
          | head _ _ _ _ h2 => omega
          | tail => omega
      · have hcd := char_ext h
        subst hcd
        rw [Nat.compare_eq_eq.mpr rfl]
        obtain ⟨i1, i2, i3⟩ := ih t
        refine ⟨?_, ?_, ?_⟩
        · show cmpChars s t = _ ↔ _
          rw [i1]
          refine ⟨.tail c s t, fun h => ?_⟩
          cases h with
          | head _ _ _ _ h2 => omega
          | tail _ _ _ h => exact h
        · show cmpChars s t = _ ↔ _
          rw [i2]
          simp
        · show cmpChars s t = _ ↔ _
          rw [i3]
          refine ⟨.tail c t s, fun h => ?_⟩
          cases h with
          | head _ _ _ _ h2 => omega
          | tail _ _ _ h => exact h
      · rw [Nat.compare_eq_gt.mpr h]
        refine ⟨⟨fun h => (by cases h), fun he => ?_⟩, ⟨fun h => (by cases h), fun he => ?_⟩, ⟨fun _ => .head d c t s h, fun _ => rfl⟩⟩
        · cases he with
          | head _ _ _ _ h2 => omega
          | tail => omega
        · injection he with he; subst he; omega

theorem Compares.swap {o : Ordering} {s t : Str} (h : Compares o s t) : Compares o.swap t s := by
  obtain ⟨h1, h2, h3⟩ := h
  refine ⟨?_, ?_, ?_⟩
  · rw [← h3]; cases o <;> decide
  · rw [show (t = s) ↔ (s = t) from eq_comm, ← h2]; cases o <;> decide
  · rw [← h1]; cases o <;> decide

theorem cmpStr_compares (s t : Str) : Compares (cmpStr s t) s t := by
  rw [cmpStr_eq]; exact cmpChars_compares s t

theorem CpLt.trans {a b c : Str} (h1 : CpLt a b) (h2 : CpLt b c) : CpLt a c := by
  induction h1 generalizing c with
  | nil x t => cases h2 <;> exact .nil _ _
  | head x y s t h =>
    cases h2 with
    | head _ z _ r h' => exact .head _ _ _ _ (by omega)
    | tail _ _ r h' => exact .head _ _ _ _ h
  | tail x s t h ih =>
    cases h2 with
    | head _ z _ r h' => exact .head _ _ _ _ h'
    | tail _ _ r h' => exact .tail _ _ _ (ih h')

theorem CpLt.irrefl {a : Str} : ¬ CpLt a a := by
  intro h
  obtain ⟨h1, h2, _⟩ := cmpChars_compares a a
  have e1 := h1.mpr h
  rw [h2.mpr rfl] at e1
  cases e1

section
variable [Arch]

theorem Shape.partialCmpStr {j : JsonString} {t : Str} (h : Shape j t) (s : Str) :
    j.partialCmpStr s = .ok (some (cmpChars t s)) := by
  have hd := h.decoded
  cases h with
  | esc is hv hl he =>
    obtain ⟨h1, h2⟩ := Shape.esc_facts hv hl he
    unfold JsonString.partialCmpStr
    have hs : (canonStr is).source = .json (.borrowed (bodyChars is)) := rfl
    rw [hs]
    simp only [h1, if_true]
    rw [hd]
    rfl
  | plain a n hn =>
    unfold JsonString.partialCmpStr
    simp only [info_hasEscapes hn]
    rw [cmpStr_eq]; rfl
  | raw a h1 =>
    unfold JsonString.partialCmpStr
    simp only []
    rw [cmpStr_eq]

theorem cmpChars_swap (s t : Str) : (cmpChars s t).swap = cmpChars t s := by
  have h1 := (cmpChars_compares s t).swap
  have h2 := cmpChars_compares t s
  cases h : cmpChars t s with
  | lt => exact h1.1.mpr (h2.1.mp h)
  | eq => exact h1.2.1.mpr (h2.2.1.mp h)
  | gt => exact h1.2.2.mpr (h2.2.2.mp h)

theorem Shape.cmp {j k : JsonString} {s t : Str} (h : Shape j s) (h' : Shape k t) : j.cmp k = .ok (cmpChars s t) := by
  have hd := h.decoded
  have hd' := h'.decoded
  have hp := h.partialCmpStr
  have hp' := h'.partialCmpStr
  cases h with
  | esc is hv hl he =>
    obtain ⟨h1, h2⟩ := Shape.esc_facts hv hl he
    have hs : (canonStr is).source = .json (.borrowed (bodyChars is)) := rfl
    cases h' with
    | esc is' hv' hl' he' =>
      have hs' : (canonStr is').source = .json (.borrowed (bodyChars is')) := rfl
      unfold JsonString.cmp
      rw [hs, hs']
      simp only [h1, Bool.not_true, Bool.false_and]
      rw [hd, hd']
      rfl
    | plain a n hn =>
      unfold JsonString.cmp
      rw [hs]
      simp only [h1, Bool.not_true, Bool.false_and]
      rw [hd, hd']
      rfl
    | raw a =>
      unfold JsonString.cmp
      rw [hs]
      simp only []
      rw [hp]
      rfl
  | plain a n hn =>
    cases h' with
    | esc is' hv' hl' he' =>
      obtain ⟨h1', h2'⟩ := Shape.esc_facts hv' hl' he'
      have hs' : (canonStr is').source = .json (.borrowed (bodyChars is')) := rfl
      unfold JsonString.cmp
      rw [hs']
      simp only [h1', Bool.not_true, Bool.and_false]
      rw [hd, hd']
      rfl
    | plain b m hm =>
      unfold JsonString.cmp
      simp only [info_hasEscapes hn, info_hasEscapes hm, Bool.not_false, Bool.and_true, if_true]
      rw [cmpStr_eq]
    | raw b =>
      unfold JsonString.cmp
      simp only []
      rw [hp]
      rfl
  | raw a =>
    cases h' with
    | esc is' hv' hl' he' =>
      have hs' : (canonStr is').source = .json (.borrowed (bodyChars is')) := rfl
      unfold JsonString.cmp
      rw [hs']
      simp only []
      rw [hp']
      show Res.ok _ = _
      rw [cmpChars_swap]
    | plain b m hm =>
      unfold JsonString.cmp
      simp only []
      rw [hp']
      show Res.ok _ = _
      rw [cmpChars_swap]
    | raw b =>
      unfold JsonString.cmp
      simp only []
      rw [cmpStr_eq]

/-! ## Equality -/

/-- one is JSON source, the other raw text -/
def mixed (j k : JsonString) : Bool := j.asJsonStr.isSome != k.asJsonStr.isSome

theorem Shape.eq {j k : JsonString} {s t : Str} (h : Shape j s) (h' : Shape k t) :
    j.eq k = .ok (decide (s = t ∧ (mixed j k = true → j.len = k.len))) := by
  have hd := h.decoded
  have hd' := h'.decoded
  have hq := h.eqStr
  have hq' := h'.eqStr
  cases h with
  | esc is hv hl he =>
    obtain ⟨h1, h2⟩ := Shape.esc_facts hv hl he
    have hs : (canonStr is).source = .json (.borrowed (bodyChars is)) := rfl
    cases h' with
    | esc is' hv' hl' he' =>
      obtain ⟨h1', h2'⟩ := Shape.esc_facts hv' hl' he'
      have hs' : (canonStr is').source = .json (.borrowed (bodyChars is')) := rfl
      have hm : mixed (canonStr is) (canonStr is') = false := rfl
      have hx : (Decoded.new (.json (.borrowed (bodyChars is))) (canonStr is).info).collect = .ok (codeText is) := hd
      have hy : (Decoded.new (.json (.borrowed (bodyChars is'))) (canonStr is).info).collect = .ok (codeText is') := by
        have hd' : (Decoded.new (.json (.borrowed (bodyChars is'))) (canonStr is').info).collect = .ok (codeText is') := hd'
        rw [← hd']
        unfold Decoded.new
        simp only [h1, h1']
      unfold JsonString.eq
      rw [hs, hs']
      simp only [h1, h1', hm]
      rw [hx, hy, h2, h2']
      by_cases hlen : Str.len (codeText is) = Str.len (codeText is')
      · rw [if_pos hlen]
        show Res.ok _ = _
        congr 1
        rw [Bool.eq_iff_iff, zipAllEq_of_len hlen, decide_eq_true_iff]
        simp
      · rw [if_neg hlen]
        have : codeText is ≠ codeText is' := fun h => hlen (by rw [h])
        simp [this]
    | plain a n hn =>
      have hm : mixed (canonStr is) ⟨.json a, .new false n⟩ = false := rfl
      unfold JsonString.eq
      rw [hs]
      simp only [h1, info_hasEscapes hn]
      rw [hq, hm]
      simp
    | raw a h1 h2 =>
      have hm : mixed (canonStr is) ⟨.raw a, .new true (cntS a.asStr)⟩ = true := rfl
      unfold JsonString.eq
      rw [hs]
      simp only []
      rw [hq, hm]
      show (if _ = (canonStr is).len then _ else _) = _
      have : (JsonString.len ⟨.raw a, .new true (cntS a.asStr)⟩) = (JsonStringInfo.new true (cntS a.asStr)).expectedLength := rfl
      rw [this]
      by_cases hlen : (JsonStringInfo.new true (cntS a.asStr)).expectedLength = (canonStr is).len
      · rw [if_pos hlen]; simp [hlen]
      · rw [if_neg hlen]; simp [Ne.symm hlen]
  | plain a n hn =>
    cases h' with
    | esc is' hv' hl' he' =>
      obtain ⟨h1', h2'⟩ := Shape.esc_facts hv' hl' he'
      have hs' : (canonStr is').source = .json (.borrowed (bodyChars is')) := rfl
      have hm : mixed ⟨.json a, .new false n⟩ (canonStr is') = false := rfl
      unfold JsonString.eq
      rw [hs']
      simp only [h1', info_hasEscapes hn]
      rw [hq', hm]
      simp [eq_comm]
    | plain b m hm =>
      have hmx : mixed ⟨.json a, .new false n⟩ ⟨.json b, .new false m⟩ = false := rfl
      unfold JsonString.eq
      simp only [info_hasEscapes hn, info_hasEscapes hm]
      rw [hmx]
      simp
      rw [Bool.eq_iff_iff]; simp
    | raw b h1 h2 =>
      have hm : mixed ⟨.json a, .new false n⟩ ⟨.raw b, .new true (cntS b.asStr)⟩ = true := rfl
      unfold JsonString.eq
      simp only []
      rw [hq, hm]
      have : (JsonString.len ⟨.raw b, .new true (cntS b.asStr)⟩) = (JsonStringInfo.new true (cntS b.asStr)).expectedLength := rfl
      rw [this]
      by_cases hlen : (JsonStringInfo.new true (cntS b.asStr)).expectedLength = JsonString.len ⟨.json a, .new false n⟩
      · rw [if_pos hlen]; simp [hlen]
      · rw [if_neg hlen]; simp [Ne.symm hlen]
  | raw a g1 g2 =>
    cases h' with
    | esc is' hv' hl' he' =>
      have hs' : (canonStr is').source = .json (.borrowed (bodyChars is')) := rfl
      have hm : mixed ⟨.raw a, .new true (cntS a.asStr)⟩ (canonStr is') = true := rfl
      unfold JsonString.eq
      rw [hs']
      simp only []
      rw [hq', hm]
      have : (JsonString.len ⟨.raw a, .new true (cntS a.asStr)⟩) = (JsonStringInfo.new true (cntS a.asStr)).expectedLength := rfl
      rw [this]
      by_cases hlen : (JsonStringInfo.new true (cntS a.asStr)).expectedLength = (canonStr is').len
      · rw [if_pos hlen]; simp [hlen, eq_comm]
      · rw [if_neg hlen]; simp [hlen]
    | plain b m hmm =>
      have hm : mixed ⟨.raw a, .new true (cntS a.asStr)⟩ ⟨.json b, .new false m⟩ = true := rfl
      unfold JsonString.eq
      simp only []
      rw [hq', hm]
      have : (JsonString.len ⟨.raw a, .new true (cntS a.asStr)⟩) = (JsonStringInfo.new true (cntS a.asStr)).expectedLength := rfl
      rw [this]
      by_cases hlen : (JsonStringInfo.new true (cntS a.asStr)).expectedLength = JsonString.len ⟨.json b, .new false m⟩
      · rw [if_pos hlen]; simp [hlen, eq_comm]
      · rw [if_neg hlen]; simp [hlen]
    | raw b h1 h2 =>
      have hmx : mixed ⟨.raw a, .new true (cntS a.asStr)⟩ ⟨.raw b, .new true (cntS b.asStr)⟩ = false := rfl
      unfold JsonString.eq
      simp only []
      rw [hmx]
      simp
      rw [Bool.eq_iff_iff]; simp

/-! ## Hash -/

theorem chunkless_fold {H : Hasher} (hc : H.Chunkless) (cs : Str) : ∀ st,
    cs.foldl (fun st ch => H.write st (encodeChar ch)) st = H.write st (utf8 cs) := by
  induction cs with
  | nil => intro st; exact (hc.nil st).symm
  | cons c cs ih =>
    intro st
    rw [List.foldl_cons, ih, utf8_cons, hc.append]

theorem Shape.hash_chunkless {H : Hasher} (hc : H.Chunkless) {j : JsonString} {t : Str} (h : Shape j t) (st : H.S) :
    j.hash H st = .ok (hashStr H t st) := by
  have hd := h.decoded
  cases h with
  | esc is hv hl he =>
    obtain ⟨h1, h2⟩ := Shape.esc_facts hv hl he
    unfold JsonString.hash
    have hs : (canonStr is).source = .json (.borrowed (bodyChars is)) := rfl
    rw [hs]
    simp only [h1, if_true]
    rw [hd]
    show Res.ok _ = _
    rw [chunkless_fold hc]
    rfl
  | plain a n hn =>
    unfold JsonString.hash
    simp only [info_hasEscapes hn]
    rfl
  | raw a => rfl

theorem Shape.hash_direct {H : Hasher} {j : JsonString} {t : Str} (h : Shape j t) (hs : j.asStr.isSome = true) (st : H.S) :
    j.hash H st = .ok (hashStr H t st) := by
  cases h with
  | esc is hv hl he =>
    obtain ⟨h1, h2⟩ := Shape.esc_facts hv hl he
    have hs' : (canonStr is).source = .json (.borrowed (bodyChars is)) := rfl
    unfold JsonString.asStr at hs
    rw [hs'] at hs
    simp [h1] at hs
  | plain a n hn =>
    unfold JsonString.hash
    simp only [info_hasEscapes hn]
    rfl
  | raw a => rfl

theorem Shape.hash_esc {H : Hasher} {j : JsonString} {t : Str} (h : Shape j t) (hs : j.asStr = none) (st : H.S) :
    j.hash H st = .ok (H.writeU8 (t.foldl (fun st ch => H.write st (encodeChar ch)) st) 0xff) := by
  have hd := h.decoded
  cases h with
  | esc is hv hl he =>
    obtain ⟨h1, h2⟩ := Shape.esc_facts hv hl he
    unfold JsonString.hash
    have hs : (canonStr is).source = .json (.borrowed (bodyChars is)) := rfl
    rw [hs]
    simp only [h1, if_true]
    rw [hd]
    rfl
  | plain a n hn =>
    unfold JsonString.asStr at hs
    simp [info_hasEscapes hn] at hs
  | raw a => cases hs

end
end JustJson
