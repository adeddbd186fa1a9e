import Verif.Model.Lazy
import Verif.Props.Strings
/-! # C19–C23 for the comparisons and the hash as the code runs them: while it decodes

The iterators advance together and the loops end at the first difference (`Model/Lazy.lean`). -/

namespace JustJson
open Spec
section
variable [Arch]

/-- what an iterator yields until it ends, call by call -/
inductive Feeds {S : Type} (next : CharIter S) : S → Str → Prop
  | nil (s) : next s = .ok none → Feeds next s []
  | cons (s s' c cs) : next s = .ok (some (c, s')) → Feeds next s' cs → Feeds next s (c :: cs)

theorem feeds_str : ∀ t : Str, Feeds strNext t t
  | [] => .nil _ rfl
  | _ :: cs => .cons _ _ _ _ rfl (feeds_str cs)

theorem feeds_collectFuel : ∀ (n : Nat) (d : Decoded) (t : Str), d.collectFuel n = .ok t → Feeds Decoded.next d t ∧ t.length < n
  | 0, d, t, h => by simp [Decoded.collectFuel] at h
  | n + 1, d, t, h => by
    unfold Decoded.collectFuel at h
    cases hn : d.next with
    | panic p => simp [hn] at h
    | ok o =>
      cases o with
      | none =>
        simp [hn] at h
        subst h
        exact ⟨.nil _ hn, by simp⟩
      | some x =>
        obtain ⟨c, d'⟩ := x
        simp only [hn] at h
        cases hr : d'.collectFuel n with
        | panic p => simp [hr, bind] at h
        | ok r =>
          simp [hr, bind] at h
          obtain ⟨f, hl⟩ := feeds_collectFuel n d' r hr
          subst h
          exact ⟨.cons _ _ _ _ hn f, by simp; omega⟩

theorem zipAllFuel_feeds {S T : Type} {left : CharIter S} {right : CharIter T} : ∀ (n : Nat) (s : S) (t : T) (a b : Str),
    Feeds left s a → Feeds right t b → a.length < n → zipAllFuel left right n s t = .ok (zipAllEq a b)
  | 0, _, _, _, _, _, _, h => absurd h (Nat.not_lt_zero _)
  | n + 1, s, t, a, b, ha, hb, h => by
    cases ha with
    | nil _ h1 => unfold zipAllFuel; rw [h1]; rfl
    | cons _ s' c cs h1 f1 =>
      cases hb with
      | nil _ h2 => unfold zipAllFuel; rw [h1, h2]; rfl
      | cons _ t' c' cs' h2 f2 =>
        unfold zipAllFuel
        rw [h1, h2]
        simp only [zipAllEq]
        by_cases e : (c == c') = true
        · simp only [e, if_true, Bool.true_and]
          exact zipAllFuel_feeds n s' t' cs cs' f1 f2 (by simp at h; omega)
        · simp [e]

theorem cmpLoopFuel_feeds {S T : Type} {left : CharIter S} {right : CharIter T} : ∀ (n : Nat) (s : S) (t : T) (a b : Str),
    Feeds left s a → Feeds right t b → a.length < n → cmpLoopFuel left right n s t = .ok (cmpChars a b)
  | 0, _, _, _, _, _, _, h => absurd h (Nat.not_lt_zero _)
  | n + 1, s, t, a, b, ha, hb, h => by
    cases ha with
    | nil _ h1 =>
      cases hb with
      | nil _ h2 => unfold cmpLoopFuel; rw [h1, h2]; rfl
      | cons _ t' c' cs' h2 f2 => unfold cmpLoopFuel; rw [h1, h2]; rfl
    | cons _ s' c cs h1 f1 =>
      cases hb with
      | nil _ h2 => unfold cmpLoopFuel; rw [h1, h2]; rfl
      | cons _ t' c' cs' h2 f2 =>
        unfold cmpLoopFuel
        rw [h1, h2]
        simp only [cmpChars]
        cases e : compare c.toNat c'.toNat with
        | eq => exact cmpLoopFuel_feeds n s' t' cs cs' f1 f2 (by simp at h; omega)
        | lt => rfl
        | gt => rfl

theorem hashLoopFuel_feeds {H : Hasher} {S : Type} {next : CharIter S} : ∀ (n : Nat) (s : S) (a : Str) (st : H.S),
    Feeds next s a → a.length < n → hashLoopFuel H next n s st = .ok (a.foldl (fun st ch => H.write st (encodeChar ch)) st)
  | 0, _, _, _, _, h => absurd h (Nat.not_lt_zero _)
  | n + 1, s, a, st, ha, h => by
    cases ha with
    | nil _ h1 => unfold hashLoopFuel; rw [h1]; rfl
    | cons _ s' c cs h1 f1 =>
      unfold hashLoopFuel
      rw [h1]
      exact hashLoopFuel_feeds n s' cs _ f1 (by simp at h; omega)

/-- an obtainable string kept as JSON source with escapes is decoded without a panic -/
theorem Obtainable.feeds {j : JsonString} (hj : Obtainable j) :
    ∃ t, (Decoded.new j.source j.info).collect = .ok t ∧ Feeds Decoded.next (Decoded.new j.source j.info) t
      ∧ t.length < (Decoded.new j.source j.info).fuel := by
  obtain ⟨t, ht⟩ := obtainable_shape hj
  have := ht.decoded
  exact ⟨t, this, feeds_collectFuel _ _ _ this⟩

theorem eqStrLazy_eq (j : JsonString) (hj : Obtainable j) (s : Str) : j.eqStrLazy s = j.eqStr s := by
  obtain ⟨t, h1, h2, h3⟩ := hj.feeds
  obtain ⟨src, info⟩ := j
  cases src with
  | raw a => rfl
  | json a =>
    have hz := zipAllFuel_feeds _ _ _ _ _ h2 (feeds_str s) h3
    simp only [JsonString.eqStrLazy, JsonString.eqStr] at *
    rw [h1, hz]
    rfl

theorem decoded_new_info (s : StringContents) (i i' : JsonStringInfo) (h : i.hasEscapes = i'.hasEscapes) :
    Decoded.new s i = Decoded.new s i' := by
  unfold Decoded.new
  cases s <;> simp [h]

theorem eqLazy_eq (j k : JsonString) (hj : Obtainable j) (hk : Obtainable k) : j.eqLazy k = j.eq k := by
  obtain ⟨t, h1, h2, h3⟩ := hj.feeds
  obtain ⟨u, g1, g2, g3⟩ := hk.feeds
  unfold JsonString.eqLazy JsonString.eq
  simp only [eqStrLazy_eq j hj, eqStrLazy_eq k hk]
  obtain ⟨src, info⟩ := j
  obtain ⟨src', info'⟩ := k
  cases src <;> cases src' <;> try rfl
  cases e1 : info.hasEscapes <;> cases e2 : info'.hasEscapes <;> try (simp only [e1, e2]; done)
  have hi := decoded_new_info
  have hi := fun c => hi c info info' (e1.trans e2.symm)
  simp only [e1, e2]
  simp only at h1 h2 h3 g1 g2 g3
  rw [hi] at h1 h2 h3
  rw [hi, hi, h1, g1, zipAllFuel_feeds _ _ _ _ _ h2 g2 h3]
  rfl

theorem partialCmpStrLazy_eq (j : JsonString) (hj : Obtainable j) (s : Str) : j.partialCmpStrLazy s = j.partialCmpStr s := by
  obtain ⟨t, h1, h2, h3⟩ := hj.feeds
  obtain ⟨src, info⟩ := j
  cases src with
  | raw a => rfl
  | json a =>
    have hz := cmpLoopFuel_feeds _ _ _ _ _ h2 (feeds_str s) h3
    simp only [JsonString.partialCmpStrLazy, JsonString.partialCmpStr, JsonString.decoded] at *
    rw [h1, hz]
    rfl

theorem cmpLazy_eq (j k : JsonString) (hj : Obtainable j) (hk : Obtainable k) : j.cmpLazy k = j.cmp k := by
  obtain ⟨t, h1, h2, h3⟩ := hj.feeds
  obtain ⟨u, g1, g2, g3⟩ := hk.feeds
  unfold JsonString.cmpLazy JsonString.cmp
  simp only [partialCmpStrLazy_eq j hj, partialCmpStrLazy_eq k hk, JsonString.decoded]
  obtain ⟨src, info⟩ := j
  obtain ⟨src', info'⟩ := k
  cases src <;> cases src' <;> try rfl
  simp only at *
  rw [h1, g1, cmpLoopFuel_feeds _ _ _ _ _ h2 g2 h3]
  rfl

theorem hashLazy_eq (H : Hasher) (j : JsonString) (hj : Obtainable j) (st : H.S) : j.hashLazy H st = j.hash H st := by
  obtain ⟨t, h1, h2, h3⟩ := hj.feeds
  obtain ⟨src, info⟩ := j
  cases src with
  | raw a => rfl
  | json a =>
    have hz := hashLoopFuel_feeds (H := H) _ _ _ st h2 h3
    simp only [JsonString.hashLazy, JsonString.hash, JsonString.decoded] at *
    rw [h1, hz]
    rfl

/-- **C19.** Compared while it is decoded, a string equals a `str` exactly if that is its decoded text. -/
theorem C19_while_decoding (j : JsonString) (h : Obtainable j) (s : Str) :
    ∃ b, j.eqStrLazy s = .ok b ∧ (b = true ↔ HasText j s) := by
  rw [eqStrLazy_eq j h]
  exact C19_eq_str j h s

/-- **C20.** `==` of two strings, run as the code runs it. -/
theorem C20_while_decoding_partial (j k : JsonString) (s t : Str) (hj : Obtainable j) (hk : Obtainable k) (hs : HasText j s)
    (ht : HasText k t) :
    j.eqLazy k = .ok (decide (s = t ∧ (j.asJsonStr.isSome ≠ k.asJsonStr.isSome → j.len = k.len))) := by
  rw [eqLazy_eq j k hj hk]
  exact C20_eq_partial j k s t hj hk hs ht

/-- **C21.** `cmp` and `partial_cmp` against a `str`, run as the code runs them. -/
theorem C21_while_decoding (j k : JsonString) (s t : Str) (hj : Obtainable j) (hk : Obtainable k)
    (hs : HasText j s) (ht : HasText k t) :
    (∃ o, j.cmpLazy k = .ok o ∧ Compares o s t) ∧ ∀ u, ∃ o, j.partialCmpStrLazy u = .ok (some o) ∧ Compares o s u := by
  refine ⟨?_, fun u => ?_⟩
  · obtain ⟨o, h1, _, h2⟩ := C21_cmp_is_code_point_order j k s t hj hk hs ht
    exact ⟨o, by rw [cmpLazy_eq j k hj hk, h1], h2⟩
  · rw [partialCmpStrLazy_eq j hj]
    exact C21_cmp_str j s u hj hs

/-- **C23.** The hash, run as the code runs it. -/
theorem C23_while_decoding_partial (H : Hasher) (hc : H.Chunkless) (st : H.S) (j : JsonString) (hj : Obtainable j)
    (t : Str) (ht : HasText j t) : j.hashLazy H st = .ok (hashStr H t st) := by
  rw [hashLazy_eq H j hj]
  exact C23_hash_is_str_hash_partial H hc st j hj t ht

end

section
attribute [local instance] arch64

/-- two spellings of the text `aé`, both with escapes -/
example : ((JsonString.fromJson "\"\\u0061é\"".toList).value?.any fun j =>
    (JsonString.fromJson "\"a\\u00e9\"".toList).value?.any fun k =>
      j.eqLazy k == .ok true && j.cmpLazy k == .ok .eq && j.eqStrLazy "aé".toList == .ok true
      && j.eqStrLazy "ae".toList == .ok false && j.partialCmpStrLazy "aé!".toList == .ok (some .lt)) = true := by
  decide +kernel

end

/-! ## Instances: each theorem above applied to a concrete case that meets its hypotheses -/
section Instances
attribute [local instance] arch64

example := C19_while_decoding strExJ strEx_obtainable "aé".toList
example := C20_while_decoding_partial rawLf jsonLf ['\n'] ['\n'] lf_ob.1 (.parsed _ lf_ob.2.1) rawLf_text jsonLf_text
example := C21_while_decoding rawLf strExJ ['\n'] _ lf_ob.1 strEx_obtainable rawLf_text strEx_text
example := C23_while_decoding_partial keeper keeper_chunkless [] strExJ strEx_obtainable _ strEx_text

end Instances
end JustJson
