import Verif.Lemmas.Layout
import Verif.Lemmas.Output
/-! # The string literals of a text, in order -/

namespace JustJson
open Spec

set_option linter.unusedSectionVars false

mutual
/-- What stands between the quotes of each string literal of a text. -/
def strLits : List UInt8 → List (List UInt8)
  | [] => []
  | b :: bs => if b = 0x22 then strLit [] bs else strLits bs
/-- inside a literal, after `acc` -/
def strLit (acc : List UInt8) : List UInt8 → List (List UInt8)
  | [] => []
  | [_] => [acc]
  | b :: c :: bs =>
    if b = 0x5C then strLit (acc ++ [b, c]) bs
    else if b = 0x22 then acc :: strLits (c :: bs)
    else strLit (acc ++ [b]) (c :: bs)
end

theorem strLits_skip {w : List UInt8} (h : ∀ b ∈ w, b ≠ 0x22) (r : List UInt8) : strLits (w ++ r) = strLits r := by
  induction w with
  | nil => rfl
  | cons b w ih =>
    rw [List.cons_append, strLits, if_neg (h b (by simp))]
    exact ih (fun x hx => h x (by simp [hx]))

theorem strLits_ws {w : List UInt8} (h : Ws w) (r : List UInt8) : strLits (w ++ r) = strLits r := by
  refine strLits_skip (fun b hb e => ?_) r
  subst e
  rcases h _ hb with h | h | h | h <;> cases h

theorem strLit_quote (acc r : List UInt8) : strLit acc (0x22 :: r) = acc :: strLits r := by
  cases r with
  | nil => simp [strLit, strLits]
  | cons c r => rw [strLit, if_neg (by decide), if_pos rfl]

theorem strLit_many {bs : List UInt8} (h : ∀ b ∈ bs, b ≠ 0x5C ∧ b ≠ 0x22) (acc : List UInt8) (c : UInt8) (r : List UInt8) :
    strLit acc (bs ++ c :: r) = strLit (acc ++ bs) (c :: r) := by
  induction bs generalizing acc with
  | nil => simp
  | cons b bs ih =>
    obtain ⟨h1, h2⟩ := h b (by simp)
    have : ∃ d q, bs ++ c :: r = d :: q := by
      cases bs with
      | nil => exact ⟨_, _, rfl⟩
      | cons d q => exact ⟨_, _, rfl⟩
    obtain ⟨d, q, e⟩ := this
    rw [List.cons_append, e, strLit, if_neg h1, if_neg h2, ← e, ih (fun x hx => h x (by simp [hx]))]
    simp

theorem head_of (s : Str) (r : List UInt8) : ∃ d q, utf8 s ++ 0x22 :: r = d :: q := by
  cases utf8 s with
  | nil => exact ⟨_, _, rfl⟩
  | cons d q => exact ⟨_, _, rfl⟩

theorem strLit_safe {s : Str} (h : SafeBody s) (acc r : List UInt8) :
    strLit acc (utf8 s ++ 0x22 :: r) = (acc ++ utf8 s) :: strLits r := by
  induction h generalizing acc with
  | nil => rw [show utf8 [] = [] from rfl, List.nil_append, strLit_quote, List.append_nil]
  | plain c s _ h2 h3 _ ih =>
    obtain ⟨d, q, e⟩ := head_of s r
    rw [utf8_cons, List.append_assoc, e, strLit_many (encode_plain h2 h3), ← e, ih, List.append_assoc]
  | esc c s _ _ ih =>
    rw [utf8_cons, utf8_cons]
    have e : encodeChar '\\' = [0x5C] := by decide
    rw [e]
    obtain ⟨b, t, e2, _⟩ := encodeChar_tail_cont c
    have ht : ∀ x ∈ t, x ≠ 0x5C ∧ x ≠ 0x22 := by
      by_cases ha : c.toNat < 0x80
      · rw [encodeChar_ascii ha] at e2
        cases e2
        simp
      · intro x hx
        have := encodeChar_high (by omega : 0x80 ≤ c.toNat) x (by rw [e2]; simp [hx])
        constructor <;> (rintro rfl; revert this; decide)
    rw [e2]
    show strLit acc (0x5C :: b :: (t ++ utf8 s ++ 0x22 :: r)) = _
    obtain ⟨d, q, e3⟩ := head_of s r
    rw [strLit, if_pos rfl, List.append_assoc, e3, strLit_many ht, ← e3, ih]
    simp

theorem strLits_quoted {s : Str} (h : SafeBody s) (r : List UInt8) : strLits (utf8 (quoted s) ++ r) = utf8 s :: strLits r := by
  rw [utf8_quoted]
  show strLits (0x22 :: (utf8 s ++ [0x22] ++ r)) = _
  rw [strLits, if_pos rfl, List.append_assoc]
  show strLit [] (utf8 s ++ 0x22 :: r) = _
  rw [strLit_safe h]
  rfl

theorem strLits_strBytes {is : List Item} (hv : ItemsValid is) (r : List UInt8) : strLits (strBytes is ++ r) = bodyBytes is :: strLits r := by
  have := strLits_quoted (safe_bodyChars hv) r
  rwa [utf8_quoted, utf8_bodyChars hv] at this

section
variable [Arch]

theorem strLits_grammar {tc : Bool} {b : List UInt8} {j : Json} (h : GValue tc b j) :
    ∀ r, strLits (b ++ r) = (jstrings j).map bodyBytes ++ strLits r := by
  have one : ∀ (b : UInt8) (r : List UInt8), b ≠ 0x22 → strLits (b :: r) = strLits r := by
    intro b r h; rw [strLits, if_neg h]
  refine GValue.rec (motive_1 := fun b j _ => ∀ r, strLits (b ++ r) = (jstrings j).map bodyBytes ++ strLits r)
    (motive_2 := fun b js _ => ∀ r, strLits (b ++ r) = (jstringsElems js).map bodyBytes ++ strLits r)
    (motive_3 := fun b ms _ => ∀ r, strLits (b ++ r) = (jstringsMembers ms).map bodyBytes ++ strLits r)
    ?_ ?_ ?_ ?_ ?_ ?_ ?_ ?_ ?_ ?_ ?_ ?_ ?_ ?_ ?_ h
  · exact fun r => strLits_skip (by decide) r
  · exact fun r => strLits_skip (by decide) r
  · exact fun r => strLits_skip (by decide) r
  · exact fun n hn r => strLits_skip (fun b hb => (num_plain hn b hb).2) r
  · exact fun s hs r => strLits_strBytes hs r
  · intro w hw r
    rw [List.cons_append, one _ _ (by decide), List.append_assoc, strLits_ws hw]
    exact one _ _ (by decide)
  · intro body js hg ih r
    rw [List.cons_append, one _ _ (by decide), List.append_assoc, ih, jstrings, List.cons_append, one _ _ (by decide)]
    rfl
  · intro w hw r
    rw [List.cons_append, one _ _ (by decide), List.append_assoc, strLits_ws hw]
    exact one _ _ (by decide)
  · intro body js hg ih r
    rw [List.cons_append, one _ _ (by decide), List.append_assoc, ih, jstrings, List.cons_append, one _ _ (by decide)]
    rfl
  · intro w b w' j hw hg hw' ih r
    rw [List.append_assoc, List.append_assoc, strLits_ws hw, ih, strLits_ws hw', jstringsElems]
    simp [jstringsElems]
  · intro w b w' w'' j htc hw hg hw' hw'' ih r
    simp only [List.append_assoc, List.cons_append]
    rw [strLits_ws hw, ih, strLits_ws hw', one _ _ (by decide), strLits_ws hw'', jstringsElems]
    simp [jstringsElems]
  · intro w b w' rest j js hw hg hw' hgs ih ih2 r
    simp only [List.append_assoc, List.cons_append]
    rw [strLits_ws hw, ih, strLits_ws hw', one _ _ (by decide), ih2, jstringsElems]
    simp
  · intro w w1 w2 b w' k j hw hk hw1 hw2 hg hw' ih r
    simp only [List.append_assoc, List.cons_append]
    rw [strLits_ws hw, strLits_strBytes hk, strLits_ws hw1, one _ _ (by decide), strLits_ws hw2, ih, strLits_ws hw']
    simp [jstringsMembers]
  · intro w w1 w2 b w' w'' k j htc hw hk hw1 hw2 hg hw' hw'' ih r
    simp only [List.append_assoc, List.cons_append]
    rw [strLits_ws hw, strLits_strBytes hk, strLits_ws hw1, one _ _ (by decide), strLits_ws hw2, ih, strLits_ws hw', one _ _ (by decide), strLits_ws hw'']
    simp [jstringsMembers]
  · intro w w1 w2 b w' rest k j js hw hk hw1 hw2 hg hw' hgs ih ih2 r
    simp only [List.append_assoc, List.cons_append]
    rw [strLits_ws hw, strLits_strBytes hk, strLits_ws hw1, one _ _ (by decide), strLits_ws hw2, ih, strLits_ws hw', one _ _ (by decide), ih2]
    simp [jstringsMembers]

theorem strLits_text {tc : Bool} {b : List UInt8} {j : Json} (h : Text tc b j) : strLits b = (jstrings j).map bodyBytes := by
  obtain ⟨w, b, w', hw, hg, hw', rfl⟩ := h
  have h2 := strLits_ws hw' []
  rw [List.append_nil] at h2
  rw [List.append_assoc, strLits_ws hw, strLits_grammar hg, h2]
  simp [strLits]

variable {body : JsonString → Str}

theorem strLits_compact :
    (∀ v : Value, (∀ s ∈ v.strings, SafeBody (body s)) → (∀ x ∈ v.numbers, x.WellFormed) → ∀ r,
      strLits (utf8 (compact body v) ++ r) = v.strings.map (fun s => utf8 (body s)) ++ strLits r)
    ∧ (∀ es : Object, (∀ s ∈ Value.stringsEntries es, SafeBody (body s)) → (∀ x ∈ Value.numbersEntries es, x.WellFormed) → ∀ r,
      strLits (utf8 (joined [','] (compactEntries body es)) ++ r) = (Value.stringsEntries es).map (fun s => utf8 (body s)) ++ strLits r)
    ∧ (∀ vs : List Value, (∀ s ∈ Value.stringsElems vs, SafeBody (body s)) → (∀ x ∈ Value.numbersElems vs, x.WellFormed) → ∀ r,
      strLits (utf8 (joined [','] (compactElems body vs)) ++ r) = (Value.stringsElems vs).map (fun s => utf8 (body s)) ++ strLits r) := by
  apply Value.induct
  · intro _ _ r; rw [compact]; exact strLits_skip (by decide) r
  · intro b _ _ r; rw [compact]; cases b <;> exact strLits_skip (by decide) r
  · intro n _ hn r
    obtain ⟨x, h1, h2⟩ := hn n (by simp [Value.numbers])
    rw [compact, show utf8 n.sourceStr = x.bytes from h2]
    exact strLits_skip (fun b hb => (num_plain h1 b hb).2) r
  · intro s hs _ r
    rw [compact]
    exact strLits_quoted (hs s (by simp [Value.strings])) r
  · intro es ih hs hn r
    rw [Value.strings] at hs
    rw [Value.numbers] at hn
    simp only [compact, utf8_append, List.append_assoc]
    rw [show utf8 ['{'] = [0x7B] from rfl, show utf8 ['}'] = [0x7D] from rfl, strLits_skip (by decide), ih hs hn, strLits_skip (by decide)]
    rfl
  · intro es ih hs hn r
    rw [Value.strings] at hs
    rw [Value.numbers] at hn
    simp only [compact, utf8_append, List.append_assoc]
    rw [show utf8 ['['] = [0x5B] from rfl, show utf8 [']'] = [0x5D] from rfl, strLits_skip (by decide), ih hs hn, strLits_skip (by decide)]
    rfl
  · intro _ _ r; rfl
  · intro k v es ihv ih hs hn r
    rw [Value.stringsEntries] at hs
    rw [Value.numbersEntries] at hn
    have hk := hs k (by simp)
    have h1 := ihv (fun s h => hs s (by simp [h])) (fun x h => hn x (by simp [h]))
    have h2 := ih (fun s h => hs s (by simp [h])) (fun x h => hn x (by simp [h]))
    have e3 : utf8 [':'] = [0x3A] := rfl
    have e2 : utf8 [','] = [0x2C] := rfl
    cases es with
    | nil =>
      show strLits (utf8 (quoted (body k) ++ [':'] ++ compact body v) ++ r) = _
      simp only [utf8_append, List.append_assoc]
      rw [strLits_quoted hk, e3, strLits_skip (by decide), h1]
      simp [Value.stringsEntries]
    | cons e es =>
      obtain ⟨k', v'⟩ := e
      show strLits (utf8 (quoted (body k) ++ [':'] ++ compact body v ++ [','] ++ joined [','] (compactEntries body ((k', v') :: es))) ++ r) = _
      simp only [utf8_append, List.append_assoc]
      rw [strLits_quoted hk, e3, strLits_skip (by decide), h1, e2, strLits_skip (by decide), h2, Value.stringsEntries.eq_2 k v]
      simp
  · intro _ _ r; rfl
  · intro v es ihv ih hs hn r
    rw [Value.stringsElems] at hs
    rw [Value.numbersElems] at hn
    have h1 := ihv (fun s h => hs s (by simp [h])) (fun x h => hn x (by simp [h]))
    have h2 := ih (fun s h => hs s (by simp [h])) (fun x h => hn x (by simp [h]))
    have e2 : utf8 [','] = [0x2C] := rfl
    cases es with
    | nil =>
      show strLits (utf8 (compact body v) ++ r) = _
      rw [h1, Value.stringsElems]
      simp [Value.stringsElems]
    | cons v' es =>
      show strLits (utf8 (compact body v ++ [','] ++ joined [','] (compactElems body (v' :: es))) ++ r) = _
      simp only [utf8_append, List.append_assoc]
      rw [h1, e2, strLits_skip (by decide), h2]
      rw [Value.stringsElems.eq_2 v]
      simp

/-- The same texts, one after the other. -/
inductive SameTexts : List JsonString → List JsonString → Prop where
  | nil : SameTexts [] []
  | cons {s t : JsonString} {ss ts : List JsonString} : SameText s t → SameTexts ss ts → SameTexts (s :: ss) (t :: ts)

/-- The strings of values of the same content have the same texts, one after the other. -/
theorem same_strings {v w : Value} (h : SameContent v w) : SameTexts v.strings w.strings := by
  have app : ∀ {a b c d : List JsonString}, SameTexts a b → SameTexts c d → SameTexts (a ++ c) (b ++ d) := by
    intro a b c d h1 h2
    induction h1 with
    | nil => exact h2
    | cons h _ ih => exact .cons h ih
  refine SameContent.rec (motive_1 := fun v w _ => SameTexts v.strings w.strings)
    (motive_2 := fun v w _ => SameTexts (Value.stringsElems v) (Value.stringsElems w))
    (motive_3 := fun v w _ => SameTexts (Value.stringsEntries v) (Value.stringsEntries w))
    ?_ ?_ ?_ ?_ ?_ ?_ ?_ ?_ ?_ ?_ h
  · exact .nil
  · intro b; exact .nil
  · intro x y _; exact .nil
  · intro s t h; exact .cons h .nil
  · intro vs ws _ ih; rw [Value.strings, Value.strings]; exact ih
  · intro vs ws _ ih; rw [Value.strings, Value.strings]; exact ih
  · exact .nil
  · intro v w vs ws _ _ h1 h2; rw [Value.stringsElems, Value.stringsElems]; exact app h1 h2
  · exact .nil
  · intro k l v w es fs h _ _ h1 h2; rw [Value.stringsEntries, Value.stringsEntries]; exact .cons h (app h1 h2)

end
end JustJson
