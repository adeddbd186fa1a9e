import Verif.Lemmas.Write
import Verif.Lemmas.Roundtrip
import Verif.Lemmas.Trailing
import Verif.Lemmas.Unique
/-! # Minified texts -/

namespace JustJson
open Spec

set_option linter.unusedSectionVars false

theorem isBlank_iff (b : UInt8) : isBlank b = true ↔ (b = 0x20 ∨ b = 0x09 ∨ b = 0x0A ∨ b = 0x0D) := by
  unfold isBlank
  simp [or_assoc]

theorem minify_ws {w : List UInt8} (h : Ws w) (r : List UInt8) : minify (w ++ r) = minify r := by
  induction w with
  | nil => rfl
  | cons b w ih =>
    rw [List.cons_append, minify, if_pos ((isBlank_iff b).mpr (h b (by simp)))]
    exact ih (fun x hx => h x (by simp [hx]))

theorem minify_one {b : UInt8} (h : isBlank b = false) (hq : b ≠ 0x22) (r : List UInt8) : minify (b :: r) = b :: minify r := by
  rw [minify, if_neg (by simp [h]), if_neg hq]

theorem minify_plain {bs : List UInt8} (h : ∀ b ∈ bs, isBlank b = false ∧ b ≠ 0x22) (r : List UInt8) :
    minify (bs ++ r) = bs ++ minify r := by
  induction bs with
  | nil => rfl
  | cons b bs ih =>
    obtain ⟨h1, h2⟩ := h b (by simp)
    rw [List.cons_append, minify_one h1 h2, ih (fun x hx => h x (by simp [hx]))]
    rfl

theorem minifyString_one {b : UInt8} (h : b ≠ 0x5C) (hq : b ≠ 0x22) (r : List UInt8) : minifyString (b :: r) = b :: minifyString r := by
  cases r with
  | nil => simp [minifyString]
  | cons c r => rw [minifyString, if_neg h, if_neg hq]

theorem minifyString_quote (r : List UInt8) : minifyString (0x22 :: r) = 0x22 :: minify r := by
  cases r with
  | nil => simp [minifyString, minify]
  | cons c r => rw [minifyString, if_neg (by decide), if_pos rfl]

theorem minifyString_many {bs : List UInt8} (h : ∀ b ∈ bs, b ≠ 0x5C ∧ b ≠ 0x22) (r : List UInt8) :
    minifyString (bs ++ r) = bs ++ minifyString r := by
  induction bs with
  | nil => rfl
  | cons b bs ih =>
    obtain ⟨h1, h2⟩ := h b (by simp)
    rw [List.cons_append, minifyString_one h1 h2, ih (fun x hx => h x (by simp [hx]))]
    rfl

theorem encode_plain {c : Char} (h1 : c ≠ '"') (h2 : c ≠ '\\') : ∀ b ∈ encodeChar c, b ≠ 0x5C ∧ b ≠ 0x22 := by
  by_cases ha : c.toNat < 0x80
  · rw [encodeChar_ascii ha]
    intro b hb
    simp only [List.mem_singleton] at hb
    subst hb
    constructor
    · intro h
      apply h2
      apply char_ext
      have := congrArg UInt8.toNat h
      rw [toNat_ofNat_u8 (by omega)] at this
      exact this
    · intro h
      apply h1
      apply char_ext
      have := congrArg UInt8.toNat h
      rw [toNat_ofNat_u8 (by omega)] at this
      exact this
  · intro b hb
    have := encodeChar_high (by omega : 0x80 ≤ c.toNat) b hb
    constructor <;> (rintro rfl; revert this; decide)

theorem minifyString_safe {s : Str} (h : SafeBody s) (r : List UInt8) :
    minifyString (utf8 s ++ 0x22 :: r) = utf8 s ++ 0x22 :: minify r := by
  induction h with
  | nil => exact minifyString_quote r
  | plain c s _ h2 h3 _ ih =>
    rw [utf8_cons, List.append_assoc, minifyString_many (encode_plain h2 h3), ih, List.append_assoc]
  | esc c s _ _ ih =>
    rw [utf8_cons, utf8_cons]
    have e : encodeChar '\\' = [0x5C] := by decide
    rw [e]
    obtain ⟨b, t, e2, _⟩ := encodeChar_tail_cont c
    have ht : ∀ x ∈ t, x ≠ 0x5C ∧ x ≠ 0x22 := by
      by_cases ha : c.toNat < 0x80
      · rw [encodeChar_ascii ha] at e2
        cases e2
        simp
      · intro x hx
        have := encodeChar_high (by omega : 0x80 ≤ c.toNat) x (by rw [e2]; simp [hx])
        constructor <;> (rintro rfl; revert this; decide)
    rw [e2]
    show minifyString (0x5C :: b :: (t ++ utf8 s ++ 0x22 :: r)) = 0x5C :: b :: (t ++ utf8 s ++ 0x22 :: minify r)
    rw [minifyString, if_pos rfl, List.append_assoc, minifyString_many ht, ih, List.append_assoc]

theorem utf8_quoted (s : Str) : utf8 (quoted s) = 0x22 :: (utf8 s ++ [0x22]) := by
  unfold quoted
  rw [utf8_cons, utf8_append]
  rfl

theorem minify_quoted {s : Str} (h : SafeBody s) (r : List UInt8) : minify (utf8 (quoted s) ++ r) = utf8 (quoted s) ++ minify r := by
  rw [utf8_quoted]
  show minify (0x22 :: (utf8 s ++ [0x22] ++ r)) = _
  rw [minify, if_neg (by decide), if_pos rfl, List.append_assoc]
  show 0x22 :: minifyString (utf8 s ++ 0x22 :: r) = _
  rw [minifyString_safe h]
  simp

theorem safe_of_ascii {bs : List UInt8} (h : ∀ b ∈ bs, 0x20 ≤ b.toNat ∧ b.toNat < 0x80 ∧ b ≠ 0x22 ∧ b ≠ 0x5C) {s : Str} (hs : SafeBody s) :
    SafeBody (bs.map byteChar ++ s) := by
  induction bs with
  | nil => exact hs
  | cons b bs ih =>
    obtain ⟨h1, h2, h3, h4⟩ := h b (by simp)
    have e := byteChar_toNat h2
    refine .plain _ _ (by omega) ?_ ?_ (ih (fun x hx => h x (by simp [hx])))
    · intro e2; rw [e2] at e; exact h3 (UInt8.toNat_inj.mp e.symm)
    · intro e2; rw [e2] at e; exact h4 (UInt8.toNat_inj.mp e.symm)

theorem hex_safe {h : Hex4} (hv : h.Valid) : ∀ b ∈ h.bytes, 0x20 ≤ b.toNat ∧ b.toNat < 0x80 ∧ b ≠ 0x22 ∧ b ≠ 0x5C := by
  have key : ∀ b : UInt8, (hexVal b).isSome → 0x20 ≤ b.toNat ∧ b.toNat < 0x80 ∧ b ≠ 0x22 ∧ b ≠ 0x5C := by
    intro b hb
    have := hexVal_ascii hb
    unfold hexVal at hb
    refine ⟨?_, this, ?_, ?_⟩
    · split at hb; · omega
      split at hb; · omega
      split at hb; · omega
      · cases hb
    · rintro rfl; revert hb; decide
    · rintro rfl; revert hb; decide
  obtain ⟨a, b, c, d⟩ := hv
  intro x hx
  simp only [Hex4.bytes, List.mem_cons, List.not_mem_nil, or_false] at hx
  rcases hx with rfl | rfl | rfl | rfl <;> apply key <;> assumption

theorem safe_bodyChars {is : List Item} (hv : ItemsValid is) : SafeBody (bodyChars is) := by
  induction is with
  | nil => exact .nil
  | cons i is ih =>
    obtain ⟨h1, h2⟩ := ItemsValid.cons.mp hv
    have ih := ih h2
    have e : bodyChars (i :: is) = i.chars ++ bodyChars is := rfl
    rw [e]
    cases i with
    | plain c => exact .plain c _ h1.1 h1.2.1 h1.2.2 ih
    | esc x =>
      rw [Item.chars_escape rfl]
      show SafeBody ('\\' :: byteChar x :: bodyChars is)
      refine .esc _ _ ?_ ih
      have h1 : x ∈ ([0x22, 0x5C, 0x2F, 0x62, 0x66, 0x6E, 0x72, 0x74] : List UInt8) := h1
      have key : ∀ y ∈ ([0x22, 0x5C, 0x2F, 0x62, 0x66, 0x6E, 0x72, 0x74] : List UInt8), 32 ≤ (byteChar y).toNat := by decide
      exact key x h1
    | uni h =>
      rw [Item.chars_escape rfl]
      show SafeBody ('\\' :: 'u' :: (h.bytes.map byteChar ++ bodyChars is))
      exact .esc _ _ (by decide) (safe_of_ascii (hex_safe h1.1) ih)
    | pair hi lo =>
      rw [Item.chars_escape rfl]
      have : (Item.pair hi lo).bytes.map byteChar ++ bodyChars is
        = '\\' :: 'u' :: (hi.bytes.map byteChar ++ ('\\' :: 'u' :: (lo.bytes.map byteChar ++ bodyChars is))) := by
        simp only [Item.bytes, List.map_append, List.append_assoc]
        rfl
      rw [this]
      exact .esc _ _ (by decide) (safe_of_ascii (hex_safe h1.1) (.esc _ _ (by decide) (safe_of_ascii (hex_safe h1.2.1) ih)))

theorem minify_strBytes {is : List Item} (hv : ItemsValid is) (r : List UInt8) : minify (strBytes is ++ r) = strBytes is ++ minify r := by
  have := minify_quoted (safe_bodyChars hv) r
  rwa [utf8_quoted, utf8_bodyChars hv] at this

theorem digit_plain {b : UInt8} (h : IsDigit b) : isBlank b = false ∧ b ≠ 0x22 := by
  obtain ⟨h1, h2⟩ := h
  constructor
  · cases hb : isBlank b with
    | false => rfl
    | true =>
      rcases (isBlank_iff b).mp hb with rfl | rfl | rfl | rfl <;> (exfalso; revert h1; decide)
  · rintro rfl; revert h1; decide

theorem num_plain {n : NumLit} (h : n.Valid) : ∀ b ∈ n.bytes, isBlank b = false ∧ b ≠ 0x22 := by
  obtain ⟨⟨⟨_, h1⟩, _⟩, h2, h3⟩ := h
  intro b hb
  unfold NumLit.bytes at hb
  simp only [List.mem_append] at hb
  rcases hb with ((hb | hb) | hb) | hb
  · split at hb
    · simp only [List.mem_singleton] at hb; subst hb; decide
    · simp at hb
  · exact digit_plain (h1 b hb)
  · cases hf : n.frac with
    | none => rw [hf] at hb; simp [fracBytes] at hb
    | some ds =>
      rw [hf] at hb
      simp only [fracBytes, List.mem_cons] at hb
      rcases hb with rfl | hb
      · decide
      · exact digit_plain ((h2 ds hf).2 b hb)
  · cases he : n.exp with
    | none => rw [he] at hb; simp [expBytes] at hb
    | some q =>
      obtain ⟨e, s, ds⟩ := q
      rw [he] at hb
      obtain ⟨h4, h5, h6⟩ := h3 e s ds he
      simp only [expBytes, List.mem_cons, List.mem_append] at hb
      rcases hb with rfl | hb | hb
      · rcases h4 with rfl | rfl <;> decide
      · cases s with
        | none => simp at hb
        | some c =>
          simp only [Option.toList, List.mem_singleton] at hb
          subst hb
          rcases h5 b rfl with rfl | rfl <;> decide
      · exact digit_plain (h6.2 b hb)

/-! ## Minified texts are texts -/

section
variable [Arch]

/-- the source text of a string -/
def srcBody (s : JsonString) : Str := match s.source with | .json a => a.asStr | .raw a => a.asStr

theorem srcBody_canon (is : List Item) : srcBody (canonStr is) = bodyChars is := rfl

theorem utf8_quoted_canon {is : List Item} (hv : ItemsValid is) : utf8 (quoted (srcBody (canonStr is))) = strBytes is := by
  rw [srcBody_canon, utf8_quoted, utf8_bodyChars hv]; rfl

/-- `b` minifies to something that denotes the same tree; without trailing commas, to the compact text. -/
def Mini (tc : Bool) (b : List UInt8) (j : Json) : Prop :=
  ∃ b', (∀ r, minify (b ++ r) = b' ++ minify r) ∧ GValue tc b' j ∧ (tc = false → b' = utf8 (compact srcBody (ofJson j)))
/-- the same for elements -/
def MiniE (tc : Bool) (b : List UInt8) (js : List Json) : Prop :=
  ∃ b', (∀ r, minify (b ++ r) = b' ++ minify r) ∧ GElems tc b' js
    ∧ (tc = false → b' = utf8 (joined [','] (compactElems srcBody (ofJsons js))))
/-- the same for members -/
def MiniM (tc : Bool) (b : List UInt8) (ms : List (List Item × Json)) : Prop :=
  ∃ b', (∀ r, minify (b ++ r) = b' ++ minify r) ∧ GMembers tc b' ms
    ∧ (tc = false → b' = utf8 (joined [','] (compactEntries srcBody (ofMembers ms))))

theorem elems_ne {tc : Bool} {b : List UInt8} {js : List Json} (h : GElems tc b js) : ∃ j t, js = j :: t := by
  cases h <;> exact ⟨_, _, rfl⟩
theorem members_ne {tc : Bool} {b : List UInt8} {ms : List (List Item × Json)} (h : GMembers tc b ms) : ∃ k j t, ms = (k, j) :: t := by
  cases h <;> exact ⟨_, _, _, rfl⟩

theorem utf8_one (c : Char) (b : UInt8) (h : encodeChar c = [b]) (s : Str) : utf8 (c :: s) = b :: utf8 s := by
  rw [utf8_cons, h]; rfl

theorem minify_grammar {tc : Bool} {b : List UInt8} {j : Json} (h : GValue tc b j) : Mini tc b j := by
  have cat : ∀ {w : List UInt8}, Ws w → ∀ b w' r, minify (w ++ b ++ w' ++ r) = minify (b ++ (w' ++ r)) := by
    intro w hw b w' r
    rw [List.append_assoc, List.append_assoc, minify_ws hw]
  refine GValue.rec (motive_1 := fun b j _ => Mini tc b j) (motive_2 := fun b js _ => MiniE tc b js)
    (motive_3 := fun b ms _ => MiniM tc b ms) ?_ ?_ ?_ ?_ ?_ ?_ ?_ ?_ ?_ ?_ ?_ ?_ ?_ ?_ ?_ h
  · exact ⟨_, minify_plain (by decide), .null, fun _ => rfl⟩
  · exact ⟨_, minify_plain (by decide), .true, fun _ => rfl⟩
  · exact ⟨_, minify_plain (by decide), .false, fun _ => rfl⟩
  · intro n hn
    exact ⟨_, minify_plain (num_plain hn), .num n hn, fun _ => (utf8_num hn).symm⟩
  · intro s hs
    exact ⟨_, minify_strBytes hs, .str s hs, fun _ => (utf8_quoted_canon hs).symm⟩
  · intro w hw
    refine ⟨[0x5B, 0x5D], fun r => ?_, .emptyArr [] ws_nil, fun _ => rfl⟩
    show minify (0x5B :: (w ++ [0x5D] ++ r)) = _
    rw [minify_one (by decide) (by decide), List.append_assoc, minify_ws hw]
    show 0x5B :: minify (0x5D :: r) = _
    rw [minify_one (by decide) (by decide)]
    rfl
  · rintro body js hg ⟨b', h1, h2, h3⟩
    refine ⟨0x5B :: (b' ++ [0x5D]), fun r => ?_, .arr _ _ h2, fun ht => ?_⟩
    · show minify (0x5B :: (body ++ [0x5D] ++ r)) = _
      rw [minify_one (by decide) (by decide), List.append_assoc, h1]
      show 0x5B :: (b' ++ minify (0x5D :: r)) = _
      rw [minify_one (by decide) (by decide)]
      simp
    · rw [h3 ht, ofJson, compact, List.append_assoc, utf8_append, utf8_append]
      rfl
  · intro w hw
    refine ⟨[0x7B, 0x7D], fun r => ?_, .emptyObj [] ws_nil, fun _ => rfl⟩
    show minify (0x7B :: (w ++ [0x7D] ++ r)) = _
    rw [minify_one (by decide) (by decide), List.append_assoc, minify_ws hw]
    show 0x7B :: minify (0x7D :: r) = _
    rw [minify_one (by decide) (by decide)]
    rfl
  · rintro body js hg ⟨b', h1, h2, h3⟩
    refine ⟨0x7B :: (b' ++ [0x7D]), fun r => ?_, .obj _ _ h2, fun ht => ?_⟩
    · show minify (0x7B :: (body ++ [0x7D] ++ r)) = _
      rw [minify_one (by decide) (by decide), List.append_assoc, h1]
      show 0x7B :: (b' ++ minify (0x7D :: r)) = _
      rw [minify_one (by decide) (by decide)]
      simp
    · rw [h3 ht, ofJson, compact, List.append_assoc, utf8_append, utf8_append]
      rfl
  · rintro w b w' j hw hg hw' ⟨b', h1, h2, h3⟩
    refine ⟨b', fun r => ?_, ?_, fun ht => ?_⟩
    · rw [cat hw, h1, minify_ws hw']
    · have := GElems.one [] b' [] j ws_nil h2 ws_nil
      simpa using this
    · rw [h3 ht]; rfl
  · rintro w b w' w'' j htc hw hg hw' hw'' ⟨b', h1, h2, h3⟩
    refine ⟨b' ++ [0x2C], fun r => ?_, ?_, fun ht => ?_⟩
    · rw [List.append_assoc, cat hw, h1, minify_ws hw']
      show b' ++ minify (0x2C :: (w'' ++ r)) = _
      rw [minify_one (by decide) (by decide), minify_ws hw'']
      simp
    · have := GElems.trailing [] b' [] [] j htc ws_nil h2 ws_nil ws_nil
      simpa using this
    · rw [htc] at ht; cases ht
  · rintro w b w' rest j js hw hg hw' hgs ⟨b', h1, h2, h3⟩ ⟨c', c1, c2, c3⟩
    refine ⟨b' ++ 0x2C :: c', fun r => ?_, ?_, fun ht => ?_⟩
    · rw [List.append_assoc, cat hw, h1, minify_ws hw']
      show b' ++ minify (0x2C :: (rest ++ r)) = _
      rw [minify_one (by decide) (by decide), c1]
      simp
    · have := GElems.cons [] b' [] c' j js ws_nil h2 ws_nil c2
      simpa using this
    · obtain ⟨j2, t, rfl⟩ := elems_ne c2
      rw [h3 ht, c3 ht]
      show _ = utf8 (compact srcBody (ofJson j) ++ [','] ++ joined [','] (compactElems srcBody (ofJsons (j2 :: t))))
      rw [utf8_append, utf8_append, List.append_assoc]
      rfl
  · rintro w w1 w2 b w' k j hw hk hw1 hw2 hg hw' ⟨b', h1, h2, h3⟩
    refine ⟨strBytes k ++ 0x3A :: b', fun r => ?_, ?_, fun ht => ?_⟩
    · rw [List.append_assoc, cat hw, minify_strBytes hk, minify_ws hw1]
      show strBytes k ++ minify (0x3A :: (w2 ++ b ++ w' ++ r)) = _
      rw [minify_one (by decide) (by decide), cat hw2, h1, minify_ws hw']
      simp
    · have := GMembers.one [] [] [] b' [] k j ws_nil hk ws_nil ws_nil h2 ws_nil
      simpa using this
    · rw [h3 ht]
      show _ = utf8 (quoted (srcBody (canonStr k)) ++ [':'] ++ compact srcBody (ofJson j))
      rw [List.append_assoc, utf8_append, utf8_quoted_canon hk]
      rfl
  · rintro w w1 w2 b w' w'' k j htc hw hk hw1 hw2 hg hw' hw'' ⟨b', h1, h2, h3⟩
    refine ⟨strBytes k ++ 0x3A :: (b' ++ [0x2C]), fun r => ?_, ?_, fun ht => ?_⟩
    · rw [List.append_assoc, cat hw, minify_strBytes hk, minify_ws hw1]
      show strBytes k ++ minify (0x3A :: (w2 ++ b ++ w' ++ 0x2C :: w'' ++ r)) = _
      rw [minify_one (by decide) (by decide), List.append_assoc, cat hw2, h1, minify_ws hw']
      show strBytes k ++ 0x3A :: (b' ++ minify (0x2C :: (w'' ++ r))) = _
      rw [minify_one (by decide) (by decide), minify_ws hw'']
      simp
    · have := GMembers.trailing [] [] [] b' [] [] k j htc ws_nil hk ws_nil ws_nil h2 ws_nil ws_nil
      simpa using this
    · rw [htc] at ht; cases ht
  · rintro w w1 w2 b w' rest k j js hw hk hw1 hw2 hg hw' hgs ⟨b', h1, h2, h3⟩ ⟨c', c1, c2, c3⟩
    refine ⟨strBytes k ++ 0x3A :: (b' ++ 0x2C :: c'), fun r => ?_, ?_, fun ht => ?_⟩
    · rw [List.append_assoc, cat hw, minify_strBytes hk, minify_ws hw1]
      show strBytes k ++ minify (0x3A :: (w2 ++ b ++ w' ++ 0x2C :: rest ++ r)) = _
      rw [minify_one (by decide) (by decide), List.append_assoc, cat hw2, h1, minify_ws hw']
      show strBytes k ++ 0x3A :: (b' ++ minify (0x2C :: (rest ++ r))) = _
      rw [minify_one (by decide) (by decide), c1]
      simp
    · have := GMembers.cons [] [] [] b' [] c' k j js ws_nil hk ws_nil ws_nil h2 ws_nil c2
      simpa using this
    · obtain ⟨k2, j2, t, rfl⟩ := members_ne c2
      rw [h3 ht, c3 ht]
      show _ = utf8 (quoted (srcBody (canonStr k)) ++ [':'] ++ compact srcBody (ofJson j) ++ [','] ++ joined [','] (compactEntries srcBody (ofMembers ((k2, j2) :: t))))
      simp only [utf8_append, List.append_assoc]
      rw [utf8_quoted_canon hk]
      rfl

theorem minify_text {tc : Bool} {s : List UInt8} {j : Json} (h : Text tc s j) :
    Text tc (minify s) j ∧ (tc = false → minify s = utf8 (compact srcBody (ofJson j))) := by
  obtain ⟨w, b, w', hw, hg, hw', rfl⟩ := h
  obtain ⟨b', h1, h2, h3⟩ := minify_grammar hg
  have e : minify (w ++ b ++ w') = b' := by
    rw [List.append_assoc, minify_ws hw, h1]
    have := minify_ws hw' []
    rw [List.append_nil] at this
    rw [this]
    simp [minify]
  rw [e]
  exact ⟨⟨[], b', [], ws_nil, h2, ws_nil, by simp⟩, h3⟩

theorem minify_length (bs : List UInt8) : (minify bs).length ≤ bs.length ∧ (minifyString bs).length ≤ bs.length := by
  have : ∀ n (bs : List UInt8), bs.length ≤ n → (minify bs).length ≤ bs.length ∧ (minifyString bs).length ≤ bs.length := by
    intro n
    induction n with
    | zero =>
      intro bs h
      obtain rfl : bs = [] := List.length_eq_zero_iff.mp (by omega)
      simp [minify, minifyString]
    | succ n ih =>
      intro bs h
      cases bs with
      | nil => simp [minify, minifyString]
      | cons b bs =>
        simp only [List.length_cons] at h ⊢
        obtain ⟨h1, h2⟩ := ih bs (by omega)
        constructor
        · rw [minify]
          split
          · omega
          · split <;> simp <;> omega
        · cases bs with
          | nil => simp [minifyString]
          | cons c bs =>
            simp only [List.length_cons] at h h1 h2 ⊢
            obtain ⟨h3, h4⟩ := ih bs (by omega)
            rw [minifyString]
            split
            · simp; omega
            · split <;> simp <;> omega
  exact this _ bs (Nat.le_refl _)

end
end JustJson
