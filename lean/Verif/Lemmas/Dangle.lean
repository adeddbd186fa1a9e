import Verif.Spec.Dangle
import Verif.Lemmas.Minify
import Verif.Lemmas.Complete
/-! # Texts without whitespace and dangling commas -/

namespace JustJson
open Spec

theorem undangle_one {b : UInt8} (h : b ≠ 0x2C) (hq : b ≠ 0x22) (r : List UInt8) : undangle (b :: r) = b :: undangle r := by
  rw [undangle, if_neg (by simp [h]), if_neg hq]

theorem undangle_plain {bs : List UInt8} (h : ∀ b ∈ bs, b ≠ 0x2C ∧ b ≠ 0x22) (r : List UInt8) :
    undangle (bs ++ r) = bs ++ undangle r := by
  induction bs with
  | nil => rfl
  | cons b bs ih =>
    obtain ⟨h1, h2⟩ := h b (by simp)
    rw [List.cons_append, undangle_one h1 h2, ih (fun x hx => h x (by simp [hx]))]
    rfl

theorem undangleString_one {b : UInt8} (h : b ≠ 0x5C) (hq : b ≠ 0x22) (r : List UInt8) :
    undangleString (b :: r) = b :: undangleString r := by
  cases r with
  | nil => simp [undangleString]
  | cons c r => rw [undangleString, if_neg h, if_neg hq]

theorem undangleString_quote (r : List UInt8) : undangleString (0x22 :: r) = 0x22 :: undangle r := by
  cases r with
  | nil => simp [undangleString, undangle]
  | cons c r => rw [undangleString, if_neg (by decide), if_pos rfl]

theorem undangleString_many {bs : List UInt8} (h : ∀ b ∈ bs, b ≠ 0x5C ∧ b ≠ 0x22) (r : List UInt8) :
    undangleString (bs ++ r) = bs ++ undangleString r := by
  induction bs with
  | nil => rfl
  | cons b bs ih =>
    obtain ⟨h1, h2⟩ := h b (by simp)
    rw [List.cons_append, undangleString_one h1 h2, ih (fun x hx => h x (by simp [hx]))]
    rfl

theorem undangleString_safe {s : Str} (h : SafeBody s) (r : List UInt8) :
    undangleString (utf8 s ++ 0x22 :: r) = utf8 s ++ 0x22 :: undangle r := by
  induction h with
  | nil => exact undangleString_quote r
  | plain c s _ h2 h3 _ ih =>
    rw [utf8_cons, List.append_assoc, undangleString_many (encode_plain h2 h3), ih, List.append_assoc]
  | esc c s _ _ ih =>
    rw [utf8_cons, utf8_cons]
    have e : encodeChar '\\' = [0x5C] := by decide
    rw [e]
    obtain ⟨b, t, e2, _⟩ := encodeChar_tail_cont c
    have ht : ∀ x ∈ t, x ≠ 0x5C ∧ x ≠ 0x22 := by
      by_cases ha : c.toNat < 0x80
      · rw [encodeChar_ascii ha] at e2
        cases e2
        simp
      · intro x hx
        have := encodeChar_high (by omega : 0x80 ≤ c.toNat) x (by rw [e2]; simp [hx])
        constructor <;> (rintro rfl; revert this; decide)
    rw [e2]
    show undangleString (0x5C :: b :: (t ++ utf8 s ++ 0x22 :: r)) = 0x5C :: b :: (t ++ utf8 s ++ 0x22 :: undangle r)
    rw [undangleString, if_pos rfl, List.append_assoc, undangleString_many ht, ih, List.append_assoc]

theorem undangle_quoted {s : Str} (h : SafeBody s) (r : List UInt8) :
    undangle (utf8 (quoted s) ++ r) = utf8 (quoted s) ++ undangle r := by
  rw [utf8_quoted]
  show undangle (0x22 :: (utf8 s ++ [0x22] ++ r)) = _
  rw [undangle, if_neg (by simp), if_pos rfl, List.append_assoc]
  show 0x22 :: undangleString (utf8 s ++ 0x22 :: r) = _
  rw [undangleString_safe h]
  simp

theorem undangle_strBytes {is : List Item} (hv : ItemsValid is) (r : List UInt8) :
    undangle (strBytes is ++ r) = strBytes is ++ undangle r := by
  have := undangle_quoted (safe_bodyChars hv) r
  rwa [utf8_quoted, utf8_bodyChars hv] at this

theorem digit_open {b : UInt8} (h : IsDigit b) : b ≠ 0x2C ∧ b ≠ 0x22 ∧ isCloser b = false := by
  obtain ⟨h1, h2⟩ := h
  refine ⟨?_, ?_, ?_⟩
  · rintro rfl; revert h1; decide
  · rintro rfl; revert h1; decide
  · cases hb : isCloser b with
    | false => rfl
    | true =>
      simp only [isCloser, Bool.or_eq_true, decide_eq_true_eq] at hb
      rcases hb with rfl | rfl <;> (exfalso; revert h2; decide)

theorem num_open {n : NumLit} (h : n.Valid) : (∀ b ∈ n.bytes, b ≠ 0x2C ∧ b ≠ 0x22)
    ∧ ∃ c t, n.bytes = c :: t ∧ isCloser c = false := by
  obtain ⟨⟨⟨h0, h1⟩, _⟩, h2, h3⟩ := h
  constructor
  · intro b hb
    have key : ∀ {b : UInt8}, IsDigit b → b ≠ 0x2C ∧ b ≠ 0x22 := fun h => ⟨(digit_open h).1, (digit_open h).2.1⟩
    unfold NumLit.bytes at hb
    simp only [List.mem_append] at hb
    rcases hb with ((hb | hb) | hb) | hb
    · split at hb
      · simp only [List.mem_singleton] at hb; subst hb; decide
      · simp at hb
    · exact key (h1 b hb)
    · cases hf : n.frac with
      | none => rw [hf] at hb; simp [fracBytes] at hb
      | some ds =>
        rw [hf] at hb
        simp only [fracBytes, List.mem_cons] at hb
        rcases hb with rfl | hb
        · decide
        · exact key ((h2 ds hf).2 b hb)
    · cases he : n.exp with
      | none => rw [he] at hb; simp [expBytes] at hb
      | some q =>
        obtain ⟨e, s, ds⟩ := q
        rw [he] at hb
        obtain ⟨h4, h5, h6⟩ := h3 e s ds he
        simp only [expBytes, List.mem_cons, List.mem_append] at hb
        rcases hb with rfl | hb | hb
        · rcases h4 with rfl | rfl <;> decide
        · cases s with
          | none => simp at hb
          | some c =>
            simp only [Option.toList, List.mem_singleton] at hb
            subst hb
            rcases h5 b rfl with rfl | rfl <;> decide
        · exact key (h6.2 b hb)
  · unfold NumLit.bytes
    cases n.minus
    · cases hint : n.int with
      | nil => exact absurd hint h0
      | cons d ds => exact ⟨d, _, by simp; rfl, (digit_open (h1 d (by rw [hint]; simp))).2.2⟩
    · exact ⟨0x2D, _, by simp; rfl, by decide⟩

/-- the text after minification -/
abbrev core (bs : List UInt8) : List UInt8 := undangle (minify bs)

theorem core_one {b : UInt8} (h : isBlank b = false) (hc : b ≠ 0x2C) (hq : b ≠ 0x22) (r : List UInt8) :
    core (b :: r) = b :: core r := by
  unfold core
  rw [minify_one h hq, undangle_one hc hq]

theorem core_ws {w : List UInt8} (h : Ws w) (r : List UInt8) : core (w ++ r) = core r := by
  unfold core
  rw [minify_ws h]

/-- the first significant byte is not a closing bracket -/
def Opens (bs : List UInt8) : Prop := ∃ c t, minify bs = c :: t ∧ isCloser c = false
/-- the first significant byte is a closing bracket -/
def Closes (bs : List UInt8) : Prop := ∃ c t, minify bs = c :: t ∧ isCloser c = true

theorem core_comma_open {r : List UInt8} (h : Opens r) : core (0x2C :: r) = 0x2C :: core r := by
  obtain ⟨c, t, h1, h2⟩ := h
  unfold core
  rw [minify_one (by decide) (by decide), undangle, h1]
  simp [h2]

theorem core_comma_close {r : List UInt8} (h : Closes r) : core (0x2C :: r) = core r := by
  obtain ⟨c, t, h1, h2⟩ := h
  unfold core
  rw [minify_one (by decide) (by decide), undangle, h1]
  simp [h2]

theorem opens_ws {w : List UInt8} (h : Ws w) {r : List UInt8} : Opens (w ++ r) ↔ Opens r := by
  unfold Opens; rw [minify_ws h]
theorem closes_ws {w : List UInt8} (h : Ws w) {r : List UInt8} : Closes (w ++ r) ↔ Closes r := by
  unfold Closes; rw [minify_ws h]
theorem closes_bracket (r : List UInt8) : Closes (0x5D :: r) := ⟨_, _, minify_one (by decide) (by decide) r, by decide⟩
theorem closes_brace (r : List UInt8) : Closes (0x7D :: r) := ⟨_, _, minify_one (by decide) (by decide) r, by decide⟩

theorem core_str {is : List Item} (hv : ItemsValid is) (r : List UInt8) : core (strBytes is ++ r) = strBytes is ++ core r := by
  unfold core
  rw [minify_strBytes hv, undangle_strBytes hv]

theorem opens_str (is : List Item) (r : List UInt8) : Opens (strBytes is ++ r) := by
  refine ⟨0x22, minifyString (bodyBytes is ++ [0x22] ++ r), ?_, by decide⟩
  show minify (0x22 :: (bodyBytes is ++ [0x22] ++ r)) = _
  rw [minify, if_neg (by decide), if_pos rfl]

section
variable [Arch]

/-- `b` reduces to the compact text -/
def Cores (b : List UInt8) (j : Json) : Prop :=
  ∀ r, core (b ++ r) = utf8 (compact srcBody (ofJson j)) ++ core r ∧ Opens (b ++ r)
/-- the same for elements -/
def CoresE (b : List UInt8) (js : List Json) : Prop :=
  ∀ r, Opens (b ++ r) ∧ (Closes r → core (b ++ r) = utf8 (joined [','] (compactElems srcBody (ofJsons js))) ++ core r)
/-- the same for members -/
def CoresM (b : List UInt8) (ms : List (List Item × Json)) : Prop :=
  ∀ r, Opens (b ++ r) ∧ (Closes r → core (b ++ r) = utf8 (joined [','] (compactEntries srcBody (ofMembers ms))) ++ core r)

theorem cores_plain {b : List UInt8} (h : ∀ x ∈ b, isBlank x = false ∧ x ≠ 0x22) (h' : ∀ x ∈ b, x ≠ 0x2C ∧ x ≠ 0x22)
    (ho : ∃ c t, b = c :: t ∧ isCloser c = false) (r : List UInt8) : core (b ++ r) = b ++ core r ∧ Opens (b ++ r) := by
  refine ⟨?_, ?_⟩
  · unfold core
    rw [minify_plain h, undangle_plain h']
  · obtain ⟨c, t, rfl, hc⟩ := ho
    exact ⟨c, t ++ minify r, by rw [minify_plain h]; rfl, hc⟩

theorem cores_grammar {tc : Bool} {b : List UInt8} {j : Json} (h : GValue tc b j) : Cores b j := by
  have cat : ∀ {w : List UInt8}, Ws w → ∀ b w' r, core (w ++ b ++ w' ++ r) = core (b ++ (w' ++ r)) := by
    intro w hw b w' r
    rw [List.append_assoc, List.append_assoc, core_ws hw]
  have ocat : ∀ {w : List UInt8}, Ws w → ∀ b w' r, Opens (w ++ b ++ w' ++ r) ↔ Opens (b ++ (w' ++ r)) := by
    intro w hw b w' r
    rw [List.append_assoc, List.append_assoc, opens_ws hw]
  refine GValue.rec (motive_1 := fun b j _ => Cores b j) (motive_2 := fun b js _ => CoresE b js)
    (motive_3 := fun b ms _ => CoresM b ms) ?_ ?_ ?_ ?_ ?_ ?_ ?_ ?_ ?_ ?_ ?_ ?_ ?_ ?_ ?_ h
  · exact cores_plain (by decide) (by decide) ⟨_, _, rfl, by decide⟩
  · exact cores_plain (by decide) (by decide) ⟨_, _, rfl, by decide⟩
  · exact cores_plain (by decide) (by decide) ⟨_, _, rfl, by decide⟩
  · intro n hn r
    have := cores_plain (num_plain hn) (num_open hn).1 (num_open hn).2 r
    rwa [show utf8 (compact srcBody (ofJson (.num n))) = n.bytes from utf8_num hn]
  · intro s hs r
    rw [show utf8 (compact srcBody (ofJson (.str s))) = strBytes s from utf8_quoted_canon hs]
    exact ⟨core_str hs r, opens_str s r⟩
  · intro w hw r
    refine ⟨?_, 0x5B, _, minify_one (by decide) (by decide) _, by decide⟩
    show core (0x5B :: (w ++ [0x5D] ++ r)) = _
    rw [core_one (by decide) (by decide) (by decide), List.append_assoc, core_ws hw]
    show 0x5B :: core (0x5D :: r) = _
    rw [core_one (by decide) (by decide) (by decide)]
    rfl
  · intro body js hg ih r
    refine ⟨?_, 0x5B, _, minify_one (by decide) (by decide) _, by decide⟩
    show core (0x5B :: (body ++ [0x5D] ++ r)) = _
    rw [core_one (by decide) (by decide) (by decide), List.append_assoc]
    show 0x5B :: core (body ++ 0x5D :: r) = _
    rw [(ih _).2 (closes_bracket r)]
    show 0x5B :: (_ ++ core (0x5D :: r)) = _
    rw [core_one (by decide) (by decide) (by decide), ofJson, compact, List.append_assoc, utf8_append, utf8_append]
    simp
    rfl
  · intro w hw r
    refine ⟨?_, 0x7B, _, minify_one (by decide) (by decide) _, by decide⟩
    show core (0x7B :: (w ++ [0x7D] ++ r)) = _
    rw [core_one (by decide) (by decide) (by decide), List.append_assoc, core_ws hw]
    show 0x7B :: core (0x7D :: r) = _
    rw [core_one (by decide) (by decide) (by decide)]
    rfl
  · intro body js hg ih r
    refine ⟨?_, 0x7B, _, minify_one (by decide) (by decide) _, by decide⟩
    show core (0x7B :: (body ++ [0x7D] ++ r)) = _
    rw [core_one (by decide) (by decide) (by decide), List.append_assoc]
    show 0x7B :: core (body ++ 0x7D :: r) = _
    rw [(ih _).2 (closes_brace r)]
    show 0x7B :: (_ ++ core (0x7D :: r)) = _
    rw [core_one (by decide) (by decide) (by decide), ofJson, compact, List.append_assoc, utf8_append, utf8_append]
    simp
    rfl
  · intro w b w' j hw hg hw' ih r
    refine ⟨(ocat hw b w' r).mpr (ih _).2, fun _ => ?_⟩
    rw [cat hw, (ih _).1, core_ws hw']
    rfl
  · intro w b w' w'' j htc hw hg hw' hw'' ih r
    refine ⟨?_, fun hc => ?_⟩
    · rw [List.append_assoc]
      exact (ocat hw b w' _).mpr (ih _).2
    · rw [List.append_assoc, cat hw, (ih _).1, core_ws hw']
      show _ ++ core (0x2C :: (w'' ++ r)) = _
      rw [core_comma_close ((closes_ws hw'').mpr hc), core_ws hw'']
      rfl
  · intro w b w' rest j js hw hg hw' hgs ih ihs r
    refine ⟨?_, fun hc => ?_⟩
    · rw [List.append_assoc]
      exact (ocat hw b w' _).mpr (ih _).2
    · rw [List.append_assoc, cat hw, (ih _).1, core_ws hw']
      show _ ++ core (0x2C :: (rest ++ r)) = _
      obtain ⟨j2, t, rfl⟩ := elems_ne hgs
      rw [core_comma_open (ihs r).1, (ihs r).2 hc]
      show _ = utf8 (compact srcBody (ofJson j) ++ [','] ++ joined [','] (compactElems srcBody (ofJsons (j2 :: t)))) ++ _
      rw [utf8_append, utf8_append, List.append_assoc, List.append_assoc]
      rfl
  · intro w w1 w2 b w' k j hw hk hw1 hw2 hg hw' ih r
    refine ⟨?_, fun _ => ?_⟩
    · rw [List.append_assoc]
      exact (ocat hw _ w1 _).mpr (opens_str k _)
    · rw [List.append_assoc, cat hw, core_str hk, core_ws hw1]
      show strBytes k ++ core (0x3A :: (w2 ++ b ++ w' ++ r)) = _
      rw [core_one (by decide) (by decide) (by decide), cat hw2, (ih _).1, core_ws hw']
      show _ = utf8 (quoted (srcBody (canonStr k)) ++ [':'] ++ compact srcBody (ofJson j)) ++ _
      simp only [utf8_append, List.append_assoc, utf8_quoted_canon hk]
      rfl
  · intro w w1 w2 b w' w'' k j htc hw hk hw1 hw2 hg hw' hw'' ih r
    refine ⟨?_, fun hc => ?_⟩
    · rw [List.append_assoc]
      exact (ocat hw _ w1 _).mpr (opens_str k _)
    · rw [List.append_assoc, cat hw, core_str hk, core_ws hw1]
      show strBytes k ++ core (0x3A :: (w2 ++ b ++ w' ++ 0x2C :: w'' ++ r)) = _
      rw [core_one (by decide) (by decide) (by decide), List.append_assoc, cat hw2, (ih _).1, core_ws hw']
      show strBytes k ++ 0x3A :: (_ ++ core (0x2C :: (w'' ++ r))) = _
      rw [core_comma_close ((closes_ws hw'').mpr hc), core_ws hw'']
      show _ = utf8 (quoted (srcBody (canonStr k)) ++ [':'] ++ compact srcBody (ofJson j)) ++ _
      simp only [utf8_append, List.append_assoc, utf8_quoted_canon hk]
      rfl
  · intro w w1 w2 b w' rest k j js hw hk hw1 hw2 hg hw' hgs ih ihs r
    refine ⟨?_, fun hc => ?_⟩
    · rw [List.append_assoc]
      exact (ocat hw _ w1 _).mpr (opens_str k _)
    · rw [List.append_assoc, cat hw, core_str hk, core_ws hw1]
      show strBytes k ++ core (0x3A :: (w2 ++ b ++ w' ++ 0x2C :: rest ++ r)) = _
      rw [core_one (by decide) (by decide) (by decide), List.append_assoc, cat hw2, (ih _).1, core_ws hw']
      show strBytes k ++ 0x3A :: (_ ++ core (0x2C :: (rest ++ r))) = _
      obtain ⟨k2, j2, t, rfl⟩ := members_ne hgs
      rw [core_comma_open (ihs r).1, (ihs r).2 hc]
      show _ = utf8 (quoted (srcBody (canonStr k)) ++ [':'] ++ compact srcBody (ofJson j) ++ [','] ++ joined [','] (compactEntries srcBody (ofMembers ((k2, j2) :: t)))) ++ _
      simp only [utf8_append, List.append_assoc, utf8_quoted_canon hk]
      rfl

theorem core_text {tc : Bool} {s : List UInt8} {j : Json} (h : Text tc s j) :
    undangle (minify s) = utf8 (compact srcBody (ofJson j)) := by
  obtain ⟨w, b, w', hw, hg, hw', rfl⟩ := h
  have := (cores_grammar hg w').1
  have e : core (w ++ b ++ w') = core (b ++ w') := by rw [List.append_assoc, core_ws hw]
  show core _ = _
  rw [e, this]
  have := core_ws hw' []
  rw [List.append_nil] at this
  rw [this]
  simp [core, minify, undangle]

end
end JustJson
