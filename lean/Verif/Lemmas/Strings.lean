import Verif.Spec.Strings
import Verif.Lemmas.Render
import Verif.Lemmas.Tokens
import Verif.Lemmas.Outcome
import Verif.Lemmas.Unique
import Verif.Lemmas.DocRead
import Verif.Props.Tokenizer
import Verif.Props.Delegate
/-! # The shape of every string a client can have -/

namespace JustJson
open Spec

set_option linter.unusedSectionVars false

mutual
/-- the string bodies of a tree -/
def jstrings : Json → List (List Item)
  | .str s => [s]
  | .arr js => jstringsElems js
  | .obj ms => jstringsMembers ms
  | _ => []
/-- of elements -/
def jstringsElems : List Json → List (List Item)
  | [] => []
  | j :: js => jstrings j ++ jstringsElems js
/-- of members -/
def jstringsMembers : List (List Item × Json) → List (List Item)
  | [] => []
  | (k, j) :: ms => k :: (jstrings j ++ jstringsMembers ms)
end

/-- well-formed and of at most `n` bytes -/
def BodyOk (n : Nat) (is : List Item) : Prop := ItemsValid is ∧ (bodyBytes is).length ≤ n

theorem BodyOk.mono {n m : Nat} {is : List Item} (h : BodyOk n is) (hnm : n ≤ m) : BodyOk m is := ⟨h.1, Nat.le_trans h.2 hnm⟩

theorem gvalue_bodies {tc : Bool} {b : List UInt8} {j : Json} (h : GValue tc b j) : ∀ is ∈ jstrings j, BodyOk b.length is := by
  refine GValue.rec (motive_1 := fun b j _ => ∀ is ∈ jstrings j, BodyOk b.length is)
    (motive_2 := fun b js _ => ∀ is ∈ jstringsElems js, BodyOk b.length is)
    (motive_3 := fun b ms _ => ∀ is ∈ jstringsMembers ms, BodyOk b.length is) ?_ ?_ ?_ ?_ ?_ ?_ ?_ ?_ ?_ ?_ ?_ ?_ ?_ ?_ ?_ h
  · simp [jstrings]
  · simp [jstrings]
  · simp [jstrings]
  · simp [jstrings]
  · intro s hs is his
    simp only [jstrings, List.mem_singleton] at his
    subst his
    exact ⟨hs, by simp [strBytes]; omega⟩
  · simp [jstrings, jstringsElems]
  · intro body js hb ih is his
    exact (ih is (by simpa [jstrings] using his)).mono (by simp; omega)
  · simp [jstrings, jstringsMembers]
  · intro body js hb ih is his
    exact (ih is (by simpa [jstrings] using his)).mono (by simp; omega)
  · intro w b w' j _ _ _ ih is his
    simp only [jstringsElems, List.append_nil] at his
    exact (ih is his).mono (by simp; omega)
  · intro w b w' w'' j _ _ _ _ _ ih is his
    simp only [jstringsElems, List.append_nil] at his
    exact (ih is his).mono (by simp; omega)
  · intro w b w' rest j js _ _ _ _ ih1 ih2 is his
    simp only [jstringsElems, List.mem_append] at his
    rcases his with his | his
    · exact (ih1 is his).mono (by simp; omega)
    · exact (ih2 is his).mono (by simp; omega)
  · intro w w1 w2 b w' k j _ hk _ _ _ _ ih is his
    simp only [jstringsMembers, List.append_nil, List.mem_cons] at his
    rcases his with rfl | his
    · exact ⟨hk, by simp [strBytes]; omega⟩
    · exact (ih is his).mono (by simp; omega)
  · intro w w1 w2 b w' w'' k j _ _ hk _ _ _ _ _ ih is his
    simp only [jstringsMembers, List.append_nil, List.mem_cons] at his
    rcases his with rfl | his
    · exact ⟨hk, by simp [strBytes]; omega⟩
    · exact (ih is his).mono (by simp; omega)
  · intro w w1 w2 b w' rest k j ms _ hk _ _ _ _ _ ih1 ih2 is his
    simp only [jstringsMembers, List.mem_append, List.mem_cons] at his
    rcases his with rfl | his | his
    · exact ⟨hk, by simp [strBytes]; omega⟩
    · exact (ih1 is his).mono (by simp; omega)
    · exact (ih2 is his).mono (by simp; omega)

theorem text_bodies {tc : Bool} {s : List UInt8} {j : Json} (h : Text tc s j) : ∀ is ∈ jstrings j, BodyOk s.length is := by
  obtain ⟨w, b, w', h1, h2, h3, rfl⟩ := h
  intro is his
  exact (gvalue_bodies h2 is his).mono (by simp; omega)

section
variable [Arch]

theorem strings_ofJson : (∀ j, (ofJson j).strings = (jstrings j).map canonStr)
    ∧ (∀ ms, Value.stringsEntries (ofMembers ms) = (jstringsMembers ms).map canonStr)
    ∧ (∀ js, Value.stringsElems (ofJsons js) = (jstringsElems js).map canonStr) := by
  refine Json.induct rfl (fun _ => rfl) (fun _ => rfl) (fun _ => rfl) ?_ ?_ rfl ?_ rfl ?_
  · intro es h; exact h
  · intro vs h; exact h
  · intro k v es h1 h2
    simp only [ofMembers, Value.stringsEntries, jstringsMembers, h1, h2, List.map_cons, List.map_append]
  · intro v vs h1 h2
    simp only [ofJsons, Value.stringsElems, jstringsElems, h1, h2, List.map_append]

theorem strings_flatten {P : JsonString → Prop} : (∀ v, (∀ j ∈ v.strings, P j) → ∀ j, Node.string j ∈ flatten v → P j)
    ∧ (∀ es, (∀ j ∈ Value.stringsEntries es, P j) → ∀ j, Node.string j ∈ flattenEntries es → P j)
    ∧ (∀ vs, (∀ j ∈ Value.stringsElems vs, P j) → ∀ j, Node.string j ∈ flattenElems vs → P j) := by
  refine Value.induct ?_ ?_ ?_ ?_ ?_ ?_ ?_ ?_ ?_ ?_
  all_goals intros
  all_goals simp_all [Value.strings, Value.stringsEntries, Value.stringsElems, flatten, flattenEntries, flattenElems]
  · rename_i h1 h2 h3 h4
    rcases h4 with rfl | h4 | h4
    · exact h3.1
    · exact h1 _ h4
    · exact h2 _ h4
  · rename_i h1 h2 h3 h4
    rcases h4 with h4 | h4
    · exact h1 _ h4
    · exact h2 _ h4

/-- The shape of a parsed string. -/
theorem parsed_shape {j : JsonString} (h : Parsed j) :
    ∃ is, ItemsValid is ∧ (bodyBytes is).length < LIM ∧ j = canonStr is := by
  have key : ∀ {tc src jj}, Text tc src jj → src.length < LIM → ∀ j ∈ (ofJson jj).strings,
      ∃ is, ItemsValid is ∧ (bodyBytes is).length < LIM ∧ j = canonStr is := by
    intro tc src jj ht hl j hj
    rw [strings_ofJson.1] at hj
    obtain ⟨is, h1, rfl⟩ := List.mem_map.mp hj
    obtain ⟨h2, h3⟩ := text_bodies ht is h1
    exact ⟨is, h2, by omega, rfl⟩
  cases h with
  | inValue g src cfg v _ hi hp hj =>
    obtain ⟨jj, ha, rfl⟩ := (value_ok_iff hi).mp hp
    exact key ha.1 hi.lim j hj
  | single s _ hf hp =>
    obtain ⟨is, ht, _⟩ := (C38_string_ok_iff s hf).1 j hp
    have hi := input_str hf
    have hv : Value.fromJson s = .ok (ofJson (.str is)) := accepted_ok hi ⟨ht, fun n hn => Nat.zero_le n, .inl rfl⟩
    have hk := C38_string_from_json s hf
    rw [hv] at hk
    have hk : JsonString.fromJson s = .ok (canonStr is) := hk
    rw [hk] at hp
    cases hp
    exact key ht hi.lim _ (List.mem_singleton.mpr rfl)
  | token g src cs c _ hi hr =>
    have hl : offsetAfter src g cs ≤ src.length := (history_offset hi cs (Nat.zero_le _)).2
    have hlex : ∀ {w : List UInt8} {l : Lex} {off' : Nat}, l.Valid → off' ≤ src.length →
        Adv src (offsetAfter src g cs + w.length) l.bytes off' → l.token = .string j →
        ∃ is, ItemsValid is ∧ (bodyBytes is).length < LIM ∧ j = canonStr is := by
      intro w l off' hv hle ha ht
      cases l with
      | str is =>
        cases ht
        have h1 := ha.1
        have := hi.lim
        refine ⟨is, hv, ?_, rfl⟩
        simp [Lex.bytes, strBytes] at h1
        omega
      | _ => cases ht
    have hc := tok_cases hi hl
    cases hc with
    | eof _ hn he hp => cases c <;> simp [Call.run, hn, he, hp] at hr
    | err w b t e off' hw hd hb hlt hle heo hrp hn he hp => cases c <;> simp [Call.run, hn, he, hp] at hr
    | tok w b t l off' hw hd hb hv ha hs hlt hle hn he hp =>
      cases c <;> simp [Call.run, hn, he, hp] at hr
      · exact hlex hv hle ha hr
      · exact hlex hv hle ha hr
  | node cap g src cfg ns _ hi hp hj =>
    rcases doc_cases (cap := cap) (cfg := cfg) hi with ⟨v, h1, ⟨_, h2⟩ | ⟨_, off, h2⟩⟩ | ⟨e, h1, h2 | ⟨_, off, h2⟩⟩
    · rw [hp] at h2
      cases h2
      obtain ⟨jj, ha, rfl⟩ := (value_ok_iff hi).mp h1
      exact strings_flatten.1 _ (key ha.1 hi.lim) j hj
    · rw [hp] at h2; cases h2
    · rw [hp] at h2; cases h2
    · rw [hp] at h2; cases h2

/-- What all operations on a string depend on. `t` is the text. -/
inductive Shape : JsonString → Str → Prop where
  /-- parsed, with an escape -/
  | esc (is : List Item) : ItemsValid is → (bodyBytes is).length < LIM → hasEsc is = true → Shape (canonStr is) (codeText is)
  /-- JSON source that is the text itself -/
  | plain (a : AnyStr) (n : Nat) : n < LIM → Str.len a.asStr < LIM → NeedsNoEscape a.asStr →
      (n = Str.len a.asStr ∧ a = .borrowed a.asStr ∨ n = cntS a.asStr) →
      Shape ⟨.json a, .new false n⟩ a.asStr
  /-- converted text in need of escapes -/
  | raw (a : AnyStr) : cntS a.asStr < LIM → Str.len a.asStr < LIM → ¬ NeedsNoEscape a.asStr → Shape ⟨.raw a, .new true (cntS a.asStr)⟩ a.asStr

theorem needsNoEscape_iff {s : Str} : NeedsNoEscape s ↔ s.any escC = false := by
  unfold NeedsNoEscape
  induction s with
  | nil => simp
  | cons c s ih =>
    simp only [List.mem_cons, forall_eq_or_imp, List.any_cons, Bool.or_eq_false_iff, ih]
    have : (0x20 ≤ c.toNat ∧ c ≠ '"' ∧ c ≠ '\\') ↔ escC c = false := by
      unfold escC
      simp only [Bool.or_eq_false_iff, decide_eq_false_iff_not, beq_eq_false_iff_ne, and_assoc, Nat.not_lt]
    rw [this]

theorem noEsc_needs {is : List Item} (hv : ItemsValid is) (h : hasEsc is = false) : NeedsNoEscape (codeText is) := by
  intro c hc
  obtain ⟨i, hi, rfl⟩ := List.mem_map.mp hc
  have hp : i.isEscape = false := by
    unfold hasEsc at h
    rw [List.any_eq_false] at h
    simpa using h i hi
  have hv := hv i hi
  cases i with
  | plain c => exact hv
  | _ => cases hp

theorem shape_canon {is : List Item} (hv : ItemsValid is) (hl : (bodyBytes is).length < LIM) : Shape (canonStr is) (codeText is) := by
  cases he : hasEsc is with
  | true => exact .esc is hv hl he
  | false =>
    have hb := noEsc_chars he
    have hc := codeLen_lim hv hl
    have h := Shape.plain (.borrowed (codeText is)) (Str.len (codeText is)) hc hc (noEsc_needs hv he) (.inl ⟨rfl, rfl⟩)
    have e : canonStr is = ⟨.json (.borrowed (codeText is)), .new false (Str.len (codeText is))⟩ := by
      unfold canonStr; rw [he, hb]
    rw [e]
    exact h

theorem parsed_text {j : JsonString} (h : Parsed j) : ∃ t, Shape j t := by
  obtain ⟨is, h1, h2, rfl⟩ := parsed_shape h
  exact ⟨_, shape_canon h1 h2⟩

theorem fits_str {s : Str} (h : SliceFits (utf8 s)) : Str.len s < LIM := fits_lim.mp h

theorem fromStr_shape {s : Str} {j : JsonString} (hf : SliceFits (utf8 s)) (h : JsonString.fromStr s = .ok j) : Shape j s := by
  rw [fromStr_eq s (fits_str hf)] at h
  split at h
  · rename_i he
    split at h
    · cases h
    · cases h
      refine Shape.raw (.borrowed s) (by show cntS s < LIM; omega) (fits_str hf) ?_
      rw [needsNoEscape_iff]
      show ¬ s.any escC = false
      rw [he]; decide
  · rename_i he
    cases h
    have he : s.any escC = false := by simpa using he
    have := cntS_le_plain he
    have := fits_str hf
    exact Shape.plain (.borrowed s) (cntS s) (by omega) this (needsNoEscape_iff.mpr he) (.inr rfl)

theorem fromString_shape {s : Str} {j : JsonString} (hf : SliceFits (utf8 s)) (h : JsonString.fromString s = .ok j) : Shape j s := by
  rw [fromString_eq s (fits_str hf)] at h
  split at h
  · rename_i he
    split at h
    · cases h
    · cases h
      refine Shape.raw (.owned s) (by show cntS s < LIM; omega) (fits_str hf) ?_
      rw [needsNoEscape_iff]
      show ¬ s.any escC = false
      rw [he]; decide
  · rename_i he
    cases h
    have he : s.any escC = false := by simpa using he
    have := cntS_le_plain he
    have := fits_str hf
    exact Shape.plain (.owned s) (cntS s) (by omega) this (needsNoEscape_iff.mpr he) (.inr rfl)

theorem obtainable_shape {j : JsonString} (h : Obtainable j) : ∃ t, Shape j t := by
  cases h with
  | parsed _ h => exact parsed_text h
  | fromStr s _ hf h => exact ⟨s, fromStr_shape hf h⟩
  | fromString s _ hf h => exact ⟨s, fromString_shape hf h⟩

theorem Shape.decoded {j : JsonString} {t : Str} (h : Shape j t) : j.decoded = .ok t := by
  cases h with
  | esc is hv hl he => exact decoded_canon hv hl
  | plain a n hn => exact decoded_json_plain a _ (info_hasEscapes hn)
  | raw a h1 => exact decoded_raw a _

theorem HasText.unique {j : JsonString} {s t : Str} (h : HasText j s) (h' : HasText j t) : s = t := by
  unfold HasText at h h'
  rw [h] at h'
  injection h'

theorem Shape.hasText {j : JsonString} {s t : Str} (h : Shape j s) (h' : HasText j t) : Shape j t := by
  rw [← HasText.unique h.decoded h']; exact h

theorem Shape.esc_facts {is : List Item} (hv : ItemsValid is) (hl : (bodyBytes is).length < LIM) (he : hasEsc is = true) :
    (canonStr is).info.hasEscapes = true ∧ (canonStr is).info.expectedLength = Str.len (codeText is) :=
  ⟨by rw [canon_hasEscapes hv hl, he], canon_expected hv hl⟩

/-! ## Equality with text -/

theorem zipAllEq_of_len : ∀ {a b : Str}, Str.len a = Str.len b → (zipAllEq a b = true ↔ a = b) := by
  intro a
  induction a with
  | nil =>
    intro b h
    cases b with
    | nil => simp [zipAllEq]
    | cons c b =>
      have := lenUtf8_pos c
      rw [Str.len_cons', Str.len_nil] at h
      omega
  | cons c a ih =>
    intro b h
    cases b with
    | nil =>
      have := lenUtf8_pos c
      rw [Str.len_cons', Str.len_nil] at h
      omega
    | cons d b =>
      simp only [zipAllEq, Bool.and_eq_true, beq_iff_eq, List.cons.injEq]
      constructor
      · rintro ⟨rfl, h2⟩
        rw [Str.len_cons', Str.len_cons'] at h
        exact ⟨rfl, (ih (by omega)).mp h2⟩
      · rintro ⟨rfl, rfl⟩
        exact ⟨rfl, (ih rfl).mpr rfl⟩

theorem Shape.eqStr {j : JsonString} {t : Str} (h : Shape j t) (s : Str) : j.eqStr s = .ok (decide (t = s)) := by
  cases h with
  | esc is hv hl he =>
    obtain ⟨h1, h2⟩ := Shape.esc_facts hv hl he
    have hd : (Decoded.new (canonStr is).source (canonStr is).info).collect = .ok (codeText is) := decoded_canon hv hl
    unfold JsonString.eqStr
    have hs : (canonStr is).source = .json (.borrowed (bodyChars is)) := rfl
    rw [hs] at hd ⊢
    simp only [h1, if_true]
    rw [h2, hd]
    by_cases hlen : Str.len (codeText is) = Str.len s
    · rw [if_neg (by simp [hlen])]
      show Res.ok _ = _
      congr 1
      rw [Bool.eq_iff_iff, zipAllEq_of_len hlen, decide_eq_true_iff]
    · rw [if_pos (by simpa using hlen)]
      have : codeText is ≠ s := fun h => hlen (by rw [h])
      rw [decide_eq_false this]
  | plain a n hn =>
    unfold JsonString.eqStr
    simp only [info_hasEscapes hn]
    show Res.ok (a.asStr == s) = _
    congr 1
    rw [Bool.eq_iff_iff, beq_iff_eq, decide_eq_true_iff]
  | raw a h1 =>
    show Res.ok (a.asStr == s) = _
    congr 1
    rw [Bool.eq_iff_iff, beq_iff_eq, decide_eq_true_iff]

end
end JustJson
