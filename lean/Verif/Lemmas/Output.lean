import Verif.Lemmas.Layout
import Verif.Lemmas.Trailing
import Verif.Lemmas.Roundtrip
import Verif.Props.Render
/-! # What can be said of written values -/

namespace JustJson
open Spec

set_option linter.unusedSectionVars false

section
variable [Arch]

/-! ## Length -/

theorem compact_length {tc : Bool} {b : List UInt8} {j : Json} (h : GValue tc b j) :
    (utf8 (compact srcBody (ofJson j))).length ≤ b.length := by
  have ec : utf8 [','] = [0x2C] := rfl
  have ek : utf8 [':'] = [0x3A] := rfl
  have e1 : utf8 ['['] = [0x5B] := rfl
  have e2 : utf8 [']'] = [0x5D] := rfl
  have e3 : utf8 ['{'] = [0x7B] := rfl
  have e4 : utf8 ['}'] = [0x7D] := rfl
  refine GValue.rec (motive_1 := fun b j _ => (utf8 (compact srcBody (ofJson j))).length ≤ b.length)
    (motive_2 := fun b js _ => (utf8 (joined [','] (compactElems srcBody (ofJsons js)))).length ≤ b.length)
    (motive_3 := fun b ms _ => (utf8 (joined [','] (compactEntries srcBody (ofMembers ms)))).length ≤ b.length)
    ?_ ?_ ?_ ?_ ?_ ?_ ?_ ?_ ?_ ?_ ?_ ?_ ?_ ?_ ?_ h
  · exact Nat.le_refl 4
  · exact Nat.le_refl 4
  · exact Nat.le_refl 5
  · intro n hn
    show (utf8 (canonNum n).sourceStr).length ≤ _
    rw [show utf8 (canonNum n).sourceStr = n.bytes from canonNum_denotes hn]
    exact Nat.le_refl _
  · intro s hs
    show (utf8 (quoted (srcBody (canonStr s)))).length ≤ _
    rw [utf8_quoted_canon hs]
    exact Nat.le_refl _
  · intro w hw
    have : (utf8 (compact srcBody (ofJson (.arr [])))).length = 2 := rfl
    rw [this]; simp
  · intro body js hg ih
    show (utf8 (['['] ++ joined [','] (compactElems srcBody (ofJsons js)) ++ [']'])).length ≤ _
    rw [utf8_append, utf8_append, e1, e2]
    simp; omega
  · intro w hw
    have : (utf8 (compact srcBody (ofJson (.obj [])))).length = 2 := rfl
    rw [this]; simp
  · intro body js hg ih
    show (utf8 (['{'] ++ joined [','] (compactEntries srcBody (ofMembers js)) ++ ['}'])).length ≤ _
    rw [utf8_append, utf8_append, e3, e4]
    simp; omega
  · intro w b w' j _ _ _ ih
    show (utf8 (compact srcBody (ofJson j))).length ≤ _
    simp only [List.length_append]; omega
  · intro w b w' w'' j _ _ _ _ _ ih
    show (utf8 (compact srcBody (ofJson j))).length ≤ _
    simp only [List.length_append, List.length_cons]; omega
  · intro w b w' rest j js _ _ _ hg ih ih2
    obtain ⟨j2, t, rfl⟩ := elems_ne hg
    show (utf8 (compact srcBody (ofJson j) ++ [','] ++ joined [','] (compactElems srcBody (ofJsons (j2 :: t))))).length ≤ _
    rw [utf8_append, utf8_append, ec]
    simp only [List.length_append, List.length_cons, List.length_nil]; omega
  · intro w w1 w2 b w' k j _ hk _ _ _ _ ih
    show (utf8 (quoted (srcBody (canonStr k)) ++ [':'] ++ compact srcBody (ofJson j))).length ≤ _
    rw [utf8_append, utf8_append, utf8_quoted_canon hk, ek]
    simp only [List.length_append, List.length_cons, List.length_nil]; omega
  · intro w w1 w2 b w' w'' k j _ _ hk _ _ _ _ _ ih
    show (utf8 (quoted (srcBody (canonStr k)) ++ [':'] ++ compact srcBody (ofJson j))).length ≤ _
    rw [utf8_append, utf8_append, utf8_quoted_canon hk, ek]
    simp only [List.length_append, List.length_cons, List.length_nil]; omega
  · intro w w1 w2 b w' rest k j ms _ hk _ _ _ _ hg ih ih2
    obtain ⟨k2, j2, t, rfl⟩ := members_ne hg
    show (utf8 (quoted (srcBody (canonStr k)) ++ [':'] ++ compact srcBody (ofJson j) ++ [','] ++ joined [','] (compactEntries srcBody (ofMembers ((k2, j2) :: t))))).length ≤ _
    rw [utf8_append, utf8_append, utf8_append, utf8_append, utf8_quoted_canon hk, ek, ec]
    simp only [List.length_append, List.length_cons, List.length_nil]; omega

theorem compact_text_length {tc : Bool} {b : List UInt8} {j : Json} (h : Text tc b j) :
    (utf8 (compact srcBody (ofJson j))).length ≤ b.length := by
  obtain ⟨w, b, w', _, hg, _, rfl⟩ := h
  have := compact_length hg
  simp only [List.length_append]; omega

/-! ## Panics -/

theorem seq_panic {t t' : Tr} (h : (Tr.seq t t').panic = none) : t.panic = none ∧ t'.panic = none := by
  unfold Tr.seq at h
  cases hp : t.panic with
  | none => rw [hp] at h; exact ⟨rfl, h⟩
  | some p => rw [hp] at h; cases h

theorem strTr_some (pretty : Bool) (indent : Str) {s : JsonString} {l : Nat} {b : Bool} (h : (strTr pretty indent l b s).panic = none) :
    ∃ t, s.asJson = .ok t := by
  cases hs : s.asJson with
  | ok t => exact ⟨t, rfl⟩
  | panic p => rw [strTr_panic pretty indent l b hs] at h; cases h

/-- If the writing of a value ran to its end, each of its strings can be rendered. -/
theorem calls_ok (pretty : Bool) (indent lineEnding : Str) :
    (∀ v : Value, ∀ l b, (valueTr pretty indent lineEnding l b v).panic = none → ∀ s ∈ v.strings, ∃ t, s.asJson = .ok t)
    ∧ (∀ es : Object, ∀ l b, (entriesTr pretty indent lineEnding l b es).panic = none → ∀ s ∈ Value.stringsEntries es, ∃ t, s.asJson = .ok t)
    ∧ (∀ vs : List Value, ∀ l b, (elemsTr pretty indent lineEnding l b vs).panic = none → ∀ s ∈ Value.stringsElems vs, ∃ t, s.asJson = .ok t) := by
  apply Value.induct
  · intro l b _ s hs; cases hs
  · intro _ l b _ s hs; cases hs
  · intro _ l b _ s hs; cases hs
  · intro t l b h s hs
    rw [Value.strings, List.mem_singleton] at hs
    subst hs
    rw [valueTr] at h
    exact strTr_some pretty indent h
  · intro es ih l b h s hs
    rw [Value.strings] at hs
    cases es with
    | nil => cases hs
    | cons e es =>
      simp only [valueTr] at h
      exact ih _ _ (seq_panic (seq_panic h).2).1 s hs
  · intro es ih l b h s hs
    rw [Value.strings] at hs
    cases es with
    | nil => cases hs
    | cons e es =>
      simp only [valueTr] at h
      exact ih _ _ (seq_panic (seq_panic h).2).1 s hs
  · intro l b _ s hs; cases hs
  · intro k v es ihv ih l b h s hs
    rw [entriesTr] at h
    obtain ⟨h1, h⟩ := seq_panic h
    obtain ⟨_, h⟩ := seq_panic h
    obtain ⟨h2, h⟩ := seq_panic h
    obtain ⟨_, h3⟩ := seq_panic h
    rw [Value.stringsEntries, List.mem_cons, List.mem_append] at hs
    rcases hs with rfl | hs | hs
    · exact strTr_some pretty indent h1
    · exact ihv _ _ h2 s hs
    · exact ih _ _ h3 s hs
  · intro l b _ s hs; cases hs
  · intro v es ihv ih l b h s hs
    rw [elemsTr] at h
    obtain ⟨h1, h⟩ := seq_panic h
    obtain ⟨_, h2⟩ := seq_panic h
    rw [Value.stringsElems, List.mem_append] at hs
    rcases hs with hs | hs
    · exact ihv _ _ h1 s hs
    · exact ih _ _ h2 s hs

/-- what `as_json` gives, if it does -/
def renderedBody (s : JsonString) : Str := match s.asJson with | .ok t => t | .panic _ => []

theorem rendered_ok {s : JsonString} (h : ∃ t, s.asJson = .ok t) : s.asJson = .ok (renderedBody s) := by
  obtain ⟨t, h⟩ := h
  unfold renderedBody
  rw [h]

theorem intoString_some {t : Tr} {f : stringWriter.W → Res (stringWriter.W × Bool)} (hf : ∀ w, f w = t.result stringWriter w) {out : Str}
    (h : intoString f = .ok out) : t.panic = none ∧ out = WCall.texts t.calls := by
  rw [intoString_result t hf] at h
  cases hp : t.panic with
  | none => rw [hp] at h; cases h; exact ⟨rfl, rfl⟩
  | some p => rw [hp] at h; cases h

theorem toJson_strings {v : Value} {out : Str} (h : v.toJson = .ok out) : ∀ s ∈ v.strings, s.asJson = .ok (renderedBody s) :=
  fun s hs => rendered_ok ((calls_ok false [] []).1 v 0 true (intoString_some (fun w => writeJson_result false [] [] stringWriter v w) h).1 s hs)

theorem pretty_strings {v : Value} {i l out : Str} (h : v.toJsonPrettyCustom i l = .ok out) : ∀ s ∈ v.strings, s.asJson = .ok (renderedBody s) :=
  fun s hs => rendered_ok ((calls_ok true i l).1 v 0 true (intoString_some (fun w => writeJson_result true i l stringWriter v w) h).1 s hs)

/-! ## Built values -/

theorem built_strings {v : Value} (h : Built v) : (∀ s ∈ v.strings, Obtainable s) ∧ ∀ x ∈ v.numbers, x.WellFormed := by
  refine Built.rec (motive_1 := fun v _ => (∀ s ∈ v.strings, Obtainable s) ∧ ∀ x ∈ v.numbers, x.WellFormed)
    (motive_2 := fun vs _ => (∀ s ∈ Value.stringsElems vs, Obtainable s) ∧ ∀ x ∈ Value.numbersElems vs, x.WellFormed)
    (motive_3 := fun es _ => (∀ s ∈ Value.stringsEntries es, Obtainable s) ∧ ∀ x ∈ Value.numbersEntries es, x.WellFormed)
    ?_ ?_ ?_ ?_ ?_ ?_ ?_ ?_ ?_ ?_ h
  · exact ⟨(fun s hs => by cases hs), (fun s hs => by cases hs)⟩
  · intro b; exact ⟨(fun s hs => by cases hs), (fun s hs => by cases hs)⟩
  · intro x hx; exact ⟨(fun s hs => by cases hs), (fun s hs => by rw [Value.numbers, List.mem_singleton] at hs; rw [hs]; exact hx)⟩
  · intro s h; exact ⟨(fun s' hs => by rw [Value.strings, List.mem_singleton] at hs; rw [hs]; exact h), (fun s hs => by cases hs)⟩
  · intro vs _ ih; rw [Value.strings, Value.numbers]; exact ih
  · intro vs _ ih; rw [Value.strings, Value.numbers]; exact ih
  · exact ⟨(fun s hs => by cases hs), (fun s hs => by cases hs)⟩
  · rintro v vs _ _ ⟨h1, h2⟩ ⟨h3, h4⟩
    rw [Value.stringsElems, Value.numbersElems]
    exact ⟨(fun s hs => (List.mem_append.mp hs).elim (h1 s) (h3 s)), (fun s hs => (List.mem_append.mp hs).elim (h2 s) (h4 s))⟩
  · exact ⟨(fun s hs => by cases hs), (fun s hs => by cases hs)⟩
  · rintro k v vs hk _ _ ⟨h1, h2⟩ ⟨h3, h4⟩
    rw [Value.stringsEntries, Value.numbersEntries]
    refine ⟨?_, (fun s hs => (List.mem_append.mp hs).elim (h2 s) (h4 s))⟩
    intro s hs
    rcases List.mem_cons.mp hs with rfl | hs
    · exact hk
    · exact (List.mem_append.mp hs).elim (h1 s) (h3 s)

theorem shape_asJson {j : JsonString} {t r : Str} (h : Shape j t) (hr : j.asJson = .ok r) :
    (∃ is, ItemsValid is ∧ j = canonStr is ∧ r = bodyChars is ∧ codeText is = t ∧ (bodyBytes is).length < LIM)
    ∨ (r = render t) := by
  cases h with
  | esc is hv hl he =>
    left
    unfold canonStr at hr
    rw [asJson_json] at hr
    injection hr with hr
    exact ⟨is, hv, rfl, hr.symm, rfl, hl⟩
  | plain a n h1 h2 h3 h4 =>
    right
    rw [asJson_json] at hr
    injection hr with hr
    rw [← hr]
    exact (render_plain (needsNoEscape_iff.mp h3)).symm
  | raw a h1 h2 h3 =>
    right
    by_cases h2 : cntS a.asStr + cntS a.asStr < LIM
    · rw [asJson_raw a h1 h2] at hr
      injection hr with hr
      exact hr.symm
    · rw [asJson_raw_overflow a h1 (by omega)] at hr
      cases hr

theorem rendered_safe {s : JsonString} (h : Obtainable s) (hr : s.asJson = .ok (renderedBody s)) : SafeBody (renderedBody s) := by
  obtain ⟨t, ht⟩ := obtainable_shape h
  rcases shape_asJson ht hr with ⟨is, hv, _, e, _⟩ | e
  · rw [e]; exact safe_bodyChars hv
  · rw [e]; exact safe_render t

/-- A string whose rendering is the body `is`, to be read back as the same text. -/
def ReadsBack (s : JsonString) (is : List Item) : Prop :=
  ItemsValid is ∧ utf8 (renderedBody s) = bodyBytes is ∧ HasText s (codeText is)

theorem readsBack {s : JsonString} (h : Obtainable s) (hr : s.asJson = .ok (renderedBody s))
    (hc : s.asJsonStr = none → ∀ t, HasText s t → ∀ c ∈ t, Renderable c) : ∃ is, ReadsBack s is := by
  obtain ⟨t, ht⟩ := obtainable_shape h
  have hd := ht.decoded
  cases ht with
  | esc is hv hl he =>
    unfold canonStr at hr
    rw [asJson_json] at hr
    injection hr with hr
    exact ⟨is, hv, by show utf8 (renderedBody (canonStr is)) = _; unfold canonStr; rw [← hr]; exact utf8_bodyChars hv, hd⟩
  | plain a n h1 h2 h3 h4 =>
    obtain ⟨i1, i2, i3⟩ := render_items (s := a.asStr) (fun c hc => .inl (h3 c hc).1)
    rw [asJson_json] at hr
    injection hr with hr
    refine ⟨_, i1, ?_, ?_⟩
    · rw [← hr, ← utf8_bodyChars i1, i2, render_plain (needsNoEscape_iff.mp h3)]
    · rw [i3]; exact hd
  | raw a h1 h2 h3 =>
    obtain ⟨i1, i2, i3⟩ := render_items (s := a.asStr) (hc rfl _ hd)
    by_cases h2 : cntS a.asStr + cntS a.asStr < LIM
    · rw [asJson_raw a h1 h2] at hr
      injection hr with hr
      refine ⟨_, i1, ?_, ?_⟩
      · rw [← hr, ← utf8_bodyChars i1, i2]
      · rw [i3]; exact hd
    · rw [asJson_raw_overflow a h1 (by omega)] at hr
      cases hr

theorem built_spells {P : JsonString → List Item → Prop} {v : Value} (h : Built v) (hs : ∀ s ∈ v.strings, ∃ is, P s is) :
    ∃ j, Spells P v j := by
  have hg := hs
  revert hg
  refine Built.rec (motive_1 := fun v _ => (∀ s ∈ v.strings, ∃ is, P s is) → ∃ j, Spells P v j)
    (motive_2 := fun vs _ => (∀ s ∈ Value.stringsElems vs, ∃ is, P s is) → ∃ js, SpellsE P vs js)
    (motive_3 := fun es _ => (∀ s ∈ Value.stringsEntries es, ∃ is, P s is) → ∃ ms, SpellsM P es ms)
    ?_ ?_ ?_ ?_ ?_ ?_ ?_ ?_ ?_ ?_ h
  · intro _; exact ⟨_, .null⟩
  · intro b _; exact ⟨_, .bool b⟩
  · rintro x ⟨n, h1, h2⟩ _; exact ⟨_, .num x n h1 h2⟩
  · intro s _ h
    obtain ⟨is, h⟩ := h s (by simp [Value.strings])
    exact ⟨_, .str s is h⟩
  · intro vs _ ih h
    rw [Value.strings] at h
    obtain ⟨js, h⟩ := ih h
    exact ⟨_, .arr vs js h⟩
  · intro vs _ ih h
    rw [Value.strings] at h
    obtain ⟨js, h⟩ := ih h
    exact ⟨_, .obj vs js h⟩
  · intro _; exact ⟨_, .nil⟩
  · intro v vs _ _ h1 h2 h
    rw [Value.stringsElems] at h
    obtain ⟨j, h1⟩ := h1 (fun s hs => h s (List.mem_append.mpr (.inl hs)))
    obtain ⟨js, h2⟩ := h2 (fun s hs => h s (List.mem_append.mpr (.inr hs)))
    exact ⟨_, .cons v j vs js h1 h2⟩
  · intro _; exact ⟨_, .nil⟩
  · intro k v vs _ _ _ h1 h2 h
    rw [Value.stringsEntries] at h
    obtain ⟨is, h0⟩ := h k List.mem_cons_self
    obtain ⟨j, h1⟩ := h1 (fun s hs => h s (List.mem_cons_of_mem _ (List.mem_append.mpr (.inl hs))))
    obtain ⟨js, h2⟩ := h2 (fun s hs => h s (List.mem_cons_of_mem _ (List.mem_append.mpr (.inr hs))))
    exact ⟨_, .cons k v is j vs js h0 h1 h2⟩

theorem spells_same {P : JsonString → List Item → Prop} {v : Value} {j : Json} (h : Spells P v j)
    (hP : ∀ s, ∀ is ∈ jstrings j, P s is → SameText s (canonStr is)) : SameContent v (ofJson j) := by
  have hg := hP
  revert hg
  refine Spells.rec (motive_1 := fun v j _ => (∀ s, ∀ is ∈ jstrings j, P s is → SameText s (canonStr is)) → SameContent v (ofJson j))
    (motive_2 := fun vs js _ => (∀ s, ∀ is ∈ jstringsElems js, P s is → SameText s (canonStr is)) → SameElems vs (ofJsons js))
    (motive_3 := fun es ms _ => (∀ s, ∀ is ∈ jstringsMembers ms, P s is → SameText s (canonStr is)) → SameEntries es (ofMembers ms))
    ?_ ?_ ?_ ?_ ?_ ?_ ?_ ?_ ?_ ?_ h
  · intro _; exact .null
  · intro b _; exact .boolean b
  · intro x n hn hx _
    refine .number _ _ (utf8_inj ?_)
    rw [show utf8 x.sourceStr = n.bytes from hx, show utf8 (canonNum n).sourceStr = n.bytes from canonNum_denotes hn]
  · intro s is h1 h; exact .string _ _ (h s is (by simp [jstrings]) h1)
  · intro vs js _ ih h; rw [jstrings] at h; exact .array _ _ (ih h)
  · intro vs js _ ih h; rw [jstrings] at h; exact .object _ _ (ih h)
  · intro _; exact .nil
  · intro v j vs js _ _ h1 h2 h
    rw [jstringsElems] at h
    exact .cons _ _ _ _ (h1 fun s is hs => h s is (List.mem_append.mpr (.inl hs))) (h2 fun s is hs => h s is (List.mem_append.mpr (.inr hs)))
  · intro _; exact .nil
  · intro k v is j vs js h0 _ _ h1 h2 h
    rw [jstringsMembers] at h
    exact .cons _ _ _ _ _ _ (h k is List.mem_cons_self h0)
      (h1 fun s is hs => h s is (List.mem_cons_of_mem _ (List.mem_append.mpr (.inl hs))))
      (h2 fun s is hs => h s is (List.mem_cons_of_mem _ (List.mem_append.mpr (.inr hs))))

theorem spells_depth {P : JsonString → List Item → Prop} {v : Value} {j : Json} (h : Spells P v j) :
    j.depth = v.depth ∧ (j.IsContainer ↔ v.IsContainer) := by
  have h1 : j.depth = v.depth := by
    refine Spells.rec (motive_1 := fun v j _ => j.depth = v.depth)
      (motive_2 := fun vs js _ => Spec.depthList js = Value.depthList vs)
      (motive_3 := fun es ms _ => depthMembers ms = Value.depthEntries es)
      ?_ ?_ ?_ ?_ ?_ ?_ ?_ ?_ ?_ ?_ h
    · rfl
    · intro b; rfl
    · intro x n _ _; rfl
    · intro x n _; rfl
    · intro vs js _ ih; rw [Json.depth, Value.depth, ih]
    · intro vs js _ ih; rw [Json.depth, Value.depth, ih]
    · rfl
    · intro v j vs js _ _ h1 h2; rw [Spec.depthList, Value.depthList, h1, h2]
    · rfl
    · intro k v is j vs js _ _ _ h1 h2; rw [depthMembers, Value.depthEntries, h1, h2]
  exact ⟨h1, by cases h <;> rfl⟩

end
end JustJson
