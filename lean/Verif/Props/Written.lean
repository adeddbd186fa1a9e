import Verif.Lemmas.Spoiled
import Verif.Props.Write
import Verif.Props.Local
/-! # C82: text in strings cannot change the structure of what is written -/

namespace JustJson
open Spec

set_option linter.unusedSectionVars false

section
variable [Arch]

/-- the two theorems at once -/
theorem written_read (g : Bool) (cfg : ParseConfig) (f : WriteForm) (v : Value) (out : Str)
    (hv : Built v) (h : f.text v = .ok out) (hw : ∀ i l, f = .custom i l → Ws (utf8 i) ∧ Ws (utf8 l)) (hf : SliceFits (utf8 out)) :
    (∀ v', Value.parseWithConfig g (utf8 out) cfg = .ok v' →
      SameShape ReadFor v v' ∧ (∀ n, cfg.recursionLimit = some n → v.depth ≤ n) ∧ (cfg.allowAllTypesAtRoot = true ∨ v.IsContainer)
        ∧ ∀ s ∈ v.strings, s.asJsonStr = none → ∀ t, HasText s t → ∀ c ∈ t, ¬ Illegible c)
    ∧ ((∀ n, cfg.recursionLimit = some n → v.depth ≤ n) → (cfg.allowAllTypesAtRoot = true ∨ v.IsContainer) →
        (∀ s ∈ v.strings, s.asJsonStr = none → ∀ t, HasText s t → ∀ c ∈ t, ¬ Illegible c) →
        ∃ v', Value.parseWithConfig g (utf8 out) cfg = .ok v') := by
  obtain ⟨hs, ho⟩ := form_layout f v out h
  have hb := built_strings hv
  have hi : Input g (utf8 out) := ⟨hf, fun _ => ⟨_, rfl⟩⟩
  have hP : ∀ s is, Writes s is → ItemsValid is ∧ utf8 (renderedBody s) = bodyBytes is := fun s is h => h.1
  have build : (∀ s ∈ v.strings, s.asJsonStr = none → ∀ t, HasText s t → ∀ c ∈ t, ¬ Illegible c) →
      ∃ j, Spells Writes v j ∧ Text cfg.allowTrailingCommas (utf8 out) j := by
    intro hc
    obtain ⟨j, hj⟩ := built_spells hv (P := Writes) (fun s m => writes_of (hb.1 s m) (hs s m) (hc s m))
    refine ⟨j, hj, ?_⟩
    rcases ho with rfl | rfl | ⟨i, l, rfl, rfl⟩
    · exact text_of (spells_compact hP hj)
    · exact text_of (spells_layout hP (by unfold Ws; decide) (by unfold Ws; decide) hj 0)
    · exact text_of (spells_layout hP (hw i l rfl).1 (hw i l rfl).2 hj 0)
  constructor
  · intro v' hp
    obtain ⟨j, ⟨ht, hdep, hroot⟩, rfl⟩ := (value_ok_iff hi).mp hp
    have hsafe : ∀ s ∈ v.strings, SafeBody (renderedBody s) := fun s m => rendered_safe (hb.1 s m) (hs s m)
    have hlit : strLits (utf8 (compact renderedBody v)) = v.strings.map (fun s => utf8 (renderedBody s)) := by
      have := strLits_compact.1 v hsafe hb.2 []
      simpa [strLits] using this
    have lay : ∀ i l, Ws (utf8 i) → Ws (utf8 l) → out = layout renderedBody i l 0 v →
        Text cfg.allowTrailingCommas (utf8 (compact renderedBody v)) j := by
      intro i l h1 h2 e
      have h3 := (minify_text ht).1
      rw [e] at h3
      have := (minify_layout h1 h2).1 v hsafe hb.2 0 []
      rw [List.append_nil, minify, List.append_nil] at this
      rwa [this] at h3
    have hc : Text cfg.allowTrailingCommas (utf8 (compact renderedBody v)) j := by
      rcases ho with rfl | e | ⟨i, l, rfl, e⟩
      · exact ht
      · exact lay _ _ (by unfold Ws; decide) (by unfold Ws; decide) e
      · exact lay i l (hw i l rfl).1 (hw i l rfl).2 e
    have h1 := (hlit.symm.trans (strLits_text hc))
    have hleg : ∀ s ∈ v.strings, s.asJsonStr = none → ∀ t, HasText s t → ∀ c ∈ t, ¬ Illegible c := by
      intro s hm hraw t hst
      have hmem : utf8 (renderedBody s) ∈ (jstrings j).map bodyBytes := h1 ▸ List.mem_map.mpr ⟨s, hm, rfl⟩
      obtain ⟨is, hmi, h3⟩ := List.mem_map.mp hmem
      obtain ⟨t', hsh⟩ := obtainable_shape (hb.1 s hm)
      have hsh := hsh.hasText hst
      rcases shape_asJson hsh (hs s hm) with ⟨is', _, e, _⟩ | e
      · rw [e] at hraw; cases hraw
      · rw [e] at h3
        exact written_legible (text_bodies ht is hmi).1 h3
    obtain ⟨j', hj', ht'⟩ := build hleg
    have := text_unique (fits_lim.mp hf) ht ht'
    subst this
    obtain ⟨d1, d2⟩ := spells_depth hj'
    refine ⟨spells_sameShape hj' ?_, fun n hn => d1 ▸ hdep n hn, hroot.imp id d2.mp, hleg⟩
    intro s is hm hw
    have hbod := text_bodies ht is hm
    have hdec := decoded_canon hbod.1 (Nat.lt_of_le_of_lt hbod.2 (fits_lim.mp hf))
    refine ⟨fun a ha => ⟨⟨_, rfl, (hw.2.1 a ha).1.symm⟩, _, (hw.2.1 a ha).2, hdec⟩, fun hn => ?_⟩
    obtain ⟨x, hx, e⟩ := hw.2.2 hn
    exact ⟨x, hx, e ▸ hdec⟩
  · intro hd hr hc
    obtain ⟨j, hj, ht⟩ := build hc
    obtain ⟨d1, d2⟩ := spells_depth hj
    refine ⟨ofJson j, accepted_ok hi ⟨ht, fun n hn => d1 ▸ hd n hn, ?_⟩⟩
    unfold RootOk
    rw [d2]
    exact hr

/-- **C82.** Whatever text clients put into the strings and keys of a value: if what is written is accepted at all, it has the
structure of the value. No text makes an element, an entry or the end of a string; strings and keys are read where they were
written, those kept as JSON source as they are, and those kept as raw text character by character. -/
theorem C82_structure_kept (g : Bool) (cfg : ParseConfig) (f : WriteForm) (v v' : Value) (out : Str)
    (hv : Built v) (h : f.text v = .ok out) (hw : ∀ i l, f = .custom i l → Ws (utf8 i) ∧ Ws (utf8 l)) (hf : SliceFits (utf8 out))
    (hp : Value.parseWithConfig g (utf8 out) cfg = .ok v') : SameShape ReadFor v v' :=
  ((written_read g cfg f v out hv h hw hf).1 v' hp).1

/-- **C82.** What is written is accepted exactly if the value is within the recursion limit, its root is permitted, and no string
kept as raw text has a character that is written with a letter past `f`. -/
theorem C82_accepted_iff (g : Bool) (cfg : ParseConfig) (f : WriteForm) (v : Value) (out : Str)
    (hv : Built v) (h : f.text v = .ok out) (hw : ∀ i l, f = .custom i l → Ws (utf8 i) ∧ Ws (utf8 l)) (hf : SliceFits (utf8 out)) :
    (∃ v', Value.parseWithConfig g (utf8 out) cfg = .ok v')
      ↔ (∀ n, cfg.recursionLimit = some n → v.depth ≤ n) ∧ (cfg.allowAllTypesAtRoot = true ∨ v.IsContainer)
        ∧ ∀ s ∈ v.strings, s.asJsonStr = none → ∀ t, HasText s t → ∀ c ∈ t, ¬ Illegible c := by
  obtain ⟨h1, h2⟩ := written_read g cfg f v out hv h hw hf
  exact ⟨fun ⟨v', hp⟩ => (h1 v' hp).2, fun ⟨a, b, c⟩ => h2 a b c⟩

/-- **C82.** If some raw text has a character that is written with a letter past `f`, and the value is within the recursion limit,
the parser says where: `InvalidHexadecimal`, at a letter past `f` that follows a `\u`. -/
theorem C82_rejected_at (g : Bool) (cfg : ParseConfig) (f : WriteForm) (v : Value) (out : Str)
    (hv : Built v) (h : f.text v = .ok out) (hw : ∀ i l, f = .custom i l → Ws (utf8 i) ∧ Ws (utf8 l)) (hf : SliceFits (utf8 out))
    (hd : ∀ n, cfg.recursionLimit = some n → v.depth ≤ n)
    (s : JsonString) (hs : s ∈ v.strings) (hraw : s.asJsonStr = none) (t : Str) (ht : HasText s t) (c : Char) (hc : c ∈ t) (hi : Illegible c) :
    ∃ x b y, utf8 out = x ++ 0x5C :: 0x75 :: b :: y ∧ 0x6B ≤ b.toNat ∧ b.toNat ≤ 0x70
      ∧ Value.parseWithConfig g (utf8 out) cfg = .err ⟨x.length + 2, .invalidHexadecimal⟩ := by
  obtain ⟨hr, ho⟩ := form_layout f v out h
  have hb := built_strings hv
  have hin : Input g (utf8 out) := ⟨hf, fun _ => ⟨_, rfl⟩⟩
  have hlaid : Laid (fun s => utf8 (renderedBody s)) v (utf8 out) := by
    rcases ho with rfl | rfl | ⟨i, l, rfl, rfl⟩
    · exact laid_compact.1 v hb.2
    · exact (laid_layout (by unfold Ws; decide) (by unfold Ws; decide)).1 v hb.2 0
    · exact (laid_layout (hw i l rfl).1 (hw i l rfl).2).1 v hb.2 0
  rcases laid_stops hlaid (fun s m => obtainable_spoiled (hb.1 s m) (hr s m)) with ⟨j, h1, h2⟩ | ⟨k, ⟨x, b, y, e, h1, h2, rfl⟩, h3⟩
  · exfalso
    have := accepted_ok hin (cfg := { cfg with allowAllTypesAtRoot := true })
      ⟨text_of (h1 _), fun n hn => by rw [h2]; exact hd n hn, .inl rfl⟩
    exact (((C82_accepted_iff g _ f v out hv h hw hf).mp ⟨_, this⟩).2.2 s hs hraw t ht c hc) hi
  · refine ⟨x, b, y, e, h1, h2, ?_⟩
    have hin' : Input true (utf8 out) := ⟨hf, fun _ => ⟨_, rfl⟩⟩
    rw [parse_input hin, ← parse_input hin', machine_err hin',
      h3 (utf8 out) cfg .value [] 0 [] [] (fits_lim.mp hf) (.inl rfl) (by simp) (by unfold Ws; simp) (fun n hn => by simpa using hd n hn)]
    simp

end

/-! ## Concrete cases -/

section
attribute [local instance] arch64

/-- an attempt to close the string and the array, with a character that is misread: `"],[\u{1}` -/
def injEx : Value := .array [.string ⟨.raw (.borrowed ['"', ']', ',', '[', Char.ofNat 1]), .new true 11⟩, .null]

example : JsonString.fromStr ['"', ']', ',', '[', Char.ofNat 1] = .ok ⟨.raw (.borrowed ['"', ']', ',', '[', Char.ofNat 1]), .new true 11⟩
    ∧ injEx.toJson = .ok "[\"\\\"],[\\u1000\",null]".toList
    ∧ Value.parseWithConfig true (b8 "[\"\\\"],[\\u1000\",null]") .new
        = .ok (.array [.string ⟨.json (.borrowed "\\\"],[\\u1000".toList), .new true 7⟩, .null])
    ∧ readBack (Char.ofNat 1) = Char.ofNat 0x1000 ∧ readBack (Char.ofNat 0x19) = Char.ofNat 0x9100 :=
  ⟨by decide +kernel, by decide +kernel, value_same (by decide +kernel), by decide +kernel⟩

theorem injEx_built : Built injEx :=
  .array _ (.cons _ _ (.string _ (.fromStr ['"', ']', ',', '[', Char.ofNat 1] _ (by unfold SliceFits; decide +kernel) (by decide +kernel)))
    (.cons _ _ .null .nil))

/-- the theorem applied -/
example : SameShape ReadFor injEx (.array [.string ⟨.json (.borrowed "\\\"],[\\u1000".toList), .new true 7⟩, .null]) :=
  C82_structure_kept true .new .compact injEx _ "[\"\\\"],[\\u1000\",null]".toList injEx_built (by show injEx.toJson = _; decide +kernel) nofun
    (by unfold SliceFits; decide +kernel) (value_same (by decide +kernel))

/-- a vertical tab in raw text: what is written is rejected at the letter written for it -/
def vtabEx : Value := .array [.null, .string ⟨.raw (.borrowed ['a', Char.ofNat 0x0B]), .new true 7⟩]

theorem vtabEx_built : Built vtabEx :=
  .array _ (.cons _ _ .null (.cons _ _ (.string _ (.fromStr ['a', Char.ofNat 0x0B] _ (by unfold SliceFits; decide +kernel) (by decide +kernel))) .nil))

example : vtabEx.toJson = .ok "[null,\"a\\ul000\"]".toList ∧ Illegible (Char.ofNat 0x0B)
    ∧ Value.parseWithConfig true (b8 "[null,\"a\\ul000\"]") .new = .err ⟨10, .invalidHexadecimal⟩ :=
  ⟨by decide +kernel, by unfold Illegible; decide, outcome_err (by decide +kernel)⟩

example : ∃ x b y, utf8 "[null,\"a\\ul000\"]".toList = x ++ 0x5C :: 0x75 :: b :: y ∧ 0x6B ≤ b.toNat ∧ b.toNat ≤ 0x70
    ∧ Value.parseWithConfig true (utf8 "[null,\"a\\ul000\"]".toList) .new = .err ⟨x.length + 2, .invalidHexadecimal⟩ :=
  C82_rejected_at true .new .compact vtabEx _ vtabEx_built (by show vtabEx.toJson = _; decide +kernel) nofun
    (by unfold SliceFits; decide +kernel) (by intro n hn; cases hn; decide +kernel)
    ⟨.raw (.borrowed ['a', Char.ofNat 0x0B]), .new true 7⟩ (by simp [vtabEx, Value.strings, Value.stringsElems]) rfl
    ['a', Char.ofNat 0x0B] (by unfold HasText; decide +kernel) (Char.ofNat 0x0B) (by simp) (by unfold Illegible; decide)

end

/-! ## Instances: each theorem above applied to a concrete case that meets its hypotheses -/
section Instances
attribute [local instance] arch64

example := C82_accepted_iff true .new .compact injEx "[\"\\\"],[\\u1000\",null]".toList injEx_built (by show injEx.toJson = _; decide +kernel) nofun
  (by unfold SliceFits; decide +kernel)

end Instances
end JustJson
