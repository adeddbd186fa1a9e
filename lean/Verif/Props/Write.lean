import Verif.Lemmas.Output
import Verif.Lemmas.Literals
import Verif.Props.Ex
/-! # Writing values -/

namespace JustJson
open Spec

set_option linter.unusedSectionVars false

section
variable [Arch]

theorem canon_asJson (is : List Item) : (canonStr is).asJson = .ok (srcBody (canonStr is)) := asJson_json _ _

theorem ofJson_asJson (j : Json) : ∀ s ∈ (ofJson j).strings, s.asJson = .ok (srcBody s) := by
  intro s hs
  rw [strings_ofJson.1] at hs
  obtain ⟨is, _, rfl⟩ := List.mem_map.mp hs
  exact canon_asJson is

/-! ## C26 -/

/-- **C26.** `to_json` of a value parsed without trailing commas is the source less its whitespace outside of string
literals, byte for byte. -/
theorem C26_to_json_minifies (g : Bool) (src : List UInt8) (cfg : ParseConfig) (v : Value) (hi : Input g src)
    (hc : cfg.allowTrailingCommas = false) (hp : Value.parseWithConfig g src cfg = .ok v) :
    ∃ out, v.toJson = .ok out ∧ utf8 out = minify src := by
  obtain ⟨j, ha, rfl⟩ := (value_ok_iff hi).mp hp
  obtain ⟨ht, _, _⟩ := ha
  rw [hc] at ht
  exact ⟨_, toJson_compact (ofJson_asJson j), ((minify_text ht).2 rfl).symm⟩

/-! ## C27 -/

theorem srcBody_reads : ∀ s is, (ItemsValid is ∧ s = canonStr is) → ItemsValid is ∧ utf8 (srcBody s) = bodyBytes is := by
  rintro s is ⟨hv, rfl⟩
  exact ⟨hv, utf8_bodyChars hv⟩

theorem ofJson_spells {j : Json} (hv : JValid j) : Spells (fun s is => ItemsValid is ∧ s = canonStr is) (ofJson j) j :=
  (spells_ofJson (P := fun s is => ItemsValid is ∧ s = canonStr is) (fun _ h => ⟨h, rfl⟩)).1 j hv

theorem text_of {tc : Bool} {b : List UInt8} {j : Json} (h : GValue tc b j) : Text tc b j :=
  ⟨[], b, [], ws_nil, h, ws_nil, by simp⟩

/-- **C27.** What a parsed value is written as, compactly, is accepted under the same configuration, and read as the
identical value. -/
theorem C27_to_json_roundtrip (g g' : Bool) (src : List UInt8) (cfg : ParseConfig) (v : Value) (hi : Input g src)
    (hp : Value.parseWithConfig g src cfg = .ok v) :
    ∃ out, v.toJson = .ok out ∧ Value.parseWithConfig g' (utf8 out) cfg = .ok v := by
  obtain ⟨j, ha, rfl⟩ := (value_ok_iff hi).mp hp
  obtain ⟨ht, hd, hr⟩ := ha
  refine ⟨_, toJson_compact (ofJson_asJson j), ?_⟩
  have hin : Input g' (utf8 (compact srcBody (ofJson j))) := by
    refine ⟨fits_lim.mpr ?_, fun _ => ⟨_, rfl⟩⟩
    have := compact_text_length ht
    have := hi.lim
    omega
  exact accepted_ok hin ⟨text_of (spells_compact srcBody_reads (ofJson_spells (text_valid ht))), hd, hr⟩

/-- **C27.** The same for the pretty forms, whatever whitespace is used for indentation and line ends. (`SliceFits`:
Rust has no longer strings.) -/
theorem C27_pretty_roundtrip (g g' : Bool) (src : List UInt8) (cfg : ParseConfig) (v : Value) (hi : Input g src)
    (hp : Value.parseWithConfig g src cfg = .ok v) (indent lineEnding : Str) (h1 : Ws (utf8 indent)) (h2 : Ws (utf8 lineEnding)) :
    ∃ out, v.toJsonPrettyCustom indent lineEnding = .ok out
      ∧ (SliceFits (utf8 out) → Value.parseWithConfig g' (utf8 out) cfg = .ok v) := by
  obtain ⟨j, ha, rfl⟩ := (value_ok_iff hi).mp hp
  obtain ⟨ht, hd, hr⟩ := ha
  refine ⟨_, pretty_layout indent lineEnding (ofJson_asJson j), fun hf => ?_⟩
  exact accepted_ok ⟨hf, fun _ => ⟨_, rfl⟩⟩
    ⟨text_of (spells_layout srcBody_reads h1 h2 (ofJson_spells (text_valid ht)) 0), hd, hr⟩

/-- **C27.** `to_json_pretty` is the custom form with two spaces and a line feed. -/
theorem C27_pretty_default_roundtrip (g g' : Bool) (src : List UInt8) (cfg : ParseConfig) (v : Value) (hi : Input g src)
    (hp : Value.parseWithConfig g src cfg = .ok v) :
    ∃ out, v.toJsonPretty = .ok out ∧ (SliceFits (utf8 out) → Value.parseWithConfig g' (utf8 out) cfg = .ok v) :=
  C27_pretty_roundtrip g g' src cfg v hi hp [' ', ' '] ['\n'] (by unfold Ws; decide) (by unfold Ws; decide)

/-! ## C28 -/

/-- **C28.** Where the strings of a value can be rendered, `to_json` is the value without whitespace, and
`to_json_pretty_custom` is it laid out: each element of a non-empty container on a line of its own, indented by its
depth, and the closing bracket likewise; empty containers are their brackets. -/
theorem C28_layout (v : Value) (body : JsonString → Str) (h : ∀ s ∈ v.strings, s.asJson = .ok (body s)) (indent lineEnding : Str) :
    v.toJson = .ok (compact body v) ∧ v.toJsonPrettyCustom indent lineEnding = .ok (layout body indent lineEnding 0 v)
    ∧ v.toJsonPretty = .ok (layout body [' ', ' '] ['\n'] 0 v) :=
  ⟨toJson_compact h, pretty_layout indent lineEnding h, pretty_layout [' ', ' '] ['\n'] h⟩

/-- **C28.** For every value a client can put together: the pretty form less its whitespace outside of string literals
is the compact form; one exists if and only if the other does. -/
theorem C28_pretty_minifies (v : Value) (hv : Built v) (indent lineEnding : Str) (h1 : Ws (utf8 indent)) (h2 : Ws (utf8 lineEnding)) :
    (∀ out, v.toJson = .ok out → ∃ p, v.toJsonPrettyCustom indent lineEnding = .ok p ∧ minify (utf8 p) = utf8 out)
    ∧ (∀ p, v.toJsonPrettyCustom indent lineEnding = .ok p → ∃ out, v.toJson = .ok out ∧ minify (utf8 p) = utf8 out) := by
  obtain ⟨hs, hn⟩ := built_strings hv
  have key : (∀ s ∈ v.strings, s.asJson = .ok (renderedBody s)) →
      minify (utf8 (layout renderedBody indent lineEnding 0 v)) = utf8 (compact renderedBody v) := by
    intro h
    have := (minify_layout (body := renderedBody) h1 h2).1 v (fun s m => rendered_safe (hs s m) (h s m)) hn 0 []
    simpa [minify] using this
  constructor
  · intro out ho
    have h := toJson_strings ho
    rw [toJson_compact h] at ho
    cases ho
    exact ⟨_, pretty_layout indent lineEnding h, key h⟩
  · intro p hp
    have h := pretty_strings hp
    rw [pretty_layout indent lineEnding h] at hp
    cases hp
    exact ⟨_, toJson_compact h, key h⟩

/-! ## C29 -/

/-- The compact, or the pretty, form of writing. -/
inductive WriteForm where
  | compact
  | pretty
  | custom (indent lineEnding : Str)
  | display (alternate : Bool)

/-- `write_json_to`, `pretty_write_json_to`, `pretty_write_json_to_custom`, `Display`. -/
def WriteForm.write (f : WriteForm) (F : Writer) (v : Value) (w : F.W) : Res (F.W × Bool) :=
  match f with
  | .compact => v.writeJsonTo F w
  | .pretty => v.prettyWriteJsonTo F w
  | .custom i l => v.prettyWriteJsonToCustom F i l w
  | .display a => v.display F a w

/-- The string-valued counterpart: `to_json`, `to_json_pretty`, `to_json_pretty_custom`. -/
def WriteForm.text (f : WriteForm) (v : Value) : Res Str :=
  match f with
  | .compact => v.toJson
  | .pretty => v.toJsonPretty
  | .custom i l => v.toJsonPrettyCustom i l
  | .display a => if a then v.toJsonPretty else v.toJson

theorem form_tr (f : WriteForm) (v : Value) : ∃ t : Tr, (∀ (F : Writer) w, f.write F v w = t.result F w)
    ∧ f.text v = match t.panic with | none => .ok (WCall.texts t.calls) | some p => .panic p := by
  have key : ∀ pretty i l, ∃ t : Tr, (∀ (F : Writer) w, v.writeJson F pretty i l w = t.result F w)
      ∧ intoString (fun w => v.writeJson stringWriter pretty i l w) = match t.panic with | none => .ok (WCall.texts t.calls) | some p => .panic p :=
    fun pretty i l => ⟨_, fun F w => writeJson_result pretty i l F v w, intoString_result _ (fun w => writeJson_result pretty i l stringWriter v w)⟩
  cases f with
  | compact => exact key false [] []
  | pretty => exact key true [' ', ' '] ['\n']
  | custom i l => exact key true i l
  | display a =>
    cases a with
    | true => exact key true [' ', ' '] ['\n']
    | false => exact key false [] []

/-- **C29.** Each form of writing is a series of calls on the writer, the same whatever the writer, stopped at the first
that fails; the call returns `Ok` if and only if all succeed. The text of the calls is that of the string form. -/
theorem C29_calls (f : WriteForm) (v : Value) (out : Str) (h : f.text v = .ok out) :
    ∃ cs, WCall.texts cs = out ∧ ∀ (F : Writer) (w : F.W), f.write F v w = .ok (makeCalls F w cs) := by
  obtain ⟨t, h1, h2⟩ := form_tr f v
  rw [h] at h2
  cases hp : t.panic with
  | some p => rw [hp] at h2; cases h2
  | none =>
    rw [hp] at h2
    injection h2 with h2
    refine ⟨t.calls, h2.symm, fun F w => ?_⟩
    rw [h1]
    unfold Tr.result
    rw [hp]
    cases makeCalls F w t.calls with
    | mk w' o => cases o <;> rfl

theorem makeCalls_logger (fails : Nat → Bool) (cs : List WCall) : ∀ w : List (WCall × Bool),
    ∃ pre post log, cs = pre ++ post ∧ log = pre.map (fun c => (c, true))
      ∧ ((post = [] ∧ makeCalls (logger fails) w cs = (w ++ log, true))
        ∨ ∃ c post', post = c :: post' ∧ makeCalls (logger fails) w cs = (w ++ log ++ [(c, false)], false)) := by
  induction cs with
  | nil => intro w; exact ⟨[], [], [], rfl, rfl, .inl ⟨rfl, by rw [makeCalls]; simp⟩⟩
  | cons c cs ih =>
    intro w
    have hm : c.make (logger fails) w = (w ++ [(c, !fails w.length)], !fails w.length) := by cases c <;> rfl
    cases hf : fails w.length with
    | true =>
      refine ⟨[], c :: cs, [], rfl, rfl, .inr ⟨c, cs, rfl, ?_⟩⟩
      rw [makeCalls, hm, hf]
      simp
    | false =>
      obtain ⟨pre, post, log, h1, h2, h3⟩ := ih (w ++ [(c, true)])
      refine ⟨c :: pre, post, (c, true) :: log, by rw [h1]; rfl, by rw [h2]; rfl, ?_⟩
      have e : makeCalls (logger fails) w (c :: cs) = makeCalls (logger fails) (w ++ [(c, true)]) cs := by
        rw [makeCalls, hm, hf]
        rfl
      rw [e]
      rcases h3 with ⟨h3, h4⟩ | ⟨c', p', h3, h4⟩
      · exact .inl ⟨h3, by rw [h4]; simp⟩
      · exact .inr ⟨c', p', h3, by rw [h4]; simp⟩

/-- **C29.** As seen by a writer that records the calls it gets and may fail at any of them: either all succeed, it gets
exactly the text, and the call returns `Ok`; or one fails, nothing comes after it, what came before is a prefix of the
text, and the call returns `Err`. -/
theorem C29_failures (f : WriteForm) (v : Value) (out : Str) (h : f.text v = .ok out) (fails : Nat → Bool) :
    ∃ log ok, f.write (logger fails) v ([] : List (WCall × Bool)) = .ok (log, ok)
      ∧ ((ok = true ∧ (∀ e ∈ log, e.2 = true) ∧ WCall.texts (log.map Prod.fst) = out)
        ∨ (ok = false ∧ ∃ before c rest, log = before ++ [(c, false)] ∧ (∀ e ∈ before, e.2 = true)
            ∧ out = WCall.texts (before.map Prod.fst) ++ c.text ++ rest)) := by
  obtain ⟨cs, h1, h2⟩ := C29_calls f v out h
  obtain ⟨pre, post, log, e1, e2, h3⟩ := makeCalls_logger fails cs []
  have hl : log.map Prod.fst = pre := by rw [e2, List.map_map]; simp [Function.comp_def]
  have ht : ∀ e ∈ log, e.2 = true := by
    intro e he
    rw [e2] at he
    obtain ⟨c, _, rfl⟩ := List.mem_map.mp he
    rfl
  rcases h3 with ⟨h3, h4⟩ | ⟨c, p', h3, h4⟩
  · refine ⟨log, true, ?_, .inl ⟨rfl, ht, ?_⟩⟩
    · rw [h2, h4]; rfl
    · rw [hl, ← h1, e1, h3, List.append_nil]
  · refine ⟨log ++ [(c, false)], false, ?_, .inr ⟨rfl, log, c, WCall.texts p', rfl, ht, ?_⟩⟩
    · rw [h2, h4]; rfl
    · rw [← h1, e1, h3, hl, texts_append]
      show WCall.texts pre ++ (c.text ++ WCall.texts p') = _
      rw [List.append_assoc]

/-! ## C35 -/

/-- **C35.** Accepted texts that are equal less their whitespace outside of string literals give identical values,
under whatever configurations. -/
theorem C35_whitespace_is_insignificant (g g' : Bool) (src src' : List UInt8) (cfg cfg' : ParseConfig) (v v' : Value)
    (hi : Input g src) (hi' : Input g' src') (hm : minify src = minify src')
    (hp : Value.parseWithConfig g src cfg = .ok v) (hp' : Value.parseWithConfig g' src' cfg' = .ok v') : v = v' := by
  obtain ⟨j, ⟨ht, _⟩, rfl⟩ := (value_ok_iff hi).mp hp
  obtain ⟨j', ⟨ht', _⟩, rfl⟩ := (value_ok_iff hi').mp hp'
  have up : ∀ {tc s j}, Text tc s j → Text true s j := by
    exact fun h => text_mono (fun _ => rfl) h
  have h1 := (minify_text (up ht)).1
  have h2 := (minify_text (up ht')).1
  rw [← hm] at h2
  have hl : (minify src).length < LIM := by
    have := (minify_length src).1
    have := hi.lim
    omega
  rw [text_unique hl h1 h2]

/-- **C35.** The minified form of an accepted text is accepted, and gives the same value. -/
theorem C35_minified_accepted (g : Bool) (src : List UInt8) (cfg : ParseConfig) (v : Value) (hi : Input g src)
    (hp : Value.parseWithConfig g src cfg = .ok v) : Value.parseWithConfig false (minify src) cfg = .ok v := by
  obtain ⟨j, ⟨ht, h1, h2⟩, rfl⟩ := (value_ok_iff hi).mp hp
  refine accepted_ok (input_bytes (fits_lim.mpr ?_)) ⟨(minify_text ht).1, h1, h2⟩
  have := (minify_length src).1
  have := hi.lim
  omega

/-! ## C49 -/

/-- **C49 in full:** a value that a client has put together, and that can be written, reads back from what is written
as the same content. -/
def C49_full : Prop := ∀ (g : Bool) (cfg : ParseConfig) (f : WriteForm) (v : Value) (out : Str),
  Built v → f.text v = .ok out → (∀ i l, f = .custom i l → Ws (utf8 i) ∧ Ws (utf8 l)) → SliceFits (utf8 out) →
  (∀ n, cfg.recursionLimit = some n → v.depth ≤ n) → (cfg.allowAllTypesAtRoot = true ∨ v.IsContainer) →
  ∃ v', Value.parseWithConfig g (utf8 out) cfg = .ok v' ∧ SameContent v v'

theorem form_layout (f : WriteForm) (v : Value) (out : Str) (h : f.text v = .ok out) :
    (∀ s ∈ v.strings, s.asJson = .ok (renderedBody s)) ∧ (out = compact renderedBody v ∨ out = layout renderedBody [' ', ' '] ['\n'] 0 v
      ∨ ∃ i l, f = .custom i l ∧ out = layout renderedBody i l 0 v) := by
  have k1 : v.toJson = .ok out → (∀ s ∈ v.strings, s.asJson = .ok (renderedBody s)) ∧ out = compact renderedBody v := by
    intro h
    have hs := toJson_strings h
    rw [toJson_compact hs] at h
    cases h
    exact ⟨hs, rfl⟩
  have k2 : ∀ i l, v.toJsonPrettyCustom i l = .ok out → (∀ s ∈ v.strings, s.asJson = .ok (renderedBody s)) ∧ out = layout renderedBody i l 0 v := by
    intro i l h
    have hs := pretty_strings h
    rw [pretty_layout i l hs] at h
    cases h
    exact ⟨hs, rfl⟩
  cases f with
  | compact => obtain ⟨h1, h2⟩ := k1 h; exact ⟨h1, .inl h2⟩
  | pretty => obtain ⟨h1, h2⟩ := k2 _ _ h; exact ⟨h1, .inr (.inl h2)⟩
  | custom i l => obtain ⟨h1, h2⟩ := k2 i l h; exact ⟨h1, .inr (.inr ⟨i, l, rfl, h2⟩)⟩
  | display a =>
    cases a with
    | true => obtain ⟨h1, h2⟩ := k2 _ _ h; exact ⟨h1, .inr (.inl h2)⟩
    | false => obtain ⟨h1, h2⟩ := k1 h; exact ⟨h1, .inl h2⟩

/-- **C49, partial** (the full claim is false, see `C49_refuted`): it holds if the strings converted from text have, of
the control characters, only U+0000, U+0007, tab, line feed, form feed and carriage return. -/
theorem C49_built_roundtrip_partial (g : Bool) (cfg : ParseConfig) (f : WriteForm) (v : Value) (out : Str)
    (hv : Built v) (h : f.text v = .ok out) (hw : ∀ i l, f = .custom i l → Ws (utf8 i) ∧ Ws (utf8 l)) (hf : SliceFits (utf8 out))
    (hd : ∀ n, cfg.recursionLimit = some n → v.depth ≤ n) (hr : cfg.allowAllTypesAtRoot = true ∨ v.IsContainer)
    (hc : ∀ s ∈ v.strings, s.asJsonStr = none → ∀ t, HasText s t → ∀ c ∈ t, Renderable c) :
    ∃ v', Value.parseWithConfig g (utf8 out) cfg = .ok v' ∧ SameContent v v' := by
  obtain ⟨hs, ho⟩ := form_layout f v out h
  have hb := built_strings hv
  obtain ⟨j, hj⟩ := built_spells hv (P := ReadsBack) (fun s m => readsBack (hb.1 s m) (hs s m) (hc s m))
  have hP : ∀ s is, ReadsBack s is → ItemsValid is ∧ utf8 (renderedBody s) = bodyBytes is := fun s is h => ⟨h.1, h.2.1⟩
  have ht : Text cfg.allowTrailingCommas (utf8 out) j := by
    rcases ho with rfl | rfl | ⟨i, l, rfl, rfl⟩
    · exact text_of (spells_compact hP hj)
    · exact text_of (spells_layout hP (by unfold Ws; decide) (by unfold Ws; decide) hj 0)
    · exact text_of (spells_layout hP (hw i l rfl).1 (hw i l rfl).2 hj 0)
  obtain ⟨d1, d2⟩ := spells_depth hj
  refine ⟨ofJson j, accepted_ok ⟨hf, fun _ => ⟨_, rfl⟩⟩ ⟨ht, ?_, ?_⟩, spells_same hj ?_⟩
  · intro n hn; rw [d1]; exact hd n hn
  · unfold RootOk; rw [d2]; exact hr
  · intro s is hm hrb
    have hbod := text_bodies ht is hm
    have := fits_lim.mp hf
    exact ⟨_, hrb.2.2, decoded_canon hbod.1 (Nat.lt_of_le_of_lt hbod.2 this)⟩

theorem literal_pairs {P : JsonString → Prop} {ss : List JsonString} {iss : List (List Item)}
    (h1 : ss.map (fun s => utf8 (renderedBody s)) = iss.map bodyBytes) (h2 : SameTexts ss (iss.map canonStr))
    (hP : ∀ s is, is ∈ iss → utf8 (renderedBody s) = bodyBytes is → SameText s (canonStr is) → P s) : ∀ s ∈ ss, P s := by
  induction ss generalizing iss with
  | nil => simp
  | cons s ss ih =>
    cases iss with
    | nil => cases h2
    | cons is iss =>
      simp only [List.map_cons, List.cons.injEq] at h1
      cases h2 with
      | cons h3 h4 =>
        intro x hx
        rcases List.mem_cons.mp hx with rfl | hx
        · exact hP _ is (by simp) h1.1 h3
        · exact ih h1.2 h4 (fun s is hm => hP s is (by simp [hm])) x hx

/-- **C49, the exact condition**: a value put together by a client reads back from what is written as the same content
if and only if the strings in it that are kept as raw text have, of the control characters, only those. -/
theorem C49_exact_partial (g : Bool) (cfg : ParseConfig) (f : WriteForm) (v : Value) (out : Str)
    (hv : Built v) (h : f.text v = .ok out) (hw : ∀ i l, f = .custom i l → Ws (utf8 i) ∧ Ws (utf8 l)) (hf : SliceFits (utf8 out))
    (hd : ∀ n, cfg.recursionLimit = some n → v.depth ≤ n) (hr : cfg.allowAllTypesAtRoot = true ∨ v.IsContainer) :
    (∃ v', Value.parseWithConfig g (utf8 out) cfg = .ok v' ∧ SameContent v v')
      ↔ ∀ s ∈ v.strings, s.asJsonStr = none → ∀ t, HasText s t → ∀ c ∈ t, Renderable c := by
  refine ⟨?_, C49_built_roundtrip_partial g cfg f v out hv h hw hf hd hr⟩
  rintro ⟨v', hp, hsame⟩
  obtain ⟨hs, ho⟩ := form_layout f v out h
  have hb := built_strings hv
  have hsafe : ∀ s ∈ v.strings, SafeBody (renderedBody s) := fun s m => rendered_safe (hb.1 s m) (hs s m)
  have hi : Input g (utf8 out) := ⟨hf, fun _ => ⟨_, rfl⟩⟩
  obtain ⟨j, ⟨ht, _, _⟩, rfl⟩ := (value_ok_iff hi).mp hp
  have hlit : strLits (utf8 (compact renderedBody v)) = v.strings.map (fun s => utf8 (renderedBody s)) := by
    have := strLits_compact.1 v hsafe hb.2 []
    simpa [strLits] using this
  have lay : ∀ i l, Ws (utf8 i) → Ws (utf8 l) → out = layout renderedBody i l 0 v →
      Text cfg.allowTrailingCommas (utf8 (compact renderedBody v)) j := by
    intro i l h1 h2 e
    have h3 := (minify_text ht).1
    rw [e] at h3
    have := (minify_layout h1 h2).1 v hsafe hb.2 0 []
    rw [List.append_nil, minify, List.append_nil] at this
    rwa [this] at h3
  have hc : Text cfg.allowTrailingCommas (utf8 (compact renderedBody v)) j := by
    rcases ho with rfl | e | ⟨i, l, rfl, e⟩
    · exact ht
    · exact lay _ _ (by unfold Ws; decide) (by unfold Ws; decide) e
    · exact lay i l (hw i l rfl).1 (hw i l rfl).2 e
  have h1 := (hlit.symm.trans (strLits_text hc))
  have h2 := same_strings hsame
  rw [strings_ofJson.1] at h2
  have key : ∀ s ∈ v.strings, ∃ is ∈ jstrings j, utf8 (renderedBody s) = bodyBytes is ∧ SameText s (canonStr is) :=
    literal_pairs h1 h2 (fun s is hm h3 h4 => ⟨is, hm, h3, h4⟩)
  intro s hm hraw t hst
  obtain ⟨is, hmi, h3, x, h4, h5⟩ := key s hm
  have hbod := text_bodies ht is hmi
  have h6 := decoded_canon hbod.1 (Nat.lt_of_le_of_lt hbod.2 (fits_lim.mp hf))
  have e1 : x = codeText is := HasText.unique h5 h6
  have e2 : x = t := HasText.unique h4 hst
  obtain ⟨t', hsh⟩ := obtainable_shape (hb.1 s hm)
  have hsh := hsh.hasText hst
  rcases shape_asJson hsh (hs s hm) with ⟨is', _, e, _⟩ | e
  · rw [e] at hraw; cases hraw
  · rw [e] at h3
    exact render_read_back hbod.1 h3.symm (e1.symm.trans e2)

end

theorem vt_facts (A : Arch) : JsonString.fromStr [Char.ofNat 0x0B] = .ok ⟨.raw (.borrowed [Char.ofNat 0x0B]), .new true 6⟩
    ∧ SliceFits (utf8 [Char.ofNat 0x0B])
    ∧ (Value.string ⟨.raw (.borrowed [Char.ofNat 0x0B]), .new true 6⟩).toJson = .ok "\"\\ul000\"".toList
    ∧ SliceFits (b8 "\"\\ul000\"")
    ∧ (Value.parseWithConfig true (b8 "\"\\ul000\"") .new).isOk = false := by
  unfold SliceFits
  rcases arch_cases A with rfl | rfl <;> decide +kernel

section
variable [Arch]

/-- **C49** is false of the code: a vertical tab is written as `"\ul000"`, which is not JSON. -/
theorem C49_refuted : ¬ C49_full := by
  intro h
  obtain ⟨h1, h2, h3, h4, h5⟩ := vt_facts ‹_›
  obtain ⟨v', h6, _⟩ := h true .new .compact _ _ (.string _ (.fromStr _ _ h2 h1)) h3 (fun i l h => by cases h) h4
    (fun n hn => Nat.zero_le n) (.inl rfl)
  rw [h6] at h5
  cases h5

end

/-! ## Concrete cases -/

section
attribute [local instance] arch64

/-- a text with all kinds of values, whitespace in and out of strings, an escape, a duplicate key -/
def writeEx : List UInt8 := b8 " { \"a b\" : [ 1.5 , {} , [ ] , \"\\\" \\n\" ] ,\n\t\"k\":null, \"k\" : true } "

theorem writeEx_input : Input true writeEx := input_str (by unfold SliceFits; decide +kernel)

theorem writeEx_ok : ∃ v, Value.parseWithConfig true writeEx .new = .ok v := Outcome.exists_ok (by decide +kernel)

-- C26, C27, C35: their hypotheses are met by this text …
example : minify writeEx = b8 "{\"a b\":[1.5,{},[],\"\\\" \\n\"],\"k\":null,\"k\":true}" := by decide +kernel
example : ∃ v, Value.parseWithConfig true writeEx .new = .ok v
    ∧ v.toJson = .ok "{\"a b\":[1.5,{},[],\"\\\" \\n\"],\"k\":null,\"k\":true}".toList := by
  obtain ⟨v, hv⟩ := writeEx_ok
  obtain ⟨out, h1, h2⟩ := C26_to_json_minifies true writeEx .new v writeEx_input rfl hv
  refine ⟨v, hv, h1.trans (congrArg Res.ok (utf8_inj (h2.trans ?_)))⟩
  decide +kernel

-- … and with a trailing comma allowed, where `to_json` is shorter than the minified text
example : (Value.parseWithConfig true (b8 "[1 , ]") ParseConfig.new.allowingTrailingCommas).value?.map Value.toJson
    = some (.ok "[1]".toList) := by decide +kernel

/-- a value put together from a parsed number, parsed and converted strings -/
def builtEx : Value :=
  .object [(⟨.json (.borrowed ['k']), .new false 1⟩, .array [.number ⟨.borrowed ['7']⟩, .array [], .string ⟨.raw (.borrowed ['a', '\n']), .new true 3⟩])]

theorem builtEx_built : Built builtEx := by
  refine .object _ (.cons _ _ _ (.fromStr ['k'] _ (by unfold SliceFits; decide +kernel) (by decide +kernel)) (.array _ (.cons _ _ (.number _ ?_)
    (.cons _ _ (.array _ .nil) (.cons _ _ (.string _ (.fromStr ['a', '\n'] _ (by unfold SliceFits; decide +kernel) (by decide +kernel))) .nil)))) .nil)
  exact ⟨⟨false, [0x37], none, none⟩, ⟨⟨⟨by simp, by simp [IsDigit]⟩, by simp⟩, by simp, by simp⟩, by unfold NumDenotes; decide +kernel⟩

-- C28, C29, C49
example : builtEx.toJson = .ok "{\"k\":[7,[],\"a\\n\"]}".toList := by decide +kernel
example : builtEx.toJsonPretty = .ok "{\n  \"k\": [\n    7,\n    [],\n    \"a\\n\"\n  ]\n}".toList := by decide +kernel
example : minify (b8 "{\n  \"k\": [\n    7,\n    [],\n    \"a\\n\"\n  ]\n}") = b8 "{\"k\":[7,[],\"a\\n\"]}" := by decide +kernel
example : builtEx.writeJsonTo (logger fun i => i == 3) ([] : List (WCall × Bool))
    = .ok ([(.str ['{'], true), (.str ['"'], true), (.char 'k', true), (.str ['"'], false)], false) := by decide +kernel
example : ∃ v', Value.parseWithConfig true (b8 "{\"k\":[7,[],\"a\\n\"]}") .new = .ok v' ∧ SameContent builtEx v' := by
  refine C49_built_roundtrip_partial true .new .compact builtEx _ builtEx_built (by decide +kernel) (fun i l h => by cases h)
    (by unfold SliceFits; decide +kernel) ?_ (.inl rfl) ?_
  · intro n hn
    cases hn
    decide +kernel
  · intro s hs h t ht c hc
    have : s = ⟨.raw (.borrowed ['a', '\n']), .new true 3⟩ := by
      have hs : s ∈ [⟨.json (.borrowed ['k']), .new false 1⟩, ⟨.raw (.borrowed ['a', '\n']), .new true 3⟩] := hs
      simp only [List.mem_cons, List.not_mem_nil, or_false] at hs
      rcases hs with rfl | rfl
      · cases h
      · rfl
    subst this
    have e : t = ['a', '\n'] := HasText.unique ht (show JsonString.decoded _ = _ by decide +kernel)
    subst e
    simp only [List.mem_cons, List.not_mem_nil, or_false] at hc
    rcases hc with rfl | rfl <;> (unfold Renderable; decide)

end

/-! ## Instances: each theorem above applied to a concrete case that meets its hypotheses -/
section Instances
attribute [local instance] arch64

theorem wsSp : Ws (utf8 [' ', '\t']) := fun b hb => by
  have : utf8 [' ', '\t'] = [0x20, 0x09] := by decide +kernel
  rw [this] at hb
  simp only [List.mem_cons, List.not_mem_nil, or_false] at hb
  rcases hb with rfl | rfl <;> decide
theorem wsLn : Ws (utf8 ['\r', '\n']) := fun b hb => by
  have : utf8 ['\r', '\n'] = [0x0D, 0x0A] := by decide +kernel
  rw [this] at hb
  simp only [List.mem_cons, List.not_mem_nil, or_false] at hb
  rcases hb with rfl | rfl <;> decide
example := C26_to_json_minifies true exSrc .new exVal (exSrc_input _) rfl (exSrc_parses _)
example := C27_to_json_roundtrip true false exSrc .new exVal (exSrc_input _) (exSrc_parses _)
example := C27_pretty_roundtrip true false exSrc .new exVal (exSrc_input _) (exSrc_parses _) [' ', '\t'] ['\r', '\n'] wsSp wsLn
example := C27_pretty_default_roundtrip true false exSrc .new exVal (exSrc_input _) (exSrc_parses _)
example := C28_layout builtEx (fun s => if s.asJsonStr.isSome then ['k'] else ['a', '\\', 'n']) (by
  intro s hs
  have hs : s ∈ [⟨.json (.borrowed ['k']), .new false 1⟩, ⟨.raw (.borrowed ['a', '\n']), .new true 3⟩] := hs
  simp only [List.mem_cons, List.not_mem_nil, or_false] at hs
  rcases hs with rfl | rfl <;> decide +kernel) [' '] ['\n']
example := C28_pretty_minifies builtEx builtEx_built [' ', '\t'] ['\r', '\n'] wsSp wsLn
example := C29_calls .compact builtEx "{\"k\":[7,[],\"a\\n\"]}".toList (by decide +kernel)
example := C29_failures .compact builtEx "{\"k\":[7,[],\"a\\n\"]}".toList (by decide +kernel) (fun i => i == 3)
theorem minEx_parses (s : String) (h : (match Value.parseWithConfig true (b8 s) .new with | .ok w => w.same (.array [.boolean true]) | _ => false) = true) :
    Value.parseWithConfig true (b8 s) .new = .ok (.array [.boolean true]) := value_same h
example := C35_whitespace_is_insignificant true true (b8 "[ true]") (b8 " [true ] ") .new .new _ _ (by lit) (by lit) (by decide +kernel)
  (minEx_parses _ (by decide +kernel)) (minEx_parses _ (by decide +kernel))
example := C35_minified_accepted true exSrc .new exVal (exSrc_input _) (exSrc_parses _)
example := C49_exact_partial true .new .compact builtEx "{\"k\":[7,[],\"a\\n\"]}".toList builtEx_built (by decide +kernel) (fun i l h => by cases h)
  (by lit) (fun n h => by cases h; decide +kernel) (.inl rfl)

end Instances
end JustJson
