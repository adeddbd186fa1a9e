import Verif.Lemmas.Minify
import Verif.Spec.Content
/-! # Written values are JSON texts -/

namespace JustJson
open Spec

set_option linter.unusedSectionVars false

section
variable [Arch]

mutual
/-- The value has the shape of the tree, with strings related by `P`. -/
inductive Spells (P : JsonString → List Item → Prop) : Value → Json → Prop where
  | null : Spells P .null .null
  | bool (b : Bool) : Spells P (.boolean b) (.bool b)
  | num (x : JsonNumber) (n : NumLit) : n.Valid → NumDenotes x n → Spells P (.number x) (.num n)
  | str (s : JsonString) (is : List Item) : P s is → Spells P (.string s) (.str is)
  | arr (vs : List Value) (js : List Json) : SpellsE P vs js → Spells P (.array vs) (.arr js)
  | obj (es : Object) (ms : List (List Item × Json)) : SpellsM P es ms → Spells P (.object es) (.obj ms)
/-- elements -/
inductive SpellsE (P : JsonString → List Item → Prop) : List Value → List Json → Prop where
  | nil : SpellsE P [] []
  | cons (v : Value) (j : Json) (vs : List Value) (js : List Json) :
      Spells P v j → SpellsE P vs js → SpellsE P (v :: vs) (j :: js)
/-- entries -/
inductive SpellsM (P : JsonString → List Item → Prop) : Object → List (List Item × Json) → Prop where
  | nil : SpellsM P [] []
  | cons (k : JsonString) (v : Value) (is : List Item) (j : Json) (es : Object) (ms : List (List Item × Json)) :
      P k is → Spells P v j → SpellsM P es ms → SpellsM P ((k, v) :: es) ((is, j) :: ms)
end

theorem spells_ofJson {P : JsonString → List Item → Prop} (hP : ∀ is, ItemsValid is → P (canonStr is) is) :
    (∀ j, JValid j → Spells P (ofJson j) j) ∧ (∀ ms, MsValid ms → SpellsM P (ofMembers ms) ms)
    ∧ (∀ js, JsValid js → SpellsE P (ofJsons js) js) := by
  apply Json.induct
  · intro _; exact .null
  · intro b _; exact .bool b
  · intro n h; exact .num _ n h (canonNum_denotes h)
  · intro s h; exact .str _ s (hP s h)
  · intro ms ih h; exact .obj _ _ (ih h)
  · intro js ih h; exact .arr _ _ (ih h)
  · intro _; exact .nil
  · intro k j ms h1 h2 h; exact .cons _ _ _ _ _ _ (hP k h.1) (h1 h.2.1) (h2 h.2.2)
  · intro _; exact .nil
  · intro j js h1 h2 h; exact .cons _ _ _ _ (h1 h.1) (h2 h.2)

variable {P : JsonString → List Item → Prop} {body : JsonString → Str}

theorem quoted_items {s : JsonString} {is : List Item} (h : utf8 (body s) = bodyBytes is) : utf8 (quoted (body s)) = strBytes is := by
  rw [utf8_quoted, h]; rfl

theorem spells_compact {tc : Bool} (hP : ∀ s is, P s is → ItemsValid is ∧ utf8 (body s) = bodyBytes is) {v : Value} {j : Json}
    (h : Spells P v j) : GValue tc (utf8 (compact body v)) j := by
  refine Spells.rec (motive_1 := fun v j _ => GValue tc (utf8 (compact body v)) j)
    (motive_2 := fun vs js _ => vs ≠ [] → GElems tc (utf8 (joined [','] (compactElems body vs))) js)
    (motive_3 := fun es ms _ => es ≠ [] → GMembers tc (utf8 (joined [','] (compactEntries body es))) ms)
    ?_ ?_ ?_ ?_ ?_ ?_ ?_ ?_ ?_ ?_ h
  · exact .null
  · intro b; cases b
    · exact .false
    · exact .true
  · intro x n hn hx
    rw [compact, show utf8 x.sourceStr = n.bytes from hx]
    exact .num n hn
  · intro s is hs
    rw [compact, quoted_items (hP s is hs).2]
    exact .str is (hP s is hs).1
  · intro vs js hs ih
    rw [compact]
    cases hs with
    | nil => exact .emptyArr [] ws_nil
    | cons v j vs js h1 h2 =>
      have := ih (by simp)
      have := GValue.arr _ _ this
      rw [List.append_assoc, utf8_append, utf8_append]
      exact this
  · intro vs js hs ih
    rw [compact]
    cases hs with
    | nil => exact .emptyObj [] ws_nil
    | cons k v i j vs js h0 h1 h2 =>
      have := ih (by simp)
      have := GValue.obj _ _ this
      rw [List.append_assoc, utf8_append, utf8_append]
      exact this
  · intro h; exact absurd rfl h
  · intro v j vs js h1 hs h2 h3 _
    cases hs with
    | nil =>
      have := GElems.one [] _ [] j ws_nil h2 ws_nil
      simpa [compactElems, joined] using this
    | cons v' j' vs js _ _ =>
      have := GElems.cons [] _ [] _ j _ ws_nil h2 ws_nil (h3 (by simp))
      show GElems tc (utf8 (compact body v ++ [','] ++ joined [','] (compactElems body (v' :: vs)))) _
      rw [List.append_assoc, utf8_append, utf8_append]
      have e1 : utf8 [','] = [0x2C] := rfl
      have e3 : utf8 [':'] = [0x3A] := rfl
      rw [e1]
      simpa using this
  · intro h; exact absurd rfl h
  · intro k v is j es ms hk h1 hs h2 h3 _
    obtain ⟨k1, k2⟩ := hP k is hk
    cases hs with
    | nil =>
      have := GMembers.one [] [] [] _ [] is j ws_nil k1 ws_nil ws_nil h2 ws_nil
      show GMembers tc (utf8 (quoted (body k) ++ [':'] ++ compact body v)) _
      rw [List.append_assoc, utf8_append, utf8_append, quoted_items k2]
      have e1 : utf8 [','] = [0x2C] := rfl
      have e3 : utf8 [':'] = [0x3A] := rfl
      rw [e3]
      simpa using this
    | cons k' v' is' j' es ms _ _ _ =>
      have := GMembers.cons [] [] [] _ [] _ is j _ ws_nil k1 ws_nil ws_nil h2 ws_nil (h3 (by simp))
      show GMembers tc (utf8 (quoted (body k) ++ [':'] ++ compact body v ++ [','] ++ joined [','] (compactEntries body ((k', v') :: es)))) _
      simp only [utf8_append]
      rw [quoted_items k2]
      have e1 : utf8 [','] = [0x2C] := rfl
      have e3 : utf8 [':'] = [0x3A] := rfl
      rw [e1, e3]
      simpa using this

theorem ws_append {a b : List UInt8} (ha : Ws a) (hb : Ws b) : Ws (a ++ b) := by
  intro x hx
  rcases List.mem_append.mp hx with h | h
  · exact ha x h
  · exact hb x h

theorem ws_indented {indent : Str} (h : Ws (utf8 indent)) (n : Nat) : Ws (utf8 (indented indent n)) := by
  induction n with
  | zero => exact ws_nil
  | succ n ih =>
    unfold indented at ih ⊢
    rw [List.replicate_succ, List.flatten_cons, utf8_append]
    exact ws_append h ih

theorem spells_layout {tc : Bool} (hP : ∀ s is, P s is → ItemsValid is ∧ utf8 (body s) = bodyBytes is) {indent lineEnding : Str}
    (hi : Ws (utf8 indent)) (hl : Ws (utf8 lineEnding)) {v : Value} {j : Json}
    (h : Spells P v j) : ∀ d, GValue tc (utf8 (layout body indent lineEnding d v)) j := by
  refine Spells.rec (motive_1 := fun v j _ => ∀ d, GValue tc (utf8 (layout body indent lineEnding d v)) j)
    (motive_2 := fun vs js _ => vs ≠ [] → ∀ d z, Ws z →
      GElems tc (utf8 lineEnding ++ utf8 (joined (',' :: lineEnding) (layoutElems body indent lineEnding d vs)) ++ z) js)
    (motive_3 := fun es ms _ => es ≠ [] → ∀ d z, Ws z →
      GMembers tc (utf8 lineEnding ++ utf8 (joined (',' :: lineEnding) (layoutEntries body indent lineEnding d es)) ++ z) ms)
    ?_ ?_ ?_ ?_ ?_ ?_ ?_ ?_ ?_ ?_ h
  · intro d; rw [layout]; exact .null
  · intro b d; rw [layout]; cases b
    · exact .false
    · exact .true
  · intro x n hn hx d
    rw [layout, show utf8 x.sourceStr = n.bytes from hx]
    exact .num n hn
  · intro s is hs d
    rw [layout, quoted_items (hP s is hs).2]
    exact .str is (hP s is hs).1
  · intro vs js hs ih d
    cases hs with
    | nil => rw [layout]; exact .emptyArr [] ws_nil
    | cons v j vs js h1 h2 =>
      have := ih (by simp) (d + 1) (utf8 lineEnding ++ utf8 (indented indent d)) (ws_append hl (ws_indented hi d))
      have := GValue.arr _ _ this
      simp only [layout, utf8_append]
      have e1 : utf8 ['['] = [0x5B] := rfl
      have e2 : utf8 [']'] = [0x5D] := rfl
      rw [e1, e2]
      simpa using this
  · intro vs js hs ih d
    cases hs with
    | nil => rw [layout]; exact .emptyObj [] ws_nil
    | cons k v i j vs js h0 h1 h2 =>
      have := ih (by simp) (d + 1) (utf8 lineEnding ++ utf8 (indented indent d)) (ws_append hl (ws_indented hi d))
      have := GValue.obj _ _ this
      simp only [layout, utf8_append]
      have e1 : utf8 ['{'] = [0x7B] := rfl
      have e2 : utf8 ['}'] = [0x7D] := rfl
      rw [e1, e2]
      simpa using this
  · intro h; exact absurd rfl h
  · intro v j vs js h1 hs h2 h3 _ d z hz
    cases hs with
    | nil =>
      have := GElems.one (utf8 lineEnding ++ utf8 (indented indent d)) _ z j (ws_append hl (ws_indented hi d)) (h2 d) hz
      simpa [layoutElems, joined, utf8_append] using this
    | cons v' j' vs js _ _ =>
      have := GElems.cons (utf8 lineEnding ++ utf8 (indented indent d)) _ [] _ j _ (ws_append hl (ws_indented hi d)) (h2 d) ws_nil (h3 (by simp) d z hz)
      show GElems tc (utf8 lineEnding ++ utf8 (indented indent d ++ layout body indent lineEnding d v ++ ([','] ++ lineEnding)
        ++ joined (',' :: lineEnding) (layoutElems body indent lineEnding d (v' :: vs))) ++ z) _
      simp only [utf8_append]
      have e1 : utf8 [','] = [0x2C] := rfl
      rw [e1]
      simpa using this
  · intro h; exact absurd rfl h
  · intro k v is j es ms hk h1 hs h2 h3 _ d z hz
    obtain ⟨k1, k2⟩ := hP k is hk
    have hc : Ws [0x20] := by intro b hb; simp at hb; exact .inl hb
    cases hs with
    | nil =>
      have := GMembers.one (utf8 lineEnding ++ utf8 (indented indent d)) [] [0x20] _ z is j (ws_append hl (ws_indented hi d)) k1 ws_nil hc (h2 d) hz
      show GMembers tc (utf8 lineEnding ++ utf8 (indented indent d ++ quoted (body k) ++ ": ".toList ++ layout body indent lineEnding d v) ++ z) _
      simp only [utf8_append]
      have e1 : utf8 ": ".toList = [0x3A, 0x20] := rfl
      rw [quoted_items k2, e1]
      simpa using this
    | cons k' v' is' j' es ms _ _ _ =>
      have := GMembers.cons (utf8 lineEnding ++ utf8 (indented indent d)) [] [0x20] _ [] _ is j _ (ws_append hl (ws_indented hi d)) k1 ws_nil hc (h2 d) ws_nil (h3 (by simp) d z hz)
      show GMembers tc (utf8 lineEnding ++ utf8 (indented indent d ++ quoted (body k) ++ ": ".toList ++ layout body indent lineEnding d v ++ ([','] ++ lineEnding)
        ++ joined (',' :: lineEnding) (layoutEntries body indent lineEnding d ((k', v') :: es))) ++ z) _
      simp only [utf8_append]
      have e1 : utf8 ": ".toList = [0x3A, 0x20] := rfl
      have e2 : utf8 [','] = [0x2C] := rfl
      rw [quoted_items k2, e1, e2]
      simpa using this

/-! ## Minified layouts -/

theorem minify_layout {indent lineEnding : Str} (hi : Ws (utf8 indent)) (hl : Ws (utf8 lineEnding)) :
    (∀ v : Value, (∀ s ∈ v.strings, SafeBody (body s)) → (∀ x ∈ v.numbers, x.WellFormed) → ∀ d r,
      minify (utf8 (layout body indent lineEnding d v) ++ r) = utf8 (compact body v) ++ minify r)
    ∧ (∀ es : Object, (∀ s ∈ Value.stringsEntries es, SafeBody (body s)) → (∀ x ∈ Value.numbersEntries es, x.WellFormed) → ∀ d r,
      minify (utf8 (joined (',' :: lineEnding) (layoutEntries body indent lineEnding d es)) ++ r)
        = utf8 (joined [','] (compactEntries body es)) ++ minify r)
    ∧ (∀ vs : List Value, (∀ s ∈ Value.stringsElems vs, SafeBody (body s)) → (∀ x ∈ Value.numbersElems vs, x.WellFormed) → ∀ d r,
      minify (utf8 (joined (',' :: lineEnding) (layoutElems body indent lineEnding d vs)) ++ r)
        = utf8 (joined [','] (compactElems body vs)) ++ minify r) := by
  apply Value.induct
  · intro _ _ d r; rw [layout, compact]; exact minify_plain (by decide) r
  · intro b _ _ d r; rw [layout, compact]; cases b <;> exact minify_plain (by decide) r
  · intro n _ hn d r
    obtain ⟨x, h1, h2⟩ := hn n (by simp [Value.numbers])
    rw [layout, compact, show utf8 n.sourceStr = x.bytes from h2]
    exact minify_plain (num_plain h1) r
  · intro s hs _ d r
    rw [layout, compact]
    exact minify_quoted (hs s (by simp [Value.strings])) r
  · intro es ih hs hn d r
    rw [Value.strings] at hs
    rw [Value.numbers] at hn
    cases es with
    | nil => rw [layout, compact]; exact minify_plain (by decide) r
    | cons e es =>
      simp only [layout, compact, utf8_append]
      have e1 : utf8 ['{'] = [0x7B] := rfl
      have e2 : utf8 ['}'] = [0x7D] := rfl
      rw [e1, e2]
      simp only [List.append_assoc]
      rw [minify_plain (by decide), minify_ws hl, ih hs hn, minify_ws hl, minify_ws (ws_indented hi d), minify_plain (by decide)]
  · intro es ih hs hn d r
    rw [Value.strings] at hs
    rw [Value.numbers] at hn
    cases es with
    | nil => rw [layout, compact]; exact minify_plain (by decide) r
    | cons e es =>
      simp only [layout, compact, utf8_append]
      have e1 : utf8 ['['] = [0x5B] := rfl
      have e2 : utf8 [']'] = [0x5D] := rfl
      rw [e1, e2]
      simp only [List.append_assoc]
      rw [minify_plain (by decide), minify_ws hl, ih hs hn, minify_ws hl, minify_ws (ws_indented hi d), minify_plain (by decide)]
  · intro _ _ d r; rfl
  · intro k v es ihv ih hs hn d r
    rw [Value.stringsEntries] at hs
    rw [Value.numbersEntries] at hn
    have hk := hs k (by simp)
    have h1 := ihv (fun s h => hs s (by simp [h])) (fun x h => hn x (by simp [h])) d
    have h2 := ih (fun s h => hs s (by simp [h])) (fun x h => hn x (by simp [h])) d
    have e1 : utf8 ": ".toList = [0x3A, 0x20] := rfl
    have e3 : utf8 [':'] = [0x3A] := rfl
    have hm : ∀ r, minify ([0x3A, 0x20] ++ r) = [0x3A] ++ minify r := by
      intro r
      show minify ([0x3A] ++ ([0x20] ++ r)) = _
      rw [minify_plain (by decide), minify_ws (by intro b hb; simp at hb; exact .inl hb)]
    cases es with
    | nil =>
      show minify (utf8 (indented indent d ++ quoted (body k) ++ ": ".toList ++ layout body indent lineEnding d v) ++ r)
        = utf8 (quoted (body k) ++ [':'] ++ compact body v) ++ minify r
      simp only [utf8_append, List.append_assoc]
      rw [minify_ws (ws_indented hi d), minify_quoted hk, e1, hm, h1, e3]
    | cons e es =>
      obtain ⟨k', v'⟩ := e
      show minify (utf8 (indented indent d ++ quoted (body k) ++ ": ".toList ++ layout body indent lineEnding d v ++ ([','] ++ lineEnding)
          ++ joined (',' :: lineEnding) (layoutEntries body indent lineEnding d ((k', v') :: es))) ++ r)
        = utf8 (quoted (body k) ++ [':'] ++ compact body v ++ [','] ++ joined [','] (compactEntries body ((k', v') :: es))) ++ minify r
      simp only [utf8_append, List.append_assoc]
      have e2 : utf8 [','] = [0x2C] := rfl
      rw [minify_ws (ws_indented hi d), minify_quoted hk, e1, hm, h1, e3, e2, minify_plain (by decide), minify_ws hl, h2]
  · intro _ _ d r; rfl
  · intro v es ihv ih hs hn d r
    rw [Value.stringsElems] at hs
    rw [Value.numbersElems] at hn
    have h1 := ihv (fun s h => hs s (by simp [h])) (fun x h => hn x (by simp [h])) d
    have h2 := ih (fun s h => hs s (by simp [h])) (fun x h => hn x (by simp [h])) d
    cases es with
    | nil =>
      show minify (utf8 (indented indent d ++ layout body indent lineEnding d v) ++ r) = utf8 (compact body v) ++ minify r
      simp only [utf8_append, List.append_assoc]
      rw [minify_ws (ws_indented hi d), h1]
    | cons v' es =>
      show minify (utf8 (indented indent d ++ layout body indent lineEnding d v ++ ([','] ++ lineEnding)
          ++ joined (',' :: lineEnding) (layoutElems body indent lineEnding d (v' :: es))) ++ r)
        = utf8 (compact body v ++ [','] ++ joined [','] (compactElems body (v' :: es))) ++ minify r
      simp only [utf8_append, List.append_assoc]
      have e2 : utf8 [','] = [0x2C] := rfl
      rw [minify_ws (ws_indented hi d), h1, e2, minify_plain (by decide), minify_ws hl, h2]

end
end JustJson
