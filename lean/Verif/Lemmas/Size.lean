import Verif.Spec.Size
import Verif.Lemmas.Output
import Verif.Lemmas.Strings
/-! # The size of what is written -/

namespace JustJson
open Spec
variable [Arch]

set_option linter.unusedSectionVars false

theorem byteLen_append (a b : Str) : byteLen (a ++ b) = byteLen a + byteLen b := by
  unfold byteLen; rw [utf8_append, List.length_append]

theorem byteLen_cons (c : Char) (s : Str) : byteLen (c :: s) = lenUtf8 c + byteLen s := byteLen_append [c] s |>.trans (by
  congr 1
  simp [byteLen, utf8, lenUtf8])

theorem byteLen_nil : byteLen [] = 0 := rfl

/-- the sum of the bytes of some texts -/
def byteSum : List Str → Nat
  | [] => 0
  | s :: ss => byteLen s + byteSum ss

theorem byteLen_joined (sep : Str) (xs : List Str) : byteLen (joined sep xs) = byteSum xs + (xs.length - 1) * byteLen sep := by
  induction xs with
  | nil => simp [joined, byteSum, byteLen_nil]
  | cons a xs ih =>
    cases xs with
    | nil => simp [joined, byteSum]
    | cons b rest =>
      rw [joined, byteLen_append, byteLen_append, ih]
      simp only [byteSum, List.length_cons, Nat.add_sub_cancel]
      grind

theorem byteLen_indented (i : Str) (n : Nat) : byteLen (indented i n) = n * byteLen i := by
  unfold indented
  induction n with
  | zero => simp [byteLen_nil]
  | succ n ih =>
    rw [List.replicate_succ, List.flatten_cons, byteLen_append, ih]
    grind

variable (body : JsonString → Str)

theorem layoutElems_length (i l : Str) (d : Nat) : ∀ vs, (layoutElems body i l d vs).length = vs.length
  | [] => by simp [layoutElems]
  | v :: vs => by simp [layoutElems, layoutElems_length i l d vs]

theorem layoutEntries_length (i l : Str) (d : Nat) : ∀ es, (layoutEntries body i l d es).length = es.length
  | [] => by simp [layoutEntries]
  | (k, v) :: es => by simp [layoutEntries, layoutEntries_length i l d es]

theorem compactElems_length : ∀ vs, (compactElems body vs).length = vs.length
  | [] => by simp [compactElems]
  | v :: vs => by simp [compactElems, compactElems_length vs]

theorem compactEntries_length : ∀ es, (compactEntries body es).length = es.length
  | [] => by simp [compactEntries]
  | (k, v) :: es => by simp [compactEntries, compactEntries_length es]

theorem byteLen_one {c : Char} (h : c.toNat < 0x80) : byteLen [c] = 1 := by
  rw [byteLen_cons, byteLen_nil, lenUtf8_eq_one h]

mutual
theorem layout_size (i l : Str) (d : Nat) : ∀ v : Value, byteLen (layout body i l d v)
    = byteLen (compact body v) + entryCount v + lineBreaks v * byteLen l + steps d v * byteLen i
  | .null => by simp [layout, compact, entryCount, lineBreaks, steps]
  | .boolean b => by simp [layout, compact, entryCount, lineBreaks, steps]
  | .number n => by simp [layout, compact, entryCount, lineBreaks, steps]
  | .string s => by simp [layout, compact, entryCount, lineBreaks, steps]
  | .array [] => by
    rw [layout, compact, compactElems, joined, entryCount, lineBreaks, steps, entryCountElems, lineBreaksElems, stepsElems]
    simp
  | .array (v :: vs) => by
    have ih := elems_size i l (d + 1) (v :: vs)
    rw [layout, compact, entryCount, lineBreaks, steps]
    simp only [byteLen_append, byteLen_joined, byteLen_indented, layoutElems_length, compactElems_length, ih, byteLen_cons, byteLen_nil,
      reduceCtorEq, if_false, List.length_cons, Nat.add_sub_cancel, lenUtf8_eq_one (c := ',') (by decide)]
    grind
  | .object [] => by
    rw [layout, compact, compactEntries, joined, entryCount, lineBreaks, steps, entryCountEntries, lineBreaksEntries, stepsEntries]
    simp
  | .object (e :: es) => by
    have ih := entries_size i l (d + 1) (e :: es)
    rw [layout, compact, entryCount, lineBreaks, steps]
    simp only [byteLen_append, byteLen_joined, byteLen_indented, layoutEntries_length, compactEntries_length, ih, byteLen_cons, byteLen_nil,
      reduceCtorEq, if_false, List.length_cons, Nat.add_sub_cancel, lenUtf8_eq_one (c := ',') (by decide)]
    grind
theorem elems_size (i l : Str) (d : Nat) : ∀ vs : List Value, byteSum (layoutElems body i l d vs)
    = byteSum (compactElems body vs) + entryCountElems vs + lineBreaksElems vs * byteLen l + (vs.length * d + stepsElems d vs) * byteLen i
  | [] => by simp [layoutElems, compactElems, byteSum, entryCountElems, lineBreaksElems, stepsElems]
  | v :: vs => by
    rw [layoutElems, compactElems, byteSum, byteSum, entryCountElems, lineBreaksElems, stepsElems, byteLen_append, byteLen_indented,
      layout_size i l d v, elems_size i l d vs, List.length_cons]
    grind
theorem entries_size (i l : Str) (d : Nat) : ∀ es : List (JsonString × Value), byteSum (layoutEntries body i l d es)
    = byteSum (compactEntries body es) + (es.length + entryCountEntries es) + lineBreaksEntries es * byteLen l
      + (es.length * d + stepsEntries d es) * byteLen i
  | [] => by simp [layoutEntries, compactEntries, byteSum, entryCountEntries, lineBreaksEntries, stepsEntries]
  | (k, v) :: es => by
    rw [layoutEntries, compactEntries, byteSum, byteSum, entryCountEntries, lineBreaksEntries, stepsEntries]
    have h : byteLen ": ".toList = 2 := by decide
    simp only [byteLen_append, byteLen_indented, layout_size i l d v, entries_size i l d es, List.length_cons, h,
      byteLen_one (c := ':') (by decide)]
    grind
end

/-! ## Bounds -/

theorem byteLen_quoted (s : Str) : 2 ≤ byteLen (quoted s) := by
  unfold quoted
  rw [byteLen_cons, byteLen_append, lenUtf8_eq_one (by decide), byteLen_one (by decide)]
  omega

mutual
theorem ends_le : ∀ v : Value, lineBreaks v + entryCount v ≤ byteLen (compact body v)
  | .null => by simp [entryCount, lineBreaks]
  | .boolean b => by simp [entryCount, lineBreaks]
  | .number n => by simp [entryCount, lineBreaks]
  | .string s => by simp [entryCount, lineBreaks]
  | .array vs => by
    have ih := ends_le_elems vs
    rw [compact, entryCount, lineBreaks]
    simp only [byteLen_append, byteLen_joined, compactElems_length, byteLen_one (c := '[') (by decide), byteLen_one (c := ',') (by decide),
      byteLen_one (c := ']') (by decide)]
    cases vs with
    | nil => simp [lineBreaksElems, entryCountElems]
    | cons v vs => simp only [reduceCtorEq, if_false, List.length_cons] at ih ⊢; omega
  | .object es => by
    have ih := ends_le_entries es
    rw [compact, entryCount, lineBreaks]
    simp only [byteLen_append, byteLen_joined, compactEntries_length, byteLen_one (c := '{') (by decide), byteLen_one (c := ',') (by decide),
      byteLen_one (c := '}') (by decide)]
    cases es with
    | nil => simp [lineBreaksEntries, entryCountEntries]
    | cons v vs => simp only [reduceCtorEq, if_false, List.length_cons] at ih ⊢; omega
theorem ends_le_elems : ∀ vs : List Value, lineBreaksElems vs + entryCountElems vs ≤ byteSum (compactElems body vs)
  | [] => by simp [lineBreaksElems, entryCountElems]
  | v :: vs => by
    have h1 := ends_le v
    have h2 := ends_le_elems vs
    rw [lineBreaksElems, entryCountElems, compactElems, byteSum]
    omega
theorem ends_le_entries : ∀ es : List (JsonString × Value),
    es.length + lineBreaksEntries es + entryCountEntries es ≤ byteSum (compactEntries body es)
  | [] => by simp [lineBreaksEntries, entryCountEntries]
  | (k, v) :: es => by
    have h1 := ends_le v
    have h2 := ends_le_entries es
    have h3 := byteLen_quoted (body k)
    rw [lineBreaksEntries, entryCountEntries, compactEntries, byteSum, byteLen_append, byteLen_append, List.length_cons]
    omega
end

mutual
theorem steps_le (d : Nat) : ∀ v : Value, steps d v ≤ lineBreaks v * (d + v.depth)
  | .null => by simp [steps]
  | .boolean b => by simp [steps]
  | .number n => by simp [steps]
  | .string s => by simp [steps]
  | .array vs => by
    have ih := steps_le_elems (d + 1) vs
    rw [steps, lineBreaks, Value.depth]
    cases vs with
    | nil => simp [stepsElems]
    | cons v vs =>
      simp only [reduceCtorEq, if_false] at ih ⊢
      have : d + (1 + Value.depthList (v :: vs)) = d + 1 + Value.depthList (v :: vs) := by omega
      rw [this]
      generalize Value.depthList (v :: vs) = D at *
      generalize (v :: vs).length = n at *
      have h1 : n * (d + 1) ≤ n * (d + 1 + D) := Nat.mul_le_mul_left _ (by omega)
      grind
  | .object es => by
    have ih := steps_le_entries (d + 1) es
    rw [steps, lineBreaks, Value.depth]
    cases es with
    | nil => simp [stepsEntries]
    | cons v vs =>
      simp only [reduceCtorEq, if_false] at ih ⊢
      have : d + (1 + Value.depthEntries (v :: vs)) = d + 1 + Value.depthEntries (v :: vs) := by omega
      rw [this]
      generalize Value.depthEntries (v :: vs) = D at *
      generalize (v :: vs).length = n at *
      have h1 : n * (d + 1) ≤ n * (d + 1 + D) := Nat.mul_le_mul_left _ (by omega)
      grind
theorem steps_le_elems (d : Nat) : ∀ vs : List Value, stepsElems d vs ≤ lineBreaksElems vs * (d + Value.depthList vs)
  | [] => by simp [stepsElems]
  | v :: vs => by
    have h1 := steps_le d v
    have h2 := steps_le_elems d vs
    rw [stepsElems, lineBreaksElems, Value.depthList, Nat.add_mul]
    have h3 : lineBreaks v * (d + v.depth) ≤ lineBreaks v * (d + max v.depth (Value.depthList vs)) := Nat.mul_le_mul_left _ (by omega)
    have h4 : lineBreaksElems vs * (d + Value.depthList vs) ≤ lineBreaksElems vs * (d + max v.depth (Value.depthList vs)) :=
      Nat.mul_le_mul_left _ (by omega)
    omega
theorem steps_le_entries (d : Nat) : ∀ es : List (JsonString × Value), stepsEntries d es ≤ lineBreaksEntries es * (d + Value.depthEntries es)
  | [] => by simp [stepsEntries]
  | (k, v) :: vs => by
    have h1 := steps_le d v
    have h2 := steps_le_entries d vs
    rw [stepsEntries, lineBreaksEntries, Value.depthEntries, Nat.add_mul]
    have h3 : lineBreaks v * (d + v.depth) ≤ lineBreaks v * (d + max v.depth (Value.depthEntries vs)) := Nat.mul_le_mul_left _ (by omega)
    have h4 : lineBreaksEntries vs * (d + Value.depthEntries vs) ≤ lineBreaksEntries vs * (d + max v.depth (Value.depthEntries vs)) :=
      Nat.mul_le_mul_left _ (by omega)
    omega
end

theorem layout_bound (i l : Str) (v : Value) :
    byteLen (layout body i l 0 v) ≤ byteLen (compact body v) * (2 + byteLen l + v.depth * byteLen i) := by
  rw [layout_size]
  have h1 := ends_le body v
  have h2 := steps_le 0 v
  rw [Nat.zero_add] at h2
  have h3 : lineBreaks v * byteLen l ≤ byteLen (compact body v) * byteLen l := Nat.mul_le_mul_right _ (by omega)
  have h4 : steps 0 v * byteLen i ≤ byteLen (compact body v) * (v.depth * byteLen i) := by
    rw [← Nat.mul_assoc]
    exact Nat.mul_le_mul_right _ (Nat.le_trans h2 (Nat.mul_le_mul_right _ (by omega)))
  rw [Nat.mul_add, Nat.mul_add]
  omega

/-! ## Strings -/

theorem codeChar_bytes {i : Item} (hv : i.Valid) : i.bytes.length ≤ 6 * lenUtf8 i.codeChar := by
  have hp := lenUtf8_pos i.codeChar
  cases i with
  | plain c => show lenUtf8 c ≤ 6 * lenUtf8 c; omega
  | esc e => simp only [Item.bytes, List.length_cons, List.length_nil]; omega
  | uni h => simp only [Item.bytes, Hex4.bytes, List.length_append, List.length_cons, List.length_nil]; omega
  | pair hi lo =>
    have h : 2 ≤ lenUtf8 (Item.pair hi lo).codeChar := by
      have h1 := pair_codeChar_toNat hv
      obtain ⟨_, _, _, h2, _, h3⟩ := hv
      have := mergedCp_bounds h2 h3
      have hb : 0x80 ≤ (Item.pair hi lo).codeChar.toNat := by omega
      generalize (Item.pair hi lo).codeChar = c at hb
      rw [lenUtf8_def]
      rcases encodeChar_cases c with h | ⟨_, _, _, _, h, _⟩ | ⟨_, _, _, _, _, h, _⟩ | ⟨_, _, _, _, _, _, h, _⟩
      · omega
      all_goals rw [h]; simp only [List.length_cons]; omega
    simp only [Item.bytes, Hex4.bytes, List.length_append, List.length_cons, List.length_nil]; omega

theorem byteLen_items {is : List Item} (hv : ItemsValid is) :
    byteLen (codeText is) ≤ byteLen (bodyChars is) ∧ byteLen (bodyChars is) ≤ 6 * byteLen (codeText is) := by
  induction is with
  | nil => exact ⟨Nat.le_refl _, Nat.zero_le _⟩
  | cons i is ih =>
    have hi := hv i (by simp)
    obtain ⟨h1, h2⟩ := ih (fun j hj => hv j (List.mem_cons_of_mem _ hj))
    have e1 : codeText (i :: is) = i.codeChar :: codeText is := rfl
    have e2 : bodyChars (i :: is) = i.chars ++ bodyChars is := rfl
    have e3 : byteLen i.chars = i.bytes.length := by unfold byteLen; rw [Item.utf8_chars hi]
    have h3 := Item.codeLen_le hi
    have h4 := codeChar_bytes hi
    rw [e1, e2, byteLen_cons, byteLen_append, e3]
    omega

theorem byteLen_rend (c : Char) : lenUtf8 c ≤ byteLen (rend c) ∧ byteLen (rend c) ≤ 6 * lenUtf8 c := by
  have hp := lenUtf8_pos c
  by_cases h : escC c = true
  · have hc : c.toNat < 0x80 := by
      rcases escC_cases h with h | rfl | rfl
      · omega
      · decide
      · decide
    rw [lenUtf8_eq_one hc]
    have key : ∀ c : Char, escC c = true → 1 ≤ byteLen (rend c) ∧ byteLen (rend c) ≤ 6 := by
      intro c h
      rcases escC_cases h with h | rfl | rfl
      · revert h
        exact fun h => forall_ctl (P := fun c => 1 ≤ byteLen (rend c) ∧ byteLen (rend c) ≤ 6) (by decide) h
      · decide
      · decide
    exact key c h
  · rw [rend_plain (by simpa using h), byteLen_cons, byteLen_nil]
    omega

theorem byteLen_render (s : Str) : byteLen s ≤ byteLen (render s) ∧ byteLen (render s) ≤ 6 * byteLen s := by
  induction s with
  | nil => exact ⟨Nat.le_refl _, Nat.zero_le _⟩
  | cons c s ih =>
    have h := byteLen_rend c
    have e : render (c :: s) = rend c ++ render s := rfl
    rw [e, byteLen_cons, byteLen_append]
    omega

end JustJson
