import Verif.Lemmas.Write
import Verif.Lemmas.Output
import Verif.Spec.Calls
import Verif.Spec.Accept
import Verif.Lemmas.Complete
/-! # The calls made on a writer -/

namespace JustJson
open Spec

set_option linter.unusedSectionVars false

section
variable [Arch] {body : JsonString → Str}

theorem strTr_calls (pretty : Bool) (indent : Str) {s : JsonString} {t : Str} (l : Nat) (b : Bool) (h : s.asJson = .ok t) :
    strTr pretty indent l b s = ⟨indTr pretty indent l b ++ literalCalls t, none⟩ := by
  unfold JsonString.asJson at h
  cases hc : (AsJson.new s.source s.info).collect with
  | panic p => rw [hc] at h; cases h
  | ok q =>
    obtain ⟨o, af⟩ := q
    rw [hc] at h
    cases h
    have := asJsonTr_ok hc
    unfold strTr
    rw [this]
    show (⟨indTr pretty indent l b ++ ([.str ['"']] ++ (o.map .char ++ [.str ['"']])), none⟩ : Tr) = _
    unfold literalCalls
    simp

theorem compact_calls (b : Bool) :
    (∀ v : Value, (∀ s ∈ v.strings, s.asJson = .ok (body s)) → ∀ l, valueTr false [] [] l b v = ⟨compactCalls body v, none⟩)
    ∧ (∀ es : Object, (∀ s ∈ Value.stringsEntries es, s.asJson = .ok (body s)) → ∀ l,
        entriesTr false [] [] l b es = ⟨seriesOf [.str [',']] (compactEntryCalls body es), none⟩)
    ∧ (∀ vs : List Value, (∀ s ∈ Value.stringsElems vs, s.asJson = .ok (body s)) → ∀ l,
        elemsTr false [] [] l b vs = ⟨seriesOf [.str [',']] (compactElemCalls body vs), none⟩) := by
  have hb : (b && !false) = b := by cases b <;> rfl
  have hb' : (b || false) = b := by cases b <;> rfl
  apply Value.induct
  · intro _ l; rw [valueTr, compactCalls]; rfl
  · intro t _ l; rw [valueTr, compactCalls]; cases t <;> rfl
  · intro n _ l; rw [valueTr, compactCalls]; rfl
  · intro s hs l; rw [valueTr, compactCalls, strTr_calls false [] l b (hs s (by simp [Value.strings]))]; rfl
  · intro es ih hs l
    rw [Value.strings] at hs
    cases es with
    | nil => rw [valueTr, compactCalls]; rfl
    | cons e es =>
      have h := ih hs (l + 1)
      simp only [valueTr, compactCalls]
      rw [hb', hb, h]
      simp [Tr.seq, indTr, nlTr]
  · intro es ih hs l
    rw [Value.strings] at hs
    cases es with
    | nil => rw [valueTr, compactCalls]; rfl
    | cons e es =>
      have h := ih hs (l + 1)
      simp only [valueTr, compactCalls]
      rw [hb', hb, h]
      simp [Tr.seq, indTr, nlTr]
  · intro _ l; rfl
  · intro k v es ihv ih hs l
    rw [Value.stringsEntries] at hs
    have hk := strTr_calls false [] l b (hs k (by simp))
    have hv := ihv (fun s h => hs s (by simp [h])) l
    have he := ih (fun s h => hs s (by simp [h])) l
    rw [entriesTr, hb, hk, hv, he]
    cases es with
    | nil => simp [compactEntryCalls, seriesOf, Tr.seq, indTr]
    | cons e es => obtain ⟨k', v'⟩ := e; simp [compactEntryCalls, seriesOf, Tr.seq, indTr]
  · intro _ l; rfl
  · intro v es ihv ih hs l
    rw [Value.stringsElems] at hs
    have hv := ihv (fun s h => hs s (by simp [h])) l
    have he := ih (fun s h => hs s (by simp [h])) l
    rw [elemsTr, hv, he]
    cases es with
    | nil => simp [compactElemCalls, seriesOf, Tr.seq]
    | cons e es => simp [compactElemCalls, seriesOf, Tr.seq]

theorem pretty_calls (indent lineEnding : Str) :
    (∀ v : Value, (∀ s ∈ v.strings, s.asJson = .ok (body s)) → ∀ l b, valueTr true indent lineEnding l b v
        = ⟨(if b then List.replicate l (.str indent) else []) ++ prettyCalls body indent lineEnding l v, none⟩)
    ∧ (∀ es : Object, (∀ s ∈ Value.stringsEntries es, s.asJson = .ok (body s)) → ∀ l, entriesTr true indent lineEnding l true es
        = ⟨seriesOf [.str [','], .str lineEnding] (prettyEntryCalls body indent lineEnding l es)
            ++ (if es.isEmpty then [] else [.str lineEnding]), none⟩)
    ∧ (∀ vs : List Value, (∀ s ∈ Value.stringsElems vs, s.asJson = .ok (body s)) → ∀ l, elemsTr true indent lineEnding l true vs
        = ⟨seriesOf [.str [','], .str lineEnding] (prettyElemCalls body indent lineEnding l vs)
            ++ (if vs.isEmpty then [] else [.str lineEnding]), none⟩) := by
  apply Value.induct
  · intro _ l b; rw [valueTr, prettyCalls]; cases b <;> rfl
  · intro t _ l b; rw [valueTr, prettyCalls]; cases t <;> cases b <;> rfl
  · intro n _ l b; rw [valueTr, prettyCalls]; cases b <;> rfl
  · intro s hs l b; rw [valueTr, prettyCalls, strTr_calls true indent l b (hs s (by simp [Value.strings]))]; cases b <;> rfl
  · intro es ih hs l b
    rw [Value.strings] at hs
    cases es with
    | nil => rw [valueTr, prettyCalls]; cases b <;> rfl
    | cons e es =>
      have h := ih hs (l + 1)
      simp only [valueTr, prettyCalls, Bool.or_true]
      rw [h]
      cases b <;> simp [Tr.seq, indTr, nlTr]
  · intro es ih hs l b
    rw [Value.strings] at hs
    cases es with
    | nil => rw [valueTr, prettyCalls]; cases b <;> rfl
    | cons e es =>
      have h := ih hs (l + 1)
      simp only [valueTr, prettyCalls, Bool.or_true]
      rw [h]
      cases b <;> simp [Tr.seq, indTr, nlTr]
  · intro _ l; rfl
  · intro k v es ihv ih hs l
    rw [Value.stringsEntries] at hs
    have hk := strTr_calls true indent l true (hs k (by simp))
    have hv := ihv (fun s h => hs s (by simp [h])) l false
    have he := ih (fun s h => hs s (by simp [h])) l
    rw [entriesTr, show (true && !true) = false from rfl, hk, hv, he]
    cases es with
    | nil => simp [prettyEntryCalls, seriesOf, Tr.seq, indTr]
    | cons e es => obtain ⟨k', v'⟩ := e; simp [prettyEntryCalls, seriesOf, Tr.seq, indTr]
  · intro _ l; rfl
  · intro v es ihv ih hs l
    rw [Value.stringsElems] at hs
    have hv := ihv (fun s h => hs s (by simp [h])) l true
    have he := ih (fun s h => hs s (by simp [h])) l
    rw [elemsTr, hv, he]
    cases es with
    | nil => simp [prettyElemCalls, seriesOf, Tr.seq]
    | cons e es => simp [prettyElemCalls, seriesOf, Tr.seq]

/-! ## How many -/

theorem series_length (sep : List WCall) (cs : List (List WCall)) :
    (seriesOf sep cs).length = (cs.map List.length).sum + (cs.length - 1) * sep.length := by
  induction cs with
  | nil => simp [seriesOf]
  | cons a cs ih =>
    cases cs with
    | nil => simp [seriesOf]
    | cons b cs =>
      rw [seriesOf, List.length_append, List.length_append, ih]
      simp
      rw [Nat.add_mul]
      omega

theorem compactElems_count (vs : List Value) : (compactElemCalls body vs).length = vs.length := by
  induction vs with
  | nil => rw [compactElemCalls]; rfl
  | cons v vs ih => rw [compactElemCalls]; simp [ih]

theorem compactEntries_count (es : Object) : (compactEntryCalls body es).length = es.length := by
  induction es with
  | nil => rw [compactEntryCalls]; rfl
  | cons e es ih => obtain ⟨k, v⟩ := e; rw [compactEntryCalls]; simp [ih]

theorem prettyElems_count (i l : Str) (d : Nat) (vs : List Value) : (prettyElemCalls body i l d vs).length = vs.length := by
  induction vs with
  | nil => rw [prettyElemCalls]; rfl
  | cons v vs ih => rw [prettyElemCalls]; simp [ih]

theorem prettyEntries_count (i l : Str) (d : Nat) (es : Object) : (prettyEntryCalls body i l d es).length = es.length := by
  induction es with
  | nil => rw [prettyEntryCalls]; rfl
  | cons e es ih => obtain ⟨k, v⟩ := e; rw [prettyEntryCalls]; simp [ih]

theorem pretty_count (i l : Str) :
    (∀ v : Value, ∀ d, (prettyCalls body i l d v).length = (compactCalls body v).length + v.lineEnds + v.levels d)
    ∧ (∀ es : Object, ∀ d, ((prettyEntryCalls body i l d es).map List.length).sum
        = ((compactEntryCalls body es).map List.length).sum + lineEndsEntries es + levelsEntries d es)
    ∧ (∀ vs : List Value, ∀ d, ((prettyElemCalls body i l d vs).map List.length).sum
        = ((compactElemCalls body vs).map List.length).sum + lineEndsElems vs + levelsElems d vs) := by
  apply Value.induct
  · intro d; simp [prettyCalls, compactCalls, Value.lineEnds, Value.levels]
  · intro b d; simp [prettyCalls, compactCalls, Value.lineEnds, Value.levels]
  · intro n d; simp [prettyCalls, compactCalls, Value.lineEnds, Value.levels]
  · intro n d; simp [prettyCalls, compactCalls, Value.lineEnds, Value.levels]
  · intro es ih d
    cases es with
    | nil => simp [prettyCalls, compactCalls, Value.lineEnds, Value.levels, compactEntryCalls, seriesOf]
    | cons e es =>
      rw [prettyCalls, compactCalls, Value.lineEnds, Value.levels]
      simp only [List.length_append, List.length_replicate]
      rw [series_length, series_length, ih (d + 1), prettyEntries_count, compactEntries_count]
      simp
      omega
  · intro es ih d
    cases es with
    | nil => simp [prettyCalls, compactCalls, Value.lineEnds, Value.levels, compactElemCalls, seriesOf]
    | cons e es =>
      rw [prettyCalls, compactCalls, Value.lineEnds, Value.levels]
      simp only [List.length_append, List.length_replicate]
      rw [series_length, series_length, ih (d + 1), prettyElems_count, compactElems_count]
      simp
      omega
  · intro d; rfl
  · intro k v es h1 h2 d
    rw [prettyEntryCalls, compactEntryCalls, lineEndsEntries, levelsEntries]
    simp [h1, h2]
    omega
  · intro d; rfl
  · intro v es h1 h2 d
    rw [prettyElemCalls, compactElemCalls, lineEndsElems, levelsElems]
    simp [h1, h2]
    omega

/-- Each line is at a depth the value has. -/
theorem levels_le :
    (∀ v : Value, ∀ d m, v.depth + d ≤ m → v.levels d ≤ v.lineEnds * m)
    ∧ (∀ es : Object, ∀ d m, Value.depthEntries es + d ≤ m → levelsEntries d es ≤ (es.length + lineEndsEntries es) * m)
    ∧ (∀ vs : List Value, ∀ d m, Value.depthList vs + d ≤ m → levelsElems d vs ≤ (vs.length + lineEndsElems vs) * m) := by
  apply Value.induct
  · intro d m _; simp [Value.levels]
  · intro _ d m _; simp [Value.levels]
  · intro _ d m _; simp [Value.levels]
  · intro _ d m _; simp [Value.levels]
  · intro es ih d m h
    cases es with
    | nil => simp [Value.levels]
    | cons e es =>
      rw [Value.levels, Value.lineEnds]
      rw [Value.depth] at h
      have := ih (d + 1) m (by omega)
      rw [Nat.add_assoc 1, Nat.add_comm 1, Nat.add_mul]
      omega
  · intro es ih d m h
    cases es with
    | nil => simp [Value.levels]
    | cons e es =>
      rw [Value.levels, Value.lineEnds]
      rw [Value.depth] at h
      have := ih (d + 1) m (by omega)
      rw [Nat.add_assoc 1, Nat.add_comm 1, Nat.add_mul]
      omega
  · intro d m _; simp [levelsEntries]
  · intro k v es h1 h2 d m h
    rw [Value.depthEntries] at h
    have a := h1 d m (by omega)
    have b := h2 d m (by omega)
    rw [levelsEntries, lineEndsEntries, List.length_cons]
    have e : (es.length + 1 + (v.lineEnds + lineEndsEntries es)) * m = m + v.lineEnds * m + (es.length + lineEndsEntries es) * m := by grind
    rw [e]
    omega
  · intro d m _; simp [levelsElems]
  · intro v es h1 h2 d m h
    rw [Value.depthList] at h
    have a := h1 d m (by omega)
    have b := h2 d m (by omega)
    rw [levelsElems, lineEndsElems, List.length_cons]
    have e : (es.length + 1 + (v.lineEnds + lineEndsElems es)) * m = m + v.lineEnds * m + (es.length + lineEndsElems es) * m := by grind
    rw [e]
    omega

/-! ## None is empty -/

/-- every call writes something -/
def NoneEmpty (cs : List WCall) : Prop := ∀ c ∈ cs, c.text ≠ []

theorem NoneEmpty.append {a b : List WCall} (ha : NoneEmpty a) (hb : NoneEmpty b) : NoneEmpty (a ++ b) := by
  intro c hc
  rcases List.mem_append.mp hc with h | h
  · exact ha c h
  · exact hb c h

theorem NoneEmpty.str {s : Str} (h : s ≠ []) : NoneEmpty [.str s] := by
  intro c hc
  rw [List.mem_singleton] at hc
  subst hc
  exact h

theorem NoneEmpty.replicate {s : Str} (n : Nat) (h : s ≠ []) : NoneEmpty (List.replicate n (.str s)) := by
  intro c hc
  rw [(List.mem_replicate.mp hc).2]
  exact h

theorem NoneEmpty.series {sep : List WCall} (hs : NoneEmpty sep) {cs : List (List WCall)} (h : ∀ c ∈ cs, NoneEmpty c) :
    NoneEmpty (seriesOf sep cs) := by
  induction cs with
  | nil => intro c hc; cases hc
  | cons a cs ih =>
    cases cs with
    | nil => exact h a (by simp)
    | cons b cs =>
      rw [seriesOf]
      exact ((h a (by simp)).append hs).append (ih (fun c hc => h c (by simp [List.mem_cons.mp hc])))

theorem NoneEmpty.literal (t : Str) : NoneEmpty (literalCalls t) := by
  unfold literalCalls
  refine ((NoneEmpty.str (by simp)).append ?_).append (.str (by simp))
  intro c hc
  obtain ⟨x, _, rfl⟩ := List.mem_map.mp hc
  simp [WCall.text]

theorem NoneEmpty.count {cs : List WCall} (h : NoneEmpty cs) : cs.length ≤ (WCall.texts cs).length := by
  induction cs with
  | nil => simp [WCall.texts]
  | cons c cs ih =>
    have h1 := h c (by simp)
    have h2 := ih (fun c hc => h c (by simp [hc]))
    show cs.length + 1 ≤ (c.text ++ WCall.texts cs).length
    rw [List.length_append]
    have : 0 < c.text.length := List.length_pos_iff.mpr h1
    omega

theorem wellFormed_nonempty {x : JsonNumber} (h : x.WellFormed) : x.sourceStr ≠ [] := by
  obtain ⟨n, h1, h2⟩ := h
  intro e
  unfold NumDenotes at h2
  rw [e] at h2
  have := NumLit.bytes_pos h1
  rw [← h2] at this
  exact absurd this (by decide)

theorem NoneEmpty.compact :
    (∀ v : Value, Built v → NoneEmpty (compactCalls body v))
    ∧ (∀ es : Object, BuiltEntries es → ∀ c ∈ compactEntryCalls body es, NoneEmpty c)
    ∧ (∀ vs : List Value, BuiltElems vs → ∀ c ∈ compactElemCalls body vs, NoneEmpty c) := by
  apply Value.induct
  · intro _; rw [compactCalls]; exact .str (by simp)
  · intro b _; rw [compactCalls]; exact .str (by cases b <;> simp)
  · intro n h; rw [compactCalls]; cases h with | number _ h => exact .str (wellFormed_nonempty h)
  · intro s _; rw [compactCalls]; exact .literal _
  · intro es ih h
    rw [compactCalls]
    cases h with
    | object _ h => exact ((NoneEmpty.str (by simp)).append (.series (.str (by simp)) (ih h))).append (.str (by simp))
  · intro vs ih h
    rw [compactCalls]
    cases h with
    | array _ h => exact ((NoneEmpty.str (by simp)).append (.series (.str (by simp)) (ih h))).append (.str (by simp))
  · intro _ c hc; rw [compactEntryCalls] at hc; cases hc
  · intro k v es h1 h2 h c hc
    cases h with
    | cons _ _ _ hk hv he =>
      rw [compactEntryCalls] at hc
      rcases List.mem_cons.mp hc with rfl | hc
      · exact ((NoneEmpty.literal _).append (.str (by simp))).append (h1 hv)
      · exact h2 he c hc
  · intro _ c hc; rw [compactElemCalls] at hc; cases hc
  · intro v es h1 h2 h c hc
    cases h with
    | cons _ _ hv he =>
      rw [compactElemCalls] at hc
      rcases List.mem_cons.mp hc with rfl | hc
      · exact h1 hv
      · exact h2 he c hc

theorem NoneEmpty.pretty {i l : Str} (hi : i ≠ []) (hl : l ≠ []) :
    (∀ v : Value, Built v → ∀ d, NoneEmpty (prettyCalls body i l d v))
    ∧ (∀ es : Object, BuiltEntries es → ∀ d, ∀ c ∈ prettyEntryCalls body i l d es, NoneEmpty c)
    ∧ (∀ vs : List Value, BuiltElems vs → ∀ d, ∀ c ∈ prettyElemCalls body i l d vs, NoneEmpty c) := by
  have two : ∀ {a b : Str}, a ≠ [] → b ≠ [] → NoneEmpty [.str a, .str b] := fun ha hb => NoneEmpty.append (.str ha) (.str hb)
  apply Value.induct
  · intro _ d; rw [prettyCalls]; exact .str (by simp)
  · intro b _ d; rw [prettyCalls]; exact .str (by cases b <;> simp)
  · intro n h d; rw [prettyCalls]; cases h with | number _ h => exact .str (wellFormed_nonempty h)
  · intro s _ d; rw [prettyCalls]; exact .literal _
  · intro es ih h d
    cases h with
    | object _ h =>
      cases es with
      | nil => rw [prettyCalls]; exact two (by simp) (by simp)
      | cons e es =>
        rw [prettyCalls]
        exact ((((two (by simp) hl).append (.series (two (by simp) hl) (ih h _))).append (.str hl)).append (.replicate d hi)).append (.str (by simp))
  · intro es ih h d
    cases h with
    | array _ h =>
      cases es with
      | nil => rw [prettyCalls]; exact two (by simp) (by simp)
      | cons e es =>
        rw [prettyCalls]
        exact ((((two (by simp) hl).append (.series (two (by simp) hl) (ih h _))).append (.str hl)).append (.replicate d hi)).append (.str (by simp))
  · intro _ d c hc; rw [prettyEntryCalls] at hc; cases hc
  · intro k v es h1 h2 h d c hc
    cases h with
    | cons _ _ _ hk hv he =>
      rw [prettyEntryCalls] at hc
      rcases List.mem_cons.mp hc with rfl | hc
      · exact (((NoneEmpty.replicate d hi).append (.literal _)).append (.str (by simp))).append (h1 hv d)
      · exact h2 he d c hc
  · intro _ d c hc; rw [prettyElemCalls] at hc; cases hc
  · intro v es h1 h2 h d c hc
    cases h with
    | cons _ _ hv he =>
      rw [prettyElemCalls] at hc
      rcases List.mem_cons.mp hc with rfl | hc
      · exact (NoneEmpty.replicate d hi).append (h1 hv d)
      · exact h2 he d c hc

theorem result_ok (cs : List WCall) (F : Writer) (w : F.W) : (⟨cs, none⟩ : Tr).result F w = .ok (makeCalls F w cs) := by
  unfold Tr.result
  simp only []
  cases makeCalls F w cs with
  | mk w' o => cases o <;> rfl

end
end JustJson
