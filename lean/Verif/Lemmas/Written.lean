import Verif.Lemmas.Output
import Verif.Lemmas.Literals
import Verif.Spec.Written
/-! # What is read where raw text was written -/

namespace JustJson
open Spec

set_option linter.unusedSectionVars false

instance : DecidablePred Hex4.Valid := fun h => by unfold Hex4.Valid; infer_instance

instance : DecidablePred Item.Valid := fun i => by
  cases i <;> unfold Item.Valid <;> infer_instance

/-- the byte written for a nibble -/
def nibByte (n : Nat) : UInt8 := UInt8.ofNat (if n < 10 then n + 48 else n + 97)

/-- the item a character is written as -/
def wItem (c : Char) : Item :=
  match shortEsc c with
  | some e => .esc (UInt8.ofNat e.toNat)
  | none => if c.toNat < 0x20 then .uni ⟨nibByte (c.toNat % 16), nibByte (c.toNat / 16), 0x30, 0x30⟩ else .plain c

theorem control_facts : ∀ n : Fin 32, ¬ Illegible (Char.ofNat n.val) →
    (wItem (Char.ofNat n.val)).Valid ∧ (wItem (Char.ofNat n.val)).chars = rend (Char.ofNat n.val)
    ∧ (wItem (Char.ofNat n.val)).codeChar = readBack (Char.ofNat n.val) := by
  decide +kernel

theorem wItem_facts {c : Char} (h : ¬ Illegible c) :
    (wItem c).Valid ∧ (wItem c).chars = rend c ∧ (wItem c).codeChar = readBack c := by
  by_cases hn : c.toNat < 0x20
  · have := control_facts ⟨c.toNat, hn⟩
    simp only [ofNat_toNat_char] at this
    exact this h
  · have hr : Renderable c := .inl (by omega)
    obtain ⟨h1, h2, h3⟩ := toItem_facts hr
    have e : wItem c = toItem c := by
      unfold wItem toItem
      cases shortEsc c with
      | some e => rfl
      | none => simp only []; rw [if_neg hn, if_neg hn]
    have e2 : readBack c = c := by unfold readBack; rw [if_pos (.inl (by omega))]
    rw [e, e2]
    exact ⟨h1, h2, h3⟩

theorem legible_items {s : Str} (h : ∀ c ∈ s, ¬ Illegible c) :
    ItemsValid (s.map wItem) ∧ bodyChars (s.map wItem) = render s ∧ codeText (s.map wItem) = s.map readBack := by
  refine ⟨?_, ?_, ?_⟩
  · intro i hi
    obtain ⟨c, hc, rfl⟩ := List.mem_map.mp hi
    exact (wItem_facts (h c hc)).1
  · induction s with
    | nil => rfl
    | cons c s ih =>
      have := ih (fun x hx => h x (by simp [hx]))
      simp only [bodyChars, List.map_cons, List.flatMap_cons, render] at *
      rw [(wItem_facts (h c (by simp))).2.1, this]
  · induction s with
    | nil => rfl
    | cons c s ih =>
      have := ih (fun x hx => h x (by simp [hx]))
      simp only [codeText, List.map_cons] at *
      rw [(wItem_facts (h c (by simp))).2.2, this]

theorem illegible_bytes : ∀ n : Fin 32, Illegible (Char.ofNat n.val) →
    (utf8 (rend (Char.ofNat n.val))).take 2 = [0x5C, 0x75] ∧ ∃ x ∈ ((utf8 (rend (Char.ofNat n.val))).drop 2).head?,
      hexVal x = none := by
  decide +kernel

/-- an illegible character is not the beginning of any item -/
theorem illegible_item {c : Char} {i : Item} {r r' : List UInt8} (hv : i.Valid) (hc : Illegible c) :
    i.bytes ++ r ≠ utf8 (rend c) ++ r' := by
  intro h
  have hn : c.toNat < 32 := by
    unfold Illegible at hc
    simp only [List.mem_cons, List.not_mem_nil, or_false] at hc
    omega
  have hb := illegible_bytes ⟨c.toNat, hn⟩
  simp only [ofNat_toNat_char] at hb
  obtain ⟨h1, x, h2, h3⟩ := hb hc
  have e : ∃ t, utf8 (rend c) = 0x5C :: 0x75 :: x :: t := by
    generalize utf8 (rend c) = l at *
    match l, h1, h2 with
    | a :: b :: y :: t, h1, h2 =>
      simp at h1 h2
      exact ⟨t, by rw [h1.1, h1.2, h2]⟩
  obtain ⟨t, e⟩ := e
  rw [e] at h
  cases i with
  | plain d =>
    obtain ⟨b, t, he, hb, _⟩ := plain_head hv
    simp only [Item.bytes] at h
    rw [he] at h
    simp at h
    exact hb h.1
  | esc e =>
    simp [Item.bytes] at h
    exact esc_ne_u hv h.1
  | uni q =>
    simp [Item.bytes, Hex4.bytes] at h
    have hq := hv.1
    unfold Hex4.Valid at hq
    rw [h.1, h3] at hq
    simp at hq
  | pair hi lo =>
    simp [Item.bytes, Hex4.bytes] at h
    have hq := hv.1
    unfold Hex4.Valid at hq
    rw [h.1, h3] at hq
    simp at hq

theorem written_legible {s : Str} {is : List Item} (hv : ItemsValid is) (hb : bodyBytes is = utf8 (render s)) :
    ∀ c ∈ s, ¬ Illegible c := by
  induction s generalizing is with
  | nil => simp
  | cons c s ih =>
    have e : utf8 (render (c :: s)) = utf8 (rend c) ++ utf8 (render s) := by rw [← utf8_append]; rfl
    rw [e] at hb
    cases is with
    | nil =>
      have h0 : (utf8 (rend c)).length = 0 := by
        have := congrArg List.length hb
        simp [bodyBytes] at this
        omega
      intro x hx hi
      exfalso
      have hne : rend c ≠ [] := by
        unfold rend
        split
        · simp
        · split <;> simp
      obtain ⟨y, ys, hy⟩ := List.exists_cons_of_ne_nil hne
      rw [hy, utf8_cons, List.length_append] at h0
      have := encodeChar_cases y
      rcases this with ⟨_, b0, e, _⟩ | ⟨_, _, b0, b1, e, _⟩ | ⟨_, _, b0, b1, b2, e, _⟩ | ⟨_, _, b0, b1, b2, b3, e, _⟩ <;>
        (rw [e] at h0; simp at h0)
    | cons i is =>
      have hv := ItemsValid.cons.mp hv
      have hb' : i.bytes ++ bodyBytes is = utf8 (rend c) ++ utf8 (render s) := hb
      by_cases hi : Illegible c
      · exact absurd hb' (illegible_item hv.1 hi)
      · obtain ⟨h1, h2, _⟩ := wItem_facts hi
        have h3 : utf8 (rend c) = (wItem c).bytes := by rw [← h2, Item.utf8_chars h1]
        rw [h3] at hb'
        have h4 := (item_prefix hv.1 h1 hb').2
        intro x hx
        rcases List.mem_cons.mp hx with rfl | hx
        · exact hi
        · exact ih hv.2 h4 x hx

section
variable [Arch]

/-- the items a string is written as, and what is read -/
def Writes (s : JsonString) (is : List Item) : Prop :=
  (ItemsValid is ∧ utf8 (renderedBody s) = bodyBytes is)
  ∧ (∀ a, s.asJsonStr = some a → a.asStr = bodyChars is ∧ HasText s (codeText is))
  ∧ (s.asJsonStr = none → ∃ x, HasText s x ∧ codeText is = x.map readBack)

theorem writes_of {s : JsonString} (h : Obtainable s) (hr : s.asJson = .ok (renderedBody s))
    (hc : s.asJsonStr = none → ∀ t, HasText s t → ∀ c ∈ t, ¬ Illegible c) : ∃ is, Writes s is := by
  obtain ⟨t, ht⟩ := obtainable_shape h
  have hd := ht.decoded
  cases ht with
  | esc is hv hl he =>
    unfold canonStr at hr
    rw [asJson_json] at hr
    injection hr with hr
    refine ⟨is, ⟨hv, by show utf8 (renderedBody (canonStr is)) = _; unfold canonStr; rw [← hr]; exact utf8_bodyChars hv⟩, ?_, nofun⟩
    intro a ha
    cases ha
    exact ⟨rfl, hd⟩
  | plain a n h1 h2 h3 h4 =>
    obtain ⟨i1, i2, i3⟩ := render_items (s := a.asStr) (fun c hc => .inl (h3 c hc).1)
    rw [asJson_json] at hr
    injection hr with hr
    have hrp := render_plain (needsNoEscape_iff.mp h3)
    refine ⟨_, ⟨i1, ?_⟩, ?_, nofun⟩
    · rw [← hr, ← utf8_bodyChars i1, i2, hrp]
    · intro b hb
      cases hb
      exact ⟨by rw [i2, hrp], by rw [i3]; exact hd⟩
  | raw a h1 h2 h3 =>
    obtain ⟨i1, i2, i3⟩ := legible_items (s := a.asStr) (hc rfl _ hd)
    by_cases h2 : cntS a.asStr + cntS a.asStr < LIM
    · rw [asJson_raw a h1 h2] at hr
      injection hr with hr
      refine ⟨_, ⟨i1, ?_⟩, nofun, fun _ => ⟨_, hd, i3⟩⟩
      rw [← hr, ← utf8_bodyChars i1, i2]
    · rw [asJson_raw_overflow a h1 (by omega)] at hr
      cases hr

theorem spells_sameShape {P : JsonString → List Item → Prop} {R : JsonString → JsonString → Prop} {v : Value} {j : Json} (h : Spells P v j)
    (hP : ∀ s, ∀ is ∈ jstrings j, P s is → R s (canonStr is)) : SameShape R v (ofJson j) := by
  have hg := hP
  revert hg
  refine Spells.rec (motive_1 := fun v j _ => (∀ s, ∀ is ∈ jstrings j, P s is → R s (canonStr is)) → SameShape R v (ofJson j))
    (motive_2 := fun vs js _ => (∀ s, ∀ is ∈ jstringsElems js, P s is → R s (canonStr is)) → SameShapeElems R vs (ofJsons js))
    (motive_3 := fun es ms _ => (∀ s, ∀ is ∈ jstringsMembers ms, P s is → R s (canonStr is)) → SameShapeEntries R es (ofMembers ms))
    ?_ ?_ ?_ ?_ ?_ ?_ ?_ ?_ ?_ ?_ h
  · intro _; exact .null
  · intro b _; exact .boolean b
  · intro x n hn hx _
    refine .number _ _ (utf8_inj ?_)
    rw [show utf8 x.sourceStr = n.bytes from hx, show utf8 (canonNum n).sourceStr = n.bytes from canonNum_denotes hn]
  · intro s is h1 h; exact .string _ _ (h s is (by simp [jstrings]) h1)
  · intro vs js _ ih h; rw [jstrings] at h; exact .array _ _ (ih h)
  · intro vs js _ ih h; rw [jstrings] at h; exact .object _ _ (ih h)
  · intro _; exact .nil
  · intro v j vs js _ _ h1 h2 h
    rw [jstringsElems] at h
    exact .cons _ _ _ _ (h1 fun s is hs => h s is (List.mem_append.mpr (.inl hs))) (h2 fun s is hs => h s is (List.mem_append.mpr (.inr hs)))
  · intro _; exact .nil
  · intro k v is j vs js h0 _ _ h1 h2 h
    rw [jstringsMembers] at h
    exact .cons _ _ _ _ _ _ (h k is List.mem_cons_self h0)
      (h1 fun s is hs => h s is (List.mem_cons_of_mem _ (List.mem_append.mpr (.inl hs))))
      (h2 fun s is hs => h s is (List.mem_cons_of_mem _ (List.mem_append.mpr (.inr hs))))

end
end JustJson
