import Verif.Spec.Edit
import Verif.Props.Values
import Verif.Props.Write
import Verif.Props.Numbers
/-! # Building and editing values: C62 -/

namespace JustJson
open Spec

set_option linter.unusedSectionVars false

section
variable [Arch]

theorem bindOk {α β : Type} {x : Res α} {a : α} {f : α → Res β} (h : x = .ok a) : (x >>= f) = f a := by rw [h]; rfl

/-- the text of a key decides what `==` says -/
theorem eqStr_text {k : JsonString} {t : Str} (hk : Obtainable k) (ht : HasText k t) (s : Str) :
    k.eqStr s = .ok (decide (t = s)) := by
  obtain ⟨t', h⟩ := obtainable_shape hk
  rw [HasText.unique ht h.decoded]
  exact h.eqStr s

/-! ## Lists -/

theorem HoldsElems.get {vs : List Value} {cs : List Content} (h : HoldsElems vs cs) : ∀ i : Nat,
    (vs[i]? = none ∧ cs[i]? = none) ∨ ∃ v c, vs[i]? = some v ∧ cs[i]? = some c ∧ Holds v c := by
  induction vs generalizing cs with
  | nil => cases h; intro i; exact .inl ⟨rfl, rfl⟩
  | cons v vs ih =>
    cases h with
    | cons _ c _ cs hv hvs =>
      intro i
      cases i with
      | zero => exact .inr ⟨v, c, rfl, rfl, hv⟩
      | succ i => simpa using ih hvs i

theorem HoldsElems.length {vs : List Value} {cs : List Content} (h : HoldsElems vs cs) : vs.length = cs.length := by
  induction vs generalizing cs with
  | nil => cases h; rfl
  | cons v vs ih => cases h with | cons _ c _ cs hv hvs => simp [ih hvs]

theorem HoldsElems.set {vs : List Value} {cs : List Content} (h : HoldsElems vs cs) {w : Value} {d : Content} (hw : Holds w d) :
    ∀ i, HoldsElems (vs.set i w) (cs.set i d) := by
  induction vs generalizing cs with
  | nil => cases h; intro i; exact .nil
  | cons v vs ih =>
    cases h with
    | cons _ c _ cs hv hvs =>
      intro i
      cases i with
      | zero => exact .cons _ _ _ _ hw hvs
      | succ i => exact .cons _ _ _ _ hv (ih hvs i)

theorem HoldsElems.snoc {vs : List Value} {cs : List Content} (h : HoldsElems vs cs) {w : Value} {d : Content} (hw : Holds w d) :
    HoldsElems (vs ++ [w]) (cs ++ [d]) := by
  induction vs generalizing cs with
  | nil => cases h; exact .cons _ _ _ _ hw .nil
  | cons v vs ih => cases h with | cons _ c _ cs hv hvs => exact .cons _ _ _ _ hv (ih hvs)

theorem HoldsElems.erase {vs : List Value} {cs : List Content} (h : HoldsElems vs cs) : ∀ i, HoldsElems (vs.eraseIdx i) (cs.eraseIdx i) := by
  induction vs generalizing cs with
  | nil => cases h; intro i; exact .nil
  | cons v vs ih =>
    cases h with
    | cons _ c _ cs hv hvs =>
      intro i
      cases i with
      | zero => exact hvs
      | succ i => exact .cons _ _ _ _ hv (ih hvs i)

theorem BuiltElems.mem {vs : List Value} (h : BuiltElems vs) : ∀ v ∈ vs, Built v := by
  induction vs with
  | nil => intro v hv; cases hv
  | cons v vs ih =>
    cases h with
    | cons _ _ h1 h2 =>
      intro x hx
      rcases List.mem_cons.mp hx with rfl | hx
      · exact h1
      · exact ih h2 x hx

theorem builtElems_of {vs : List Value} (h : ∀ v ∈ vs, Built v) : BuiltElems vs := by
  induction vs with
  | nil => exact .nil
  | cons v vs ih => exact .cons _ _ (h v (by simp)) (ih fun x hx => h x (by simp [hx]))

theorem HoldsEntries.length {es : Object} {cs : List (Str × Content)} (h : HoldsEntries es cs) : es.length = cs.length := by
  induction es generalizing cs with
  | nil => cases h; rfl
  | cons e es ih => cases h with | cons _ _ _ _ _ cs _ _ h => simp [ih h]

theorem HoldsEntries.snoc {es : Object} {cs : List (Str × Content)} (h : HoldsEntries es cs) {k : JsonString} {t : Str} {w : Value}
    {d : Content} (hk : HasText k t) (hw : Holds w d) : HoldsEntries (es ++ [(k, w)]) (cs ++ [(t, d)]) := by
  induction es generalizing cs with
  | nil => cases h; exact .cons _ _ _ _ _ _ hk hw .nil
  | cons e es ih => cases h with | cons _ _ _ _ _ cs h1 h2 h3 => exact .cons _ _ _ _ _ _ h1 h2 (ih h3)

theorem HoldsEntries.erase {es : Object} {cs : List (Str × Content)} (h : HoldsEntries es cs) :
    ∀ i, HoldsEntries (es.eraseIdx i) (cs.eraseIdx i) := by
  induction es generalizing cs with
  | nil => cases h; intro i; exact .nil
  | cons e es ih =>
    cases h with
    | cons _ _ _ _ _ cs h1 h2 h3 =>
      intro i
      cases i with
      | zero => exact h3
      | succ i => exact .cons _ _ _ _ _ _ h1 h2 (ih h3 i)

theorem BuiltEntries.mem {es : Object} (h : BuiltEntries es) : ∀ e ∈ es, Obtainable e.1 ∧ Built e.2 := by
  induction es with
  | nil => intro v hv; cases hv
  | cons e es ih =>
    cases h with
    | cons _ _ _ h1 h2 h3 =>
      intro x hx
      rcases List.mem_cons.mp hx with rfl | hx
      · exact ⟨h1, h2⟩
      · exact ih h3 x hx

theorem builtEntries_of {es : Object} (h : ∀ e ∈ es, Obtainable e.1 ∧ Built e.2) : BuiltEntries es := by
  induction es with
  | nil => exact .nil
  | cons e es ih => exact .cons _ _ _ (h e (by simp)).1 (h e (by simp)).2 (ih fun x hx => h x (by simp [hx]))

/-- looking up a key, and changing the entry found -/
theorem entries_lookup {es : Object} {cs : List (Str × Content)} (h : HoldsEntries es cs) (hb : BuiltEntries es) (key : Str) :
    (es.get key = .ok none ∧ cs.find? (fun e => e.1 = key) = none ∧ ∀ f, es.modifyEntry f key = .ok none)
    ∨ ∃ k v t c, es.get key = .ok (some v) ∧ cs.find? (fun e => e.1 = key) = some (t, c) ∧ Holds v c ∧ Built v
      ∧ Obtainable k ∧ HasText k t
      ∧ ∀ f g, HasText (f (k, v)).1 (g (t, c)).1 → Holds (f (k, v)).2 (g (t, c)).2 → Obtainable (f (k, v)).1 → Built (f (k, v)).2 →
        ∃ es', es.modifyEntry f key = .ok (some es') ∧ HoldsEntries es' (changeFirst key g cs) ∧ BuiltEntries es' := by
  induction es generalizing cs with
  | nil => cases h; exact .inl ⟨rfl, rfl, fun f => rfl⟩
  | cons e es ih =>
    cases h with
    | cons k t v c _ cs h1 h2 h3 =>
      cases hb with
      | cons _ _ _ b1 b2 b3 =>
        have he := eqStr_text b1 h1 key
        by_cases hk : t = key
        · rw [decide_eq_true hk] at he
          refine .inr ⟨k, v, t, c, ?_, ?_, h2, b2, b1, h1, fun f g hf1 hf2 hf3 hf4 => ⟨f (k, v) :: es, ?_, ?_, ?_⟩⟩
          · rw [Object.get, bindOk he]; rfl
          · simp [hk]
          · rw [Object.modifyEntry, bindOk he]; rfl
          · rw [changeFirst, if_pos hk]
            exact .cons _ _ _ _ _ _ hf1 hf2 h3
          · exact .cons _ _ _ hf3 hf4 b3
        · rw [decide_eq_false hk] at he
          have e1 : Object.get ((k, v) :: es) key = Object.get es key := by rw [Object.get, bindOk he]; rfl
          have e2 : ((t, c) :: cs).find? (fun e => e.1 = key) = cs.find? (fun e => e.1 = key) := by simp [hk]
          have e3 : ∀ f, Object.modifyEntry f ((k, v) :: es) key = (do return (← Object.modifyEntry f es key).map ((k, v) :: ·)) := by
            intro f; rw [Object.modifyEntry, bindOk he]; rfl
          rw [e1, e2]
          rcases ih h3 b3 with ⟨i1, i2, i3⟩ | ⟨k', v', t', c', i1, i2, i3, i4, i5, i6, i7⟩
          · exact .inl ⟨i1, i2, fun f => by rw [e3, bindOk (i3 f)]; rfl⟩
          · refine .inr ⟨k', v', t', c', i1, i2, i3, i4, i5, i6, fun f g a b c' d => ?_⟩
            obtain ⟨es', j1, j2, j3⟩ := i7 f g a b c' d
            refine ⟨(k, v) :: es', by rw [e3, bindOk j1]; rfl, ?_, .cons _ _ _ b1 b2 j3⟩
            rw [changeFirst, if_neg hk]
            exact .cons _ _ _ _ _ _ h1 h2 j2

/-! ## One step -/

theorem child_put {v : Value} {c : Content} (h : Holds v c) (hb : Built v) (s : Step) :
    (v.child s = .ok none ∧ c.child s = none)
    ∨ ∃ u d, v.child s = .ok (some u) ∧ c.child s = some d ∧ Holds u d ∧ Built u
      ∧ ∀ w e, Holds w e → Built w → ∃ v', v.put w s = .ok (some v') ∧ Holds v' (c.put s e) ∧ Built v' := by
  cases h with
  | array vs cs hs =>
    cases hb with
    | array _ hb =>
      cases s with
      | key k => exact .inl ⟨rfl, rfl⟩
      | index i =>
        rcases hs.get i with ⟨h1, h2⟩ | ⟨u, d, h1, h2, h3⟩
        · exact .inl ⟨congrArg Res.ok h1, h2⟩
        · refine .inr ⟨u, d, congrArg Res.ok h1, h2, h3, hb.mem u (List.mem_of_getElem? h1), fun w e hw hbw => ?_⟩
          have hi : i < vs.length := (List.getElem?_eq_some_iff.mp h1).1
          refine ⟨.array (vs.set i w), ?_, .array _ _ (hs.set hw i), .array _ (builtElems_of fun x hx => ?_)⟩
          · show Res.ok (if i < vs.length then some (Value.array (vs.modify i fun _ => w)) else none) = _
            rw [if_pos hi]
            congr 3
            apply List.ext_getElem?
            intro j
            rw [List.getElem?_modify, List.getElem?_set]
            by_cases hj : i = j
            · subst hj; simp [hi]
            · simp [hj]
          · rcases List.mem_or_eq_of_mem_set hx with hx | rfl
            · exact hb.mem x hx
            · exact hbw
  | object es cs hs =>
    cases hb with
    | object _ hb =>
      cases s with
      | index i => exact .inl ⟨rfl, rfl⟩
      | key k =>
        rcases entries_lookup hs hb k with ⟨h1, h2, _⟩ | ⟨kk, u, t, d, h1, h2, h3, h4, h5, h6, h7⟩
        · exact .inl ⟨h1, by simp [Content.child, h2]⟩
        · refine .inr ⟨u, d, h1, by simp [Content.child, h2], h3, h4, fun w e hw hbw => ?_⟩
          obtain ⟨es', j1, j2, j3⟩ := h7 (fun x => (x.1, w)) (fun x => (x.1, e)) h6 hw h5 hbw
          refine ⟨.object es', ?_, .object _ _ j2, .object _ j3⟩
          show (do return (← Object.modifyEntry (fun e => (e.1, w)) es k).map Value.object) = _
          rw [bindOk j1]; rfl
  | _ => cases s <;> exact .inl ⟨rfl, rfl⟩

theorem apply_holds {e : Edit JsonString Value} {d : Edit Str Content} (he : EditMeans e d) {v : Value} {c : Content} (h : Holds v c)
    (hb : Built v) :
    (v.apply e = .ok none ∧ c.apply d = none)
    ∨ ∃ v' c', v.apply e = .ok (some v') ∧ c.apply d = some c' ∧ Holds v' c' ∧ Built v' := by
  cases he with
  | set w x hbw hw => exact .inr ⟨w, x, rfl, by cases c <;> rfl, hw, hbw⟩
  | push w x hbw hw =>
    cases h with
    | array vs cs hs =>
      cases hb with
      | array _ hb =>
        refine .inr ⟨_, _, rfl, rfl, .array _ _ (hs.snoc hw), .array _ (builtElems_of fun y hy => ?_)⟩
        rcases List.mem_append.mp hy with hy | hy
        · exact hb.mem y hy
        · rw [List.mem_singleton.mp hy]; exact hbw
    | _ => exact .inl ⟨rfl, rfl⟩
  | remove i =>
    cases h with
    | array vs cs hs =>
      cases hb with
      | array _ hb =>
        by_cases hi : i < vs.length
        · refine .inr ⟨.array (vs.eraseIdx i), .array (cs.eraseIdx i), ?_, ?_, .array _ _ (hs.erase i), .array _ (builtElems_of fun y hy => ?_)⟩
          · show Res.ok (if i < vs.length then _ else none) = _
            rw [if_pos hi]; rfl
          · show (if i < cs.length then _ else none) = _
            rw [if_pos (by rw [← hs.length]; exact hi)]
          · exact hb.mem y (List.mem_of_mem_eraseIdx hy)
        · refine .inl ⟨?_, ?_⟩
          · show Res.ok (if i < vs.length then _ else none) = _
            rw [if_neg hi]
          · show (if i < cs.length then _ else none) = _
            rw [if_neg (by rw [← hs.length]; exact hi)]
    | _ => exact .inl ⟨rfl, rfl⟩
  | insert k t w x hk ht hbw hw =>
    cases h with
    | object es cs hs =>
      cases hb with
      | object _ hb =>
        refine .inr ⟨_, _, rfl, rfl, .object _ _ (hs.snoc ht hw), .object _ (builtEntries_of fun y hy => ?_)⟩
        rcases List.mem_append.mp hy with hy | hy
        · exact hb.mem y hy
        · rw [List.mem_singleton.mp hy]; exact ⟨hk, hbw⟩
    | _ => exact .inl ⟨rfl, rfl⟩
  | rename old k t hk ht =>
    cases h with
    | object es cs hs =>
      cases hb with
      | object _ hb =>
        rcases entries_lookup hs hb old with ⟨h1, h2, h3⟩ | ⟨kk, u, t', d, h1, h2, h3, h4, h5, h6, h7⟩
        · refine .inl ⟨?_, ?_⟩
          · show (do return (← Object.modifyEntry (fun e => (k, e.2)) es old).map Value.object) = _
            rw [bindOk (h3 _)]; rfl
          · show (if ∃ e ∈ cs, e.1 = old then _ else none) = _
            rw [if_neg]
            rintro ⟨e, h4, h5⟩
            have := List.find?_eq_none.mp h2 e h4
            simp [h5] at this
        · obtain ⟨es', j1, j2, j3⟩ := h7 (fun x => (k, x.2)) (fun x => (t, x.2)) ht h3 hk h4
          refine .inr ⟨.object es', .object (changeFirst old (fun x => (t, x.2)) cs), ?_, ?_, .object _ _ j2, .object _ j3⟩
          · show (do return (← Object.modifyEntry (fun e => (k, e.2)) es old).map Value.object) = _
            rw [bindOk j1]; rfl
          · show (if ∃ e ∈ cs, e.1 = old then _ else none) = _
            rw [if_pos ⟨(t', d), List.mem_of_find?_eq_some h2, by have := List.find?_some h2; simpa using this⟩]
    | _ => exact .inl ⟨rfl, rfl⟩
  | removeEntry i =>
    cases h with
    | object es cs hs =>
      cases hb with
      | object _ hb =>
        by_cases hi : i < es.length
        · refine .inr ⟨.object (es.eraseIdx i), .object (cs.eraseIdx i), ?_, ?_, .object _ _ (hs.erase i), .object _ (builtEntries_of fun y hy => ?_)⟩
          · show Res.ok (if i < es.length then _ else none) = _
            rw [if_pos hi]; rfl
          · show (if i < cs.length then _ else none) = _
            rw [if_pos (by rw [← hs.length]; exact hi)]
          · exact hb.mem y (List.mem_of_mem_eraseIdx hy)
        · refine .inl ⟨?_, ?_⟩
          · show Res.ok (if i < es.length then _ else none) = _
            rw [if_neg hi]
          · show (if i < cs.length then _ else none) = _
            rw [if_neg (by rw [← hs.length]; exact hi)]
    | _ => exact .inl ⟨rfl, rfl⟩

theorem editAt_holds {e : Edit JsonString Value} {d : Edit Str Content} (he : EditMeans e d) : ∀ (p : List Step) {v : Value} {c : Content},
    Holds v c → Built v →
    (v.editAt e p = .ok none ∧ c.editAt d p = none)
    ∨ ∃ v' c', v.editAt e p = .ok (some v') ∧ c.editAt d p = some c' ∧ Holds v' c' ∧ Built v'
  | [], v, c, h, hb => apply_holds he h hb
  | s :: p, v, c, h, hb => by
    rcases child_put h hb s with ⟨h1, h2⟩ | ⟨u, x, h1, h2, h3, h4, h5⟩
    · refine .inl ⟨by rw [Value.editAt, bindOk h1]; rfl, by rw [Content.editAt, h2]⟩
    · rcases editAt_holds he p h3 h4 with ⟨i1, i2⟩ | ⟨u', x', i1, i2, i3, i4⟩
      · refine .inl ⟨by rw [Value.editAt, bindOk h1]; exact bindOk i1, by rw [Content.editAt, h2]; simp [i2]⟩
      · obtain ⟨v', j1, j2, j3⟩ := h5 u' x' i3 i4
        exact .inr ⟨v', _, by rw [Value.editAt, bindOk h1]; exact (bindOk i1).trans j1, by rw [Content.editAt, h2]; simp [i2], j2, j3⟩

/-! ## C62 -/

/-- **C62.** Any series of edits, made through chains of `get_mut` and `get_index_mut` anywhere in a value, with any values
and keys: none panics, the calls tell truly which edits took place, and the result stands for what the same series makes of
the plain data. -/
theorem C62_editing_session (es : List (List Step × Edit JsonString Value)) (ds : List (List Step × Edit Str Content))
    (he : SessionMeans es ds) (v : Value) (c : Content) (hb : Built v) (hv : Holds v c) :
    ∃ v', v.session es = .ok (v', (c.session ds).2) ∧ Holds v' (c.session ds).1 ∧ Built v' := by
  induction es generalizing v c ds with
  | nil => cases he; exact ⟨v, rfl, hv, hb⟩
  | cons pe es ih =>
    cases he with
    | cons p e d _ ds he hs =>
      rcases editAt_holds he p hv hb with ⟨h1, h2⟩ | ⟨u, x, h1, h2, h3, h4⟩
      · obtain ⟨v', i1, i2, i3⟩ := ih ds hs v c hb hv
        refine ⟨v', ?_, ?_, i3⟩
        · rw [Value.session, bindOk h1, Content.session, h2]
          exact bindOk i1
        · rw [Content.session, h2]; exact i2
      · obtain ⟨v', i1, i2, i3⟩ := ih ds hs u x h4 h3
        refine ⟨v', ?_, ?_, i3⟩
        · rw [Value.session, bindOk h1, Content.session, h2]
          exact bindOk i1
        · rw [Content.session, h2]; exact i2

/-- **C62.** Reading: a chain of `get` and `get_index` leads to a part of the value exactly if the path leads to a part of the
data, and the part stands for it. -/
theorem C62_reading (p : List Step) (v : Value) (c : Content) (hb : Built v) (hv : Holds v c) :
    (v.readAt p = .ok none ∧ c.readAt p = none)
    ∨ ∃ u d, v.readAt p = .ok (some u) ∧ c.readAt p = some d ∧ Holds u d ∧ Built u := by
  induction p generalizing v c with
  | nil => exact .inr ⟨v, c, rfl, rfl, hv, hb⟩
  | cons s p ih =>
    rcases child_put hv hb s with ⟨h1, h2⟩ | ⟨u, x, h1, h2, h3, h4, _⟩
    · exact .inl ⟨by rw [Value.readAt, bindOk h1]; rfl, by rw [Content.readAt, h2]⟩
    · rcases ih u x h4 h3 with ⟨i1, i2⟩ | ⟨u', x', i1, i2, i3, i4⟩
      · exact .inl ⟨by rw [Value.readAt, bindOk h1]; exact i1, by rw [Content.readAt, h2]; exact i2⟩
      · exact .inr ⟨u', x', by rw [Value.readAt, bindOk h1]; exact i1, by rw [Content.readAt, h2]; exact i2, i3, i4⟩

/-! ## Where values and their content come from -/

theorem Holds.unique {v : Value} {c : Content} (h : Holds v c) : ∀ d, Holds v d → c = d := by
  refine Holds.rec (motive_1 := fun v c _ => ∀ d, Holds v d → c = d) (motive_2 := fun vs cs _ => ∀ ds, HoldsElems vs ds → cs = ds)
    (motive_3 := fun es cs _ => ∀ ds, HoldsEntries es ds → cs = ds) ?_ ?_ ?_ ?_ ?_ ?_ ?_ ?_ ?_ ?_ h
  · intro d h; cases h; rfl
  · intro b d h; cases h; rfl
  · intro x d h; cases h; rfl
  · intro s t ht d h; cases h with | string _ t' ht' => rw [HasText.unique ht ht']
  · intro vs cs _ ih d h; cases h with | array _ cs' h' => rw [ih _ h']
  · intro vs cs _ ih d h; cases h with | object _ cs' h' => rw [ih _ h']
  · intro d h; cases h; rfl
  · intro v c vs cs _ _ h1 h2 d h; cases h with | cons _ _ _ _ a b => rw [h1 _ a, h2 _ b]
  · intro d h; cases h; rfl
  · intro k t v c vs cs hk _ _ h1 h2 d h; cases h with | cons _ _ _ _ _ _ a b c => rw [HasText.unique hk a, h1 _ b, h2 _ c]

theorem built_holds {v : Value} (h : Built v) : ∃ c, Holds v c := by
  refine Built.rec (motive_1 := fun v _ => ∃ c, Holds v c) (motive_2 := fun vs _ => ∃ cs, HoldsElems vs cs)
    (motive_3 := fun es _ => ∃ cs, HoldsEntries es cs) ?_ ?_ ?_ ?_ ?_ ?_ ?_ ?_ ?_ ?_ h
  · exact ⟨_, .null⟩
  · intro b; exact ⟨_, .boolean b⟩
  · intro x _; exact ⟨_, .number x⟩
  · intro s hs
    obtain ⟨t, ht⟩ := obtainable_shape hs
    exact ⟨_, .string s t ht.decoded⟩
  · rintro vs _ ⟨cs, h⟩; exact ⟨_, .array _ _ h⟩
  · rintro vs _ ⟨cs, h⟩; exact ⟨_, .object _ _ h⟩
  · exact ⟨_, .nil⟩
  · rintro v vs _ _ ⟨c, h1⟩ ⟨cs, h2⟩; exact ⟨_, .cons _ _ _ _ h1 h2⟩
  · exact ⟨_, .nil⟩
  · rintro k v es hk _ _ ⟨c, h1⟩ ⟨cs, h2⟩
    obtain ⟨t, ht⟩ := obtainable_shape hk
    exact ⟨_, .cons _ _ _ _ _ _ ht.decoded h1 h2⟩

theorem same_of_holds {v : Value} {c : Content} (h : Holds v c) : ∀ w, Holds w c → SameContent v w := by
  refine Holds.rec (motive_1 := fun v c _ => ∀ w, Holds w c → SameContent v w) (motive_2 := fun vs cs _ => ∀ ws, HoldsElems ws cs → SameElems vs ws)
    (motive_3 := fun es cs _ => ∀ ws, HoldsEntries ws cs → SameEntries es ws) ?_ ?_ ?_ ?_ ?_ ?_ ?_ ?_ ?_ ?_ h
  · intro d h; cases h; exact .null
  · intro b d h; cases h; exact .boolean b
  · intro x w h
    generalize hc : Content.number x.sourceStr = c at h
    cases h with
    | number y => injection hc with hc; exact .number _ _ hc
    | _ => injection hc
  · intro s t ht w h; cases h with | string _ _ ht' => exact .string _ _ ⟨t, ht, ht'⟩
  · intro vs cs _ ih d h; cases h with | array _ _ h' => exact .array _ _ (ih _ h')
  · intro vs cs _ ih d h; cases h with | object _ _ h' => exact .object _ _ (ih _ h')
  · intro d h; cases h; exact .nil
  · intro v c vs cs _ _ h1 h2 d h; cases h with | cons _ _ _ _ a b => exact .cons _ _ _ _ (h1 _ a) (h2 _ b)
  · intro d h; cases h; exact .nil
  · intro k t v c vs cs hk _ _ h1 h2 d h
    cases h with | cons _ _ _ _ _ _ a b c => exact .cons _ _ _ _ _ _ ⟨t, hk, a⟩ (h1 _ b) (h2 _ c)

theorem holds_of_same {v w : Value} (h : SameContent v w) : ∀ c, Holds v c → Holds w c := by
  refine SameContent.rec (motive_1 := fun v w _ => ∀ c, Holds v c → Holds w c) (motive_2 := fun vs ws _ => ∀ c, HoldsElems vs c → HoldsElems ws c)
    (motive_3 := fun vs ws _ => ∀ c, HoldsEntries vs c → HoldsEntries ws c) ?_ ?_ ?_ ?_ ?_ ?_ ?_ ?_ ?_ ?_ h
  · intro c h; exact h
  · intro b c h; exact h
  · intro x y e c h; cases h; rw [e]; exact .number y
  · rintro s t ⟨x, h1, h2⟩ c h; cases h with | string _ t' h' => rw [HasText.unique h' h1]; exact .string _ _ h2
  · intro vs ws _ ih c h; cases h with | array _ _ h => exact .array _ _ (ih _ h)
  · intro vs ws _ ih c h; cases h with | object _ _ h => exact .object _ _ (ih _ h)
  · intro c h; exact h
  · intro v w vs ws _ _ h1 h2 c h; cases h with | cons _ _ _ _ a b => exact .cons _ _ _ _ (h1 _ a) (h2 _ b)
  · intro c h; exact h
  · rintro k l v w es fs ⟨x, hx, hy⟩ _ _ h1 h2 c h
    cases h with
    | cons _ t _ _ _ _ a b c => rw [HasText.unique a hx]; exact .cons _ _ _ _ _ _ hy (h1 _ b) (h2 _ c)

/-- **C62.** Every value a client can put together stands for exactly one piece of data, and two values stand for the same
piece exactly if they have the same content in the sense of `SameContent` (which `==` and the writer are measured by). -/
theorem C62_content (v : Value) (hv : Built v) :
    ∃ c, Holds v c ∧ (∀ d, Holds v d → d = c) ∧ ∀ w, Holds w c ↔ SameContent v w := by
  obtain ⟨c, hc⟩ := built_holds hv
  exact ⟨c, hc, fun d hd => (hc.unique d hd).symm, fun w => ⟨same_of_holds hc w, fun h => holds_of_same h c hc⟩⟩

theorem built_of_parts : (∀ v : Value, (∀ s ∈ v.strings, Obtainable s) → (∀ x ∈ v.numbers, x.WellFormed) → Built v)
    ∧ (∀ es : Object, (∀ s ∈ Value.stringsEntries es, Obtainable s) → (∀ x ∈ Value.numbersEntries es, x.WellFormed) → BuiltEntries es)
    ∧ ∀ vs : List Value, (∀ s ∈ Value.stringsElems vs, Obtainable s) → (∀ x ∈ Value.numbersElems vs, x.WellFormed) → BuiltElems vs := by
  refine Value.induct ?_ ?_ ?_ ?_ ?_ ?_ ?_ ?_ ?_ ?_
  · intro _ _; exact .null
  · intro b _ _; exact .boolean b
  · intro n _ h; exact .number n (h n (by simp [Value.numbers]))
  · intro s h _; exact .string s (h s (by simp [Value.strings]))
  · intro es ih h1 h2
    rw [Value.strings] at h1; rw [Value.numbers] at h2
    exact .object _ (ih h1 h2)
  · intro es ih h1 h2
    rw [Value.strings] at h1; rw [Value.numbers] at h2
    exact .array _ (ih h1 h2)
  · intro _ _; exact .nil
  · intro k v es i1 i2 h1 h2
    rw [Value.stringsEntries] at h1; rw [Value.numbersEntries] at h2
    refine .cons _ _ _ (h1 k (by simp)) (i1 (fun s hs => h1 s (by simp [hs])) (fun x hx => h2 x (by simp [hx])))
      (i2 (fun s hs => h1 s (by simp [hs])) (fun x hx => h2 x (by simp [hx])))
  · intro _ _; exact .nil
  · intro v vs i1 i2 h1 h2
    rw [Value.stringsElems] at h1; rw [Value.numbersElems] at h2
    exact .cons _ _ (i1 (fun s hs => h1 s (by simp [hs])) (fun x hx => h2 x (by simp [hx])))
      (i2 (fun s hs => h1 s (by simp [hs])) (fun x hx => h2 x (by simp [hx])))

theorem canon_text {is : List Item} (h : ItemsValid is) (hl : (bodyBytes is).length < LIM) : HasText (canonStr is) (is.map Item.readAs) := by
  rw [← codeText_readAs h]
  exact decoded_canon h hl

theorem ofJson_holds : (∀ j : Json, JValid j → (∀ is ∈ jstrings j, (bodyBytes is).length < LIM) → Holds (ofJson j) j.data)
    ∧ (∀ ms, MsValid ms → (∀ is ∈ jstringsMembers ms, (bodyBytes is).length < LIM) → HoldsEntries (ofMembers ms) (dataMembers ms))
    ∧ ∀ js, JsValid js → (∀ is ∈ jstringsElems js, (bodyBytes is).length < LIM) → HoldsElems (ofJsons js) (dataElems js) := by
  refine Json.induct ?_ ?_ ?_ ?_ ?_ ?_ ?_ ?_ ?_ ?_
  · intro _ _; exact .null
  · intro b _ _; exact .boolean b
  · intro n _ _; exact .number (canonNum n)
  · intro is h hl; exact .string _ _ (canon_text h (hl is (by simp [jstrings])))
  · intro ms ih h hl
    rw [jstrings] at hl
    exact .object _ _ (ih h hl)
  · intro js ih h hl
    rw [jstrings] at hl
    exact .array _ _ (ih h hl)
  · intro _ _; exact .nil
  · rintro k j ms i1 i2 ⟨h0, h1, h2⟩ hl
    rw [jstringsMembers] at hl
    exact .cons _ _ _ _ _ _ (canon_text h0 (hl k (by simp))) (i1 h1 fun is his => hl is (by simp [his])) (i2 h2 fun is his => hl is (by simp [his]))
  · intro _ _; exact .nil
  · rintro j js i1 i2 ⟨h1, h2⟩ hl
    rw [jstringsElems] at hl
    exact .cons _ _ _ _ (i1 h1 fun is his => hl is (by simp [his])) (i2 h2 fun is his => hl is (by simp [his]))

/-- **C62.** A parsed value is one of these, and stands for the data of the text. -/
theorem C62_parsed (g : Bool) (src : List UInt8) (cfg : ParseConfig) (v : Value) (hi : Input g src)
    (h : Value.parseWithConfig g src cfg = .ok v) :
    Built v ∧ ∃ j, Accepted cfg src j ∧ Holds v j.data := by
  refine ⟨built_of_parts.1 v (fun s hs => .parsed _ (.inValue g src cfg v s hi h hs)) (fun x hx => parsed_number (.inValue g src cfg v x hi h hx)), ?_⟩
  obtain ⟨j, ha, rfl⟩ := (value_ok_iff hi).mp h
  have := hi.lim
  exact ⟨j, ha, ofJson_holds.1 j (text_valid ha.1) fun is his => by have := (text_bodies ha.1 is his).2; omega⟩

theorem fromIter_eq : ∀ es, Object.fromIter es = es
  | [] => rfl
  | (k, v) :: es => by rw [Object.fromIter, fromIter_eq es]

/-- **C62.** The conversions into values: from a `&str` or a `String`, the text given; from a `bool`, a `JsonString`, a `Vec`,
an `Object`, what is given; `Object::new()` has no entries; collecting entries into an `Object` keeps all of them in their
order; `Entry::new(key, value)` has the texts given. -/
theorem C62_conversions :
    (∀ s v, SliceFits (utf8 s) → Value.fromStr s = .ok v → Built v ∧ Holds v (.string s))
    ∧ (∀ s v, SliceFits (utf8 s) → Value.fromString s = .ok v → Built v ∧ Holds v (.string s))
    ∧ (∀ b, Built (.ofBool b) ∧ Holds (.ofBool b) (.boolean b))
    ∧ (∀ s t, Obtainable s → HasText s t → Built (.ofJsonString s) ∧ Holds (.ofJsonString s) (.string t))
    ∧ (∀ vs cs, BuiltElems vs → HoldsElems vs cs → Built (.ofVec vs) ∧ Holds (.ofVec vs) (.array cs))
    ∧ (∀ es cs, BuiltEntries es → HoldsEntries es cs → Built (.ofObject es) ∧ Holds (.ofObject es) (.object cs))
    ∧ (BuiltEntries Object.new ∧ HoldsEntries Object.new [])
    ∧ (∀ es cs, BuiltEntries es → HoldsEntries es cs → BuiltEntries (Object.fromIter es) ∧ HoldsEntries (Object.fromIter es) cs)
    ∧ ∀ k s e, SliceFits (utf8 k) → SliceFits (utf8 s) → entryNew k s = .ok e →
        Obtainable e.1 ∧ HasText e.1 k ∧ Built e.2 ∧ Holds e.2 (.string s) := by
  have key : ∀ s v, SliceFits (utf8 s) → Value.fromStr s = .ok v → Built v ∧ Holds v (.string s) := by
    intro s v hf h
    unfold Value.fromStr at h
    cases hj : JsonString.fromStr s with
    | ok j => rw [hj] at h; cases h; exact ⟨.string _ (.fromStr s j hf hj), .string _ _ (fromStr_shape hf hj).decoded⟩
    | panic p => rw [hj] at h; cases h
  refine ⟨key, ?_, fun b => ⟨.boolean b, .boolean b⟩, fun s t h1 h2 => ⟨.string _ h1, .string _ _ h2⟩,
    fun vs cs h1 h2 => ⟨.array _ h1, .array _ _ h2⟩, fun es cs h1 h2 => ⟨.object _ h1, .object _ _ h2⟩, ⟨.nil, .nil⟩,
    fun es cs h1 h2 => by rw [fromIter_eq]; exact ⟨h1, h2⟩, ?_⟩
  · intro s v hf h
    unfold Value.fromString at h
    cases hj : JsonString.fromString s with
    | ok j => rw [hj] at h; cases h; exact ⟨.string _ (.fromString s j hf hj), .string _ _ (fromString_shape hf hj).decoded⟩
    | panic p => rw [hj] at h; cases h
  · intro k s e hk hs h
    unfold entryNew at h
    cases hj : JsonString.fromStr k with
    | panic p => rw [hj] at h; cases h
    | ok j =>
      cases hv : Value.fromStr s with
      | panic p => rw [hj, hv] at h; cases h
      | ok v =>
        rw [hj, hv] at h
        cases h
        have := key s v hs hv
        exact ⟨.fromStr k j hk hj, (fromStr_shape hk hj).decoded, this.1, this.2⟩

/-- **C62.** And what is written after a session of edits reads back as the data the session made: if the strings kept as
raw text have only characters the library can write (`C49_built_roundtrip_partial`). -/
theorem C62_written_reads_back (es : List (List Step × Edit JsonString Value)) (ds : List (List Step × Edit Str Content))
    (he : SessionMeans es ds) (v v' : Value) (c : Content) (bs : List Bool) (hb : Built v) (hv : Holds v c)
    (hs : v.session es = .ok (v', bs)) (g : Bool) (cfg : ParseConfig) (f : WriteForm) (out : Str) (h : f.text v' = .ok out)
    (hw : ∀ i l, f = .custom i l → Ws (utf8 i) ∧ Ws (utf8 l)) (hf : SliceFits (utf8 out))
    (hd : ∀ n, cfg.recursionLimit = some n → v'.depth ≤ n) (hr : cfg.allowAllTypesAtRoot = true ∨ v'.IsContainer)
    (hc : ∀ s ∈ v'.strings, s.asJsonStr = none → ∀ t, HasText s t → ∀ c ∈ t, Renderable c) :
    ∃ w, Value.parseWithConfig g (utf8 out) cfg = .ok w ∧ Holds w (c.session ds).1 := by
  obtain ⟨u, h1, h2, h3⟩ := C62_editing_session es ds he v c hb hv
  rw [hs] at h1
  cases h1
  obtain ⟨w, k1, k2⟩ := C49_built_roundtrip_partial g cfg f v' out h3 h hw hf hd hr hc
  exact ⟨w, k1, holds_of_same k2 _ h2⟩

end

/-! ## A concrete case -/

attribute [local instance] arch64

/-- `{"k":[7,[],"a\n"]}` with the string converted from text (`builtEx`): `v["k"][1].push("x".into())`, then rename `k` to
`q`, then `v["k"]` (no longer there) -/
def editEx : List (List Step × Edit JsonString Value) :=
  [([.key ['k'], .index 1], .push (.string ⟨.json (.borrowed ['x']), .new false 1⟩)),
   ([], .rename ['k'] ⟨.json (.borrowed ['q']), .new false 1⟩),
   ([.key ['k']], .remove 0)]

example : ∃ v', builtEx.session editEx = .ok (v', [true, true, false])
    ∧ Holds v' (.object [(['q'], .array [.number ['7'], .array [.string ['x']], .string ['a', '\n']])]) := by
  have ox : Obtainable ⟨.json (.borrowed ['x']), .new false 1⟩ := .fromStr ['x'] _ (by unfold SliceFits; decide +kernel) (by decide +kernel)
  have oq : Obtainable ⟨.json (.borrowed ['q']), .new false 1⟩ := .fromStr ['q'] _ (by unfold SliceFits; decide +kernel) (by decide +kernel)
  have hx : HasText ⟨.json (.borrowed ['x']), .new false 1⟩ ['x'] := by unfold HasText; decide +kernel
  have hq : HasText ⟨.json (.borrowed ['q']), .new false 1⟩ ['q'] := by unfold HasText; decide +kernel
  obtain ⟨v', h1, h2, _⟩ := C62_editing_session editEx
    [([.key ['k'], .index 1], .push (.string ['x'])), ([], .rename ['k'] ['q']), ([.key ['k']], .remove 0)]
    (.cons _ _ _ _ _ (.push _ _ (.string _ ox) (.string _ _ hx)) (.cons _ _ _ _ _ (.rename _ _ _ oq hq) (.cons _ _ _ _ _ (.remove 0) .nil)))
    builtEx (.object [(['k'], .array [.number ['7'], .array [], .string ['a', '\n']])]) builtEx_built
    (.object _ _ (.cons _ _ _ _ _ _ (by unfold HasText; decide +kernel) (.array _ _ (.cons _ _ _ _ (.number _) (.cons _ _ _ _ (.array _ _ .nil)
      (.cons _ _ _ _ (.string _ _ (by unfold HasText; decide +kernel)) .nil)))) .nil))
  refine ⟨v', ?_, ?_⟩
  · rw [h1]; simp [Content.session, Content.editAt, Content.child, Content.apply, Content.put, changeFirst]
  · simpa [Content.session, Content.editAt, Content.child, Content.apply, Content.put, changeFirst] using h2

section
attribute [local instance] arch64

/-- C62: reading along a path that is there, and along one that is not -/
example : ((builtEx.readAt [.key ['k'], .index 0]).value?.any fun u => u.any fun u => u.same (.number ⟨.borrowed ['7']⟩)) = true
    ∧ ((builtEx.readAt [.key ['k'], .index 0, .index 0]).value?.any fun u => u.isNone) = true := by decide +kernel
/-- C62: a text whose data is found by parsing, and conversions that succeed -/
example : ∃ v, Value.parseWithConfig true (b8 " {\"k\":[7,[],\"a\\n\"]}") .new = .ok v := Outcome.exists_ok (by decide +kernel)
example : ((Value.fromStr "é\n".toList).value?.isSome ∧ (Value.fromString "é\n".toList).value?.isSome
    ∧ (entryNew ['k'] ['\n']).value?.isSome) ∧ SliceFits (b8 "é\n") := by unfold SliceFits; decide +kernel
/-- C62: what the session leaves is written, and only the string that was converted is raw -/
example : ((builtEx.session editEx).value?.any fun r => r.1.toJson.value? == some "{\"q\":[7,[\"x\"],\"a\\n\"]}".toList
    && (r.1.strings.filter fun s => s.asJsonStr.isNone).map JsonString.decoded == [.ok ['a', '\n']]) = true := by decide +kernel
end

/-! ## Instances: each theorem above applied to a concrete case that meets its hypotheses -/
section Instances
attribute [local instance] arch64

theorem exVal_built : Built exVal := (C62_parsed true exSrc .new exVal (exSrc_input _) (exSrc_parses _)).1
/-- the data of `builtEx` -/
def builtExData : Content := .object [(['k'], .array [.number ['7'], .array [], .string ['a', '\n']])]
theorem builtEx_holds : Holds builtEx builtExData :=
  .object _ _ (.cons _ _ _ _ _ _ (by unfold HasText; decide +kernel) (.array _ _ (.cons _ _ _ _ (.number _) (.cons _ _ _ _ (.array _ _ .nil)
      (.cons _ _ _ _ (.string _ _ (by unfold HasText; decide +kernel)) .nil)))) .nil)
theorem editEx_means : SessionMeans editEx
    [([.key ['k'], .index 1], .push (.string ['x'])), ([], .rename ['k'] ['q']), ([.key ['k']], .remove 0)] :=
  .cons _ _ _ _ _ (.push _ _ (.string _ (.fromStr ['x'] _ (by lit) (by decide +kernel))) (.string _ _ (by unfold HasText; decide +kernel)))
    (.cons _ _ _ _ _ (.rename _ _ _ (.fromStr ['q'] _ (by lit) (by decide +kernel)) (by unfold HasText; decide +kernel))
      (.cons _ _ _ _ _ (.remove 0) .nil))
/-- what the session leaves -/
def editedEx : Value := .object [(⟨.json (.borrowed ['q']), .new false 1⟩,
  .array [.number ⟨.borrowed ['7']⟩, .array [.string ⟨.json (.borrowed ['x']), .new false 1⟩],
    .string ⟨.raw (.borrowed ['a', '\n']), .new true 3⟩])]

example := C62_editing_session editEx _ editEx_means builtEx builtExData builtEx_built builtEx_holds
example := C62_reading [.key ['k'], .index 2] builtEx builtExData builtEx_built builtEx_holds
example := C62_content builtEx builtEx_built
example := C62_parsed true exSrc .new exVal (exSrc_input _) (exSrc_parses _)
theorem editEx_leaves : builtEx.session editEx = .ok (editedEx, [true, true, false]) := by
  have h : (match builtEx.session editEx with | .ok (w, bs) => w.same editedEx && bs == [true, true, false] | _ => false) = true := by
    decide +kernel
  cases hs : builtEx.session editEx with
  | panic p => rw [hs] at h; cases h
  | ok r =>
    obtain ⟨w, bs⟩ := r
    rw [hs] at h
    simp only [Bool.and_eq_true, beq_iff_eq] at h
    rw [Value.same_eq.1 _ _ h.1, h.2]
example := C62_written_reads_back editEx _ editEx_means builtEx editedEx builtExData _ builtEx_built builtEx_holds editEx_leaves true .new
  .compact "{\"q\":[7,[\"x\"],\"a\\n\"]}".toList (by decide +kernel) (fun i l h => by cases h) (by lit)
  (fun n h => by cases h; decide +kernel) (.inl rfl)
  (fun s hs ha t ht c hc => by
    have : s = ⟨.raw (.borrowed ['a', '\n']), .new true 3⟩ := by
      have key : ∀ s ∈ editedEx.strings, s.asJsonStr = none → s = ⟨.raw (.borrowed ['a', '\n']), .new true 3⟩ := by decide +kernel
      exact key s hs ha
    subst this
    have hd : HasText ⟨.raw (.borrowed ['a', '\n']), .new true 3⟩ ['a', '\n'] := by unfold HasText; decide +kernel
    unfold HasText at ht hd
    rw [hd] at ht
    cases ht
    revert c
    unfold Renderable
    decide +kernel)

end Instances
end JustJson
