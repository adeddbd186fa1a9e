import Verif.Model.ShownStack
import Verif.Lemmas.StackEq
/-! # How much stack `Debug` of a value needs -/

namespace JustJson
section
variable [Arch] (plain : Char → Bool)

mutual
theorem need_shown : ∀ (v : Value) (stk : Nat), Value.shownS plain stk v = if v.height ≤ stk then .ok (v.shown plain) else .panic .stack
  | v, 0 => by
    have := height_one v
    rw [if_neg (by omega)]
    simp [Value.shownS]
  | .array vs, stk + 1 => by
    rw [show (Value.array vs).height = 1 + Value.heightList vs by simp [Value.height]]
    simp only [Value.shownS, need_shownElems, Value.shown]
    by_cases c : Value.heightList vs ≤ stk
    · rw [if_pos c, if_pos (by omega)]; rfl
    · rw [if_neg c, if_neg (by omega)]; rfl
  | .object es, stk + 1 => by
    rw [show (Value.object es).height = 1 + Value.heightEntries es by simp [Value.height]]
    simp only [Value.shownS, need_shownEntries, Value.shown]
    by_cases c : Value.heightEntries es ≤ stk
    · rw [if_pos c, if_pos (by omega)]; rfl
    · rw [if_neg c, if_neg (by omega)]; rfl
  | .null, stk + 1 => by simp [Value.shownS, Value.height, Value.shown]
  | .number _, stk + 1 => by simp [Value.shownS, Value.height, Value.shown]
  | .string _, stk + 1 => by simp [Value.shownS, Value.height, Value.shown]
  | .boolean _, stk + 1 => by simp [Value.shownS, Value.height, Value.shown]
theorem need_shownElems : ∀ (vs : List Value) (stk : Nat),
    Value.shownElemsS plain stk vs = if Value.heightList vs ≤ stk then .ok (Value.shownElems plain vs) else .panic .stack
  | [], stk => by simp [Value.shownElemsS, Value.heightList, Value.shownElems]
  | v :: vs, stk => by
    rw [show Value.heightList (v :: vs) = max v.height (Value.heightList vs) by simp [Value.heightList]]
    simp only [Value.shownElemsS, need_shown v, need_shownElems vs, Value.shownElems]
    by_cases c : v.height ≤ stk
    · rw [if_pos c]
      by_cases c' : Value.heightList vs ≤ stk
      · rw [if_pos c', if_pos (by omega)]; rfl
      · rw [if_neg c', if_neg (by omega)]; rfl
    · rw [if_neg c, if_neg (show ¬ max v.height (Value.heightList vs) ≤ stk by omega)]; rfl
theorem need_shownEntries : ∀ (es : List (JsonString × Value)) (stk : Nat),
    Value.shownEntriesS plain stk es = if Value.heightEntries es ≤ stk then .ok (Value.shownEntries plain es) else .panic .stack
  | [], stk => by simp [Value.shownEntriesS, Value.heightEntries, Value.shownEntries]
  | (k, v) :: vs, stk => by
    rw [show Value.heightEntries ((k, v) :: vs) = max v.height (Value.heightEntries vs) by simp [Value.heightEntries]]
    simp only [Value.shownEntriesS, need_shown v, need_shownEntries vs, Value.shownEntries]
    by_cases c : v.height ≤ stk
    · rw [if_pos c]
      by_cases c' : Value.heightEntries vs ≤ stk
      · rw [if_pos c', if_pos (by omega)]; rfl
      · rw [if_neg c', if_neg (by omega)]; rfl
    · rw [if_neg c, if_neg (show ¬ max v.height (Value.heightEntries vs) ≤ stk by omega)]; rfl
end
end
end JustJson
