import Verif.Model.Stack
import Verif.Spec.Stack
/-! # How much stack comparing and dropping values need -/

namespace JustJson

section
variable [Arch]

/-- A comparison needs `n` nested calls, no more than either side is high, and exactly as many if the sides are equal. -/
def NeedEq (hl hr : Nat) (mS : Nat → Res Bool) (m : Res Bool) : Prop :=
  ∃ n, n ≤ hl ∧ n ≤ hr ∧ (∀ stk, mS stk = if n ≤ stk then m else .panic .stack) ∧ (m = .ok true → n = hl ∧ n = hr)

omit [Arch] in
theorem NeedEq.const {hl hr : Nat} {m : Res Bool} (h : m = .ok true → hl = 0 ∧ hr = 0) : NeedEq hl hr (fun _ => m) m :=
  ⟨0, Nat.zero_le _, Nat.zero_le _, fun _ => by rw [if_pos (Nat.zero_le _)], fun e => ⟨(h e).1.symm, (h e).2.symm⟩⟩

omit [Arch] in
theorem NeedEq.call {hl hr : Nat} {mS bS : Nat → Res Bool} {m : Res Bool} (h : NeedEq hl hr bS m) (h0 : mS 0 = .panic .stack)
    (h1 : ∀ stk, mS (stk + 1) = bS stk) : NeedEq (1 + hl) (1 + hr) mS m := by
  obtain ⟨n, a, b, c, d⟩ := h
  refine ⟨n + 1, by omega, by omega, fun stk => ?_, fun e => ?_⟩
  · cases stk with
    | zero => rw [h0, if_neg (by omega)]
    | succ stk => rw [h1, c]; simp
  · have := d e; omega

omit [Arch] in
/-- one comparison after another -/
theorem NeedEq.seq {hl hr hl' hr' : Nat} {aS bS mS : Nat → Res Bool} {a b m : Res Bool} (h : NeedEq hl hr aS a) (h' : NeedEq hl' hr' bS b)
    (e : m = match (generalizing := false) a with | .ok true => b | .ok false => .ok false | .panic p => .panic p)
    (eS : ∀ stk, mS stk = match (generalizing := false) aS stk with | .ok true => bS stk | .ok false => .ok false | .panic p => .panic p) :
    NeedEq (max hl hl') (max hr hr') mS m := by
  obtain ⟨n, h1, h2, h3, h4⟩ := h
  obtain ⟨n', h1', h2', h3', h4'⟩ := h'
  subst e
  cases a with
  | panic p =>
    refine ⟨n, by omega, by omega, fun stk => ?_, nofun⟩
    rw [eS, h3]
    by_cases c : n ≤ stk
    · simp only [if_pos c]
    · simp only [if_neg c]
  | ok t =>
    cases t with
    | false =>
      refine ⟨n, by omega, by omega, fun stk => ?_, nofun⟩
      rw [eS, h3]
      by_cases c : n ≤ stk
      · simp only [if_pos c]
      · simp only [if_neg c]
    | true =>
      refine ⟨max n n', by omega, by omega, fun stk => ?_, fun e => ?_⟩
      · rw [eS, h3, h3']
        by_cases c : n ≤ stk
        · simp only [if_pos c]
          by_cases c' : n' ≤ stk
          · rw [if_pos c', if_pos (by omega)]
          · rw [if_neg c', if_neg (by omega)]
        · simp only [if_neg c]
          rw [if_neg (by omega)]
      · have := h4 rfl
        have := h4' e
        omega

omit [Arch] in
theorem NeedEq.leaf {hl hr : Nat} {mS : Nat → Res Bool} {m : Res Bool} (h0 : mS 0 = .panic .stack) (h1 : ∀ stk, mS (stk + 1) = m)
    (pl : 1 ≤ hl) (pr : 1 ≤ hr) (h : m = .ok true → hl = 1 ∧ hr = 1) : NeedEq hl hr mS m := by
  refine ⟨1, pl, pr, fun stk => ?_, fun e => ?_⟩
  · cases stk with
    | zero => rw [h0, if_neg (by omega)]
    | succ stk => rw [h1, if_pos (by omega)]
  · have := h e; omega

omit [Arch] in
theorem height_one (v : Value) : 1 ≤ v.height := by cases v <;> simp [Value.height]

mutual
theorem need_eq : ∀ v w : Value, NeedEq v.height w.height (fun stk => Value.eqS stk v w) (v.eq w)
  | .array a, .array b => by
    by_cases e : a.length = b.length
    · simp only [Value.height, Value.eq, if_pos e]
      exact (need_eqList a b e).call (by simp [Value.eqS]) fun stk => by simp [Value.eqS, e]
    · exact .leaf (by simp [Value.eqS]) (by intro stk; simp [Value.eqS, Value.eq, e]) (height_one _) (height_one _) (by simp [Value.eq, e])
  | .object a, .object b => by
    by_cases e : a.length = b.length
    · simp only [Value.height, Value.eq, if_pos e]
      exact (need_eqEntries a b e).call (by simp [Value.eqS]) fun stk => by simp [Value.eqS, e]
    · exact .leaf (by simp [Value.eqS]) (by intro stk; simp [Value.eqS, Value.eq, e]) (height_one _) (height_one _) (by simp [Value.eq, e])
  | .null, w => by
    cases w <;> refine .leaf (by simp [Value.eqS]) (by intro stk; simp [Value.eqS, Value.eq]) (height_one _) (height_one _) ?_ <;>
      simp [Value.eq, Value.height]
  | .number _, w => by
    cases w <;> refine .leaf (by simp [Value.eqS]) (by intro stk; simp [Value.eqS, Value.eq]) (height_one _) (height_one _) ?_ <;>
      simp [Value.eq, Value.height]
  | .string _, w => by
    cases w <;> refine .leaf (by simp [Value.eqS]) (by intro stk; simp [Value.eqS, Value.eq]) (height_one _) (height_one _) ?_ <;>
      simp [Value.eq, Value.height]
  | .boolean _, w => by
    cases w <;> refine .leaf (by simp [Value.eqS]) (by intro stk; simp [Value.eqS, Value.eq]) (height_one _) (height_one _) ?_ <;>
      simp [Value.eq, Value.height]
  | .array _, .object _ => .leaf (by simp [Value.eqS]) (by intro stk; simp [Value.eqS, Value.eq]) (height_one _) (height_one _) (by simp [Value.eq])
  | .array _, .null => .leaf (by simp [Value.eqS]) (by intro stk; simp [Value.eqS, Value.eq]) (height_one _) (height_one _) (by simp [Value.eq])
  | .array _, .number _ => .leaf (by simp [Value.eqS]) (by intro stk; simp [Value.eqS, Value.eq]) (height_one _) (height_one _) (by simp [Value.eq])
  | .array _, .string _ => .leaf (by simp [Value.eqS]) (by intro stk; simp [Value.eqS, Value.eq]) (height_one _) (height_one _) (by simp [Value.eq])
  | .array _, .boolean _ => .leaf (by simp [Value.eqS]) (by intro stk; simp [Value.eqS, Value.eq]) (height_one _) (height_one _) (by simp [Value.eq])
  | .object _, .array _ => .leaf (by simp [Value.eqS]) (by intro stk; simp [Value.eqS, Value.eq]) (height_one _) (height_one _) (by simp [Value.eq])
  | .object _, .null => .leaf (by simp [Value.eqS]) (by intro stk; simp [Value.eqS, Value.eq]) (height_one _) (height_one _) (by simp [Value.eq])
  | .object _, .number _ => .leaf (by simp [Value.eqS]) (by intro stk; simp [Value.eqS, Value.eq]) (height_one _) (height_one _) (by simp [Value.eq])
  | .object _, .string _ => .leaf (by simp [Value.eqS]) (by intro stk; simp [Value.eqS, Value.eq]) (height_one _) (height_one _) (by simp [Value.eq])
  | .object _, .boolean _ => .leaf (by simp [Value.eqS]) (by intro stk; simp [Value.eqS, Value.eq]) (height_one _) (height_one _) (by simp [Value.eq])
theorem need_eqList : ∀ a b : List Value, a.length = b.length →
    NeedEq (Value.heightList a) (Value.heightList b) (fun stk => Value.eqAuxS stk a b) (Value.eqAux a b)
  | [], [], _ => by
    simp only [Value.eqAuxS, Value.eqAux]
    exact .const fun _ => ⟨by simp [Value.heightList], by simp [Value.heightList]⟩
  | v :: a, w :: b, e => by
    simp only [Value.heightList]
    exact (need_eq v w).seq (need_eqList a b (by simpa using e)) (by simp only [Value.eqAux]; rfl) (by intro stk; simp only [Value.eqAuxS]; rfl)
theorem need_eqEntries : ∀ a b : List (JsonString × Value), a.length = b.length →
    NeedEq (Value.heightEntries a) (Value.heightEntries b) (fun stk => Object.eqAuxS stk a b) (Object.eqAux a b)
  | [], [], _ => by
    simp only [Object.eqAuxS, Object.eqAux]
    exact .const fun _ => ⟨by simp [Value.heightEntries], by simp [Value.heightEntries]⟩
  | (k, v) :: a, (k', w) :: b, e => by
    have h := (need_eq v w).seq (need_eqEntries a b (by simpa using e)) rfl (fun _ => rfl)
    simp only [Value.heightEntries, Object.eqAuxS, Object.eqAux]
    cases k.eq k' with
    | panic p => exact ⟨0, Nat.zero_le _, Nat.zero_le _, fun _ => by rw [if_pos (Nat.zero_le _)], nofun⟩
    | ok t =>
      cases t with
      | false => exact ⟨0, Nat.zero_le _, Nat.zero_le _, fun _ => by rw [if_pos (Nat.zero_le _)], nofun⟩
      | true => exact h
end
end

mutual
/-- Dropping a value needs as many nested calls as it is high. -/
theorem need_drop : ∀ (v : Value) (stk : Nat), Value.dropS stk v = if v.height ≤ stk then .ok () else .panic .stack
  | v, 0 => by
    have := height_one v
    rw [if_neg (by omega)]
    simp [Value.dropS]
  | .array vs, stk + 1 => by
    rw [show (Value.array vs).height = 1 + Value.heightList vs by simp [Value.height]]
    simp only [Value.dropS, need_dropAll]
    by_cases c : Value.heightList vs ≤ stk
    · rw [if_pos c, if_pos (by omega)]
    · rw [if_neg c, if_neg (by omega)]
  | .object es, stk + 1 => by
    rw [show (Value.object es).height = 1 + Value.heightEntries es by simp [Value.height]]
    simp only [Value.dropS, need_dropEntries]
    by_cases c : Value.heightEntries es ≤ stk
    · rw [if_pos c, if_pos (by omega)]
    · rw [if_neg c, if_neg (by omega)]
  | .null, stk + 1 => by simp [Value.dropS, Value.height]
  | .number _, stk + 1 => by simp [Value.dropS, Value.height]
  | .string _, stk + 1 => by simp [Value.dropS, Value.height]
  | .boolean _, stk + 1 => by simp [Value.dropS, Value.height]
theorem need_dropAll : ∀ (vs : List Value) (stk : Nat), Value.dropAllS stk vs = if Value.heightList vs ≤ stk then .ok () else .panic .stack
  | [], stk => by simp [Value.dropAllS, Value.heightList]
  | v :: vs, stk => by
    rw [show Value.heightList (v :: vs) = max v.height (Value.heightList vs) by simp [Value.heightList]]
    simp only [Value.dropAllS, need_drop v, need_dropAll vs]
    by_cases c : v.height ≤ stk
    · rw [if_pos c]
      by_cases c' : Value.heightList vs ≤ stk
      · rw [if_pos c', if_pos (by omega)]; rfl
      · rw [if_neg c', if_neg (by omega)]; rfl
    · rw [if_neg c, if_neg (show ¬ max v.height (Value.heightList vs) ≤ stk by omega)]; rfl
theorem need_dropEntries : ∀ (es : List (JsonString × Value)) (stk : Nat), Object.dropAllS stk es = if Value.heightEntries es ≤ stk then .ok () else .panic .stack
  | [], stk => by simp [Object.dropAllS, Value.heightEntries]
  | (k, v) :: vs, stk => by
    rw [show Value.heightEntries ((k, v) :: vs) = max v.height (Value.heightEntries vs) by simp [Value.heightEntries]]
    simp only [Object.dropAllS, need_drop v, need_dropEntries vs]
    by_cases c : v.height ≤ stk
    · rw [if_pos c]
      by_cases c' : Value.heightEntries vs ≤ stk
      · rw [if_pos c', if_pos (by omega)]; rfl
      · rw [if_neg c', if_neg (by omega)]; rfl
    · rw [if_neg c, if_neg (show ¬ max v.height (Value.heightEntries vs) ≤ stk by omega)]; rfl
end

end JustJson
