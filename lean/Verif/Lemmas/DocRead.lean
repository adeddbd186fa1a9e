import Verif.Lemmas.Outcome
/-! # Reading values back from nodes -/

namespace JustJson
open Spec

set_option linter.unusedSectionVars false

section
variable [Arch]

theorem flatten_pos (v : Value) : 1 ≤ (flatten v).length := by
  cases v <;> simp [flatten]

theorem Res.bind_of {α β : Type} {m : Res α} {f : α → Res β} {a : α} (h : m = .ok a) : (m >>= f) = f a := by
  rw [h]; rfl

/-- node-level reader on a listing -/
def hydrateL (fuel : Nat) : List Node → Res (Value × List Node)
  | [] => .panic .expect
  | n :: r => hydrate fuel n r

theorem hydrate_flatten :
    (∀ v : Value, ∀ fuel rest, 2 * (flatten v).length ≤ fuel → hydrateL fuel (flatten v ++ rest) = .ok (v, rest))
    ∧ (∀ es : Object, ∀ fuel rest, 2 * (flattenEntries es).length + 1 ≤ fuel →
        hydrateEntries fuel es.length (flattenEntries es ++ rest) = .ok (es, rest))
    ∧ ∀ vs : List Value, ∀ fuel rest, 2 * (flattenElems vs).length + 1 ≤ fuel →
        hydrateValues fuel vs.length (flattenElems vs ++ rest) = .ok (vs, rest) := by
  apply Value.induct
  · intro fuel rest h
    rw [flatten] at h ⊢
    obtain ⟨f, rfl⟩ : ∃ f, fuel = f + 1 := ⟨fuel - 1, by simp at h; omega⟩
    simp [hydrateL, hydrate]
  · intro b fuel rest h
    rw [flatten] at h ⊢
    obtain ⟨f, rfl⟩ : ∃ f, fuel = f + 1 := ⟨fuel - 1, by simp at h; omega⟩
    simp [hydrateL, hydrate]
  · intro b fuel rest h
    rw [flatten] at h ⊢
    obtain ⟨f, rfl⟩ : ∃ f, fuel = f + 1 := ⟨fuel - 1, by simp at h; omega⟩
    simp [hydrateL, hydrate]
  · intro b fuel rest h
    rw [flatten] at h ⊢
    obtain ⟨f, rfl⟩ : ∃ f, fuel = f + 1 := ⟨fuel - 1, by simp at h; omega⟩
    simp [hydrateL, hydrate]
  · intro es ih fuel rest h
    rw [flatten] at h ⊢
    simp at h
    obtain ⟨f, rfl⟩ : ∃ f, fuel = f + 1 := ⟨fuel - 1, by omega⟩
    show hydrate (f + 1) (.object es.length) (flattenEntries es ++ rest) = _
    rw [hydrate, Res.bind_of (ih f rest (by omega))]
    rfl
  · intro es ih fuel rest h
    rw [flatten] at h ⊢
    simp at h
    obtain ⟨f, rfl⟩ : ∃ f, fuel = f + 1 := ⟨fuel - 1, by omega⟩
    show hydrate (f + 1) (.array es.length) (flattenElems es ++ rest) = _
    rw [hydrate, Res.bind_of (ih f rest (by omega))]
    rfl
  · intro fuel rest h
    obtain ⟨f, rfl⟩ : ∃ f, fuel = f + 1 := ⟨fuel - 1, by omega⟩
    rw [flattenEntries]; simp [hydrateEntries]
  · intro k v es hv hes fuel rest h
    rw [flattenEntries] at h ⊢
    simp at h
    obtain ⟨f, rfl⟩ : ∃ f, fuel = f + 1 := ⟨fuel - 1, by omega⟩
    have h1 := hv f (flattenEntries es ++ rest) (by omega)
    have h2 := hes f rest (by omega)
    simp only [List.length_cons, List.cons_append, List.append_assoc]
    cases hfl : flatten v ++ (flattenEntries es ++ rest) with
    | nil => have h3 := flatten_pos v; have := congrArg List.length hfl; simp at this; rw [this.1] at h3; simp at h3
    | cons n r =>
      rw [hfl] at h1
      rw [hydrateEntries]
      have h1 : hydrate f n r = _ := h1
      rw [Res.bind_of h1]
      simp only []
      rw [Res.bind_of h2]
      rfl
  · intro fuel rest h
    obtain ⟨f, rfl⟩ : ∃ f, fuel = f + 1 := ⟨fuel - 1, by omega⟩
    rw [flattenElems]; simp [hydrateValues]
  · intro v es hv hes fuel rest h
    rw [flattenElems] at h ⊢
    simp at h
    have := flatten_pos v
    obtain ⟨f, rfl⟩ : ∃ f, fuel = f + 1 := ⟨fuel - 1, by omega⟩
    have h1 := hv f (flattenElems es ++ rest) (by omega)
    have h2 := hes f rest (by omega)
    simp only [List.length_cons, List.append_assoc]
    cases hfl : flatten v ++ (flattenElems es ++ rest) with
    | nil => have h3 := flatten_pos v; have := congrArg List.length hfl; simp at this; rw [this.1] at h3; simp at h3
    | cons n r =>
      rw [hfl] at h1
      rw [hydrateValues]
      have h1 : hydrate f n r = _ := h1
      rw [Res.bind_of h1]
      simp only []
      rw [Res.bind_of h2]
      rfl

theorem skip_flatten :
    (∀ v : Value, ∀ fuel rest, 2 * (flatten v).length ≤ fuel → skipValue fuel (flatten v ++ rest) = .ok rest)
    ∧ (∀ es : Object, ∀ fuel rest, 2 * (flattenEntries es).length + 1 ≤ fuel →
        skipN fuel (2 * es.length) (flattenEntries es ++ rest) = .ok rest)
    ∧ ∀ vs : List Value, ∀ fuel rest, 2 * (flattenElems vs).length + 1 ≤ fuel →
        skipN fuel vs.length (flattenElems vs ++ rest) = .ok rest := by
  apply Value.induct
  · intro fuel rest h
    rw [flatten] at h ⊢
    obtain ⟨f, rfl⟩ : ∃ f, fuel = f + 1 := ⟨fuel - 1, by simp at h; omega⟩
    simp [skipValue]
  · intro b fuel rest h
    rw [flatten] at h ⊢
    obtain ⟨f, rfl⟩ : ∃ f, fuel = f + 1 := ⟨fuel - 1, by simp at h; omega⟩
    simp [skipValue]
  · intro b fuel rest h
    rw [flatten] at h ⊢
    obtain ⟨f, rfl⟩ : ∃ f, fuel = f + 1 := ⟨fuel - 1, by simp at h; omega⟩
    simp [skipValue]
  · intro b fuel rest h
    rw [flatten] at h ⊢
    obtain ⟨f, rfl⟩ : ∃ f, fuel = f + 1 := ⟨fuel - 1, by simp at h; omega⟩
    simp [skipValue]
  · intro es ih fuel rest h
    rw [flatten] at h ⊢
    simp at h
    obtain ⟨f, rfl⟩ : ∃ f, fuel = f + 1 := ⟨fuel - 1, by omega⟩
    show skipValue (f + 1) (.object es.length :: (flattenEntries es ++ rest)) = _
    rw [skipValue]
    exact ih f rest (by omega)
  · intro es ih fuel rest h
    rw [flatten] at h ⊢
    simp at h
    obtain ⟨f, rfl⟩ : ∃ f, fuel = f + 1 := ⟨fuel - 1, by omega⟩
    show skipValue (f + 1) (.array es.length :: (flattenElems es ++ rest)) = _
    rw [skipValue]
    exact ih f rest (by omega)
  · intro fuel rest h
    obtain ⟨f, rfl⟩ : ∃ f, fuel = f + 1 := ⟨fuel - 1, by omega⟩
    rw [flattenEntries]; simp [skipN]
  · intro k v es hv hes fuel rest h
    rw [flattenEntries] at h ⊢
    simp at h
    have := flatten_pos v
    obtain ⟨f, rfl⟩ : ∃ f, fuel = f + 3 := ⟨fuel - 3, by omega⟩
    have h1 := hv (f + 1) (flattenEntries es ++ rest) (by omega)
    have h2 := hes (f + 1) rest (by omega)
    simp only [List.length_cons, List.cons_append, List.append_assoc]
    rw [show 2 * (es.length + 1) = 2 * es.length + 1 + 1 by omega, skipN]
    have h0 : skipValue (f + 2) (Node.string k :: (flatten v ++ (flattenEntries es ++ rest)))
      = .ok (flatten v ++ (flattenEntries es ++ rest)) := by rw [skipValue]
    rw [Res.bind_of h0, skipN, Res.bind_of h1]
    exact h2
  · intro fuel rest h
    obtain ⟨f, rfl⟩ : ∃ f, fuel = f + 1 := ⟨fuel - 1, by omega⟩
    rw [flattenElems]; simp [skipN]
  · intro v es hv hes fuel rest h
    rw [flattenElems] at h ⊢
    simp at h
    have := flatten_pos v
    obtain ⟨f, rfl⟩ : ∃ f, fuel = f + 1 := ⟨fuel - 1, by omega⟩
    have h1 := hv f (flattenElems es ++ rest) (by omega)
    have h2 := hes f rest (by omega)
    simp only [List.length_cons, List.append_assoc]
    rw [skipN, Res.bind_of h1]
    exact h2

theorem nextValue_flatten (v : Value) (rest : List Node) : nextValue (flatten v ++ rest) = .ok (some (v, rest)) := by
  have h := hydrate_flatten.1 v (nodesFuel (flatten v ++ rest)) rest (by unfold nodesFuel; simp; omega)
  have hp := flatten_pos v
  unfold nextValue
  cases hf : flatten v ++ rest with
  | nil => have h3 := flatten_pos v; have := congrArg List.length hf; simp at this; simp [this] at h3
  | cons n r =>
    rw [hf] at h
    simp only []
    have h : hydrate (nodesFuel (n :: r)) n r = _ := h
    rw [Res.bind_of h]
    rfl

theorem skip_flatten' (v : Value) (rest : List Node) : skipNextValue (flatten v ++ rest) = .ok rest :=
  skip_flatten.1 v _ rest (by unfold nodesFuel; simp; omega)

theorem fromDocument_flatten (v : Value) : Value.fromDocument (flatten v) = .ok v := by
  have h := hydrate_flatten.1 v (nodesFuel (flatten v)) [] (by unfold nodesFuel; omega)
  have hp := flatten_pos v
  rw [List.append_nil] at h
  unfold Value.fromDocument
  cases hf : flatten v with
  | nil => have h3 := flatten_pos v; have := congrArg List.length hf; simp at this; simp [this] at h3
  | cons n r =>
    rw [hf] at h
    simp only []
    have h : hydrate (nodesFuel (n :: r)) n r = _ := h
    rw [Res.bind_of h]
    rfl

theorem flatten_inj {v v' : Value} (h : flatten v = flatten v') : v = v' := by
  have h1 := fromDocument_flatten v
  rw [h, fromDocument_flatten] at h1
  exact (Res.ok.inj h1).symm

theorem flattenElems_append (a b : List Value) : flattenElems (a ++ b) = flattenElems a ++ flattenElems b := by
  induction a with
  | nil => rfl
  | cons v a ih => simp [flattenElems, ih]

theorem flattenEntries_append (a b : Object) : flattenEntries (a ++ b) = flattenEntries a ++ flattenEntries b := by
  induction a with
  | nil => rfl
  | cons v a ih => obtain ⟨k, v⟩ := v; simp [flattenEntries, ih]

theorem drop_append_add {α : Type} (a b : List α) (n : Nat) : (a ++ b).drop (a.length + n) = b.drop n := by
  rw [List.drop_append, List.drop_eq_nil_of_le (by omega)]
  simp

theorem drop_left {α : Type} {x r : List α} {i : Nat} {y : List α} (h : x.drop i = y) (hi : i ≤ x.length) :
    (x ++ r).drop i = y ++ r := by
  rw [List.drop_append_of_le_length hi, h]

theorem at_drop {v u : Value} {i : Nat} (h : At v i u) :
    i ≤ (flatten v).length ∧ ∃ rest, (flatten v).drop i = flatten u ++ rest := by
  induction h with
  | here v => exact ⟨Nat.zero_le _, [], by simp⟩
  | elem a b x u i _ ih =>
    obtain ⟨hi, rest, ih⟩ := ih
    rw [flatten, flattenElems_append, flattenElems]
    refine ⟨by simp; omega, rest ++ flattenElems b, ?_⟩
    rw [show 1 + (flattenElems a).length + i = ((flattenElems a).length + i) + 1 by omega, List.drop_succ_cons,
      drop_append_add, drop_left ih hi, List.append_assoc]
  | key a b k x =>
    rw [flatten, flatten, flattenEntries_append, flattenEntries]
    refine ⟨by simp; omega, flatten x ++ flattenEntries b, ?_⟩
    rw [show 1 + (flattenEntries a).length = (flattenEntries a).length + 1 by omega, List.drop_succ_cons,
      List.drop_left]
    rfl
  | entry a b k x u i _ ih =>
    obtain ⟨hi, rest, ih⟩ := ih
    rw [flatten, flattenEntries_append, flattenEntries]
    refine ⟨by simp; omega, rest ++ flattenEntries b, ?_⟩
    rw [show 1 + (flattenEntries a).length + 1 + i = ((flattenEntries a).length + (i + 1)) + 1 by omega, List.drop_succ_cons,
      drop_append_add, List.drop_succ_cons, drop_left ih hi, List.append_assoc]

theorem at_exists :
    (∀ v : Value, ∀ i, i < (flatten v).length → ∃ u, At v i u)
    ∧ (∀ es : Object, ∀ pre i, i < (flattenEntries es).length →
        ∃ u, At (.object (pre ++ es)) (1 + (flattenEntries pre).length + i) u)
    ∧ ∀ vs : List Value, ∀ pre i, i < (flattenElems vs).length →
        ∃ u, At (.array (pre ++ vs)) (1 + (flattenElems pre).length + i) u := by
  have scalar : ∀ (v : Value) i, (flatten v).length = 1 → i < (flatten v).length → ∃ u, At v i u := by
    intro v i h1 h
    rw [h1] at h
    obtain rfl : i = 0 := by omega
    exact ⟨v, .here v⟩
  apply Value.induct
  · intro i h; exact scalar _ _ (by simp [flatten]) h
  · intro b i h; exact scalar _ _ (by simp [flatten]) h
  · intro b i h; exact scalar _ _ (by simp [flatten]) h
  · intro b i h; exact scalar _ _ (by simp [flatten]) h
  · intro es ih i h
    cases i with
    | zero => exact ⟨_, .here _⟩
    | succ i =>
      rw [flatten] at h
      obtain ⟨u, hu⟩ := ih [] i (by simp at h; omega)
      exact ⟨u, by simpa [flattenEntries, Nat.add_comm] using hu⟩
  · intro es ih i h
    cases i with
    | zero => exact ⟨_, .here _⟩
    | succ i =>
      rw [flatten] at h
      obtain ⟨u, hu⟩ := ih [] i (by simp at h; omega)
      exact ⟨u, by simpa [flattenElems, Nat.add_comm] using hu⟩
  · intro pre i h; simp [flattenEntries] at h
  · intro k v es hv hes pre i h
    cases i with
    | zero => exact ⟨_, .key pre es k v⟩
    | succ i =>
      by_cases hlt : i < (flatten v).length
      · obtain ⟨u, hu⟩ := hv i hlt
        refine ⟨u, ?_⟩
        have := At.entry pre es k v u i hu
        rwa [show 1 + (flattenEntries pre).length + 1 + i = 1 + (flattenEntries pre).length + (i + 1) by omega] at this
      · rw [flattenEntries] at h
        simp at h
        obtain ⟨u, hu⟩ := hes (pre ++ [(k, v)]) (i - (flatten v).length) (by omega)
        refine ⟨u, ?_⟩
        rw [flattenEntries_append] at hu
        simp [flattenEntries] at hu
        rwa [show 1 + ((flattenEntries pre).length + ((flatten v).length + 1)) + (i - (flatten v).length)
          = 1 + (flattenEntries pre).length + (i + 1) by omega] at hu
  · intro pre i h; simp [flattenElems] at h
  · intro v es hv hes pre i h
    by_cases hlt : i < (flatten v).length
    · obtain ⟨u, hu⟩ := hv i hlt
      exact ⟨u, At.elem pre es v u i hu⟩
    · rw [flattenElems] at h
      simp at h
      obtain ⟨u, hu⟩ := hes (pre ++ [v]) (i - (flatten v).length) (by omega)
      refine ⟨u, ?_⟩
      rw [flattenElems_append] at hu
      simp [flattenElems] at hu
      rwa [show 1 + ((flattenElems pre).length + (flatten v).length) + (i - (flatten v).length)
        = 1 + (flattenElems pre).length + i by omega] at hu

/-! ## Capacity -/

theorem nodes_cb (N : Nat) : CbSpec (nodesDelegate (some N)) (fun ns => ns.length ≤ N)
    (fun k ns => k = .paylodTooLarge ∧ ns.length ≤ N) (fun _ => True) := by
  have push : ∀ n : Node, Cb (fun ns => ns.length ≤ N) (fun k ns => k = ErrorKind.paylodTooLarge ∧ ns.length ≤ N)
      (fun _ => True) (pushNode (some N) n) := by
    intro n d hd
    unfold pushNode pushNodeC
    simp only []
    by_cases h : d.length < N
    · rw [if_pos h]; show (d ++ [n]).length ≤ N; simp; omega
    · rw [if_neg h]; exact ⟨rfl, hd⟩
  have ext : ∀ i, Cb (fun ns => ns.length ≤ N) (fun k ns => k = ErrorKind.paylodTooLarge ∧ ns.length ≤ N)
      (fun _ => True) (extendObject i) := by
    intro i d hd
    unfold extendObject
    split
    · trivial
    · show (List.set _ _ _).length ≤ N; simpa using hd
    · trivial
  have ext' : ∀ i, Cb (fun ns => ns.length ≤ N) (fun k ns => k = ErrorKind.paylodTooLarge ∧ ns.length ≤ N)
      (fun _ => True) (extendArray i) := by
    intro i d hd
    unfold extendArray
    split
    · trivial
    · show (List.set _ _ _).length ≤ N; simpa using hd
    · trivial
  constructor
  · exact push _
  · intro b; exact push _
  · intro b; exact push _
  · intro b; exact push _
  · exact push _
  · intro o k d hd
    refine PWp.bind (ext o d hd) ?_
    intro _ d1 hd1
    refine PWp.bind (push _ d1 hd1) ?_
    intro _ d2 hd2
    exact hd2
  · intro o k v d hd; exact hd
  · intro o d hd; exact hd
  · exact push _
  · intro a v d hd
    refine PWp.bind (ext' a d hd) ?_
    intro _ d1 hd1
    exact hd1
  · intro o d hd; exact hd
  all_goals (intros; trivial)

end
end JustJson
