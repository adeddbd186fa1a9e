import Verif.Model.Reserve
import Verif.Spec.Reserve
import Verif.Lemmas.DocRead
/-! # Reservations of memory: lemmas for C81 -/

namespace JustJson
open Spec

set_option linter.unusedSectionVars false

section
variable [Arch]

theorem Rsv.bind_of {α β : Type} {m : Rsv α} {f : α → Rsv β} {l : List Nat} {a : α} (h : m = ⟨l, .ok a⟩) :
    (m >>= f) = ⟨l ++ (f a).asked, (f a).res⟩ := by subst h; rfl

theorem Rsv.res_bind {α β : Type} (m : Rsv α) (f : α → Rsv β) : (m >>= f).res = m.res >>= fun a => (f a).res := by
  obtain ⟨l, r⟩ := m
  cases r <;> rfl

theorem Rsv.res_pure {α : Type} (a : α) : (pure a : Rsv α).res = .ok a := rfl

/-- forgetting the reservations -/
theorem hydrateR_res : ∀ fuel,
    (∀ node rest, (hydrateR fuel node rest).res = hydrate fuel node rest)
    ∧ (∀ len rest, (hydrateEntriesR fuel len rest).res = hydrateEntries fuel len rest)
    ∧ (∀ len rest, (hydrateValuesR fuel len rest).res = hydrateValues fuel len rest) := by
  intro fuel
  induction fuel with
  | zero =>
    refine ⟨?_, ?_, ?_⟩
    · intro node rest; cases node <;> rfl
    · intro len rest; cases len <;> rfl
    · intro len rest; cases len <;> rfl
  | succ fuel ih =>
    obtain ⟨h1, h2, h3⟩ := ih
    refine ⟨?_, ?_, ?_⟩
    · intro node rest
      cases node with
      | object len =>
        rw [hydrateR, hydrate, Rsv.res_bind, show (Rsv.withCapacity len).res = .ok () from rfl, Res.bind_of rfl,
          Rsv.res_bind, h2]
        rfl
      | array len =>
        rw [hydrateR, hydrate, Rsv.res_bind, show (Rsv.withCapacity len).res = .ok () from rfl, Res.bind_of rfl,
          Rsv.res_bind, h3]
        rfl
      | _ => rfl
    · intro len rest
      cases len with
      | zero => rfl
      | succ len =>
        rcases rest with _ | ⟨n, rest⟩
        · rfl
        · cases n with
          | string k =>
            rcases rest with _ | ⟨n, rest⟩
            · rfl
            · rw [hydrateEntriesR, hydrateEntries]
              simp only [Rsv.res_bind, h1, h2, Rsv.res_pure]; rfl
          | _ => rfl
    · intro len rest
      cases len with
      | zero => rfl
      | succ len =>
        rcases rest with _ | ⟨n, rest⟩
        · rfl
        · rw [hydrateValuesR, hydrateValues]
          simp only [Rsv.res_bind, h1, h3, Rsv.res_pure]; rfl

theorem fromDocumentR_res (doc : Document) : (Value.fromDocumentR doc).res = Value.fromDocument doc := by
  cases doc with
  | nil => rfl
  | cons n r => rw [Value.fromDocumentR, Value.fromDocument, Rsv.res_bind, (hydrateR_res _).1]; rfl

theorem nextValueR_res (nodes : List Node) : (nextValueR nodes).res = nextValue nodes := by
  cases nodes with
  | nil => rfl
  | cons n r => rw [nextValueR, nextValue, Rsv.res_bind, (hydrateR_res _).1]; rfl

/-- node-level reader on a listing -/
def hydrateLR (fuel : Nat) : List Node → Rsv (Value × List Node)
  | [] => .panic .expect
  | n :: r => hydrateR fuel n r

theorem hydrateR_flatten :
    (∀ v : Value, ∀ fuel rest, 2 * (flatten v).length ≤ fuel →
        hydrateLR fuel (flatten v ++ rest) = ⟨sizes v, .ok (v, rest)⟩)
    ∧ (∀ es : Object, ∀ fuel rest, 2 * (flattenEntries es).length + 1 ≤ fuel →
        hydrateEntriesR fuel es.length (flattenEntries es ++ rest) = ⟨sizesEntries es, .ok (es, rest)⟩)
    ∧ ∀ vs : List Value, ∀ fuel rest, 2 * (flattenElems vs).length + 1 ≤ fuel →
        hydrateValuesR fuel vs.length (flattenElems vs ++ rest) = ⟨sizesElems vs, .ok (vs, rest)⟩ := by
  apply Value.induct
  · intro fuel rest h
    rw [flatten] at h ⊢
    obtain ⟨f, rfl⟩ : ∃ f, fuel = f + 1 := ⟨fuel - 1, by simp at h; omega⟩
    simp [hydrateLR, hydrateR, sizes]; rfl
  · intro b fuel rest h
    rw [flatten] at h ⊢
    obtain ⟨f, rfl⟩ : ∃ f, fuel = f + 1 := ⟨fuel - 1, by simp at h; omega⟩
    simp [hydrateLR, hydrateR, sizes]; rfl
  · intro b fuel rest h
    rw [flatten] at h ⊢
    obtain ⟨f, rfl⟩ : ∃ f, fuel = f + 1 := ⟨fuel - 1, by simp at h; omega⟩
    simp [hydrateLR, hydrateR, sizes]; rfl
  · intro b fuel rest h
    rw [flatten] at h ⊢
    obtain ⟨f, rfl⟩ : ∃ f, fuel = f + 1 := ⟨fuel - 1, by simp at h; omega⟩
    simp [hydrateLR, hydrateR, sizes]; rfl
  · intro es ih fuel rest h
    rw [flatten] at h ⊢
    simp at h
    obtain ⟨f, rfl⟩ : ∃ f, fuel = f + 1 := ⟨fuel - 1, by omega⟩
    show hydrateR (f + 1) (.object es.length) (flattenEntries es ++ rest) = _
    rw [hydrateR, Rsv.bind_of (show Rsv.withCapacity es.length = ⟨[es.length], .ok ()⟩ from rfl), Rsv.bind_of (ih f rest (by omega)), sizes]
    simp [pure]
  · intro es ih fuel rest h
    rw [flatten] at h ⊢
    simp at h
    obtain ⟨f, rfl⟩ : ∃ f, fuel = f + 1 := ⟨fuel - 1, by omega⟩
    show hydrateR (f + 1) (.array es.length) (flattenElems es ++ rest) = _
    rw [hydrateR, Rsv.bind_of (show Rsv.withCapacity es.length = ⟨[es.length], .ok ()⟩ from rfl), Rsv.bind_of (ih f rest (by omega)), sizes]
    simp [pure]
  · intro fuel rest h
    obtain ⟨f, rfl⟩ : ∃ f, fuel = f + 1 := ⟨fuel - 1, by omega⟩
    rw [flattenEntries]; simp [hydrateEntriesR, sizesEntries]; rfl
  · intro k v es hv hes fuel rest h
    rw [flattenEntries] at h ⊢
    simp at h
    obtain ⟨f, rfl⟩ : ∃ f, fuel = f + 1 := ⟨fuel - 1, by omega⟩
    have h1 := hv f (flattenEntries es ++ rest) (by omega)
    have h2 := hes f rest (by omega)
    simp only [List.length_cons, List.cons_append, List.append_assoc]
    cases hfl : flatten v ++ (flattenEntries es ++ rest) with
    | nil => have h3 := flatten_pos v; have := congrArg List.length hfl; simp at this; rw [this.1] at h3; simp at h3
    | cons n r =>
      rw [hfl] at h1
      rw [hydrateEntriesR]
      have h1 : hydrateR f n r = _ := h1
      rw [Rsv.bind_of h1, sizesEntries]
      simp only []
      rw [Rsv.bind_of h2]
      simp [pure]
  · intro fuel rest h
    obtain ⟨f, rfl⟩ : ∃ f, fuel = f + 1 := ⟨fuel - 1, by omega⟩
    rw [flattenElems]; simp [hydrateValuesR, sizesElems]; rfl
  · intro v es hv hes fuel rest h
    rw [flattenElems] at h ⊢
    simp at h
    have := flatten_pos v
    obtain ⟨f, rfl⟩ : ∃ f, fuel = f + 1 := ⟨fuel - 1, by omega⟩
    have h1 := hv f (flattenElems es ++ rest) (by omega)
    have h2 := hes f rest (by omega)
    simp only [List.length_cons, List.append_assoc]
    cases hfl : flatten v ++ (flattenElems es ++ rest) with
    | nil => have h3 := flatten_pos v; have := congrArg List.length hfl; simp at this; rw [this.1] at h3; simp at h3
    | cons n r =>
      rw [hfl] at h1
      rw [hydrateValuesR]
      have h1 : hydrateR f n r = _ := h1
      rw [Rsv.bind_of h1, sizesElems]
      simp only []
      rw [Rsv.bind_of h2]
      simp [pure]

theorem nextValueR_flatten (v : Value) (rest : List Node) :
    nextValueR (flatten v ++ rest) = ⟨sizes v, .ok (some (v, rest))⟩ := by
  have h := hydrateR_flatten.1 v (nodesFuel (flatten v ++ rest)) rest (by unfold nodesFuel; simp; omega)
  have hp := flatten_pos v
  unfold nextValueR
  cases hf : flatten v ++ rest with
  | nil => have h3 := flatten_pos v; have := congrArg List.length hf; simp at this; simp [this] at h3
  | cons n r =>
    rw [hf] at h
    simp only []
    have h : hydrateR (nodesFuel (n :: r)) n r = _ := h
    rw [Rsv.bind_of h]
    simp [pure]

theorem fromDocumentR_flatten (v : Value) : Value.fromDocumentR (flatten v) = ⟨sizes v, .ok v⟩ := by
  have h := hydrateR_flatten.1 v (nodesFuel (flatten v)) [] (by unfold nodesFuel; omega)
  have hp := flatten_pos v
  rw [List.append_nil] at h
  unfold Value.fromDocumentR
  cases hf : flatten v with
  | nil => have h3 := flatten_pos v; have := congrArg List.length hf; simp at this; simp [this] at h3
  | cons n r =>
    rw [hf] at h
    simp only []
    have h : hydrateR (nodesFuel (n :: r)) n r = _ := h
    rw [Rsv.bind_of h]
    simp [pure]

/-- the elements of all containers are fewer than the nodes -/
theorem sizes_sum :
    (∀ v : Value, (sizes v).sum + 1 ≤ (flatten v).length)
    ∧ (∀ es : Object, (sizesEntries es).sum + 2 * es.length ≤ (flattenEntries es).length)
    ∧ ∀ vs : List Value, (sizesElems vs).sum + vs.length ≤ (flattenElems vs).length := by
  apply Value.induct
  · simp [sizes, flatten]
  · simp [sizes, flatten]
  · simp [sizes, flatten]
  · simp [sizes, flatten]
  · intro es ih; simp [sizes, flatten]; omega
  · intro es ih; simp [sizes, flatten]; omega
  · simp [sizesEntries, flattenEntries]
  · intro k v es hv hes; simp [sizesEntries, flattenEntries]; omega
  · simp [sizesElems, flattenElems]
  · intro v es hv hes; simp [sizesElems, flattenElems]; omega

/-- a part of a value has no more containers than the value -/
theorem at_flatten_le {v u : Value} {i : Nat} (h : At v i u) : i + (flatten u).length ≤ (flatten v).length := by
  obtain ⟨hi, rest, hd⟩ := at_drop h
  have := congrArg List.length hd
  simp at this
  omega

theorem runDocCallsR_res (cs : List DocCall) : ∀ nodes, (runDocCallsR cs nodes).res = runDocCalls cs nodes := by
  induction cs with
  | nil => intro nodes; rfl
  | cons c cs ih =>
    intro nodes
    cases c with
    | next => rw [runDocCallsR, runDocCalls, Rsv.res_bind, ih]; rfl
    | nextValue =>
      rw [runDocCallsR, runDocCalls, Rsv.res_bind, nextValueR_res]
      congr 1
      funext r
      rcases r with _ | ⟨v, rest⟩
      · simp only [Rsv.res_bind, ih]; rfl
      · simp only [Rsv.res_bind, ih]; rfl
    | skipNextValue =>
      rw [runDocCallsR, runDocCalls, Rsv.res_bind]
      show (JustJson.skipNextValue nodes >>= _) = _
      congr 1
      funext r
      rw [Rsv.res_bind, ih]
      rfl

theorem Rsv.asked_bind_ok {α β : Type} {m : Rsv α} {f : α → Rsv β} {a : α} (h : m.res = .ok a) :
    (m >>= f).asked = m.asked ++ (f a).asked := by
  obtain ⟨l, r⟩ := m
  cases h
  rfl

theorem Rsv.asked_bind_pure {α β : Type} (m : Rsv α) (f : α → β) : (m >>= fun a => pure (f a)).asked = m.asked := by
  obtain ⟨l, r⟩ := m
  cases r
  · show l ++ [] = l
    simp
  · rfl

/-- any series of calls asks, in all, for no more than there are nodes left -/
theorem runDocCallsR_sum (v : Value) (cs : List DocCall) :
    ∀ i, ((runDocCallsR cs ((flatten v).drop i)).asked).sum ≤ (flatten v).length - i := by
  induction cs with
  | nil => intro i; simp [runDocCallsR, pure]
  | cons c cs ih =>
    intro i
    cases c with
    | next =>
      rw [runDocCallsR, Rsv.asked_bind_pure]
      have := ih (i + 1)
      have h2 : (docNext ((flatten v).drop i)).2 = (flatten v).drop (i + 1) := by simp [docNext]
      rw [h2]
      omega
    | nextValue =>
      by_cases hi : i < (flatten v).length
      · obtain ⟨u, hu⟩ := at_exists.1 v i hi
        obtain ⟨_, rest, hr⟩ := at_drop hu
        have hdr : (flatten v).drop (i + (flatten u).length) = rest := by rw [← List.drop_drop, hr, List.drop_left]
        have hle := at_flatten_le hu
        have hs := sizes_sum.1 u
        rw [runDocCallsR, hr, Rsv.bind_of (nextValueR_flatten u rest)]
        simp only [Rsv.asked_bind_pure]
        have := ih (i + (flatten u).length)
        rw [hdr] at this
        simp
        omega
      · rw [List.drop_eq_nil_of_le (by omega)]
        have := ih i
        rw [List.drop_eq_nil_of_le (by omega)] at this
        rw [runDocCallsR, Rsv.bind_of (show nextValueR [] = ⟨[], .ok none⟩ from rfl)]
        simp only [Rsv.asked_bind_pure]
        simpa using this
    | skipNextValue =>
      by_cases hi : i < (flatten v).length
      · obtain ⟨u, hu⟩ := at_exists.1 v i hi
        obtain ⟨_, rest, hr⟩ := at_drop hu
        have hdr : (flatten v).drop (i + (flatten u).length) = rest := by rw [← List.drop_drop, hr, List.drop_left]
        have hle := at_flatten_le hu
        rw [runDocCallsR, hr, Rsv.bind_of (show (⟨[], JustJson.skipNextValue (flatten u ++ rest)⟩ : Rsv _) = ⟨[], .ok rest⟩ by
          rw [skip_flatten'])]
        simp only [Rsv.asked_bind_pure]
        have := ih (i + (flatten u).length)
        rw [hdr] at this
        simp
        omega
      · rw [List.drop_eq_nil_of_le (by omega)]
        have := ih i
        rw [List.drop_eq_nil_of_le (by omega)] at this
        rw [runDocCallsR, Rsv.bind_of (show (⟨[], JustJson.skipNextValue []⟩ : Rsv _) = ⟨[], .ok []⟩ from rfl)]
        simp only [Rsv.asked_bind_pure]
        simpa using this

end
end JustJson
