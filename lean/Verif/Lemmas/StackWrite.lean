import Verif.Lemmas.StackNeed
/-! # How much stack writing and reading nodes need -/

namespace JustJson
open Spec

section
variable [Arch]

/-- as `Need`, for a computation without state -/
def NeedR {α : Type} (R : α → Nat → Prop) (mS : Nat → Res α) (m : Res α) : Prop :=
  ∃ n, (∀ stk, mS stk = if n ≤ stk then m else .panic .stack) ∧ ∀ a, m = .ok a → R a n

theorem NeedR.const {α : Type} {R : α → Nat → Prop} {m : Res α} (h : ∀ a, m = .ok a → R a 0) : NeedR R (fun _ => m) m :=
  ⟨0, fun stk => by rw [if_pos (Nat.zero_le _)], h⟩

theorem NeedR.ok {α : Type} {R : α → Nat → Prop} {a : α} (h : R a 0) : NeedR R (fun _ => .ok a) (.ok a) :=
  .const fun _ e => by injection e with e; subst e; exact h

theorem NeedR.panic {α : Type} {R : α → Nat → Prop} {p : Panic} : NeedR R (fun _ => (.panic p : Res α)) (.panic p) :=
  .const fun _ e => by cases e

theorem NeedR.mono {α : Type} {R R' : α → Nat → Prop} {mS : Nat → Res α} {m : Res α} (h : NeedR R mS m) (hr : ∀ a n, R a n → R' a n) :
    NeedR R' mS m := by
  obtain ⟨n, h1, h2⟩ := h
  exact ⟨n, h1, fun a ha => hr a n (h2 a ha)⟩

theorem NeedR.bind {α β : Type} {Q : α → Nat → Prop} {R : β → Nat → Prop} {mS : Nat → Res α} {m : Res α} {fS : Nat → α → Res β} {f : α → Res β}
    (h : NeedR Q mS m) (hf : ∀ a n, Q a n → NeedR (fun b k => R b (max n k)) (fun stk => fS stk a) (f a)) :
    NeedR R (fun stk => mS stk >>= fS stk) (m >>= f) := by
  obtain ⟨n, h1, h2⟩ := h
  cases m with
  | ok a =>
    obtain ⟨k, h3, h4⟩ := hf a n (h2 a rfl)
    refine ⟨max n k, fun stk => ?_, h4⟩
    show (mS stk >>= fS stk) = _
    rw [h1]
    by_cases hn : n ≤ stk
    · rw [if_pos hn]
      show fS stk a = if _ then f a else _
      have h3 : fS stk a = _ := h3 stk
      rw [h3]
      by_cases hk : k ≤ stk
      · rw [if_pos hk, if_pos (by omega)]
      · rw [if_neg hk, if_neg (by omega)]
    · rw [if_neg hn, if_neg (by omega)]; rfl
  | panic p =>
    refine ⟨n, fun stk => ?_, fun b hb => by cases hb⟩
    show (mS stk >>= fS stk) = _
    rw [h1]
    by_cases hn : n ≤ stk
    · rw [if_pos hn, if_pos hn]; rfl
    · rw [if_neg hn, if_neg hn]; rfl

theorem NeedR.call {α : Type} {R : α → Nat → Prop} {mS bS : Nat → Res α} {m : Res α} (h : NeedR (fun a n => R a (n + 1)) bS m)
    (h0 : mS 0 = .panic .stack) (h1 : ∀ stk, mS (stk + 1) = bS stk) : NeedR R mS m := by
  obtain ⟨n, h2, h3⟩ := h
  refine ⟨n + 1, fun stk => ?_, h3⟩
  cases stk with
  | zero => rw [h0, if_neg (by omega)]
  | succ stk =>
    rw [h1, h2]
    by_cases hn : n ≤ stk
    · rw [if_pos hn, if_pos (by omega)]
    · rw [if_neg hn, if_neg (by omega)]

theorem hydrate_need : ∀ fuel,
    (∀ node rest, NeedR (fun r n => r.1.height = n) (fun stk => hydrateS fuel stk node rest) (hydrate fuel node rest))
    ∧ (∀ len rest, NeedR (fun r n => Value.heightEntries r.1 = n) (fun stk => hydrateEntriesS fuel stk len rest) (hydrateEntries fuel len rest))
    ∧ (∀ len rest, NeedR (fun r n => Value.heightList r.1 = n) (fun stk => hydrateValuesS fuel stk len rest) (hydrateValues fuel len rest)) := by
  intro fuel
  induction fuel with
  | zero =>
    refine ⟨fun node rest => ?_, fun len rest => ?_, fun len rest => ?_⟩
    · simp only [hydrateS, hydrate]; exact .panic
    · simp only [hydrateEntriesS, hydrateEntries]; exact .panic
    · simp only [hydrateValuesS, hydrateValues]; exact .panic
  | succ fuel ih =>
    obtain ⟨iH, iE, iV⟩ := ih
    refine ⟨fun node rest => ?_, fun len rest => ?_, fun len rest => ?_⟩
    · cases node with
      | null => exact NeedR.call (bS := fun _ => .ok (.null, rest)) (by rw [hydrate]; exact .ok rfl) (by rw [hydrateS]) (fun _ => by rw [hydrateS])
      | boolean b => exact NeedR.call (bS := fun _ => .ok (.boolean b, rest)) (by rw [hydrate]; exact .ok rfl) (by rw [hydrateS]) (fun _ => by rw [hydrateS])
      | string b => exact NeedR.call (bS := fun _ => .ok (.string b, rest)) (by rw [hydrate]; exact .ok rfl) (by rw [hydrateS]) (fun _ => by rw [hydrateS])
      | number b => exact NeedR.call (bS := fun _ => .ok (.number b, rest)) (by rw [hydrate]; exact .ok rfl) (by rw [hydrateS]) (fun _ => by rw [hydrateS])
      | object len =>
        refine NeedR.call (bS := fun stk => (do
          let (es, rest) ← hydrateEntriesS fuel stk len rest
          return (.object es, rest))) ?_ (by rw [hydrateS]) (fun _ => by rw [hydrateS])
        rw [hydrate]
        refine NeedR.bind (iE len rest) fun r n hr => ?_
        obtain ⟨es, rest'⟩ := r
        refine NeedR.ok ?_
        show (Value.object es).height = max n 0 + 1
        have hr : Value.heightEntries es = n := hr
        rw [Value.height, hr]; omega
      | array len =>
        refine NeedR.call (bS := fun stk => (do
          let (es, rest) ← hydrateValuesS fuel stk len rest
          return (.array es, rest))) ?_ (by rw [hydrateS]) (fun _ => by rw [hydrateS])
        rw [hydrate]
        refine NeedR.bind (iV len rest) fun r n hr => ?_
        obtain ⟨es, rest'⟩ := r
        refine NeedR.ok ?_
        show (Value.array es).height = max n 0 + 1
        have hr : Value.heightList es = n := hr
        rw [Value.height, hr]; omega
    · cases len with
      | zero => simp only [hydrateEntriesS, hydrateEntries]; exact .ok rfl
      | succ len =>
        cases rest with
        | nil => simp only [hydrateEntriesS, hydrateEntries]; exact .panic
        | cons node rest =>
          cases node with
          | string key =>
            cases rest with
            | nil => simp only [hydrateEntriesS, hydrateEntries]; exact .panic
            | cons node rest =>
              simp only [hydrateEntriesS, hydrateEntries]
              refine NeedR.bind (iH node rest) fun r n hr => ?_
              obtain ⟨v, rest1⟩ := r
              refine NeedR.bind (iE len rest1) fun r k hk => ?_
              obtain ⟨es, rest2⟩ := r
              refine NeedR.ok ?_
              show Value.heightEntries ((key, v) :: es) = max n (max k 0)
              have hr : v.height = n := hr
              have hk : Value.heightEntries es = k := hk
              rw [Value.heightEntries, hr, hk]; omega
          | _ => simp only [hydrateEntriesS, hydrateEntries]; exact .panic
    · cases len with
      | zero => simp only [hydrateValuesS, hydrateValues]; exact .ok rfl
      | succ len =>
        cases rest with
        | nil => simp only [hydrateValuesS, hydrateValues]; exact .panic
        | cons node rest =>
          simp only [hydrateValuesS, hydrateValues]
          refine NeedR.bind (iH node rest) fun r n hr => ?_
          obtain ⟨v, rest1⟩ := r
          refine NeedR.bind (iV len rest1) fun r k hk => ?_
          obtain ⟨es, rest2⟩ := r
          refine NeedR.ok ?_
          show Value.heightList (v :: es) = max n (max k 0)
          have hr : v.height = n := hr
          have hk : Value.heightList es = k := hk
          rw [Value.heightList, hr, hk]; omega

/-- the values are read off in a way that needs their height -/
theorem fromDocument_need (doc : Document) : NeedR (fun v n => doc ≠ [] ∧ v.height = n) (fun stk => Value.fromDocumentS stk doc) (Value.fromDocument doc) := by
  cases doc with
  | nil => exact .panic
  | cons root nodes =>
    refine NeedR.bind ((hydrate_need _).1 root nodes) fun r n hr => ?_
    obtain ⟨v, rest⟩ := r
    refine NeedR.ok ⟨by simp, ?_⟩
    rw [Nat.max_zero]; exact hr

theorem height_pos (v : Value) : 1 ≤ v.height := by cases v <;> simp [Value.height] <;> omega

theorem skip_need :
    (∀ v : Value, ∀ fuel rest, 2 * (flatten v).length ≤ fuel →
        ∀ stk, skipValueS fuel stk (flatten v ++ rest) = if v.height ≤ stk then .ok rest else .panic .stack)
    ∧ (∀ es : Object, ∀ fuel rest, 2 * (flattenEntries es).length + 1 ≤ fuel →
        ∀ stk, skipNS fuel stk (2 * es.length) (flattenEntries es ++ rest) = if Value.heightEntries es ≤ stk then .ok rest else .panic .stack)
    ∧ ∀ vs : List Value, ∀ fuel rest, 2 * (flattenElems vs).length + 1 ≤ fuel →
        ∀ stk, skipNS fuel stk vs.length (flattenElems vs ++ rest) = if Value.heightList vs ≤ stk then .ok rest else .panic .stack := by
  have scalar : ∀ (node : Node) (fuel : Nat) (rest : List Node) (stk : Nat), (node = .null ∨ (∃ b, node = .boolean b) ∨ (∃ b, node = .string b) ∨ ∃ b, node = .number b) →
      2 ≤ fuel → skipValueS fuel stk (node :: rest) = if 1 ≤ stk then .ok rest else .panic .stack := by
    intro node fuel rest stk hn hf
    obtain ⟨f, rfl⟩ : ∃ f, fuel = f + 1 := ⟨fuel - 1, by omega⟩
    cases stk with
    | zero => rw [skipValueS, if_neg (by omega)]
    | succ stk =>
      rw [if_pos (by omega)]
      rcases hn with rfl | ⟨b, rfl⟩ | ⟨b, rfl⟩ | ⟨b, rfl⟩ <;> rw [skipValueS]
  apply Value.induct
  · intro fuel rest h stk
    rw [flatten] at h ⊢
    exact scalar _ _ _ _ (.inl rfl) h
  · intro b fuel rest h stk
    rw [flatten] at h ⊢
    exact scalar _ _ _ _ (.inr (.inl ⟨b, rfl⟩)) h
  · intro b fuel rest h stk
    rw [flatten] at h ⊢
    exact scalar _ _ _ _ (by first | exact .inr (.inr (.inl ⟨b, rfl⟩)) | exact .inr (.inr (.inr ⟨b, rfl⟩))) h
  · intro b fuel rest h stk
    rw [flatten] at h ⊢
    exact scalar _ _ _ _ (by first | exact .inr (.inr (.inl ⟨b, rfl⟩)) | exact .inr (.inr (.inr ⟨b, rfl⟩))) h
  · intro es ih fuel rest h stk
    rw [flatten] at h ⊢
    simp at h
    obtain ⟨f, rfl⟩ : ∃ f, fuel = f + 1 := ⟨fuel - 1, by omega⟩
    show skipValueS (f + 1) stk (.object es.length :: (flattenEntries es ++ rest)) = _
    rw [Value.height]
    cases stk with
    | zero => rw [skipValueS, if_neg (by omega)]
    | succ stk =>
      rw [skipValueS, ih f rest (by omega) stk]
      by_cases hh : Value.heightEntries es ≤ stk
      · rw [if_pos hh, if_pos (by omega)]
      · rw [if_neg hh, if_neg (by omega)]
  · intro es ih fuel rest h stk
    rw [flatten] at h ⊢
    simp at h
    obtain ⟨f, rfl⟩ : ∃ f, fuel = f + 1 := ⟨fuel - 1, by omega⟩
    show skipValueS (f + 1) stk (.array es.length :: (flattenElems es ++ rest)) = _
    rw [Value.height]
    cases stk with
    | zero => rw [skipValueS, if_neg (by omega)]
    | succ stk =>
      rw [skipValueS, ih f rest (by omega) stk]
      by_cases hh : Value.heightList es ≤ stk
      · rw [if_pos hh, if_pos (by omega)]
      · rw [if_neg hh, if_neg (by omega)]
  · intro fuel rest h stk
    obtain ⟨f, rfl⟩ : ∃ f, fuel = f + 1 := ⟨fuel - 1, by omega⟩
    rw [flattenEntries]; simp [skipNS, Value.heightEntries]
  · intro k v es hv hes fuel rest h stk
    rw [flattenEntries] at h ⊢
    simp at h
    have := flatten_pos v
    obtain ⟨f, rfl⟩ : ∃ f, fuel = f + 3 := ⟨fuel - 3, by omega⟩
    have h1 := hv (f + 1) (flattenEntries es ++ rest) (by omega) stk
    have h2 := hes (f + 1) rest (by omega) stk
    simp only [List.length_cons, List.cons_append, List.append_assoc]
    rw [show 2 * (es.length + 1) = 2 * es.length + 1 + 1 by omega, skipNS, Value.heightEntries]
    have h0 := scalar (Node.string k) (f + 2) (flatten v ++ (flattenEntries es ++ rest)) stk (.inr (.inr (.inl ⟨k, rfl⟩))) (by omega)
    have hp := height_pos v
    by_cases hs : v.height ≤ stk
    · rw [if_pos (by omega)] at h0
      rw [if_pos hs] at h1
      rw [Res.bind_of h0, skipNS, Res.bind_of h1, h2]
      by_cases hh : Value.heightEntries es ≤ stk
      · rw [if_pos hh, if_pos (by omega)]
      · rw [if_neg hh, if_neg (by omega)]
    · rw [if_neg hs] at h1
      rw [if_neg (by omega), h0]
      by_cases hs1 : 1 ≤ stk
      · rw [if_pos hs1]
        show skipNS (f + 2) stk (2 * es.length + 1) _ = _
        rw [skipNS, h1]; rfl
      · rw [if_neg hs1]; rfl
  · intro fuel rest h stk
    obtain ⟨f, rfl⟩ : ∃ f, fuel = f + 1 := ⟨fuel - 1, by omega⟩
    rw [flattenElems]; simp [skipNS, Value.heightList]
  · intro v es hv hes fuel rest h stk
    rw [flattenElems] at h ⊢
    simp at h
    have := flatten_pos v
    obtain ⟨f, rfl⟩ : ∃ f, fuel = f + 1 := ⟨fuel - 1, by omega⟩
    have h1 := hv f (flattenElems es ++ rest) (by omega) stk
    have h2 := hes f rest (by omega) stk
    simp only [List.length_cons, List.append_assoc]
    rw [skipNS, Value.heightList]
    by_cases hs : v.height ≤ stk
    · rw [if_pos hs] at h1
      rw [Res.bind_of h1, h2]
      by_cases hh : Value.heightList es ≤ stk
      · rw [if_pos hh, if_pos (by omega)]
      · rw [if_neg hh, if_neg (by omega)]
    · rw [if_neg hs] at h1
      rw [if_neg (by omega), h1]; rfl

section
variable {F : Writer} {pretty : Bool} {indent lineEnding : Str}

theorem write_need :
    (∀ v : Value, ∀ s, Need (fun _ n => v.height = n) (fun stk => writeValueS F pretty indent lineEnding stk v)
        (writeValue F pretty indent lineEnding v) s)
    ∧ (∀ es : Object, ∀ len i s, Need (fun _ n => Value.heightEntries es = n) (fun stk => writeEntriesS F pretty indent lineEnding stk len i es)
        (writeEntries F pretty indent lineEnding len i es) s)
    ∧ ∀ vs : List Value, ∀ len i s, Need (fun _ n => Value.heightList vs = n) (fun stk => writeValuesS F pretty indent lineEnding stk len i vs)
        (writeValues F pretty indent lineEnding len i vs) s := by
  apply Value.induct
  · intro s
    exact Need.call (bS := fun _ => wWrite F pretty indent ['n', 'u', 'l', 'l']) (by rw [writeValue]; exact .const fun _ _ _ => rfl)
      (by rw [writeValueS]; rfl) (fun _ => by rw [writeValueS])
  · intro b s
    exact Need.call (bS := fun _ => wWrite F pretty indent (if b then ['t', 'r', 'u', 'e'] else ['f', 'a', 'l', 's', 'e']))
      (by rw [writeValue]; exact .const fun _ _ _ => rfl)
      (by rw [writeValueS]; rfl) (fun _ => by rw [writeValueS])
  · intro n s
    first
    | exact Need.call (bS := fun _ => wWrite F pretty indent n.sourceStr) (by rw [writeValue]; exact .const fun _ _ _ => rfl)
        (by rw [writeValueS]; rfl) (fun _ => by rw [writeValueS])
    | exact Need.call (bS := fun _ => wWriteJson F pretty indent n) (by rw [writeValue]; exact .const fun _ _ _ => rfl)
        (by rw [writeValueS]; rfl) (fun _ => by rw [writeValueS])
  · intro n s
    first
    | exact Need.call (bS := fun _ => wWrite F pretty indent n.sourceStr) (by rw [writeValue]; exact .const fun _ _ _ => rfl)
        (by rw [writeValueS]; rfl) (fun _ => by rw [writeValueS])
    | exact Need.call (bS := fun _ => wWriteJson F pretty indent n) (by rw [writeValue]; exact .const fun _ _ _ => rfl)
        (by rw [writeValueS]; rfl) (fun _ => by rw [writeValueS])
  · intro es ih s
    refine Need.call (bS := fun stk => (do
      wBegin F pretty indent ['{']
      if es.isEmpty then M.pure () else do
        wNewLine F pretty indent lineEnding
        writeEntriesS F pretty indent lineEnding stk es.length 0 es
      wEnd F pretty indent ['}'])) ?_ (by rw [writeValueS]; rfl) (fun _ => by rw [writeValueS])
    rw [writeValue]
    refine Need.step fun _ s1 _ => ?_
    cases es with
    | nil =>
      refine Need.const fun _ _ _ => ?_
      rw [Value.height, Value.heightEntries]
    | cons e es =>
      show Need _ (fun stk => wNewLine F pretty indent lineEnding >>= fun _ => (writeEntriesS F pretty indent lineEnding stk (e :: es).length 0 (e :: es)
        >>= fun _ => wEnd F pretty indent ['}'])) (wNewLine F pretty indent lineEnding >>= fun _ => (writeEntries F pretty indent lineEnding (e :: es).length 0 (e :: es)
        >>= fun _ => wEnd F pretty indent ['}'])) s1
      refine Need.step fun _ s2 _ => ?_
      refine Need.bind (ih _ _ _) fun _ s3 n hn => Need.const fun _ _ _ => ?_
      rw [Value.height, hn]; omega
  · intro es ih s
    refine Need.call (bS := fun stk => (do
      wBegin F pretty indent ['[']
      if es.isEmpty then M.pure () else do
        wNewLine F pretty indent lineEnding
        writeValuesS F pretty indent lineEnding stk es.length 0 es
      wEnd F pretty indent [']'])) ?_ (by rw [writeValueS]; rfl) (fun _ => by rw [writeValueS])
    rw [writeValue]
    refine Need.step fun _ s1 _ => ?_
    cases es with
    | nil =>
      refine Need.const fun _ _ _ => ?_
      rw [Value.height, Value.heightList]
    | cons e es =>
      show Need _ (fun stk => wNewLine F pretty indent lineEnding >>= fun _ => (writeValuesS F pretty indent lineEnding stk (e :: es).length 0 (e :: es)
        >>= fun _ => wEnd F pretty indent [']'])) (wNewLine F pretty indent lineEnding >>= fun _ => (writeValues F pretty indent lineEnding (e :: es).length 0 (e :: es)
        >>= fun _ => wEnd F pretty indent [']'])) s1
      refine Need.step fun _ s2 _ => ?_
      refine Need.bind (ih _ _ _) fun _ s3 n hn => Need.const fun _ _ _ => ?_
      rw [Value.height, hn]; omega
  · intro len i s
    simp only [writeEntriesS, writeEntries]
    exact .const fun _ _ _ => rfl
  · intro k v es hv hes len i s
    simp only [writeEntriesS, writeEntries]
    refine Need.step fun _ s1 _ => ?_
    refine Need.step fun _ s2 _ => ?_
    refine Need.bind (hv s2) fun _ s3 n hn => ?_
    have tail : ∀ s, Need (fun _ m => Value.heightEntries ((k, v) :: es) = max n m)
        (fun stk => wNewLine F pretty indent lineEnding >>= fun _ => writeEntriesS F pretty indent lineEnding stk len (i + 1) es)
        (wNewLine F pretty indent lineEnding >>= fun _ => writeEntries F pretty indent lineEnding len (i + 1) es) s := by
      intro s
      refine Need.step fun _ s5 _ => (hes len (i + 1) s5).mono fun _ m hm => ?_
      rw [Value.heightEntries, hn, hm]
    by_cases hi : i ≠ len - 1
    · rw [if_pos hi]; simp only [if_pos hi]
      exact Need.step fun _ s4 _ => tail s4
    · rw [if_neg hi]; simp only [if_neg hi]
      exact tail s3
  · intro len i s
    simp only [writeValuesS, writeValues]
    exact .const fun _ _ _ => rfl
  · intro v es hv hes len i s
    simp only [writeValuesS, writeValues]
    refine Need.bind (hv s) fun _ s3 n hn => ?_
    have tail : ∀ s, Need (fun _ m => Value.heightList (v :: es) = max n m)
        (fun stk => wNewLine F pretty indent lineEnding >>= fun _ => writeValuesS F pretty indent lineEnding stk len (i + 1) es)
        (wNewLine F pretty indent lineEnding >>= fun _ => writeValues F pretty indent lineEnding len (i + 1) es) s := by
      intro s
      refine Need.step fun _ s5 _ => (hes len (i + 1) s5).mono fun _ m hm => ?_
      rw [Value.heightList, hn, hm]
    by_cases hi : i ≠ len - 1
    · rw [if_pos hi]; simp only [if_pos hi]
      exact Need.step fun _ s4 _ => tail s4
    · rw [if_neg hi]; simp only [if_neg hi]
      exact tail s3

theorem write_room :
    (∀ v : Value, ∀ stk, v.height ≤ stk → writeValueS F pretty indent lineEnding stk v = writeValue F pretty indent lineEnding v)
    ∧ (∀ es : Object, ∀ stk len i, Value.heightEntries es ≤ stk →
        writeEntriesS F pretty indent lineEnding stk len i es = writeEntries F pretty indent lineEnding len i es)
    ∧ ∀ vs : List Value, ∀ stk len i, Value.heightList vs ≤ stk →
        writeValuesS F pretty indent lineEnding stk len i vs = writeValues F pretty indent lineEnding len i vs := by
  have pos : ∀ {v : Value} {stk : Nat}, v.height ≤ stk → ∃ k, stk = k + 1 := fun {v stk} h =>
    ⟨stk - 1, by have := height_pos v; omega⟩
  apply Value.induct
  · intro stk h; obtain ⟨k, rfl⟩ := pos h; rw [writeValueS, writeValue]
  · intro b stk h; obtain ⟨k, rfl⟩ := pos h; rw [writeValueS, writeValue]
  · intro b stk h; obtain ⟨k, rfl⟩ := pos h; rw [writeValueS, writeValue]
  · intro b stk h; obtain ⟨k, rfl⟩ := pos h; rw [writeValueS, writeValue]
  · intro es ih stk h
    obtain ⟨k, rfl⟩ := pos h
    rw [Value.height] at h
    rw [writeValueS, writeValue, ih k _ _ (by omega)]
  · intro es ih stk h
    obtain ⟨k, rfl⟩ := pos h
    rw [Value.height] at h
    rw [writeValueS, writeValue, ih k _ _ (by omega)]
  · intro stk len i h; rw [writeEntriesS, writeEntries]
  · intro k v es hv hes stk len i h
    rw [Value.heightEntries] at h
    rw [writeEntriesS, writeEntries, hv stk (by omega), hes stk _ _ (by omega)]
  · intro stk len i h; rw [writeValuesS, writeValues]
  · intro v es hv hes stk len i h
    rw [Value.heightList] at h
    rw [writeValuesS, writeValues, hv stk (by omega), hes stk _ _ (by omega)]

end
end
end JustJson
