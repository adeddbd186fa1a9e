import Verif.Lemmas.Parse
import Verif.Spec.Doc
/-! # The built-in delegates: their folds -/

namespace JustJson
open Spec

set_option linter.unusedSectionVars false

section
variable [Arch]

/-! ## Induction over values -/

theorem Value.induct {P : Value → Prop} {Q : Object → Prop} {R : List Value → Prop}
    (null : P .null) (boolean : ∀ b, P (.boolean b)) (number : ∀ n, P (.number n)) (string : ∀ s, P (.string s))
    (object : ∀ es, Q es → P (.object es)) (array : ∀ vs, R vs → P (.array vs))
    (onil : Q []) (ocons : ∀ k v es, P v → Q es → Q ((k, v) :: es))
    (anil : R []) (acons : ∀ v vs, P v → R vs → R (v :: vs)) :
    (∀ v, P v) ∧ (∀ es, Q es) ∧ ∀ vs, R vs := by
  have h : ∀ v, P v := by
    intro v
    refine Value.rec (motive_1 := P) (motive_2 := Q) (motive_3 := R) (motive_4 := fun e => P e.2)
      number string boolean object array null onil ?_ anil acons ?_ v
    · rintro ⟨k, v⟩ es h1 h2; exact ocons k v es h1 h2
    · intro k v h; exact h
  refine ⟨h, ?_, ?_⟩
  · intro es
    induction es with
    | nil => exact onil
    | cons e es ih => exact ocons e.1 e.2 es (h _) ih
  · intro vs
    induction vs with
    | nil => exact anil
    | cons v vs ih => exact acons v vs (h _) ih

/-! ## `()` -/

theorem unit_fold :
    (∀ v : Value, ∀ d, foldValue unitDelegate v d = .ok v.kind d)
    ∧ (∀ es : Object, ∀ n d, foldEntries unitDelegate es n d = .ok (n + es.length) d)
    ∧ ∀ vs : List Value, ∀ n d, foldElems unitDelegate vs n d = .ok (n + vs.length) d := by
  apply Value.induct
  · intro d; rfl
  · intro b d; rfl
  · intro b d; rfl
  · intro b d; rfl
  · intro es ih d
    rw [foldValue]
    refine (M.bind_ok (a := (0 : Nat)) (s' := d) rfl).trans ?_
    exact (M.bind_ok (ih _ _)).trans rfl
  · intro es ih d
    rw [foldValue]
    refine (M.bind_ok (a := (0 : Nat)) (s' := d) rfl).trans ?_
    exact (M.bind_ok (ih _ _)).trans rfl
  · intro n d; rfl
  · intro k v es h1 h2 n d
    rw [foldEntries]
    refine (M.bind_ok (a := (n, ())) (s' := d) rfl).trans ?_
    refine (M.bind_ok (h1 _)).trans ?_
    refine (M.bind_ok (a := n + 1) (s' := d) rfl).trans ?_
    rw [h2, List.length_cons]
    have e : ∀ n : Nat, n + 1 + es.length = n + (es.length + 1) := by intro n; omega
    exact congrArg (Out.ok · d) (e n)
  · intro n d; rfl
  · intro v es h1 h2 n d
    rw [foldElems]
    refine (M.bind_ok (h1 _)).trans ?_
    refine (M.bind_ok (a := n + 1) (s' := d) rfl).trans ?_
    rw [h2, List.length_cons]
    have e : ∀ n : Nat, n + 1 + es.length = n + (es.length + 1) := by intro n; omega
    exact congrArg (Out.ok · d) (e n)

theorem unit_truthful : Truthful unitDelegate := by
  constructor
  · intro es d0 o0 d1 o d2 h1 h2
    have h1 : Out.ok (0 : Nat) d0 = .ok o0 d1 := h1
    rw [unit_fold.2.1] at h2
    cases h1
    cases h2
    cases es <;> simp
  · intro es d0 o0 d1 o d2 h1 h2
    have h1 : Out.ok (0 : Nat) d0 = .ok o0 d1 := h1
    rw [unit_fold.2.2] at h2
    cases h1
    cases h2
    cases es <;> simp

theorem unit_kind : KindTruthful unitDelegate := by
  intro v d a d' h
  rw [unit_fold.1] at h
  cases h
  rfl

/-! ## `ValueParser` -/

theorem value_fold :
    (∀ v : Value, ∀ d, foldValue valueParser v d = .ok v d)
    ∧ (∀ es : Object, ∀ o d, foldEntries valueParser es o d = .ok (o ++ es) d)
    ∧ ∀ vs : List Value, ∀ a d, foldElems valueParser vs a d = .ok (a ++ vs) d := by
  apply Value.induct
  · intro d; rfl
  · intro b d; rfl
  · intro b d; rfl
  · intro b d; rfl
  · intro es ih d
    rw [foldValue]
    refine (M.bind_ok (a := ([] : Object)) (s' := d) rfl).trans ?_
    exact (M.bind_ok (ih _ _)).trans rfl
  · intro es ih d
    rw [foldValue]
    refine (M.bind_ok (a := ([] : List Value)) (s' := d) rfl).trans ?_
    exact (M.bind_ok (ih _ _)).trans rfl
  · intro o d; simp [foldEntries, M.pure]
  · intro k v es h1 h2 o d
    rw [foldEntries]
    refine (M.bind_ok (a := (o, k)) (s' := d) rfl).trans ?_
    refine (M.bind_ok (h1 _)).trans ?_
    refine (M.bind_ok (a := o ++ [(k, v)]) (s' := d) rfl).trans ?_
    rw [h2]
    simp
  · intro n d; simp [foldElems, M.pure]
  · intro v es h1 h2 o d
    rw [foldElems]
    refine (M.bind_ok (h1 _)).trans ?_
    refine (M.bind_ok (a := o ++ [v]) (s' := d) rfl).trans ?_
    rw [h2]
    simp

/-! ## `&mut Nodes` -/

variable {cap : Option Nat}

/-- Result of running node callbacks that should end in the nodes `ns`. -/
def NRes {α : Type} (cap : Option Nat) (out : Out (List Node) (ErrorKind Empty) α) (a : α) (ns : List Node) : Prop :=
  (CapOk cap ns.length ∧ out = .ok a ns)
  ∨ (¬ CapOk cap ns.length ∧ ∃ ns', out = .err .paylodTooLarge ns' ∧ CapOk cap ns'.length)

theorem CapOk.mono {a b : Nat} (h : CapOk cap b) (hab : a ≤ b) : CapOk cap a := fun N hN => by
  have := h N hN; omega

theorem NRes.bind {α β : Type} {m : M (List Node) (ErrorKind Empty) α} {f : α → M (List Node) (ErrorKind Empty) β}
    {s s1 s2 : List Node} {a : α} {b : β} (h1 : NRes cap (m s) a s1) (hle : s1.length ≤ s2.length)
    (h2 : CapOk cap s1.length → NRes cap (f a s1) b s2) : NRes cap ((m >>= f) s) b s2 := by
  rcases h1 with ⟨hc, h1⟩ | ⟨hc, ns', h1, h3⟩
  · rw [M.bind_ok h1]; exact h2 hc
  · exact .inr ⟨fun h => hc (h.mono hle), ns', M.bind_err h1, h3⟩

theorem nres_push (n : Node) {ns : List Node} (h : CapOk cap ns.length) :
    NRes cap (pushNode cap n ns) ns.length (ns ++ [n]) := by
  unfold NRes pushNode pushNodeC
  cases cap with
  | none => exact .inl ⟨fun N h => by simp at h, rfl⟩
  | some N =>
    simp only []
    by_cases hN : ns.length < N
    · rw [if_pos hN]
      exact .inl ⟨fun M h => by simp at h; subst h; simp; omega, rfl⟩
    · rw [if_neg hN]
      refine .inr ⟨fun h' => ?_, ns, rfl, h⟩
      have := h' N rfl
      simp at this; omega

theorem NRes.ok {α : Type} {a : α} {ns : List Node} (h : CapOk cap ns.length) : NRes cap (.ok a ns) a ns :=
  .inl ⟨h, rfl⟩

theorem extendObject_eq {pre post : List Node} {n : Nat} :
    extendObject pre.length (pre ++ .object n :: post) = .ok () (pre ++ .object (n + 1) :: post) := by
  unfold extendObject
  simp

theorem extendArray_eq {pre post : List Node} {n : Nat} :
    extendArray pre.length (pre ++ .array n :: post) = .ok () (pre ++ .array (n + 1) :: post) := by
  unfold extendArray
  simp

theorem nodes_fold :
    (∀ v : Value, ∀ ns, CapOk cap ns.length →
      NRes cap (foldValue (nodesDelegate cap) v ns) ns.length (ns ++ flatten v))
    ∧ (∀ es : Object, ∀ pre post n, CapOk cap (pre ++ .object n :: post).length →
      NRes cap (foldEntries (nodesDelegate cap) es pre.length (pre ++ .object n :: post)) pre.length
        (pre ++ .object (n + es.length) :: (post ++ flattenEntries es)))
    ∧ ∀ vs : List Value, ∀ pre post n, CapOk cap (pre ++ .array n :: post).length →
      NRes cap (foldElems (nodesDelegate cap) vs pre.length (pre ++ .array n :: post)) pre.length
        (pre ++ .array (n + vs.length) :: (post ++ flattenElems vs)) := by
  apply Value.induct
  · intro ns h; exact nres_push _ h
  · intro b ns h; exact nres_push _ h
  · intro b ns h; exact nres_push _ h
  · intro b ns h; exact nres_push _ h
  · intro es ih ns h
    rw [foldValue]
    refine NRes.bind (nres_push (.object 0) h) (by simp [flatten]) ?_
    intro h1
    have := ih ns [] 0 h1
    rw [Nat.zero_add, List.nil_append] at this
    refine NRes.bind this (by simp [flatten]) ?_
    intro h2
    exact NRes.ok h2
  · intro es ih ns h
    rw [foldValue]
    refine NRes.bind (nres_push (.array 0) h) (by simp [flatten]) ?_
    intro h1
    have := ih ns [] 0 h1
    rw [Nat.zero_add, List.nil_append] at this
    refine NRes.bind this (by simp [flatten]) ?_
    intro h2
    exact NRes.ok h2
  · intro pre post n h
    simpa [foldEntries, flattenEntries, M.pure] using NRes.ok h
  · intro k v es h1 h2 pre post n h
    rw [foldEntries]
    refine NRes.bind (a := (pre.length, ())) (s1 := pre ++ .object (n + 1) :: (post ++ [.string k])) ?_ ?_ ?_
    · show NRes cap ((extendObject pre.length >>= fun _ => pushNode cap (.string k) >>= fun _ =>
        (M.pure (pre.length, ()) : M (List Node) (ErrorKind Empty) (Nat × Unit))) _) _ _
      rw [M.bind_ok extendObject_eq]
      have hp := nres_push (cap := cap) (.string k) (ns := pre ++ .object (n + 1) :: post) (by simpa using h)
      refine NRes.bind hp (by simp) ?_
      intro h3
      have := NRes.ok (a := (pre.length, ())) h3
      simpa [M.pure] using this
    · simp [flattenEntries]
    intro h3
    refine NRes.bind (h1 _ h3) (by simp [flattenEntries]) ?_
    intro h4
    refine (M.bind_ok (a := pre.length) (s' := _) rfl) ▸ ?_
    have h5 : CapOk cap (pre ++ Node.object (n + 1) :: (post ++ [Node.string k] ++ flatten v)).length := by
      simpa using h4
    have := h2 pre (post ++ [.string k] ++ flatten v) (n + 1) h5
    have e1 : pre ++ Node.object (n + 1) :: (post ++ [Node.string k]) ++ flatten v
      = pre ++ Node.object (n + 1) :: (post ++ [Node.string k] ++ flatten v) := by simp
    have e2 : n + ((k, v) :: es).length = n + 1 + es.length := by simp; omega
    rw [e1, e2]
    simpa [flattenEntries] using this
  · intro pre post n h
    simpa [foldElems, flattenElems, M.pure] using NRes.ok h
  · intro v es h1 h2 pre post n h
    rw [foldElems]
    refine NRes.bind (h1 _ h) (by simp [flattenElems]) ?_
    intro h4
    have e1 : pre ++ Node.array n :: post ++ flatten v = pre ++ .array n :: (post ++ flatten v) := by simp
    rw [e1]
    have hb : (nodesDelegate cap).arrayValue pre.length (pre ++ Node.array n :: post).length
        (pre ++ .array n :: (post ++ flatten v)) = .ok pre.length (pre ++ .array (n + 1) :: (post ++ flatten v)) := by
      show (extendArray pre.length >>= fun _ => _) _ = _
      rw [M.bind_ok extendArray_eq]
      rfl
    refine (M.bind_ok hb) ▸ ?_
    have h5 : CapOk cap (pre ++ .array (n + 1) :: (post ++ flatten v)).length := by
      simpa using h4
    have := h2 pre (post ++ flatten v) (n + 1) h5
    have e2 : n + (v :: es).length = n + 1 + es.length := by simp; omega
    rw [e2]
    simpa [flattenElems] using this

theorem capOk_of_push {n : Node} {ns ns' : List Node} {i : Nat} (h : pushNode cap n ns = .ok i ns') :
    CapOk cap ns.length ∧ i = ns.length ∧ ns' = ns ++ [n] := by
  unfold pushNode pushNodeC at h
  cases cap with
  | none => cases h; exact ⟨fun N h => by simp at h, rfl, rfl⟩
  | some N =>
    simp only [] at h
    by_cases hN : ns.length < N
    · rw [if_pos hN] at h
      cases h
      exact ⟨fun M h => by simp at h; omega, rfl, rfl⟩
    · rw [if_neg hN] at h
      cases h

theorem NRes.of_ok {α : Type} {out : Out (List Node) (ErrorKind Empty) α} {a b : α} {ns ns' : List Node}
    (h : NRes cap out a ns) (ho : out = .ok b ns') : b = a ∧ ns' = ns := by
  subst ho
  rcases h with ⟨_, h⟩ | ⟨_, _, h, _⟩
  · cases h; exact ⟨rfl, rfl⟩
  · cases h

theorem bind_ok_inv {σ ε α β : Type} {m : M σ ε α} {f : α → M σ ε β} {s s' : σ} {b : β}
    (h : (m >>= f) s = .ok b s') : ∃ a s1, m s = .ok a s1 ∧ f a s1 = .ok b s' := by
  rw [M.bind_eq] at h
  cases hm : m s with
  | ok a s1 => rw [hm] at h; exact ⟨a, s1, rfl, h⟩
  | err e s1 => rw [hm] at h; cases h
  | panic p => rw [hm] at h; cases h

theorem nodes_capOk {v : Value} {ns ns' : List Node} {a : Nat}
    (h : foldValue (nodesDelegate cap) v ns = .ok a ns') : CapOk cap ns.length := by
  cases v with
  | object es =>
    rw [foldValue] at h
    obtain ⟨_, _, h, _⟩ := bind_ok_inv h
    exact (capOk_of_push h).1
  | array es =>
    rw [foldValue] at h
    obtain ⟨_, _, h, _⟩ := bind_ok_inv h
    exact (capOk_of_push h).1
  | _ => exact (capOk_of_push h).1

theorem nodes_truthful : Truthful (nodesDelegate cap) := by
  constructor
  · intro es d0 o0 d1 o d2 h1 h2
    obtain ⟨hc, rfl, rfl⟩ := capOk_of_push h1
    have hc1 : CapOk cap (d0 ++ [Node.object 0]).length := by
      rcases nres_push (cap := cap) (.object 0) hc with ⟨h, _⟩ | ⟨_, _, h, _⟩
      · exact h
      · have h1 : pushNode cap (.object 0) d0 = _ := h1
        rw [h1] at h; cases h
    obtain ⟨rfl, rfl⟩ := (nodes_fold.2.1 es d0 [] 0 hc1).of_ok h2
    simp
    cases es <;> simp
  · intro es d0 o0 d1 o d2 h1 h2
    obtain ⟨hc, rfl, rfl⟩ := capOk_of_push h1
    have hc1 : CapOk cap (d0 ++ [Node.array 0]).length := by
      rcases nres_push (cap := cap) (.array 0) hc with ⟨h, _⟩ | ⟨_, _, h, _⟩
      · exact h
      · have h1 : pushNode cap (.array 0) d0 = _ := h1
        rw [h1] at h; cases h
    obtain ⟨rfl, rfl⟩ := (nodes_fold.2.2 es d0 [] 0 hc1).of_ok h2
    simp
    cases es <;> simp

theorem nodes_kind : KindTruthful (nodesDelegate cap) := by
  intro v d a d' h
  obtain ⟨rfl, rfl⟩ := (nodes_fold.1 v d (nodes_capOk h)).of_ok h
  cases v <;> simp [flatten, Value.kind]

end
end JustJson
