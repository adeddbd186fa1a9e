import Verif.Props.Doc
/-! # Documents on collections a client implements: C63 -/

namespace JustJson
open Spec

set_option linter.unusedSectionVars false

section
variable [Arch] {g : Bool} {src : List UInt8} {cfg : ParseConfig}

/-- What a collection must do: be empty by default, append when `push` succeeds, change node `i` when it is assigned. -/
structure NodeCollection.Lawful (K : NodeCollection) : Prop where
  default : K.nodes K.default = []
  push : ∀ n c c', K.push n c = .ok () c' → K.nodes c' = K.nodes c ++ [n]
  write : ∀ c i n, K.nodes (K.write c i n) = (K.nodes c).set i n

/-- The states of a collection that successful calls lead to. -/
inductive NodeCollection.Reached (K : NodeCollection) : K.C → Prop where
  | default : K.Reached K.default
  | push (n : Node) (c c' : K.C) : K.Reached c → K.push n c = .ok () c' → K.Reached c'
  | write (i : Nat) (n : Node) (c : K.C) : K.Reached c → K.Reached (K.write c i n)

variable {K : NodeCollection} {R : K.C → Prop}

/-- kept by successful calls -/
structure KeptBy (K : NodeCollection) (R : K.C → Prop) : Prop where
  push : ∀ n c c', R c → K.push n c = .ok () c' → R c'
  write : ∀ i n c, R c → R (K.write c i n)

/-- Callbacks that should return `a` with the nodes `ns`: they do, or a `push` failed or panicked. -/
def KRes {α : Type} (K : NodeCollection) (R : K.C → Prop) (out : Out K.C (ErrorKind Empty) α) (a : α) (ns : List Node) : Prop :=
  match out with
  | .ok b c => b = a ∧ K.nodes c = ns ∧ R c
  | .err e c' => ∃ n c, R c ∧ K.push n c = .err e c'
  | .panic p => ∃ n c, R c ∧ K.push n c = .panic p

theorem KRes.bind {α β : Type} {m : M K.C (ErrorKind Empty) α} {f : α → M K.C (ErrorKind Empty) β} {s : K.C} {s1 s2 : List Node}
    {a : α} {b : β} (h1 : KRes K R (m s) a s1) (h2 : ∀ c, R c → K.nodes c = s1 → KRes K R (f a c) b s2) :
    KRes K R ((m >>= f) s) b s2 := by
  rw [M.bind_eq]
  cases hm : m s with
  | ok x c => rw [hm] at h1; obtain ⟨rfl, h, hr⟩ := h1; exact h2 c hr h
  | err e c => rw [hm] at h1; exact h1
  | panic p => rw [hm] at h1; exact h1

theorem kres_push (hK : K.Lawful) (hR : KeptBy K R) (n : Node) {c : K.C} (hr : R c) : KRes K R (collPush K n c) (K.nodes c).length (K.nodes c ++ [n]) := by
  unfold collPush
  rw [M.bind_eq]
  cases hp : K.push n c with
  | ok u c' => exact ⟨rfl, hK.push n c c' hp, hR.push n c c' hr hp⟩
  | err e c' => exact ⟨n, c, hr, hp⟩
  | panic p => exact ⟨n, c, hr, hp⟩

theorem kres_extendObject (hK : K.Lawful) (hR : KeptBy K R) {c : K.C} (hr : R c) {pre post : List Node} {n : Nat}
    (h : K.nodes c = pre ++ .object n :: post) : KRes K R (collExtendObject K pre.length c) () (pre ++ .object (n + 1) :: post) := by
  unfold collExtendObject
  rw [h]
  simp only [List.length_append, List.length_cons, Nat.lt_add_right_iff_pos, Nat.zero_lt_succ, getElem?_pos, List.getElem_append_right,
    Nat.le_refl, Nat.sub_self, List.getElem_cons_zero]
  refine ⟨rfl, ?_, hR.write _ _ _ hr⟩
  rw [hK.write, h]
  simp

theorem kres_extendArray (hK : K.Lawful) (hR : KeptBy K R) {c : K.C} (hr : R c) {pre post : List Node} {n : Nat}
    (h : K.nodes c = pre ++ .array n :: post) : KRes K R (collExtendArray K pre.length c) () (pre ++ .array (n + 1) :: post) := by
  unfold collExtendArray
  rw [h]
  simp only [List.length_append, List.length_cons, Nat.lt_add_right_iff_pos, Nat.zero_lt_succ, getElem?_pos, List.getElem_append_right,
    Nat.le_refl, Nat.sub_self, List.getElem_cons_zero]
  refine ⟨rfl, ?_, hR.write _ _ _ hr⟩
  rw [hK.write, h]
  simp

theorem coll_fold (hK : K.Lawful) (hR : KeptBy K R) :
    (∀ v : Value, ∀ c, R c → KRes K R (foldValue (collDelegate K) v c) (K.nodes c).length (K.nodes c ++ flatten v))
    ∧ (∀ es : Object, ∀ pre post n c, R c → K.nodes c = pre ++ .object n :: post →
      KRes K R (foldEntries (collDelegate K) es pre.length c) pre.length (pre ++ .object (n + es.length) :: (post ++ flattenEntries es)))
    ∧ ∀ vs : List Value, ∀ pre post n c, R c → K.nodes c = pre ++ .array n :: post →
      KRes K R (foldElems (collDelegate K) vs pre.length c) pre.length (pre ++ .array (n + vs.length) :: (post ++ flattenElems vs)) := by
  apply Value.induct
  · intro c hr; exact kres_push hK hR _ hr
  · intro b c hr; exact kres_push hK hR _ hr
  · intro b c hr; exact kres_push hK hR _ hr
  · intro b c hr; exact kres_push hK hR _ hr
  · intro es ih c hr
    rw [foldValue]
    refine KRes.bind (kres_push hK hR (.object 0) hr) fun c1 hr1 h1 => ?_
    have := ih (K.nodes c) [] 0 c1 hr1 h1
    rw [Nat.zero_add, List.nil_append] at this
    refine KRes.bind this fun c2 hr2 h2 => ?_
    exact ⟨rfl, h2, hr2⟩
  · intro es ih c hr
    rw [foldValue]
    refine KRes.bind (kres_push hK hR (.array 0) hr) fun c1 hr1 h1 => ?_
    have := ih (K.nodes c) [] 0 c1 hr1 h1
    rw [Nat.zero_add, List.nil_append] at this
    refine KRes.bind this fun c2 hr2 h2 => ?_
    exact ⟨rfl, h2, hr2⟩
  · intro pre post n c hr h
    exact ⟨rfl, by simpa [flattenEntries] using h, hr⟩
  · intro k v es h1 h2 pre post n c hr h
    rw [foldEntries]
    refine KRes.bind (a := (pre.length, ())) (s1 := pre ++ .object (n + 1) :: (post ++ [.string k])) ?_ fun c1 hr1 e1 => ?_
    · show KRes K R ((collExtendObject K pre.length >>= fun _ => collPush K (.string k) >>= fun _ =>
        (M.pure (pre.length, ()) : M K.C (ErrorKind Empty) (Nat × Unit))) _) _ _
      refine KRes.bind (kres_extendObject hK hR hr h) fun c1 hr1 e1 => ?_
      refine KRes.bind (kres_push hK hR (.string k) hr1) fun c2 hr2 e2 => ?_
      exact ⟨rfl, by rw [e2, e1]; simp, hr2⟩
    · refine KRes.bind (h1 c1 hr1) fun c2 hr2 e2 => ?_
      show KRes K R (foldEntries (collDelegate K) es pre.length c2) _ _
      have := h2 pre (post ++ [.string k] ++ flatten v) (n + 1) c2 hr2 (by rw [e2, e1]; simp)
      have e3 : n + ((k, v) :: es).length = n + 1 + es.length := by simp; omega
      rw [e3]
      simpa [flattenEntries] using this
  · intro pre post n c hr h
    exact ⟨rfl, by simpa [flattenElems] using h, hr⟩
  · intro v es h1 h2 pre post n c hr h
    rw [foldElems]
    refine KRes.bind (h1 c hr) fun c1 hr1 e1 => ?_
    refine KRes.bind (a := pre.length) (s1 := pre ++ .array (n + 1) :: (post ++ flatten v)) ?_ fun c2 hr2 e2 => ?_
    · show KRes K R ((collExtendArray K pre.length >>= fun _ => (M.pure pre.length : M K.C (ErrorKind Empty) Nat)) _) _ _
      refine KRes.bind (kres_extendArray (n := n) (post := post ++ flatten v) hK hR hr1 (by rw [e1, h]; simp)) fun c2 hr2 e2 => ?_
      exact ⟨rfl, e2, hr2⟩
    · have := h2 pre (post ++ flatten v) (n + 1) c2 hr2 e2
      have e3 : n + (v :: es).length = n + 1 + es.length := by simp; omega
      rw [e3]
      simpa [flattenElems] using this

theorem KRes.of_ok {α : Type} {out : Out K.C (ErrorKind Empty) α} {a b : α} {ns : List Node} {c : K.C} (h : KRes K R out a ns)
    (ho : out = .ok b c) : b = a ∧ K.nodes c = ns := by
  subst ho; exact ⟨h.1, h.2.1⟩

theorem keptBy_true : KeptBy K (fun _ => True) := ⟨fun _ _ _ _ _ => trivial, fun _ _ _ _ => trivial⟩

theorem coll_truthful (hK : K.Lawful) : Truthful (collDelegate K) := by
  constructor
  · intro es d0 o0 d1 o d2 h1 h2
    obtain ⟨rfl, e1⟩ := (kres_push hK keptBy_true (.object 0) (c := d0) trivial).of_ok h1
    obtain ⟨rfl, e2⟩ := ((coll_fold hK keptBy_true).2.1 es (K.nodes d0) [] 0 d1 trivial e1).of_ok h2
    simp only [e2]
    simp
    cases es <;> simp
  · intro es d0 o0 d1 o d2 h1 h2
    obtain ⟨rfl, e1⟩ := (kres_push hK keptBy_true (.array 0) (c := d0) trivial).of_ok h1
    obtain ⟨rfl, e2⟩ := ((coll_fold hK keptBy_true).2.2 es (K.nodes d0) [] 0 d1 trivial e1).of_ok h2
    simp only [e2]
    simp
    cases es <;> simp

theorem coll_kind (hK : K.Lawful) : KindTruthful (collDelegate K) := by
  intro v d a d' h
  obtain ⟨rfl, e⟩ := ((coll_fold hK keptBy_true).1 v d trivial).of_ok h
  simp only [e]
  cases v <;> simp [flatten, Value.kind]

theorem reached_kept : KeptBy K K.Reached := ⟨fun n c c' => .push n c c', fun i n c => .write i n c⟩

/-- **C63.** A document on any collection a client implements, so long as it appends when `push` says it did. If the parse
succeeds, the collection holds the nodes of the `Value` the text parses to (so those of `Document`). If it fails, it is with
the error `Value` parsing reports, or with one a `push` returned. It panics only if a `push` did. -/
theorem C63_any_collection (K : NodeCollection) (hK : K.Lawful) (g : Bool) (src : List UInt8) (h : Input g src) (cfg : ParseConfig) :
    (∀ c, genericDocument K g src cfg = .ok c →
      (∃ v, Value.parseWithConfig g src cfg = .ok v ∧ K.nodes c = flatten v) ∧ docFromJsonWithConfig none g src cfg = .ok (K.nodes c))
    ∧ (∀ e, genericDocument K g src cfg = .err e →
      Value.parseWithConfig g src cfg = .err e ∨ ∃ n c c', K.Reached c ∧ K.push n c = .err e.kind c')
    ∧ ∀ p, genericDocument K g src cfg = .panic p → ∃ n c, K.Reached c ∧ K.push n c = .panic p := by
  have hf := fun v => (coll_fold hK (reached_kept (K := K))).1 v K.default .default
  rw [hK.default] at hf
  unfold genericDocument
  rcases delegate_cases (cfg := cfg) h (coll_truthful hK) (.inr (coll_kind hK)) K.default with
    ⟨v, s, h1, h2⟩ | ⟨e, s, d', h1, h2, _⟩ | ⟨e, h1, f, hf', v, h3⟩
  · have hv := hf v
    cases hfo : foldValue (collDelegate K) v K.default with
    | ok a c =>
      rw [hfo] at hv h2
      have h2 : parseBytes g src cfg (collDelegate K) K.default = .ok _ _ := h2
      rw [h2]
      refine ⟨fun c' hc => ?_, (fun e he => by cases he), (fun p hp => by cases hp)⟩
      injection hc with hc
      subst hc
      have hn : K.nodes c = flatten v := hv.2.1
      refine ⟨⟨v, h1, hn⟩, ?_⟩
      show docFromJsonWithConfig none g src cfg = .ok (K.nodes c)
      rw [hn]
      exact (C09_nodes_are_preorder g src h cfg _).mpr ⟨v, h1, rfl⟩
    | err x c =>
      rw [hfo] at hv h2
      obtain ⟨off, s, h2, _⟩ := h2
      rw [h2]
      refine ⟨(fun e he => by cases he), fun e he => ?_, (fun p hp => by cases hp)⟩
      cases he
      obtain ⟨n, c0, hr, hp⟩ := hv
      exact .inr ⟨n, c0, c, hr, hp⟩
    | panic p =>
      rw [hfo] at hv h2
      have h2 : parseBytes g src cfg (collDelegate K) K.default = .panic p := h2
      rw [h2]
      refine ⟨(fun e he => by cases he), (fun p hp => by cases hp), fun p' hp => ?_⟩
      cases hp
      exact hv
  · rw [h2]
    refine ⟨(fun e he => by cases he), fun e' he => .inl ?_, (fun p hp => by cases hp)⟩
    rw [h1]
    injection he with he
    rw [← he]
    congr 1
    obtain ⟨off, k⟩ := e
    unfold Error.intoFallable Error.intoInfallable
    cases k with
    | errorFromDelegate x => exact x.elim
    | _ => rfl
  · have hv := hf v
    rw [h3] at hv
    cases f with
    | err x d =>
      obtain ⟨off, s, h2, _⟩ := hf'
      rw [h2]
      refine ⟨(fun e he => by cases he), fun e he => ?_, (fun p hp => by cases hp)⟩
      cases he
      obtain ⟨n, c0, hr, hp⟩ := hv
      exact .inr ⟨n, c0, d, hr, hp⟩
    | panic p =>
      have h2 : parseBytes g src cfg (collDelegate K) K.default = .panic p := hf'
      rw [h2]
      refine ⟨(fun e he => by cases he), (fun p hp => by cases hp), fun p' hp => ?_⟩
      cases hp
      exact hv

/-- **C63**: on a collection whose `push` never fails, `GenericDocument` agrees with `Document` on every text. -/
theorem C63_infallible_collection (K : NodeCollection) (hK : K.Lawful) (hp : ∀ n c, K.Reached c → ∃ c', K.push n c = .ok () c')
    (g : Bool) (src : List UInt8) (h : Input g src) (cfg : ParseConfig) :
    (genericDocument K g src cfg).map K.nodes = docFromJsonWithConfig none g src cfg := by
  obtain ⟨h1, h2, h3⟩ := C63_any_collection K hK g src h cfg
  cases hg : genericDocument K g src cfg with
  | ok c => exact (h1 c hg).2.symm
  | err e =>
    rcases h2 e hg with hv | ⟨n, c, c', hr, he⟩
    · rcases doc_cases (cap := none) (cfg := cfg) h with ⟨v, k1, _⟩ | ⟨e', k1, k2 | ⟨k2, _⟩⟩
      · rw [hv] at k1; cases k1
      · rw [hv] at k1; cases k1; exact k2.symm
      · exact absurd rfl k2
    · obtain ⟨c'', hc⟩ := hp n c hr
      rw [hc] at he; cases he
  | panic p =>
    obtain ⟨n, c, hr, he⟩ := h3 p hg
    obtain ⟨c'', hc⟩ := hp n c hr
    rw [hc] at he; cases he

theorem capCollection_lawful (cap : Option Nat) : (capCollection cap).Lawful := by
  refine ⟨rfl, fun n (c : List Node) (c' : List Node) h => ?_, fun c i n => rfl⟩
  show c' = c ++ [n]
  have h : (match pushNodeC cap c n with
    | some ns' => (.ok () ns' : Out (List Node) (ErrorKind Empty) Unit)
    | none => .err .paylodTooLarge c) = .ok () c' := h
  unfold pushNodeC at h
  cases cap with
  | none => cases h; rfl
  | some N =>
    by_cases hN : c.length < N
    · simp only [hN, if_true] at h; cases h; rfl
    · simp only [hN, if_false] at h; cases h

/-- `Nodes` on a list, given its three operations -/
@[reducible] def listDelegate (push : Node → M (List Node) (ErrorKind Empty) Nat) (eo ea : Nat → M (List Node) (ErrorKind Empty) Unit) :
    Delegate :=
  { nodesDelegate none with
    null := push .null
    boolean := fun b => push (.boolean b)
    number := fun n => push (.number n)
    string := fun s => push (.string s)
    beginObject := push (.object 0)
    objectKey := fun o key => do
      eo o
      let _ ← push (.string key)
      return (o, ())
    beginArray := push (.array 0)
    arrayValue := fun a _ => do
      ea a
      return a }

theorem collPush_cap (cap : Option Nat) : collPush (capCollection cap) = pushNode cap := by
  funext n c
  have e : (capCollection cap).push n c = (match pushNodeC cap c n with
    | some ns' => (.ok () ns' : Out (List Node) (ErrorKind Empty) Unit)
    | none => .err .paylodTooLarge c) := by unfold capCollection; rfl
  unfold collPush pushNode
  rw [M.bind_eq, e]
  cases pushNodeC cap c n <;> rfl

theorem collDelegate_cap (cap : Option Nat) : collDelegate (capCollection cap)
    = listDelegate (collPush (capCollection cap)) (collExtendObject (capCollection cap)) (collExtendArray (capCollection cap)) := by
  unfold collDelegate listDelegate
  congr 1

/-- the document part of a run -/
def docOf (out : Out (PState (List Node)) (Error (ErrorKind Empty)) Nat) : Outcome (Error Empty) Document :=
  match out with
  | .ok _ st => .ok st.delegate
  | .err e _ => .err e.intoInfallable
  | .panic p => .panic p

/-- The two collections of the crate are of this kind, and the documents on them are those of C09 and C11. -/
theorem C63_crate_collections (cap : Option Nat) :
    (capCollection cap).Lawful ∧ ∀ g src cfg, genericDocument (capCollection cap) g src cfg = docFromJsonWithConfig cap g src cfg := by
  refine ⟨capCollection_lawful cap, fun g src cfg => ?_⟩
  have e1 : genericDocument (capCollection cap) g src cfg = docOf (parseBytes g src cfg (collDelegate (capCollection cap)) ([] : List Node)) := by
    unfold genericDocument docOf
    cases h : parseBytes g src cfg (collDelegate (capCollection cap)) (capCollection cap).default with
    | ok a s => have h' : parseBytes g src cfg (collDelegate (capCollection cap)) ([] : List Node) = .ok a s := h; rw [h']; rfl
    | err e s => have h' : parseBytes g src cfg (collDelegate (capCollection cap)) ([] : List Node) = .err e s := h; rw [h']; rfl
    | panic p => have h' : parseBytes g src cfg (collDelegate (capCollection cap)) ([] : List Node) = .panic p := h; rw [h']; rfl
  have e2 : docFromJsonWithConfig cap g src cfg = docOf (parseBytes g src cfg (listDelegate (pushNode cap) extendObject extendArray) ([] : List Node)) := by
    show _ = docOf (parseBytes g src cfg (nodesDelegate cap) [])
    unfold docFromJsonWithConfig docOf
    cases parseBytes g src cfg (nodesDelegate cap) [] <;> rfl
  have e3 : parseBytes g src cfg (collDelegate (capCollection cap)) ([] : List Node)
      = parseBytes g src cfg (listDelegate (collPush (capCollection cap)) extendObject extendArray) ([] : List Node) := rfl
  rw [e1, e2, e3, collPush_cap]

end
/-! ## A concrete case -/

section Examples
attribute [local instance] arch64

/-- a collection a client might write: it counts the nodes, and refuses strings -/
def pickyCollection : NodeCollection where
  C := List Node × Nat
  default := ([], 0)
  nodes c := c.1
  write c i n := (c.1.set i n, c.2)
  push n := fun c => match n with
    | .string _ => .err .expectedValue c
    | n => .ok () (c.1 ++ [n], c.2 + 1)

theorem picky_lawful : pickyCollection.Lawful := by
  refine ⟨rfl, fun n (c : List Node × Nat) (c' : List Node × Nat) h => ?_, fun c i n => rfl⟩
  cases n with
  | string s => cases h
  | _ => cases h; rfl

example : (genericDocument pickyCollection true (b8 "[1,[true]]") .new).isOk = true
    ∧ (genericDocument pickyCollection true (b8 "[1,\"a\"]") .new).error? = some ⟨3, .expectedValue⟩
    ∧ (genericDocument pickyCollection true (b8 "[1,") .new).isOk = false := by decide +kernel

/-- a collection that takes all and keeps a count: it never fails -/
def countingCollection : NodeCollection where
  C := List Node × Nat
  default := ([], 0)
  nodes c := c.1
  write c i n := (c.1.set i n, c.2)
  push n := fun c => .ok () (c.1 ++ [n], c.2 + 1)

example : countingCollection.Lawful ∧ ∀ n c, countingCollection.Reached c → ∃ c', countingCollection.push n c = .ok () c' :=
  ⟨⟨rfl, fun _ _ _ h => by cases h; rfl, fun _ _ _ => rfl⟩, fun _ _ _ => ⟨_, rfl⟩⟩
example : ((genericDocument countingCollection true (b8 "[1,{\"a\":null}]") .new).value?.any fun c => c.2 == 5 && c.1.length == 5) = true := by
  decide +kernel

end Examples

/-! ## Instances: each theorem above applied to a concrete case that meets its hypotheses -/
section Instances
attribute [local instance] arch64

example := C63_any_collection pickyCollection picky_lawful true exSrc (exSrc_input _) .new
example := C63_infallible_collection countingCollection ⟨rfl, fun _ _ _ h => by cases h; rfl, fun _ _ _ => rfl⟩
  (fun _ _ _ => ⟨_, rfl⟩) true exSrc (exSrc_input _) .new
example := C63_crate_collections (some 3)

end Instances
end JustJson
