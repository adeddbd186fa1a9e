import Verif.Lemmas.Outcome
/-! # How many nodes a parse can push -/

namespace JustJson
open Spec

set_option linter.unusedSectionVars false

section
variable {src : List UInt8} [Arch] {cfg : ParseConfig}

/-- A value has at most one node per two bytes of its text, rounded up. -/
theorem flatten_size {tc : Bool} {b : List UInt8} {j : Json} (h : GValue tc b j) :
    2 * (flatten (ofJson j)).length ≤ b.length + 1 := by
  refine GValue.rec
    (motive_1 := fun b j _ => 2 * (flatten (ofJson j)).length ≤ b.length + 1)
    (motive_2 := fun b js _ => 2 * (flattenElems (ofJsons js)).length ≤ b.length + 1)
    (motive_3 := fun b ms _ => 2 * (flattenEntries (ofMembers ms)).length ≤ b.length + 1)
    ?_ ?_ ?_ ?_ ?_ ?_ ?_ ?_ ?_ ?_ ?_ ?_ ?_ ?_ ?_ h
  · simp [ofJson, flatten]
  · simp [ofJson, flatten]
  · simp [ofJson, flatten]
  · intro n hv
    have : 0 < n.bytes.length := Lex.bytes_pos (l := .num n) hv
    simp only [ofJson, flatten, List.length_cons, List.length_nil]; omega
  · intro s hv
    simp [ofJson, flatten, strBytes]
  · intro w _
    simp only [ofJson, ofJsons, flatten, flattenElems, List.length_cons, List.length_append, List.length_nil]; omega
  · intro body js _ ih
    simp only [ofJson, flatten, List.length_cons, List.length_append, List.length_nil]; omega
  · intro w _
    simp only [ofJson, ofMembers, flatten, flattenEntries, List.length_cons, List.length_append, List.length_nil]; omega
  · intro body js _ ih
    simp only [ofJson, flatten, List.length_cons, List.length_append, List.length_nil]; omega
  · intro w b w' j _ _ _ ih
    simp only [ofJsons, flattenElems, List.length_append, List.length_nil]; omega
  · intro w b w' w'' j _ _ _ _ _ ih
    simp only [ofJsons, flattenElems, List.length_append, List.length_nil, List.length_cons]; omega
  · intro w b w' rest j js _ _ _ _ ih ih2
    simp only [ofJsons, flattenElems, List.length_append, List.length_cons]; omega
  · intro w w1 w2 b w' k j _ _ _ _ _ _ ih
    simp only [ofMembers, flattenEntries, List.length_append, List.length_nil, List.length_cons, strBytes]; omega
  · intro w w1 w2 b w' w'' k j _ _ _ _ _ _ _ _ ih
    simp only [ofMembers, flattenEntries, List.length_append, List.length_nil, List.length_cons, strBytes]; omega
  · intro w w1 w2 b w' rest k j ms _ _ _ _ _ _ _ ih ih2
    simp only [ofMembers, flattenEntries, List.length_append, List.length_cons, strBytes]; omega

/-! ## Runs that may fail later -/

theorem liftTok_next {D : Delegate} {s s' : PState D.σ} {t : Token} (hl : s.offset ≤ src.length)
    (hlim : src.length < LIM) (h : liftTok D (nextOrEof src false) s = .ok t s') :
    s.offset < s'.offset ∧ s'.offset ≤ src.length ∧ s'.delegate = s.delegate := by
  have h1 := wp_next (g := false) hl hlim (fun h => by cases h)
  unfold liftTok at h
  cases hm : nextOrEof src false s.offset with
  | ok a off =>
    rw [hm] at h h1
    injection h with _ h
    subst h
    obtain ⟨_, _, _, _, _, _, _, h2, h3, _⟩ := h1
    exact ⟨h2, h3, rfl⟩
  | err e off => rw [hm] at h; cases h
  | panic p => rw [hm] at h; cases h

theorem nextColon_next {D : Delegate} {s s' : PState D.σ} {t : Token} (hl : s.offset ≤ src.length)
    (hlim : src.length < LIM) (h : nextColon false src D s = .ok t s') :
    s.offset < s'.offset ∧ s'.offset ≤ src.length ∧ s'.delegate = s.delegate := by
  have h1 := wp_next (g := false) hl hlim (fun h => by cases h)
  unfold nextColon at h
  cases hm : nextOrEof src false s.offset with
  | ok a off =>
    rw [hm] at h h1
    injection h with _ h
    subst h
    obtain ⟨_, _, _, _, _, _, _, h2, h3, _⟩ := h1
    exact ⟨h2, h3, rfl⟩
  | err e off => rw [hm] at h; cases h
  | panic p => rw [hm] at h; cases h

/-- equal runs, and a bound on the nodes if they succeed -/
def Small {α : Type} (m m' : Out (PState (List Node)) (Error (ErrorKind Empty)) α) : Prop :=
  m = m' ∧ ∀ a s, m' = .ok a s → s.delegate.length ≤ s.offset

theorem Small.bind {α β : Type} {m m' : M (PState (List Node)) (Error (ErrorKind Empty)) α}
    {f f' : α → M (PState (List Node)) (Error (ErrorKind Empty)) β} {s : PState (List Node)}
    (h : m s = m' s) (hf : ∀ a s', m' s = .ok a s' → Small (f a s') (f' a s')) :
    Small ((m >>= f) s) ((m' >>= f') s) := by
  rw [M.bind_eq, M.bind_eq, h]
  cases hm : m' s with
  | ok a s' => exact hf a s' hm
  | err e s' => exact ⟨rfl, by intro a s h; cases h⟩
  | panic p => exact ⟨rfl, by intro a s h; cases h⟩

theorem Small.ok {α : Type} {a : α} {s : PState (List Node)} (h : s.delegate.length ≤ s.offset) :
    Small (.ok a s) (.ok a s) := ⟨rfl, fun a s' he => by injection he with _ he; rw [← he]; exact h⟩

theorem Small.err {α : Type} {e : Error (ErrorKind Empty)} {s : PState (List Node)} :
    Small (α := α) (.err e s) (.err e s) := ⟨rfl, fun a s' he => by cases he⟩

variable {N : Nat}

theorem push_small {n : Node} {nodes : List Node} (h : nodes.length < N) :
    pushNode (some N) n nodes = .ok nodes.length (nodes ++ [n]) ∧ pushNode none n nodes = .ok nodes.length (nodes ++ [n]) := by
  unfold pushNode pushNodeC
  simp [h]

theorem liftPush {n : Node} {off : Nat} {s : PState (List Node)} (h : s.delegate.length < N) :
    liftD (nodesDelegate (some N)) off (pushNode (some N) n) s = .ok s.delegate.length { s with delegate := s.delegate ++ [n] }
    ∧ liftD (nodesDelegate none) off (pushNode none n) s = .ok s.delegate.length { s with delegate := s.delegate ++ [n] } := by
  unfold liftD
  simp only [(push_small (n := n) h).1, (push_small (n := n) h).2, and_self]

theorem beginNest_state {D : Delegate} {off : Nat} {s s' : PState D.σ} {u : Unit} (h : beginNest cfg D off s = .ok u s') :
    s'.offset = s.offset ∧ s'.delegate = s.delegate := by
  unfold beginNest at h
  split at h
  · split at h <;> simp at h; rw [← h]; exact ⟨rfl, rfl⟩
  · simp at h; rw [← h]; exact ⟨rfl, rfl⟩

theorem endNest_state {D : Delegate} (s : PState D.σ) : ∃ s', endNest cfg D s = .ok () s'
    ∧ s'.offset = s.offset ∧ s'.delegate = s.delegate := by
  unfold endNest
  split <;> exact ⟨_, rfl, rfl, rfl⟩

theorem extendObject_len {i : Nat} {d d' : List Node} {u : Unit} (h : extendObject i d = .ok u d') : d'.length = d.length := by
  unfold extendObject at h
  split at h <;> simp at h
  rw [← h]; simp

theorem extendArray_len {i : Nat} {d d' : List Node} {u : Unit} (h : extendArray i d = .ok u d') : d'.length = d.length := by
  unfold extendArray at h
  split at h <;> simp at h
  rw [← h]; simp

theorem objectKey_small {o : Nat} {k : JsonString} {off : Nat} {s : PState (List Node)} (h : s.delegate.length < N) :
    liftD (nodesDelegate (some N)) off ((nodesDelegate (some N)).objectKey o k) s
      = liftD (nodesDelegate none) off ((nodesDelegate none).objectKey o k) s
    ∧ ∀ a s', liftD (nodesDelegate none) off ((nodesDelegate none).objectKey o k) s = .ok a s' →
        s'.offset = s.offset ∧ s'.delegate.length = s.delegate.length + 1 := by
  have key : ∀ cap : Option Nat, (cap = none ∨ cap = some N) → (nodesDelegate cap).objectKey o k s.delegate
      = match extendObject o s.delegate with
        | .ok _ d => .ok (o, ()) (d ++ [.string k])
        | .err e d => .err e d
        | .panic p => .panic p := by
    intro cap hc
    show (do extendObject o; let _ ← pushNode cap (.string k); return (o, ()) : M (List Node) (ErrorKind Empty) (Nat × Unit)) s.delegate = _
    rw [M.bind_eq]
    cases he : extendObject o s.delegate with
    | ok u d =>
      simp only
      have hd : d.length < N := by rw [extendObject_len he]; exact h
      have hp : pushNode cap (.string k) d = .ok d.length (d ++ [.string k]) := by
        rcases hc with rfl | rfl
        · exact (push_small (n := .string k) hd).2
        · exact (push_small (n := .string k) hd).1
      rw [M.bind_ok hp]
      rfl
    | err e d => rfl
    | panic p => rfl
  unfold liftD
  rw [key none (.inl rfl), key (some N) (.inr rfl)]
  refine ⟨by cases extendObject o s.delegate <;> rfl, ?_⟩
  intro a s' hs
  cases he : extendObject o s.delegate with
  | ok u d =>
    rw [he] at hs
    injection hs with _ hs
    rw [← hs]
    have := extendObject_len he
    simp [this]
  | err e d => rw [he] at hs; cases hs
  | panic p => rw [he] at hs; cases hs

theorem arrayValue_small {a : Nat} {v : Nat} {off : Nat} {s : PState (List Node)} :
    ∀ r s', liftD (nodesDelegate none) off ((nodesDelegate none).arrayValue a v) s = .ok r s' →
        s'.offset = s.offset ∧ s'.delegate.length = s.delegate.length := by
  intro r s' h
  unfold liftD at h
  have key : (nodesDelegate none).arrayValue a v s.delegate
      = match extendArray a s.delegate with
        | .ok _ d => .ok a d
        | .err e d => .err e d
        | .panic p => .panic p := by
    show (do extendArray a; return a : M (List Node) (ErrorKind Empty) Nat) s.delegate = _
    rw [M.bind_eq]
    cases extendArray a s.delegate <;> rfl
  rw [key] at h
  cases he : extendArray a s.delegate with
  | ok u d =>
    rw [he] at h
    injection h with _ h
    rw [← h]
    exact ⟨rfl, extendArray_len he⟩
  | err e d => rw [he] at h; cases h
  | panic p => rw [he] at h; cases h

theorem arrayValue_same {a : Nat} {v : Nat} {off : Nat} {s : PState (List Node)} :
    liftD (nodesDelegate (some N)) off ((nodesDelegate (some N)).arrayValue a v) s
      = liftD (nodesDelegate none) off ((nodesDelegate none).arrayValue a v) s := by
  have key : ∀ cap, (nodesDelegate cap).arrayValue a v s.delegate
      = match extendArray a s.delegate with
        | .ok _ d => .ok a d
        | .err e d => .err e d
        | .panic p => .panic p := by
    intro cap
    show (do extendArray a; return a : M (List Node) (ErrorKind Empty) Nat) s.delegate = _
    rw [M.bind_eq]
    cases extendArray a s.delegate <;> rfl
  unfold liftD
  rw [key]
  cases extendArray a s.delegate <;> rfl

theorem Small.mapErr {α : Type} {f : Error (ErrorKind Empty) → Error (ErrorKind Empty)}
    {m m' : M (PState (List Node)) (Error (ErrorKind Empty)) α} {s : PState (List Node)} (h : Small (m s) (m' s)) :
    Small (M.mapErr f m s) (M.mapErr f m' s) := by
  unfold M.mapErr
  rw [h.1]
  refine ⟨rfl, ?_⟩
  intro a s' he
  cases hm : m' s with
  | ok b s1 =>
    rw [hm] at he
    injection he with _ he
    rw [← he]
    exact h.2 b s1 hm
  | err e s1 => rw [hm] at he; cases he
  | panic p => rw [hm] at he; cases he

/-- With room for one node per byte of the source the bounded collection is never full. -/
theorem run_small (hlim : src.length < LIM) (hN : src.length ≤ N) : ∀ fuel : Nat,
    (∀ s : PState (List Node), s.offset ≤ src.length → s.delegate.length ≤ s.offset →
      3 * (src.length - s.offset) + 1 ≤ fuel →
      Small (readTokens false src cfg (nodesDelegate (some N)) fuel s) (readTokens false src cfg (nodesDelegate none) fuel s))
    ∧ (∀ s : PState (List Node), s.offset ≤ src.length → s.delegate.length + 1 ≤ s.offset →
      3 * (src.length - s.offset) + 3 ≤ fuel →
      Small (readObject false src cfg (nodesDelegate (some N)) fuel s) (readObject false src cfg (nodesDelegate none) fuel s))
    ∧ (∀ (s : PState (List Node)) (o : Nat), s.offset ≤ src.length → s.delegate.length ≤ s.offset →
      3 * (src.length - s.offset) + 2 ≤ fuel →
      Small (readObjectLoop false src cfg (nodesDelegate (some N)) fuel o s)
        (readObjectLoop false src cfg (nodesDelegate none) fuel o s))
    ∧ (∀ s : PState (List Node), s.offset ≤ src.length → s.delegate.length + 1 ≤ s.offset →
      3 * (src.length - s.offset) + 3 ≤ fuel →
      Small (readArray false src cfg (nodesDelegate (some N)) fuel s) (readArray false src cfg (nodesDelegate none) fuel s))
    ∧ (∀ (s : PState (List Node)) (a : Nat), s.offset ≤ src.length → s.delegate.length ≤ s.offset →
      3 * (src.length - s.offset) + 2 ≤ fuel →
      Small (readArrayLoop false src cfg (nodesDelegate (some N)) fuel a s)
        (readArrayLoop false src cfg (nodesDelegate none) fuel a s)) := by
  intro fuel
  induction fuel with
  | zero => refine ⟨?_, ?_, ?_, ?_, ?_⟩ <;> (intros; omega)
  | succ fuel ih =>
    obtain ⟨ihT, ihO, ihOL, ihA, ihAL⟩ := ih
    obtain ⟨gT, -, -, -, -⟩ := run_generic (g := false) (cfg := cfg) (CbSpec.trivial (D := nodesDelegate none)) hlim fuel
    have nofit : ∀ off, Fit false src off := fun off h => by cases h
    refine ⟨?_, ?_, ?_, ?_, ?_⟩
    · intro s hl hd hfuel
      rw [readTokens, readTokens, M.bind_ok (tokOffset_eq (D := nodesDelegate (some N)) s), M.bind_ok (tokOffset_eq (D := nodesDelegate none) s)]
      refine Small.bind rfl ?_
      intro t s1 h1
      obtain ⟨a1, a2, a3⟩ := liftTok_next (D := nodesDelegate none) hl hlim h1
      have hd1 : s1.delegate.length < N := by rw [a3]; omega
      have push : ∀ n, Small (liftD (nodesDelegate (some N)) s.offset (pushNode (some N) n) s1)
          (liftD (nodesDelegate none) s.offset (pushNode none n) s1) := by
        intro n
        rw [(liftPush hd1).1, (liftPush hd1).2]
        refine Small.ok ?_
        simp only [List.length_append, List.length_cons, List.length_nil]
        rw [a3]; omega
      cases t with
      | null => exact push _
      | bool b => exact push _
      | string s => exact push _
      | number n => exact push _
      | objectEnd => exact Small.err
      | arrayEnd => exact Small.err
      | colon => exact Small.err
      | comma => exact Small.err
      | object =>
        refine Small.bind rfl ?_
        intro u s2 h2
        obtain ⟨b1, b2⟩ := beginNest_state (D := nodesDelegate none) h2
        refine Small.mapErr (ihO s2 (by omega) (by rw [b2, a3]; omega) (by omega))
      | array =>
        refine Small.bind rfl ?_
        intro u s2 h2
        obtain ⟨b1, b2⟩ := beginNest_state (D := nodesDelegate none) h2
        refine Small.mapErr (ihA s2 (by omega) (by rw [b2, a3]; omega) (by omega))
    · intro s hl hd hfuel
      rw [readObject, readObject, M.bind_ok (tokOffset_eq (D := nodesDelegate (some N)) s), M.bind_ok (tokOffset_eq (D := nodesDelegate none) s)]
      have hp := liftPush (N := N) (n := .object 0) (off := s.offset) (s := s) (by omega)
      refine Small.bind (hp.1.trans hp.2.symm) ?_
      intro o s1 h1
      rw [show liftD (nodesDelegate none) s.offset (nodesDelegate none).beginObject s = _ from hp.2] at h1
      injection h1 with h0 h1
      have e1 : s1.offset = s.offset := by rw [← h1]
      have e2 : s1.delegate.length = s.delegate.length + 1 := by rw [← h1]; simp
      have hrec := ihOL s1 o (by omega) (by omega) (by omega)
      refine Small.bind hrec.1 ?_
      intro o2 s2 h2
      have e3 := hrec.2 o2 s2 h2
      rw [M.bind_ok (tokOffset_eq (D := nodesDelegate (some N)) s2), M.bind_ok (tokOffset_eq (D := nodesDelegate none) s2)]
      refine Small.bind rfl ?_
      intro v s3 h3
      have h3' : s3 = s2 := by injection h3 with _ h3; exact h3.symm
      subst h3'
      obtain ⟨s4, h4, h5, h6⟩ := endNest_state (cfg := cfg) (D := nodesDelegate none) s3
      refine Small.bind rfl ?_
      intro u s5 h7
      rw [h4] at h7
      injection h7 with _ h7
      subst h7
      exact Small.ok (by rw [h5, h6]; exact e3)
    · intro s o hl hd hfuel
      rw [readObjectLoop, readObjectLoop, M.bind_ok (tokOffset_eq (D := nodesDelegate (some N)) s), M.bind_ok (tokOffset_eq (D := nodesDelegate none) s)]
      refine Small.bind rfl ?_
      intro t s1 h1
      obtain ⟨a1, a2, a3⟩ := liftTok_next (D := nodesDelegate none) hl hlim h1
      have hd1 : s1.delegate.length < N := by rw [a3]; omega
      have hd1' : s1.delegate.length ≤ s1.offset := by rw [a3]; omega
      cases t with
      | objectEnd =>
        simp only
        split
        · exact Small.ok hd1'
        · refine Small.bind rfl ?_
          intro b s2 h2
          have : s2 = s1 := by
            unfold liftQ at h2
            split at h2
            · injection h2 with _ h2; exact h2.symm
            · cases h2
          subst this
          split
          · exact Small.ok hd1'
          · exact Small.err
      | string key =>
        simp only
        obtain ⟨k1, k2⟩ := objectKey_small (o := o) (k := key) (off := s.offset) hd1
        refine Small.bind k1 ?_
        rintro ⟨o1, k⟩ s2 h2
        obtain ⟨c1, c2⟩ := k2 _ _ h2
        simp only
        rw [M.bind_ok (tokOffset_eq (D := nodesDelegate (some N)) s2), M.bind_ok (tokOffset_eq (D := nodesDelegate none) s2)]
        refine Small.bind rfl ?_
        intro t s3 h3
        obtain ⟨d1, d2, d3⟩ := nextColon_next (D := nodesDelegate none) (by omega) hlim h3
        split
        · exact Small.err
        · rw [M.bind_ok (tokOffset_eq (D := nodesDelegate (some N)) s3), M.bind_ok (tokOffset_eq (D := nodesDelegate none) s3)]
          have hrec := ihT s3 d2 (by rw [d3, c2, a3]; omega) (by omega)
          refine Small.bind hrec.1 ?_
          intro v s4 h4
          have e3 := hrec.2 v s4 h4
          obtain ⟨f1, f2, -, -⟩ := (gT s3 d2 (nofit _) True.intro (by omega)).of_ok h4
          refine Small.bind rfl ?_
          intro o2 s5 h5
          have h5' : s5 = s4 := by injection h5 with _ h5; exact h5.symm
          subst h5'
          rw [M.bind_ok (tokOffset_eq (D := nodesDelegate (some N)) s5), M.bind_ok (tokOffset_eq (D := nodesDelegate none) s5)]
          refine Small.bind rfl ?_
          intro t2 s6 h6
          obtain ⟨g1, g2, g3⟩ := liftTok_next (D := nodesDelegate none) f2 hlim h6
          split
          · exact Small.ok (by rw [g3]; omega)
          split
          · exact Small.err
          · exact ihOL s6 o2 g2 (by rw [g3]; omega) (by omega)
      | _ => exact Small.err
    · intro s hl hd hfuel
      rw [readArray, readArray, M.bind_ok (tokOffset_eq (D := nodesDelegate (some N)) s), M.bind_ok (tokOffset_eq (D := nodesDelegate none) s)]
      have hp := liftPush (N := N) (n := .array 0) (off := s.offset) (s := s) (by omega)
      refine Small.bind (hp.1.trans hp.2.symm) ?_
      intro o s1 h1
      rw [show liftD (nodesDelegate none) s.offset (nodesDelegate none).beginArray s = _ from hp.2] at h1
      injection h1 with h0 h1
      have e1 : s1.offset = s.offset := by rw [← h1]
      have e2 : s1.delegate.length = s.delegate.length + 1 := by rw [← h1]; simp
      have hrec := ihAL s1 o (by omega) (by omega) (by omega)
      refine Small.bind hrec.1 ?_
      intro o2 s2 h2
      have e3 := hrec.2 o2 s2 h2
      refine Small.bind rfl ?_
      intro v s3 h3
      have h3' : s3 = s2 := by injection h3 with _ h3; exact h3.symm
      subst h3'
      obtain ⟨s4, h4, h5, h6⟩ := endNest_state (cfg := cfg) (D := nodesDelegate none) s3
      refine Small.bind rfl ?_
      intro u s5 h7
      rw [h4] at h7
      injection h7 with _ h7
      subst h7
      exact Small.ok (by rw [h5, h6]; exact e3)
    · intro s a hl hd hfuel
      rw [readArrayLoop, readArrayLoop, M.bind_ok (tokOffset_eq (D := nodesDelegate (some N)) s), M.bind_ok (tokOffset_eq (D := nodesDelegate none) s)]
      refine Small.bind rfl ?_
      intro k s1 h1
      have hp := wp_peek (g := false) hl (nofit _)
      obtain ⟨w, hw, ha, b1, -, -, b4, -⟩ := hp.elim_ok (tokPeek_eq s.offset)
      have h1' : s1.offset = s.offset + runLen isWs (src.drop s.offset) ∧ s1.delegate = s.delegate
          ∧ k = ((src.drop (s.offset + runLen isWs (src.drop s.offset))).head?.map peekKind) := by
        unfold liftTok at h1
        rw [tokPeek_eq] at h1
        injection h1 with h0 h1
        rw [← h1]
        exact ⟨rfl, rfl, h0.symm⟩
      obtain ⟨c1, c2, c3⟩ := h1'
      rw [← c1] at b1 b4
      rw [← c1] at c3
      have hmono : s.offset ≤ s1.offset := by omega
      split
      · rename_i hk
        rw [c3] at hk
        rw [M.bind_ok (M.modify_eq _ _), M.bind_ok (M.modify_eq _ _)]
        have hsz : s1.delegate.length ≤ s1.offset + 1 := by rw [c2]; omega
        split
        · exact Small.ok hsz
        · refine Small.bind rfl ?_
          intro b s2 h2
          have : s2 = { s1 with offset := s1.offset + 1 } := by
            unfold liftQ at h2
            split at h2
            · injection h2 with _ h2; exact h2.symm
            · cases h2
          subst this
          split
          · exact Small.ok hsz
          · exact Small.err
      · have hrec := ihT s1 b1 (by rw [c2]; omega) (by omega)
        refine Small.bind hrec.1 ?_
        intro v s4 h4
        have e3 := hrec.2 v s4 h4
        obtain ⟨f1, f2, -, -⟩ := (gT s1 b1 (nofit _) True.intro (by omega)).of_ok h4
        rw [M.bind_ok (tokOffset_eq (D := nodesDelegate (some N)) s4), M.bind_ok (tokOffset_eq (D := nodesDelegate none) s4)]
        refine Small.bind arrayValue_same ?_
        intro a2 s5 h5
        obtain ⟨i1, i2⟩ := arrayValue_small _ _ h5
        rw [M.bind_ok (tokOffset_eq (D := nodesDelegate (some N)) s5), M.bind_ok (tokOffset_eq (D := nodesDelegate none) s5)]
        refine Small.bind rfl ?_
        intro t2 s6 h6
        obtain ⟨g1, g2, g3⟩ := liftTok_next (D := nodesDelegate none) (by omega) hlim h6
        split
        · exact Small.ok (by rw [g3]; omega)
        split
        · exact Small.err
        · exact ihAL s6 a2 g2 (by rw [g3]; omega) (by omega)

theorem parse_small (hlim : src.length < LIM) (hN : src.length ≤ N) :
    parseBytes false src cfg (nodesDelegate (some N)) [] = parseBytes false src cfg (nodesDelegate none) [] := by
  unfold parseBytes parseM
  refine bind_congr' ((run_small (cfg := cfg) hlim hN (parseFuel src)).1 _ (Nat.zero_le _) (Nat.le_refl _) ?_).1 ?_
  · unfold parseFuel; simp only; omega
  · intro a s' h
    rfl

end
end JustJson
