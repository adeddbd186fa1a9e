import Verif.Lemmas.Replay
import Verif.Lemmas.Flagged
import Verif.Props.Ex
import Verif.Spec.SameError
import Verif.Props.Callbacks
import Verif.Props.Collection
/-! # C73: a parse is a list of callbacks that the source decides

`replay D l [] d` makes the callbacks of `l` one after the other on the delegate (`Spec/Replay.lean`); each gets what the earlier
ones returned. -/

namespace JustJson
open Spec

set_option linter.unusedSectionVars false

section
variable [Arch]

theorem plan_truthful (g : Bool) (src : List UInt8) (h : Input g src) (cfg : ParseConfig) :
    ∃ (l : List (Nat × Event)) (verdict : Option (Error Empty)), plan g src cfg = (l, verdict) ∧
      (match verdict with
        | none => ∃ v, Value.parseWithConfig g src cfg = .ok v ∧ l.map Prod.snd = events v
        | some e => Value.parseWithConfig g src cfg = .err e ∧ ∃ v, l.map Prod.snd <+: events v)
      ∧ ∀ D, Truthful D → (cfg.allowAllTypesAtRoot = true ∨ KindTruthful D) → ∀ d,
        match replay D l [] d with
        | .err x d' => ∃ s, parseBytes g src cfg D d = .err x s ∧ s.delegate = d'
        | .panic p => parseBytes g src cfg D d = .panic p
        | .ok fs d' =>
          match verdict with
          | none => ∃ a s, fs = [.value a] ∧ parseBytes g src cfg D d = .ok a s ∧ s.delegate = d'
          | some e => ∃ s, parseBytes g src cfg D d = .err e.intoFallable s ∧ s.delegate = d' := by
  obtain ⟨l, E, hpl, h1, h2⟩ := parse_reads (cfg := cfg) h
  have hv := h2 _ (logged_truthful value_truthful) (.inr (logged_kind value_kind)) ((), [])
  have hs := C56_callbacks_bracketed g src h cfg valueParser ()
  have hp : ∀ p, parseBytes g src cfg valueParser () ≠ .panic p := by
    intro p hp
    refine (C12_no_panic g src h cfg none p).2.1 ?_
    unfold Value.parseWithConfig
    rw [hp]
    rfl
  have hq : ∀ p, parseBytes g src cfg (logged valueParser) ((), []) ≠ .panic p := by
    intro p hq
    rw [hq] at hs
    exact hp p hs.1.symm
  unfold Runs at hv
  cases hr : replay (logged valueParser) l [] ((), []) with
  | err x d' =>
    obtain ⟨off, y, _, _⟩ := replay_err hr
    exact y.elim
  | panic p => rw [hr] at hv; exact absurd hv (hq p)
  | ok fs d' =>
    have hl := replay_listed hr
    rw [hr] at hv
    have rest : ∀ E' : Option (Error Empty), (∀ D, Truthful D → (cfg.allowAllTypesAtRoot = true ∨ KindTruthful D) → ∀ d, ∀ fs d',
        replay D l [] d = .ok fs d' → match E' with
          | none => ∃ a s, fs = [.value a] ∧ parseBytes g src cfg D d = .ok a s ∧ s.delegate = d'
          | some e => ∃ s, parseBytes g src cfg D d = .err e.intoFallable s ∧ s.delegate = d') →
        ∀ D, Truthful D → (cfg.allowAllTypesAtRoot = true ∨ KindTruthful D) → ∀ d,
        match replay D l [] d with
        | .err x d' => ∃ s, parseBytes g src cfg D d = .err x s ∧ s.delegate = d'
        | .panic p => parseBytes g src cfg D d = .panic p
        | .ok fs d' =>
          match E' with
          | none => ∃ a s, fs = [.value a] ∧ parseBytes g src cfg D d = .ok a s ∧ s.delegate = d'
          | some e => ∃ s, parseBytes g src cfg D d = .err e.intoFallable s ∧ s.delegate = d' := by
      intro E' hE D hD hk d
      have h3 := h2 D hD hk d
      unfold Runs at h3
      cases hr : replay D l [] d with
      | ok fs d' => exact hE D hD hk d fs d' hr
      | err x d' => rw [hr] at h3; exact h3
      | panic p => rw [hr] at h3; exact h3
    cases E with
    | panicked p => exact absurd hv (hq p)
    | done o r =>
      obtain ⟨v, hlv⟩ := h1 o r rfl
      refine ⟨l, none, hpl, ⟨v, ?_, hlv⟩, rest none fun D hD hk d fs d' hr => ?_⟩
      · have h3 := h2 _ value_truthful (.inr value_kind) ()
        unfold Runs at h3
        have h4 := (events_plays (D := valueParser)).1 v l hlv [] ()
        rw [value_fold.1] at h4
        simp only [] at h4
        rw [h4] at h3
        obtain ⟨a, h5, h6⟩ := h3
        injection h5 with h5 _
        injection h5 with h5
        subst h5
        unfold Value.parseWithConfig
        rw [h6]
        rfl
      · have h3 := h2 D hD hk d
        unfold Runs at h3
        rw [hr] at h3
        obtain ⟨a, h4, h5⟩ := h3
        exact ⟨a, _, h4, h5, rfl⟩
    | failed e o r =>
      refine ⟨l, some e, hpl, ⟨?_, ?_⟩, rest (some e) fun D hD hk d fs d' hr => ?_⟩
      · have hv : parseBytes g src cfg (logged valueParser) ((), []) = .err e.intoFallable ⟨o, d', r⟩ := hv
        have := hs.1
        rw [hv] at this
        unfold Value.parseWithConfig
        rw [← this]
        obtain ⟨off, k⟩ := e
        cases k with
        | errorFromDelegate x => exact x.elim
        | _ => rfl
      · have hv : parseBytes g src cfg (logged valueParser) ((), []) = .err e.intoFallable ⟨o, d', r⟩ := hv
        have := hs.2
        rw [hv] at this
        obtain ⟨v, this⟩ := this
        rw [hl] at this
        exact ⟨v, this⟩
      · have h3 := h2 D hD hk d
        unfold Runs at h3
        rw [hr] at h3
        exact ⟨_, h3, rfl⟩

/-- the same for any delegate where trailing commas are allowed -/
theorem plan_script (g : Bool) (src : List UInt8) (h : Input g src) (cfg : ParseConfig) :
    ∃ (l : List (Nat × Event)) (verdict : Option (Error Empty)), plan g src cfg = (l, verdict) ∧
      (match verdict with
        | none => ∃ v, Value.parseWithConfig g src cfg = .ok v ∧ l.map Prod.snd = events v
        | some e => Value.parseWithConfig g src cfg = .err e ∧ ∃ v, l.map Prod.snd <+: events v)
      ∧ ∀ D, (cfg.allowTrailingCommas = true ∨ Truthful D) → (cfg.allowAllTypesAtRoot = true ∨ KindTruthful D) → ∀ d,
        match replay D l [] d with
        | .err x d' => ∃ s, parseBytes g src cfg D d = .err x s ∧ s.delegate = d'
        | .panic p => parseBytes g src cfg D d = .panic p
        | .ok fs d' =>
          match verdict with
          | none => ∃ a s, fs = [.value a] ∧ parseBytes g src cfg D d = .ok a s ∧ s.delegate = d'
          | some e => ∃ s, parseBytes g src cfg D d = .err e.intoFallable s ∧ s.delegate = d' := by
  obtain ⟨l, verdict, hp, h1, h2⟩ := plan_truthful g src h cfg
  exact ⟨l, verdict, hp, h1, fun D hD hk d => follows_lenient h h2 D hD hk d⟩

/-- **C73.** Source and configuration decide a list `l` of callbacks and a verdict. With every delegate that answers the queries
of emptiness and kind truthfully (if the configuration makes them), from every state, a parse makes the callbacks of `l` up to the first that fails, which is the
parse's error then, reported at the offset in `l`; if none fails the verdict is returned. The verdict is what parsing a `Value`
gives, and the list is the traversal of that value, or, if the verdict is an error, the beginning of one. -/
theorem C73_script (g : Bool) (src : List UInt8) (h : Input g src) (cfg : ParseConfig) :
    ∃ (l : List (Nat × Event)) (verdict : Option (Error Empty)),
      (match verdict with
        | none => ∃ v, Value.parseWithConfig g src cfg = .ok v ∧ l.map Prod.snd = events v
        | some e => Value.parseWithConfig g src cfg = .err e ∧ ∃ v, l.map Prod.snd <+: events v)
      ∧ ∀ D, (cfg.allowTrailingCommas = true ∨ Truthful D) → (cfg.allowAllTypesAtRoot = true ∨ KindTruthful D) → ∀ d,
        match replay D l [] d with
        | .err x d' => ∃ s, parseBytes g src cfg D d = .err x s ∧ s.delegate = d'
        | .panic p => parseBytes g src cfg D d = .panic p
        | .ok fs d' =>
          match verdict with
          | none => ∃ a s, fs = [.value a] ∧ parseBytes g src cfg D d = .ok a s ∧ s.delegate = d'
          | some e => ∃ s, parseBytes g src cfg D d = .err (sameError e) s ∧ s.delegate = d' := by
  obtain ⟨l, verdict, _, h1⟩ := plan_script g src h cfg
  exact ⟨l, verdict, h1⟩

/-! ## The calls on a collection -/

/-- what is on the stack, without the delegate's values -/
inductive Slot where
  | value | object | entry | array
deriving DecidableEq

/-- the stack after a callback -/
def Event.slot : Event → List Slot → Option (List Slot)
  | .null, sh => some (.value :: sh)
  | .boolean _, sh => some (.value :: sh)
  | .number _, sh => some (.value :: sh)
  | .string _, sh => some (.value :: sh)
  | .beginObject, sh => some (.object :: sh)
  | .objectKey _, .object :: sh => some (.entry :: sh)
  | .objectValue, .value :: .entry :: sh => some (.object :: sh)
  | .endObject, .object :: sh => some (.value :: sh)
  | .beginArray, sh => some (.array :: sh)
  | .arrayValue, .value :: .array :: sh => some (.array :: sh)
  | .endArray, .array :: sh => some (.value :: sh)
  | _, _ => none

/-- every callback finds what it takes -/
def shaped : List Event → List Slot → Option (List Slot)
  | [], sh => some sh
  | e :: es, sh => match e.slot sh with
    | some sh' => shaped es sh'
    | none => none

theorem shaped_append (l1 l2 : List Event) (sh : List Slot) :
    shaped (l1 ++ l2) sh = (match shaped l1 sh with | some sh' => shaped l2 sh' | none => none) := by
  induction l1 generalizing sh with
  | nil => rfl
  | cons e l1 ih =>
    rw [List.cons_append, shaped, shaped]
    cases e.slot sh with
    | none => rfl
    | some sh' => exact ih sh'

theorem shaped_events : (∀ v : Value, ∀ sh, shaped (events v) sh = some (.value :: sh))
    ∧ (∀ es : Object, ∀ sh, shaped (entryEvents es) (.object :: sh) = some (.object :: sh))
    ∧ ∀ vs : List Value, ∀ sh, shaped (elemEvents vs) (.array :: sh) = some (.array :: sh) := by
  apply Value.induct
  · intro sh; rfl
  · intro b sh; rfl
  · intro b sh; rfl
  · intro b sh; rfl
  · intro es ih sh
    rw [events, shaped]
    simp only [Event.slot]
    rw [shaped_append, ih]
    rfl
  · intro es ih sh
    rw [events, shaped]
    simp only [Event.slot]
    rw [shaped_append, ih]
    rfl
  · intro sh; rfl
  · intro k v es h1 h2 sh
    rw [entryEvents, shaped]
    simp only [Event.slot]
    rw [shaped_append, h1]
    simp only [shaped, Event.slot]
    exact h2 sh
  · intro sh; rfl
  · intro v es h1 h2 sh
    rw [elemEvents, shaped_append, h1]
    simp only [shaped, Event.slot]
    exact h2 sh

theorem shaped_prefix {l : List Event} {v : Value} (h : l <+: events v) : ∃ sh, shaped l [] = some sh := by
  obtain ⟨t, h⟩ := h
  have h1 := shaped_events.1 v []
  rw [← h, shaped_append] at h1
  cases hs : shaped l [] with
  | none => rw [hs] at h1; cases h1
  | some sh => exact ⟨sh, rfl⟩

/-- the stack of the delegate of a collection, and the open containers -/
inductive Held (K : NodeCollection) (ns : List Node) : Nat → List Slot → List (Frame (collDelegate K)) → List (Nat × Nat) → Prop where
  | nil (b : Nat) : Held K ns b [] [] []
  | value {b i : Nat} {sh fs st} : Held K ns b sh fs st → Held K ns b (.value :: sh) (.value i :: fs) st
  | object {b i c : Nat} {sh fs st} : i < b → ns[i]? = some (.object c) → Held K ns i sh fs st →
    Held K ns b (.object :: sh) (.object i :: fs) ((i, c) :: st)
  | entry {b i c : Nat} {sh fs st} : i < b → ns[i]? = some (.object c) → Held K ns i sh fs st →
    Held K ns b (.entry :: sh) (.entry i () :: fs) ((i, c) :: st)
  | array {b i c : Nat} {sh fs st} : i < b → ns[i]? = some (.array c) → Held K ns i sh fs st →
    Held K ns b (.array :: sh) (.array i :: fs) ((i, c) :: st)

theorem Held.keep {K : NodeCollection} {ns ns' : List Node} {b b' : Nat} {sh fs st} (h : Held K ns b sh fs st) (hb : b ≤ b')
    (hn : ∀ i, i < b → ns'[i]? = ns[i]?) : Held K ns' b' sh fs st := by
  induction h generalizing b' with
  | nil b => exact .nil _
  | value _ ih => exact .value (ih hb hn)
  | object h1 h2 _ ih =>
    exact .object (Nat.lt_of_lt_of_le h1 hb) (by rw [hn _ h1, h2]) (ih (Nat.le_refl _) fun j hj => hn j (Nat.lt_trans hj h1))
  | entry h1 h2 _ ih =>
    exact .entry (Nat.lt_of_lt_of_le h1 hb) (by rw [hn _ h1, h2]) (ih (Nat.le_refl _) fun j hj => hn j (Nat.lt_trans hj h1))
  | array h1 h2 _ ih =>
    exact .array (Nat.lt_of_lt_of_le h1 hb) (by rw [hn _ h1, h2]) (ih (Nat.le_refl _) fun j hj => hn j (Nat.lt_trans hj h1))

/-- the calls of a replay are these calls on the collection -/
def Made (K : NodeCollection) (qs : List CollCall) (l : List (Nat × Event)) (fs : List (Frame (collDelegate K))) (c : K.C) : Prop :=
  match makeColl K qs c with
  | .ok _ c' => ∃ fs', replay (collDelegate K) l fs c = .ok fs' c'
  | .err k c' => ∃ off, off ∈ l.map Prod.fst ∧ replay (collDelegate K) l fs c = .err ⟨off, .errorFromDelegate k⟩ c'
  | .panic p => replay (collDelegate K) l fs c = .panic p

theorem Made.skip {K : NodeCollection} {qs : List CollCall} {l : List (Nat × Event)} {off : Nat} {e : Event} {fs fs' c}
    (h : e.call (collDelegate K) fs c = .ok fs' c) (h2 : Made K qs l fs' c) : Made K qs ((off, e) :: l) fs c := by
  unfold Made at h2 ⊢
  rw [replay_cons, h]
  cases hm : makeColl K qs c with
  | ok u c' => rw [hm] at h2; exact h2
  | err k c' =>
    rw [hm] at h2
    obtain ⟨off, h3, h4⟩ := h2
    exact ⟨off, List.mem_cons_of_mem _ h3, h4⟩
  | panic p => rw [hm] at h2; exact h2

theorem Made.write {K : NodeCollection} {qs : List CollCall} {l : List (Nat × Event)} {off i : Nat} {n : Node} {e : Event} {fs fs' c}
    (h : e.call (collDelegate K) fs c = .ok fs' (K.write c i n)) (h2 : Made K qs l fs' (K.write c i n)) :
    Made K (.write i n :: qs) ((off, e) :: l) fs c := by
  unfold Made at h2 ⊢
  rw [replay_cons, h, makeColl, M.bind_eq]
  simp only [CollCall.make]
  cases hm : makeColl K qs (K.write c i n) with
  | ok u c' => rw [hm] at h2; exact h2
  | err k c' =>
    rw [hm] at h2
    obtain ⟨off, h3, h4⟩ := h2
    exact ⟨off, List.mem_cons_of_mem _ h3, h4⟩
  | panic p => rw [hm] at h2; exact h2

theorem Made.push {K : NodeCollection} {qs : List CollCall} {l : List (Nat × Event)} {off : Nat} {n : Node} {e : Event} {fs fs'} {c : K.C}
    (h : ∀ d, K.nodes d = K.nodes c → True → e.call (collDelegate K) fs c = match K.push n c with
      | .ok _ c' => .ok fs' c'
      | .err k c' => .err k c'
      | .panic p => .panic p)
    (h2 : ∀ c', K.push n c = .ok () c' → Made K qs l fs' c') :
    Made K (.push n :: qs) ((off, e) :: l) fs c := by
  unfold Made
  rw [replay_cons, h c rfl trivial, makeColl, M.bind_eq]
  simp only [CollCall.make]
  cases hp : K.push n c with
  | ok u c' =>
    have h2 := h2 c' hp
    unfold Made at h2
    simp only []
    cases hm : makeColl K qs c' with
    | ok u c' => rw [hm] at h2; exact h2
    | err k c' =>
      rw [hm] at h2
      obtain ⟨off, h3, h4⟩ := h2
      exact ⟨off, List.mem_cons_of_mem _ h3, h4⟩
    | panic p => rw [hm] at h2; exact h2
  | err k c' => exact ⟨off, List.mem_cons_self, rfl⟩
  | panic p => rfl

theorem collPush_at {K : NodeCollection} (n : Node) (c : K.C) : collPush K n c = match K.push n c with
      | .ok _ c' => .ok (K.nodes c).length c'
      | .err k c' => .err k c'
      | .panic p => .panic p := by
  unfold collPush
  rw [M.bind_eq]
  cases K.push n c <;> rfl

theorem made_all {K : NodeCollection} (hK : K.Lawful) (l : List (Nat × Event)) : ∀ (c : K.C) sh sh' fs st,
    shaped (l.map Prod.snd) sh = some sh' → Held K (K.nodes c) (K.nodes c).length sh fs st →
    Made K (collCalls (l.map Prod.snd) (K.nodes c).length st) l fs c := by
  induction l with
  | nil => intro c sh sh' fs st _ _; exact ⟨fs, rfl⟩
  | cons q l ih =>
    intro c sh sh' fs st hs hh
    obtain ⟨off, e⟩ := q
    rw [List.map_cons] at hs ⊢
    simp only [] at hs ⊢
    rw [shaped] at hs
    have grown : ∀ n c', K.push n c = .ok () c' → (K.nodes c').length = (K.nodes c).length + 1
        ∧ (∀ i, i < (K.nodes c).length → (K.nodes c')[i]? = (K.nodes c)[i]?) ∧ (K.nodes c')[(K.nodes c).length]? = some n := by
      intro n c' hp
      rw [hK.push n c c' hp]
      refine ⟨by simp, fun i hi => by rw [List.getElem?_append_left hi], by simp⟩
    have leaf : ∀ (e : Event) (n : Node), e.slot sh = some (.value :: sh) → e.call (collDelegate K) fs c
          = (collPush K n >>= fun i => (M.pure (Frame.value i :: fs) : M K.C (ErrorKind Empty) _)) c →
        (match e.slot sh with | some sh' => shaped (l.map Prod.snd) sh' | none => none) = some sh' →
        Made K (.push n :: collCalls (l.map Prod.snd) ((K.nodes c).length + 1) st) ((off, e) :: l) fs c := by
      intro e n h1 h2 hs
      rw [h1] at hs
      refine Made.push (fs' := .value (K.nodes c).length :: fs) (fun d _ _ => ?_) fun c' hp => ?_
      · rw [h2, M.bind_eq, collPush_at]
        cases K.push n c <;> rfl
      · obtain ⟨g1, g2, g3⟩ := grown n c' hp
        have := ih c' _ _ (.value (K.nodes c).length :: fs) st hs (.value (hh.keep (by omega) g2))
        rw [g1] at this
        exact this
    cases e with
    | null => exact leaf _ _ rfl rfl hs
    | boolean b => exact leaf _ _ rfl rfl hs
    | number b => exact leaf _ _ rfl rfl hs
    | string b => exact leaf _ _ rfl rfl hs
    | beginObject =>
      rw [collCalls]
      refine Made.push (fs' := .object (K.nodes c).length :: fs) (fun d _ _ => ?_) fun c' hp => ?_
      · show (collPush K (.object 0) >>= fun i => (M.pure (Frame.object i :: fs) : M K.C (ErrorKind Empty) _)) c = _
        rw [M.bind_eq, collPush_at]
        cases K.push (.object 0) c <;> rfl
      · obtain ⟨g1, g2, g3⟩ := grown _ c' hp
        have := ih c' _ _ (.object (K.nodes c).length :: fs) (((K.nodes c).length, 0) :: st) hs
          (.object (by omega) g3 (hh.keep (Nat.le_refl _) g2))
        rw [g1] at this
        exact this
    | beginArray =>
      rw [collCalls]
      refine Made.push (fs' := .array (K.nodes c).length :: fs) (fun d _ _ => ?_) fun c' hp => ?_
      · show (collPush K (.array 0) >>= fun i => (M.pure (Frame.array i :: fs) : M K.C (ErrorKind Empty) _)) c = _
        rw [M.bind_eq, collPush_at]
        cases K.push (.array 0) c <;> rfl
      · obtain ⟨g1, g2, g3⟩ := grown _ c' hp
        have := ih c' _ _ (.array (K.nodes c).length :: fs) (((K.nodes c).length, 0) :: st) hs
          (.array (by omega) g3 (hh.keep (Nat.le_refl _) g2))
        rw [g1] at this
        exact this
    | endObject =>
      cases hh with
      | object h1 h2 h3 =>
        rw [collCalls]
        refine Made.skip (fs' := .value _ :: _) rfl ?_
        exact ih c _ _ _ _ hs (.value (h3.keep (Nat.le_of_lt h1) fun _ _ => rfl))
      | _ => cases hs
    | endArray =>
      cases hh with
      | array h1 h2 h3 =>
        rw [collCalls]
        refine Made.skip (fs' := .value _ :: _) rfl ?_
        exact ih c _ _ _ _ hs (.value (h3.keep (Nat.le_of_lt h1) fun _ _ => rfl))
      | _ => cases hs
    | objectValue =>
      cases hh with
      | value hh =>
        cases hh with
        | entry h1 h2 h3 =>
          rw [collCalls]
          refine Made.skip (fs' := .object _ :: _) rfl ?_
          exact ih c _ _ _ _ hs (.object h1 h2 h3)
        | _ => cases hs
      | _ => cases hs
    | arrayValue =>
      cases hh with
      | value hh =>
        cases hh with
        | @array _ i n _ fs st h1 h2 h3 =>
          rw [collCalls]
          refine Made.write (fs' := .array i :: fs) ?_ ?_
          · show ((collExtendArray K i >>= fun _ => (M.pure i : M K.C (ErrorKind Empty) Nat)) >>= fun i => (M.pure (Frame.array i :: fs) : M K.C (ErrorKind Empty) _)) c = _
            rw [M.bind_eq, M.bind_eq, collExtendArray, h2]
            rfl
          · have e1 : (K.nodes (K.write c i (.array (n + 1)))).length = (K.nodes c).length := by rw [hK.write]; simp
            have := ih (K.write c i (.array (n + 1))) _ _ (.array i :: fs) ((i, n + 1) :: st) hs (.array (by omega) (by rw [hK.write]; simp [h1])
              (h3.keep (Nat.le_refl _) fun j hj => by rw [hK.write, List.getElem?_set_ne (by omega)]))
            rw [e1] at this
            exact this
        | _ => cases hs
      | _ => cases hs
    | objectKey k =>
      cases hh with
      | @object _ i n _ fs st h1 h2 h3 =>
        rw [collCalls]
        have hw : (collDelegate K).objectKey i k c = match K.push (.string k) (K.write c i (.object (n + 1))) with
            | .ok _ c' => .ok (i, ()) c'
            | .err x c' => .err x c'
            | .panic p => .panic p := by
          show (collExtendObject K i >>= fun _ => collPush K (.string k) >>= fun _ => (M.pure (i, ()) : M K.C (ErrorKind Empty) (Nat × Unit))) c = _
          rw [M.bind_eq, collExtendObject, h2]
          simp only []
          rw [M.bind_eq, collPush_at]
          cases K.push (.string k) (K.write c i (.object (n + 1))) <;> rfl
        have hcall : Event.call (collDelegate K) (.objectKey k) (.object i :: fs) c = match K.push (.string k) (K.write c i (.object (n + 1))) with
            | .ok _ c' => .ok (.entry i () :: fs) c'
            | .err x c' => .err x c'
            | .panic p => .panic p := by
          rw [Event.call, M.bind_eq, hw]
          cases K.push (.string k) (K.write c i (.object (n + 1))) <;> rfl
        unfold Made
        rw [replay_cons, hcall, makeColl, M.bind_eq]
        simp only [CollCall.make]
        rw [makeColl, M.bind_eq]
        simp only [CollCall.make]
        have e1 : (K.nodes (K.write c i (.object (n + 1)))).length = (K.nodes c).length := by rw [hK.write]; simp
        cases hp : K.push (.string k) (K.write c i (.object (n + 1))) with
        | ok u c' =>
          have e2 := hK.push _ _ _ hp
          have e3 : (K.nodes c').length = (K.nodes c).length + 1 := by rw [e2]; simp [e1]
          have := ih c' _ _ (.entry i () :: fs) ((i, n + 1) :: st) hs (.entry (by omega)
            (by rw [e2, List.getElem?_append_left (by omega), hK.write]; simp [h1])
            (h3.keep (Nat.le_refl _) fun j hj => by rw [e2, List.getElem?_append_left (by omega), hK.write, List.getElem?_set_ne (by omega)]))
          rw [e3] at this
          unfold Made at this
          simp only []
          cases hm : makeColl K (collCalls (List.map Prod.snd l) ((K.nodes c).length + 1) ((i, n + 1) :: st)) c' with
          | ok u c' => rw [hm] at this; exact this
          | err k c' =>
            rw [hm] at this
            obtain ⟨off, h3, h4⟩ := this
            exact ⟨off, List.mem_cons_of_mem _ h3, h4⟩
          | panic p => rw [hm] at this; exact this
        | err x c' => exact ⟨off, List.mem_cons_self, rfl⟩
        | panic p => rfl
      | _ => cases hs

/-- **C63.** The calls that `GenericDocument` makes on a collection are decided by the source and the configuration: for a list
`l` of callbacks, which is the traversal of the value the text parses to, or the beginning of one if the text is refused, they
are the calls `collCalls l` that put its nodes down in pre-order, up to the first that fails, whose kind the error has then. If
none fails the text decides. -/
theorem C63_exact_calls (g : Bool) (src : List UInt8) (h : Input g src) (cfg : ParseConfig) :
    ∃ (l : List Event) (verdict : Option (Error Empty)),
      (match verdict with
        | none => ∃ v, Value.parseWithConfig g src cfg = .ok v ∧ l = events v
        | some e => Value.parseWithConfig g src cfg = .err e ∧ ∃ v, l <+: events v)
      ∧ ∀ K : NodeCollection, K.Lawful →
        match makeColl K (collCalls l 0 []) K.default with
        | .ok _ c =>
          match verdict with
          | none => genericDocument K g src cfg = .ok c
          | some e => genericDocument K g src cfg = .err e
        | .err k _ => ∃ off, genericDocument K g src cfg = .err ⟨off, k⟩
        | .panic p => genericDocument K g src cfg = .panic p := by
  obtain ⟨l, verdict, h1, h2⟩ := C73_script g src h cfg
  refine ⟨l.map Prod.snd, verdict, h1, fun K hK => ?_⟩
  have hsh : ∃ sh, shaped (l.map Prod.snd) [] = some sh := by
    cases verdict with
    | none =>
      obtain ⟨v, _, hv⟩ := h1
      rw [hv]
      exact ⟨_, shaped_events.1 v []⟩
    | some e =>
      obtain ⟨_, v, hv⟩ := h1
      exact shaped_prefix hv
  obtain ⟨sh, hsh⟩ := hsh
  have hm := made_all hK l K.default [] sh [] [] hsh (.nil _)
  have h3 := h2 (collDelegate K) (.inr (coll_truthful hK)) (.inr (coll_kind hK)) K.default
  rw [hK.default] at hm
  unfold Made at hm
  have hm : match makeColl K (collCalls (l.map Prod.snd) 0 []) K.default with
    | .ok _ c' => ∃ fs', replay (collDelegate K) l [] K.default = .ok fs' c'
    | .err k c' => ∃ off, off ∈ l.map Prod.fst ∧ replay (collDelegate K) l [] K.default = .err ⟨off, .errorFromDelegate k⟩ c'
    | .panic p => replay (collDelegate K) l [] K.default = .panic p := hm
  unfold genericDocument
  cases hc : makeColl K (collCalls (l.map Prod.snd) 0 []) K.default with
  | ok u c =>
    rw [hc] at hm
    obtain ⟨fs, hr⟩ := hm
    rw [hr] at h3
    cases verdict with
    | none =>
      obtain ⟨a, s, _, h4, h5⟩ := h3
      simp only []
      rw [h4, ← h5]
    | some e =>
      obtain ⟨s, h4, _⟩ := h3
      simp only []
      rw [h4]
      obtain ⟨off, k⟩ := e
      cases k with
      | errorFromDelegate x => exact x.elim
      | _ => rfl
  | err k c =>
    rw [hc] at hm
    obtain ⟨off, _, hr⟩ := hm
    rw [hr] at h3
    obtain ⟨s, h4, _⟩ := h3
    refine ⟨off, ?_⟩
    rw [h4]
    rfl
  | panic p =>
    rw [hc] at hm
    rw [hm] at h3
    rw [h3]

end

/-! ## Concrete cases -/

section Examples
attribute [local instance] arch64

/-- how many things a replay left on the stack -/
def leftOver {σ ε α : Type} : Out σ ε (List α) → Option Nat
  | .ok fs _ => some fs.length
  | _ => none

-- the hypotheses are met: the delegates of the crate are truthful, and so is one that fails
example : Truthful valueParser ∧ KindTruthful valueParser ∧ Truthful unitDelegate ∧ KindTruthful unitDelegate
    ∧ Truthful (collDelegate pickyCollection) ∧ KindTruthful (collDelegate pickyCollection)
    ∧ Input false (b8 "[null, {}, }") :=
  ⟨value_truthful, value_kind, unit_truthful, unit_kind, coll_truthful picky_lawful, coll_kind picky_lawful,
    input_bytes (by unfold SliceFits; decide +kernel)⟩

-- the callbacks of `[null, {}, }` leave an open array
example : leftOver (replay unitDelegate [(0, .beginArray), (1, .null), (1, .arrayValue), (7, .beginObject), (8, .endObject), (8, .arrayValue)] [] ())
    = some 1 := by decide +kernel

-- the calls on a collection for `[true,[null],{}]`: three pushes before the inner array has its element
example : collCalls (events (.array [.boolean true, .array [.null], .object []])) 0 []
    = [.push (.array 0), .push (.boolean true), .write 0 (.array 1), .push (.array 0), .push .null, .write 2 (.array 1),
      .write 0 (.array 2), .push (.object 0), .write 0 (.array 3)] := by decide +kernel

-- a collection that refuses strings gets the first two nodes of `[true,"a",null]`
example (s : JsonString) : (match makeColl pickyCollection (collCalls (events (.array [.boolean true, .string s, .null])) 0 []) ([], 0) with
    | .err k c => k = .expectedValue ∧ c = ([.array 1, .boolean true], 2)
    | _ => False) := ⟨rfl, rfl⟩

end Examples

/-! ## Instances: each theorem above applied to a concrete case that meets its hypotheses -/
section Instances
attribute [local instance] arch64

example := C73_script true exSrc (exSrc_input _) .new
example := C63_exact_calls true exSrc (exSrc_input _) .new

end Instances
end JustJson
