import Verif.Spec.Replay
import Verif.Lemmas.Lockstep
import Verif.Lemmas.Delegates
import Verif.Lemmas.Machine
import Verif.Lemmas.Tokens
import Verif.Lemmas.Sound
import Verif.Lemmas.Parse
/-! # A parse is a list of callbacks that the source decides -/

namespace JustJson
open Spec

set_option linter.unusedSectionVars false

section
variable {src : List UInt8} [Arch] {g : Bool} {cfg : ParseConfig} {D : Delegate}

theorem replay_cons (off : Nat) (e : Event) (l : List (Nat × Event)) (fs : List (Frame D)) (d : D.σ) :
    replay D ((off, e) :: l) fs d = match e.call D fs d with
      | .ok fs' d' => replay D l fs' d'
      | .err x d' => .err ⟨off, .errorFromDelegate x⟩ d'
      | .panic p => .panic p := by
  rw [replay, M.bind_eq, M.mapErr]
  cases e.call D fs d <;> rfl

theorem replay_append (l1 l2 : List (Nat × Event)) (fs : List (Frame D)) (d : D.σ) :
    replay D (l1 ++ l2) fs d = match replay D l1 fs d with
      | .ok fs' d' => replay D l2 fs' d'
      | .err x d' => .err x d'
      | .panic p => .panic p := by
  induction l1 generalizing fs d with
  | nil => rfl
  | cons q l1 ih =>
    obtain ⟨off, e⟩ := q
    rw [List.cons_append, replay_cons, replay_cons]
    cases e.call D fs d with
    | ok fs' d' => exact ih fs' d'
    | err x d' => rfl
    | panic p => rfl

theorem replay_err {l : List (Nat × Event)} {fs : List (Frame D)} {d d' : D.σ} {x : Error D.Err}
    (h : replay D l fs d = .err x d') : ∃ off y, x = ⟨off, .errorFromDelegate y⟩ ∧ off ∈ l.map Prod.fst := by
  induction l generalizing fs d with
  | nil => cases h
  | cons q l ih =>
    obtain ⟨off, e⟩ := q
    rw [replay_cons] at h
    cases hc : e.call D fs d with
    | ok fs' d' =>
      rw [hc] at h
      obtain ⟨off', y, h1, h2⟩ := ih h
      exact ⟨off', y, h1, List.mem_cons_of_mem _ h2⟩
    | err y d' => rw [hc] at h; cases h; exact ⟨off, y, rfl, List.mem_cons_self⟩
    | panic p => rw [hc] at h; cases h

/-- a callback as a traversal: `m` on what is on the stack -/
def Plays {α : Type} (D : Delegate) (l : List (Nat × Event)) (fs : List (Frame D)) (m : M D.σ D.Err α) (wrap : α → List (Frame D)) : Prop :=
  ∀ d, match m d with
    | .ok a d' => replay D l fs d = .ok (wrap a) d'
    | .err x d' => ∃ off, replay D l fs d = .err ⟨off, .errorFromDelegate x⟩ d'
    | .panic p => replay D l fs d = .panic p

theorem Plays.call {α : Type} {off : Nat} {e : Event} {fs : List (Frame D)} {m : M D.σ D.Err α} {wrap : α → List (Frame D)}
    (h : e.call D fs = (do let a ← m; return wrap a)) : Plays D [(off, e)] fs m wrap := by
  intro d
  rw [replay_cons, h, M.bind_eq]
  cases hm : m d with
  | ok a d' => rfl
  | err x d' => exact ⟨off, rfl⟩
  | panic p => rfl

theorem Plays.bind {α β : Type} {l1 l2 : List (Nat × Event)} {fs : List (Frame D)} {m : M D.σ D.Err α} {f : α → M D.σ D.Err β}
    {w1 : α → List (Frame D)} {w2 : β → List (Frame D)} (h1 : Plays D l1 fs m w1) (h2 : ∀ a, Plays D l2 (w1 a) (f a) w2) :
    Plays D (l1 ++ l2) fs (m >>= f) w2 := by
  intro d
  rw [M.bind_eq, replay_append]
  have h1 := h1 d
  cases hm : m d with
  | ok a d' =>
    rw [hm] at h1
    simp only [] at h1 ⊢
    rw [h1]
    exact h2 a d'
  | err x d' =>
    rw [hm] at h1
    obtain ⟨off, h1⟩ := h1
    exact ⟨off, by rw [h1]⟩
  | panic p =>
    rw [hm] at h1
    simp only [] at h1 ⊢
    rw [h1]

theorem events_plays : (∀ v : Value, ∀ l, l.map Prod.snd = events v → ∀ fs, Plays D l fs (foldValue D v) (fun a => .value a :: fs))
    ∧ (∀ es : Object, ∀ l, l.map Prod.snd = entryEvents es → ∀ o fs,
        Plays D l (.object o :: fs) (foldEntries D es o) (fun o => .object o :: fs))
    ∧ ∀ vs : List Value, ∀ l, l.map Prod.snd = elemEvents vs → ∀ o fs,
        Plays D l (.array o :: fs) (foldElems D vs o) (fun o => .array o :: fs) := by
  have one : ∀ {l : List (Nat × Event)} {e : Event}, l.map Prod.snd = [e] → ∃ off, l = [(off, e)] := by
    intro l e h
    obtain ⟨⟨off, e'⟩, l', rfl, h1, h2⟩ := List.map_eq_cons_iff.mp h
    rw [List.map_eq_nil_iff] at h2
    subst h2
    cases h1
    exact ⟨off, rfl⟩
  apply Value.induct
  · intro l h fs
    rw [events] at h
    obtain ⟨off, rfl⟩ := one h
    rw [foldValue]
    exact .call rfl
  · intro b l h fs
    rw [events] at h
    obtain ⟨off, rfl⟩ := one h
    rw [foldValue]
    exact .call rfl
  · intro b l h fs
    rw [events] at h
    obtain ⟨off, rfl⟩ := one h
    rw [foldValue]
    exact .call rfl
  · intro b l h fs
    rw [events] at h
    obtain ⟨off, rfl⟩ := one h
    rw [foldValue]
    exact .call rfl
  · intro es ih l h fs
    rw [events] at h
    obtain ⟨⟨off, e⟩, l', rfl, h1, h2⟩ := List.map_eq_cons_iff.mp h
    cases h1
    obtain ⟨l2, l3, rfl, h3, h4⟩ := List.map_eq_append_iff.mp h2
    obtain ⟨off2, rfl⟩ := one h4
    rw [foldValue, ← List.singleton_append]
    exact .bind (.call rfl) fun o => .bind (ih l2 h3 o fs) fun o => .call rfl
  · intro es ih l h fs
    rw [events] at h
    obtain ⟨⟨off, e⟩, l', rfl, h1, h2⟩ := List.map_eq_cons_iff.mp h
    cases h1
    obtain ⟨l2, l3, rfl, h3, h4⟩ := List.map_eq_append_iff.mp h2
    obtain ⟨off2, rfl⟩ := one h4
    rw [foldValue, ← List.singleton_append]
    exact .bind (.call rfl) fun o => .bind (ih l2 h3 o fs) fun o => .call rfl
  · intro l h o fs
    rw [entryEvents, List.map_eq_nil_iff] at h
    subst h
    rw [foldEntries]
    intro d
    rfl
  · intro k v es h1 h2 l h o fs
    rw [entryEvents] at h
    obtain ⟨⟨off, e⟩, l', rfl, e1, h5⟩ := List.map_eq_cons_iff.mp h
    cases e1
    obtain ⟨l2, l3, rfl, h3, h6⟩ := List.map_eq_append_iff.mp h5
    obtain ⟨⟨off2, e⟩, l4, rfl, e1, h7⟩ := List.map_eq_cons_iff.mp h6
    cases e1
    rw [foldEntries, ← List.singleton_append, ← List.singleton_append (l := l4)]
    refine .bind (w1 := fun p => .entry p.1 p.2 :: fs) (.call rfl) fun p => ?_
    obtain ⟨o1, k1⟩ := p
    refine .bind (h1 l2 h3 _) fun a => ?_
    exact .bind (.call rfl) fun o2 => h2 l4 h7 o2 fs
  · intro l h o fs
    rw [elemEvents, List.map_eq_nil_iff] at h
    subst h
    rw [foldElems]
    intro d
    rfl
  · intro v es h1 h2 l h o fs
    rw [elemEvents] at h
    obtain ⟨l2, l3, rfl, h3, h6⟩ := List.map_eq_append_iff.mp h
    obtain ⟨⟨off2, e⟩, l4, rfl, e1, h7⟩ := List.map_eq_cons_iff.mp h6
    cases e1
    rw [foldElems, ← List.singleton_append (l := l4)]
    refine .bind (h1 l2 h3 _) fun a => ?_
    exact .bind (.call rfl) fun o2 => h2 l4 h7 o2 fs

/-- what traversing made, from what replaying did -/
theorem Plays.made {α : Type} {l : List (Nat × Event)} {fs fs' : List (Frame D)} {m : M D.σ D.Err α} {wrap : α → List (Frame D)} {d d' : D.σ}
    (h : Plays D l fs m wrap) (hr : replay D l fs d = .ok fs' d') : ∃ a, m d = .ok a d' ∧ fs' = wrap a := by
  have h := h d
  cases hm : m d with
  | ok a d2 => rw [hm] at h; simp only [] at h; rw [h] at hr; cases hr; exact ⟨a, rfl, rfl⟩
  | err x d2 => rw [hm] at h; obtain ⟨off, h⟩ := h; rw [h] at hr; cases hr
  | panic p => rw [hm] at h; simp only [] at h; rw [h] at hr; cases hr

/-! ## Runs that follow a list of callbacks -/

/-- how a run ends if no callback fails -/
inductive Fate where
  | done (off rem : Nat)
  | failed (e : Error Empty) (off rem : Nat)
  | panicked (p : Panic)

/-- the run makes the callbacks of `l` and then ends as `E` says -/
def Runs {α : Type} (D : Delegate) (out : Out (PState D.σ) (Error D.Err) α) (l : List (Nat × Event)) (E : Fate) (fs : List (Frame D))
    (wrap : α → List (Frame D)) (d : D.σ) : Prop :=
  match replay D l fs d with
  | .err x d' => ∃ s', out = .err x s' ∧ s'.delegate = d'
  | .panic p => out = .panic p
  | .ok fs' d' =>
    match E with
    | .done off rem => ∃ a, fs' = wrap a ∧ out = .ok a ⟨off, d', rem⟩
    | .failed e off rem => out = .err e.intoFallable ⟨off, d', rem⟩
    | .panicked p => out = .panic p

theorem Runs.bind_done {α β : Type} {m : PM D α} {f : α → PM D β} {s : PState D.σ} {l1 l2 : List (Nat × Event)} {off rem : Nat} {E : Fate}
    {fs : List (Frame D)} {w1 : α → List (Frame D)} {w2 : β → List (Frame D)} {d : D.σ}
    (h1 : Runs D (m s) l1 (.done off rem) fs w1 d)
    (h2 : ∀ a d', replay D l1 fs d = .ok (w1 a) d' → Runs D (f a ⟨off, d', rem⟩) l2 E (w1 a) w2 d') :
    Runs D ((m >>= f) s) (l1 ++ l2) E fs w2 d := by
  unfold Runs at h1 ⊢
  rw [replay_append, M.bind_eq]
  cases hr : replay D l1 fs d with
  | ok fs' d' =>
    rw [hr] at h1
    obtain ⟨a, rfl, h1⟩ := h1
    rw [h1]
    exact h2 a d' hr
  | err x d' =>
    rw [hr] at h1
    obtain ⟨s', h1, h3⟩ := h1
    exact ⟨s', by rw [h1], h3⟩
  | panic p =>
    rw [hr] at h1
    simp only [] at h1 ⊢
    rw [h1]

theorem Runs.bind_failed {α β : Type} {m : PM D α} {f : α → PM D β} {s : PState D.σ} {l1 : List (Nat × Event)} {e : Error Empty} {off rem : Nat}
    {fs : List (Frame D)} {w1 : α → List (Frame D)} {w2 : β → List (Frame D)} {d : D.σ}
    (h1 : Runs D (m s) l1 (.failed e off rem) fs w1 d) : Runs D ((m >>= f) s) l1 (.failed e off rem) fs w2 d := by
  unfold Runs at h1 ⊢
  rw [M.bind_eq]
  cases hr : replay D l1 fs d with
  | ok fs' d' => rw [hr] at h1; simp only [] at h1 ⊢; rw [h1]
  | err x d' => rw [hr] at h1; obtain ⟨s', h1, h3⟩ := h1; exact ⟨s', by rw [h1], h3⟩
  | panic p => rw [hr] at h1; simp only [] at h1 ⊢; rw [h1]

theorem Runs.bind_panicked {α β : Type} {m : PM D α} {f : α → PM D β} {s : PState D.σ} {l1 : List (Nat × Event)} {p : Panic}
    {fs : List (Frame D)} {w1 : α → List (Frame D)} {w2 : β → List (Frame D)} {d : D.σ}
    (h1 : Runs D (m s) l1 (.panicked p) fs w1 d) : Runs D ((m >>= f) s) l1 (.panicked p) fs w2 d := by
  unfold Runs at h1 ⊢
  rw [M.bind_eq]
  cases hr : replay D l1 fs d with
  | ok fs' d' => rw [hr] at h1; simp only [] at h1 ⊢; rw [h1]
  | err x d' => rw [hr] at h1; obtain ⟨s', h1, h3⟩ := h1; exact ⟨s', by rw [h1], h3⟩
  | panic p => rw [hr] at h1; simp only [] at h1 ⊢; rw [h1]

theorem Runs.call {α : Type} {off o r : Nat} {e : Event} {fs : List (Frame D)} {m : M D.σ D.Err α} {wrap : α → List (Frame D)} {d : D.σ}
    (h : e.call D fs = (do let a ← m; return wrap a)) : Runs D (liftD D off m ⟨o, d, r⟩) [(off, e)] (.done o r) fs wrap d := by
  unfold Runs
  rw [replay_cons, h, M.bind_eq]
  unfold liftD
  cases hm : m d with
  | ok a d' => exact ⟨a, rfl, rfl⟩
  | err x d' => exact ⟨_, rfl, rfl⟩
  | panic p => rfl

theorem Runs.ret {α : Type} {o r : Nat} {a : α} {fs : List (Frame D)} {wrap : α → List (Frame D)} {d : D.σ} (h : fs = wrap a) :
    Runs D (.ok a ⟨o, d, r⟩) [] (.done o r) fs wrap d := ⟨a, h, rfl⟩

theorem Runs.fail {α : Type} {o r : Nat} {e : Error Empty} {x : Error D.Err} {fs : List (Frame D)} {wrap : α → List (Frame D)} {d : D.σ}
    (h : x = e.intoFallable) : Runs D (.err x ⟨o, d, r⟩) [] (.failed e o r) fs wrap d := by rw [h]; exact rfl

theorem Runs.boom {α : Type} {p : Panic} {fs : List (Frame D)} {wrap : α → List (Frame D)} {d : D.σ} :
    Runs D (.panic p) [] (.panicked p) fs wrap d := rfl

/-- the fate of a run whose end-of-input errors are renamed -/
def Fate.eofTo (k : ErrorKind Empty) : Fate → Fate
  | .failed e o r => .failed (JustJson.eofTo k e) o r
  | E => E

theorem eofTo_fallable {δ : Type} (k e) : (eofTo k e : Error Empty).intoFallable = (eofTo k.intoFallable e.intoFallable : Error δ) := by
  obtain ⟨off, kd⟩ := e
  cases kd with
  | errorFromDelegate x => exact x.elim
  | _ => rfl

theorem Runs.map {α : Type} {m : PM D α} {s : PState D.σ} {l : List (Nat × Event)} {E : Fate} {k : ErrorKind Empty} {k' : ErrorKind D.Err}
    {fs : List (Frame D)} {wrap : α → List (Frame D)} {d : D.σ} (hk : k' = k.intoFallable)
    (h : Runs D (m s) l E fs wrap d) : Runs D (M.mapErr (JustJson.eofTo k') m s) l (E.eofTo k) fs wrap d := by
  subst hk
  unfold Runs at h ⊢
  unfold M.mapErr
  cases hr : replay D l fs d with
  | ok fs' d' =>
    rw [hr] at h
    cases E with
    | done o r => obtain ⟨a, h1, h2⟩ := h; exact ⟨a, h1, by rw [h2]⟩
    | failed e o r =>
      simp only [Fate.eofTo] at h ⊢
      rw [h, eofTo_fallable]
    | panicked p =>
      simp only [Fate.eofTo] at h ⊢
      rw [h]
  | err x d' =>
    rw [hr] at h
    obtain ⟨s', h1, h2⟩ := h
    obtain ⟨off, y, rfl, _⟩ := replay_err hr
    exact ⟨s', by rw [h1]; rfl, h2⟩
  | panic p =>
    rw [hr] at h
    simp only [] at h ⊢
    rw [h]

theorem Fate.eofTo_done {k : ErrorKind Empty} {E : Fate} {o r : Nat} (h : E.eofTo k = .done o r) : E = .done o r := by
  cases E with
  | done o r => exact h
  | failed e o r => cases h
  | panicked p => cases h

/-! ## The parser -/

/-- an object being built, with entries or without -/
def PartObject (D : Delegate) (first : Bool) (o : D.Object) (d : D.σ) : Prop :=
  ∃ es d0 o0 d1, D.beginObject d0 = .ok o0 d1 ∧ foldEntries D es o0 d1 = .ok o d ∧ es.isEmpty = first

/-- an array being built -/
def PartArray (D : Delegate) (first : Bool) (o : D.Array) (d : D.σ) : Prop :=
  ∃ es d0 o0 d1, D.beginArray d0 = .ok o0 d1 ∧ foldElems D es o0 d1 = .ok o d ∧ es.isEmpty = first

variable (cfg) in
/-- the open containers are those that the remaining depth says -/
def DepthLeft (rem : Nat) (st : List Nest) : Prop := ∀ n, cfg.recursionLimit = some n → rem + st.length = n

variable (g src cfg) in
/-- the machine makes the same callbacks for a value -/
def PlanValue (off rem : Nat) (l : List (Nat × Event)) (E : Fate) : Prop := ∀ st, DepthLeft cfg rem st →
  match E with
  | .done o r => r = rem ∧ machineAt g src cfg .value st off = prior (l ++ delivered o st)
      (if (st.isEmpty && !cfg.allowAllTypesAtRoot && l.length == 1) = true then ([], some ⟨0, .payloadsShouldBeObjectOrArray⟩)
        else machineAt g src cfg .separator st o)
  | .failed e _ _ => machineAt g src cfg .value st off = (l, some (report .value st e))
  | .panicked _ => True

variable (g src cfg) in
/-- after the bracket -/
def PlanNest (ev : Event) (w : Want) (fr : Nest) (k : ErrorKind Empty) (off rem : Nat) (l : List (Nat × Event)) (E : Fate) : Prop :=
  ∀ st, DepthLeft cfg rem (fr :: st) →
  match E with
  | .done o r => r = (if cfg.recursionLimit.isSome then rem + 1 else rem) ∧ 2 ≤ l.length
      ∧ prior [(off, ev)] (machineAt g src cfg w (fr :: st) off) = prior (l ++ delivered o st) (machineAt g src cfg .separator st o)
  | .failed e _ _ => prior [(off, ev)] (machineAt g src cfg w (fr :: st) off) = (l, some (eofTo k e))
  | .panicked _ => True

variable (g src cfg) in
/-- in an object -/
def PlanEntries (w : Want) (off rem : Nat) (l : List (Nat × Event)) (E : Fate) : Prop := ∀ c st, DepthLeft cfg rem (.object c :: st) →
  match E with
  | .done o r => r = rem ∧ machineAt g src cfg w (.object c :: st) off
      = prior (l ++ (o, .endObject) :: delivered o st) (machineAt g src cfg .separator st o)
  | .failed e _ _ => machineAt g src cfg w (.object c :: st) off = (l, some (eofTo .unclosedObject e))
  | .panicked _ => True

variable (g src cfg) in
/-- in an array -/
def PlanElems (w : Want) (off rem : Nat) (l : List (Nat × Event)) (E : Fate) : Prop := ∀ b st, DepthLeft cfg rem (.array b :: st) →
  match E with
  | .done o r => r = rem ∧ machineAt g src cfg w (.array b :: st) off
      = prior (l ++ (b, .endArray) :: delivered o st) (machineAt g src cfg .separator st o)
  | .failed e _ _ => machineAt g src cfg w (.array b :: st) off = (l, some (eofTo .unclosedArray e))
  | .panicked _ => True

/-- reading a value makes callbacks that the source decides -/
def ReadsValue (P : Nat → Nat → List (Nat × Event) → Fate → Prop) (m : ∀ D : Delegate, PM D D.Value) (off rem : Nat) : Prop :=
  ∃ l E, P off rem l E ∧ (∀ o r, E = .done o r → ∃ v, l.map Prod.snd = events v)
    ∧ ∀ D, Truthful D → ∀ d fs, Runs D (m D ⟨off, d, rem⟩) l E fs (fun a => .value a :: fs) d

/-- reading entries -/
def ReadsEntries (P : Nat → Nat → List (Nat × Event) → Fate → Prop) (m : ∀ D : Delegate, D.Object → PM D D.Object) (first : Bool) (off rem : Nat) : Prop :=
  ∃ l E, P off rem l E ∧ (∀ o r, E = .done o r → ∃ es, l.map Prod.snd = entryEvents es)
    ∧ ∀ D, Truthful D → ∀ o d fs, PartObject D first o d →
      Runs D (m D o ⟨off, d, rem⟩) l E (.object o :: fs) (fun o => .object o :: fs) d

/-- reading elements -/
def ReadsElems (P : Nat → Nat → List (Nat × Event) → Fate → Prop) (m : ∀ D : Delegate, D.Array → PM D D.Array) (first : Bool) (off rem : Nat) : Prop :=
  ∃ l E, P off rem l E ∧ (∀ o r, E = .done o r → ∃ es, l.map Prod.snd = elemEvents es)
    ∧ ∀ D, Truthful D → ∀ o d fs, PartArray D first o d →
      Runs D (m D o ⟨off, d, rem⟩) l E (.array o :: fs) (fun o => .array o :: fs) d

theorem DepthLeft.tail {rem : Nat} {a b : Nest} {st : List Nest} (h : DepthLeft cfg rem (a :: st)) : DepthLeft cfg rem (b :: st) := h

theorem delivered_object {o c : Nat} {st : List Nest} : delivered o (.object c :: st) = [(c, .objectValue)] := rfl

theorem delivered_array {o b : Nat} {st : List Nest} : delivered o (.array b :: st) = [(o, .arrayValue)] := rfl

theorem prior_stop {l l' : List (Nat × Event)} {e : Error Empty} : prior l (l', some e) = (l ++ l', some e) := rfl

theorem call_ok {α : Type} {off : Nat} {e : Event} {fs fs' : List (Frame D)} {m : M D.σ D.Err α} {wrap : α → List (Frame D)} {d d' : D.σ}
    (h : e.call D fs = (do let a ← m; return wrap a)) (hr : replay D [(off, e)] fs d = .ok fs' d') : ∃ a, m d = .ok a d' ∧ fs' = wrap a :=
  (Plays.call (off := off) h).made hr

theorem PartObject.next {first : Bool} {o o1 o2 : D.Object} {d d1 d2 d3 : D.σ} {k : JsonString} {kD : D.Key} {v : Value} {a : D.Value}
    (h : PartObject D first o d) (h1 : D.objectKey o k d = .ok (o1, kD) d1) (h2 : foldValue D v d1 = .ok a d2)
    (h3 : D.objectValue o1 kD a d2 = .ok o2 d3) : PartObject D false o2 d3 := by
  obtain ⟨es, d0, o0, d', e1, e2, _⟩ := h
  refine ⟨es ++ [(k, v)], d0, o0, d', e1, ?_, by simp⟩
  rw [foldEntries_append, M.bind_ok e2, foldEntries, M.bind_ok h1]
  simp only []
  rw [M.bind_ok h2, M.bind_ok h3, foldEntries]
  rfl

theorem PartArray.next {first : Bool} {o o2 : D.Array} {d d2 d3 : D.σ} {v : Value} {a : D.Value}
    (h : PartArray D first o d) (h2 : foldValue D v d = .ok a d2)
    (h3 : D.arrayValue o a d2 = .ok o2 d3) : PartArray D false o2 d3 := by
  obtain ⟨es, d0, o0, d', e1, e2, _⟩ := h
  refine ⟨es ++ [v], d0, o0, d', e1, ?_, by simp⟩
  rw [foldElems_append, M.bind_ok e2, foldElems, M.bind_ok h2, M.bind_ok h3, foldElems]
  rfl

theorem liftTok_at {α : Type} {m : TokM α} {off rem : Nat} {d : D.σ} : liftTok D m ⟨off, d, rem⟩ = match m off with
    | .ok a o => .ok a ⟨o, d, rem⟩
    | .err e o => .err e.intoFallable ⟨o, d, rem⟩
    | .panic p => .panic p := rfl

theorem nextColon_at {off rem : Nat} {d : D.σ} : nextColon g src D ⟨off, d, rem⟩ = match nextOrEof src g off with
    | .ok a o => .ok a ⟨o, d, rem⟩
    | .err e o => .err (toExpectedColon e) ⟨o, d, rem⟩
    | .panic p => .panic p := rfl

theorem reads_all : ∀ fuel : Nat,
    (∀ off rem, ReadsValue (PlanValue src g cfg) (fun D => readTokens g src cfg D fuel) off rem)
    ∧ (∀ off rem, ReadsValue (PlanNest src g cfg .beginObject (.key true) (.object 0) .unclosedObject) (fun D => readObject g src cfg D fuel) off rem)
    ∧ (∀ first off rem, ReadsEntries (PlanEntries src g cfg (.key first)) (fun D => readObjectLoop g src cfg D fuel) first off rem)
    ∧ (∀ off rem, ReadsValue (fun off => PlanNest src g cfg .beginArray (.element true) (.array off) .unclosedArray off) (fun D => readArray g src cfg D fuel) off rem)
    ∧ (∀ first off rem, ReadsElems (PlanElems src g cfg (.element first)) (fun D => readArrayLoop g src cfg D fuel) first off rem) := by
  intro fuel
  induction fuel with
  | zero =>
    have no : ∀ {P : Prop} (o r : Nat), Fate.panicked .fuel = .done o r → P := by intro P o r h; cases h
    refine ⟨?_, ?_, ?_, ?_, ?_⟩
    · intro off rem; exact ⟨[], .panicked .fuel, fun _ _ => trivial, no, fun D _ d fs => by simp only [readTokens]; exact .boom⟩
    · intro off rem; exact ⟨[], .panicked .fuel, fun _ _ => trivial, no, fun D _ d fs => by simp only [readObject]; exact .boom⟩
    · intro b off rem; exact ⟨[], .panicked .fuel, fun _ _ _ => trivial, no, fun D _ o d fs _ => by simp only [readObjectLoop]; exact .boom⟩
    · intro off rem; exact ⟨[], .panicked .fuel, fun _ _ => trivial, no, fun D _ d fs => by simp only [readArray]; exact .boom⟩
    · intro b off rem; exact ⟨[], .panicked .fuel, fun _ _ _ => trivial, no, fun D _ o d fs _ => by simp only [readArrayLoop]; exact .boom⟩
  | succ fuel ih =>
    obtain ⟨ihT, ihO, ihOL, ihA, ihAL⟩ := ih
    have noP : ∀ {P : Prop} {p : Panic} (o r : Nat), Fate.panicked p = .done o r → P := by intro P p o r h; cases h
    have noF : ∀ {P : Prop} {e : Error Empty} {o1 r1 : Nat} (o r : Nat), Fate.failed e o1 r1 = .done o r → P := by
      intro P e o1 r1 o r h; cases h
    refine ⟨?_, ?_, ?_, ?_, ?_⟩
    · intro off rem
      have eq : ∀ (D : Delegate) d, readTokens g src cfg D (fuel + 1) ⟨off, d, rem⟩ =
          (liftTok D (nextOrEof src g) >>= fun token => match token with
            | .null => liftD D off D.null
            | .object => beginNest cfg D off >>= fun _ => M.mapErr (eofTo .unclosedObject) (readObject g src cfg D fuel)
            | .array => beginNest cfg D off >>= fun _ => M.mapErr (eofTo .unclosedArray) (readArray g src cfg D fuel)
            | .objectEnd => perr D off (.unexpected 0x7D)
            | .arrayEnd => perr D off (.unexpected 0x5D)
            | .colon => perr D off (.unexpected 0x3A)
            | .comma => perr D off (.unexpected 0x2C)
            | .bool b => liftD D off (D.boolean b)
            | .string s => liftD D off (D.string s)
            | .number n => liftD D off (D.number n)) ⟨off, d, rem⟩ := by
        intro D d; rw [readTokens]; rfl
      cases ht : nextOrEof src g off with
      | err e o1 =>
        refine ⟨[], .failed e o1 rem, fun st _ => at_err ht (.inl nofun), noF, fun D _ d fs => ?_⟩
        simp only [eq]
        rw [M.bind_eq, liftTok_at, ht]
        exact .fail rfl
      | panic p =>
        refine ⟨[], .panicked p, fun _ _ => trivial, noP, fun D _ d fs => ?_⟩
        simp only [eq]
        rw [M.bind_eq, liftTok_at, ht]
        exact .boom
      | ok tok o1 =>
        have eq2 := fun D d => (eq D d)
        simp only [M.bind_eq, liftTok_at, ht] at eq2
        have scal : ∀ (e : Event) (v : Value), (∀ st, takeValue cfg st off o1 tok = takeScalar cfg st off o1 e) → events v = [e] → (∀ D : Delegate, ∃ m, (∀ d, readTokens g src cfg D (fuel + 1) ⟨off, d, rem⟩ =
            liftD D off m ⟨o1, d, rem⟩) ∧ ∀ fs, e.call D fs = (do let a ← m; return .value a :: fs)) →
            ReadsValue (PlanValue src g cfg) (fun D => readTokens g src cfg D (fuel + 1)) off rem := by
          intro e v htk hv hm
          refine ⟨[(off, e)], .done o1 rem, fun st _ => ⟨rfl, ?_⟩, fun _ _ _ => ⟨v, hv.symm⟩, fun D _ d fs => ?_⟩
          · cases hb : st.isEmpty && !cfg.allowAllTypesAtRoot with
            | true =>
              rw [at_stop (w := .value) (l := (off, e) :: delivered o1 st) ht (.inl nofun)
                ((htk st).trans (by unfold takeScalar; rw [hb]; rfl))]
              simp [prior]
            | false =>
              rw [at_go (w := .value) (l := (off, e) :: delivered o1 st) (w' := .separator) (st' := st) ht (.inl nofun)
                ((htk st).trans (by unfold takeScalar; rw [hb]; rfl))]
              simp
          · obtain ⟨m, h1, h2⟩ := hm D
            simp only [h1]
            exact .call (h2 fs)
        have bad : ∀ (e : Error Empty), PlanValue src g cfg off rem [] (.failed e o1 rem) → (∀ (D : Delegate) d, readTokens g src cfg D (fuel + 1) ⟨off, d, rem⟩ = .err e.intoFallable ⟨o1, d, rem⟩) →
            ReadsValue (PlanValue src g cfg) (fun D => readTokens g src cfg D (fuel + 1)) off rem := by
          intro e hpl h
          refine ⟨[], .failed e o1 rem, hpl, noF, fun D _ d fs => ?_⟩
          simp only [h]
          exact .fail rfl
        have nest : ∀ (mm : ∀ D : Delegate, PM D D.Value) (k : ErrorKind Empty) (ev : Event) (w : Want) (fr : Nat → Nest), k ≠ .unexpectedEof →
            (∀ st, takeValue cfg st off o1 tok = if crowded cfg st then ([], .error ⟨off, .recursionLimitReached⟩) else ([(o1, ev)], .ok (w, fr o1 :: st))) →
            (∀ off rem, ReadsValue (fun off => PlanNest src g cfg ev w (fr off) k off) mm off rem) →
            (∀ (D : Delegate) d, readTokens g src cfg D (fuel + 1) ⟨off, d, rem⟩ =
              (beginNest cfg D off >>= fun _ => M.mapErr (eofTo k.intoFallable) (mm D)) ⟨o1, d, rem⟩) →
            ReadsValue (PlanValue src g cfg) (fun D => readTokens g src cfg D (fuel + 1)) off rem := by
          intro mm k ev w fr hk htk ihm hm
          have go : ∀ rem', (∀ st, DepthLeft cfg rem st → crowded cfg st = false ∧ DepthLeft cfg rem' (fr o1 :: st)) →
              (if cfg.recursionLimit.isSome then rem' + 1 else rem') = rem → (∀ (D : Delegate) d, readTokens g src cfg D (fuel + 1) ⟨off, d, rem⟩ =
              M.mapErr (eofTo k.intoFallable) (mm D) ⟨o1, d, rem'⟩) → ReadsValue (PlanValue src g cfg) (fun D => readTokens g src cfg D (fuel + 1)) off rem := by
            intro rem' hroom hback h
            obtain ⟨l, E, hpl, h1, h2⟩ := ihm o1 rem'
            refine ⟨l, E.eofTo k, fun st hst => ?_, fun o r hE => h1 o r (Fate.eofTo_done hE), fun D hD d fs => ?_⟩
            · obtain ⟨hc, hst'⟩ := hroom st hst
              have hgo := at_go (w := .value) (l := [(o1, ev)]) (w' := w) (st' := fr o1 :: st) ht (.inl nofun)
                ((htk st).trans (by rw [hc]; rfl))
              have hpl := hpl st hst'
              cases E with
              | panicked p => trivial
              | done o r =>
                obtain ⟨h3, h4, h5⟩ := hpl
                refine ⟨by rw [h3, hback], ?_⟩
                rw [hgo, h5]
                have : (l.length == 1) = false := by simp; omega
                rw [this, Bool.and_false]
                rfl
              | failed e o r =>
                show _ = _
                rw [hgo]; simp only [] at hpl; rw [hpl, report_other (w := .value) (eofTo_kind hk) nofun]
            · simp only [h]
              exact .map rfl (h2 D hD d fs)
          by_cases hl : cfg.recursionLimit.isSome = true
          · by_cases hr : rem > 0
            · refine go (rem - 1) (fun st hst => ?_) (by rw [if_pos hl]; omega) fun D d => ?_
              · obtain ⟨n, hn⟩ := Option.isSome_iff_exists.mp hl
                have := hst n hn
                refine ⟨?_, fun m hm => ?_⟩
                · unfold crowded
                  rw [hn]
                  simp
                  omega
                · rw [hn] at hm
                  cases hm
                  simp only [List.length_cons]
                  omega
              rw [hm, M.bind_eq]
              simp only [beginNest, hl, hr, if_true]
            · refine bad ⟨off, .recursionLimitReached⟩ (fun st hst => ?_) fun D d => ?_
              · obtain ⟨n, hn⟩ := Option.isSome_iff_exists.mp hl
                have := hst n hn
                simp only []; rw [report_other (w := .value) (by simp) nofun]
                refine at_stop (w := .value) ht (.inl nofun) ((htk st).trans ?_)
                have hc : crowded cfg st = true := by
                  unfold crowded
                  rw [hn]
                  simp
                  omega
                rw [hc]
                rfl
              rw [hm, M.bind_eq]
              simp only [beginNest, hl, hr, if_true, if_false]
              rfl
          · have hn : cfg.recursionLimit = none := by
              cases h : cfg.recursionLimit with
              | none => rfl
              | some n => rw [h] at hl; exact absurd rfl hl
            refine go rem (fun st hst => ⟨by unfold crowded; rw [hn], fun m hm => by rw [hn] at hm; cases hm⟩) (by rw [if_neg hl]) fun D d => ?_
            rw [hm, M.bind_eq]
            simp only [beginNest, hl]
            rfl
        cases tok with
        | null => exact scal .null .null (fun _ => rfl) rfl fun D => ⟨_, eq2 D, fun fs => rfl⟩
        | bool b => exact scal (.boolean b) (.boolean b) (fun _ => rfl) rfl fun D => ⟨_, eq2 D, fun fs => rfl⟩
        | string s => exact scal (.string s) (.string s) (fun _ => rfl) rfl fun D => ⟨_, eq2 D, fun fs => rfl⟩
        | number n => exact scal (.number n) (.number n) (fun _ => rfl) rfl fun D => ⟨_, eq2 D, fun fs => rfl⟩
        | object => exact nest _ .unclosedObject .beginObject (.key true) (fun _ => .object 0) nofun (fun _ => rfl) ihO eq2
        | array => exact nest _ .unclosedArray .beginArray (.element true) .array nofun (fun _ => rfl) ihA eq2
        | objectEnd => exact bad ⟨off, .unexpected 0x7D⟩ (fun st _ => by simp only []; rw [report_other (w := .value) (by simp) nofun]; exact at_stop ht (.inl nofun) rfl) eq2
        | arrayEnd => exact bad ⟨off, .unexpected 0x5D⟩ (fun st _ => by simp only []; rw [report_other (w := .value) (by simp) nofun]; exact at_stop ht (.inl nofun) rfl) eq2
        | colon => exact bad ⟨off, .unexpected 0x3A⟩ (fun st _ => by simp only []; rw [report_other (w := .value) (by simp) nofun]; exact at_stop ht (.inl nofun) rfl) eq2
        | comma => exact bad ⟨off, .unexpected 0x2C⟩ (fun st _ => by simp only []; rw [report_other (w := .value) (by simp) nofun]; exact at_stop ht (.inl nofun) rfl) eq2
    · intro off rem
      obtain ⟨l, E, hpl, h1, h2⟩ := ihOL true off rem
      have eq : ∀ (D : Delegate) d, readObject g src cfg D (fuel + 1) ⟨off, d, rem⟩ =
          (liftD D off D.beginObject >>= fun o => readObjectLoop g src cfg D fuel o >>= fun o => tokOffset D >>= fun off =>
            liftD D off (D.endObject o) >>= fun v => endNest cfg D >>= fun _ => M.pure v) ⟨off, d, rem⟩ := by
        intro D d; rw [readObject]; rfl
      have step : ∀ D, Truthful D → ∀ (d : D.σ) (o : D.Object) (d' : D.σ) (fs : List (Frame D)),
          replay D [(off, .beginObject)] fs d = .ok (.object o :: fs) d' →
          Runs D (readObjectLoop g src cfg D fuel o ⟨off, d', rem⟩) l E (.object o :: fs) (fun o => .object o :: fs) d' := by
        intro D hD d o d' fs hr
        obtain ⟨o', h3, h4⟩ := call_ok (m := D.beginObject) (wrap := fun o => .object o :: fs) rfl hr
        cases h4
        exact h2 D hD o d' fs ⟨[], d, o, d', h3, rfl, rfl⟩
      cases E with
      | panicked p =>
        refine ⟨[(off, .beginObject)] ++ l, .panicked p, fun _ _ => trivial, noP, fun D hD d fs => ?_⟩
        simp only [eq]
        exact .bind_done (w1 := fun o => .object o :: fs) (.call rfl) fun o d' hr => .bind_panicked (step D hD d o d' fs hr)
      | failed e o1 r1 =>
        refine ⟨[(off, .beginObject)] ++ l, .failed e o1 r1, fun st hst => by show _ = _; rw [hpl _ st hst]; rfl, noF, fun D hD d fs => ?_⟩
        simp only [eq]
        exact .bind_done (w1 := fun o => .object o :: fs) (.call rfl) fun o d' hr => .bind_failed (step D hD d o d' fs hr)
      | done o1 r1 =>
        obtain ⟨es, hes⟩ := h1 o1 r1 rfl
        refine ⟨[(off, .beginObject)] ++ (l ++ ([(o1, .endObject)] ++ [])), .done o1 (if cfg.recursionLimit.isSome then r1 + 1 else r1),
          fun st hst => ⟨by rw [(hpl _ st hst).1], by simp, by rw [(hpl _ st hst).2, prior_prior]; simp⟩, fun _ _ _ => ⟨.object es, by simp [events, hes]⟩, fun D hD d fs => ?_⟩
        simp only [eq]
        refine .bind_done (w1 := fun o => .object o :: fs) (.call rfl) fun o d' hr => .bind_done (step D hD d o d' fs hr) fun o d2 _ => ?_
        refine .bind_done (m := liftD D o1 (D.endObject o)) (w1 := fun v => .value v :: fs) (.call rfl) fun v d3 _ => ?_
        rw [M.bind_eq]
        unfold endNest
        cases hl : cfg.recursionLimit.isSome <;> exact .ret rfl
    · intro first off rem
      have eq : ∀ (D : Delegate) o d, readObjectLoop g src cfg D (fuel + 1) o ⟨off, d, rem⟩ =
          (liftTok D (nextOrEof src g) >>= fun token => match token with
            | .objectEnd => if cfg.allowTrailingCommas then M.pure o
              else liftQ D (D.objectIsEmpty · o) >>= fun b => if b then M.pure o else perr D off .illegalTrailingComma
            | .string key => liftD D off (D.objectKey o key) >>= fun p => tokOffset D >>= fun off1 => nextColon g src D >>= fun token =>
              if token ≠ .colon then perr D off1 .expectedColon
              else tokOffset D >>= fun off2 => readTokens g src cfg D fuel >>= fun value =>
                liftD D off2 (D.objectValue p.1 p.2 value) >>= fun o => tokOffset D >>= fun off3 => liftTok D (nextOrEof src g) >>= fun token =>
                if token = .objectEnd then M.pure o
                else if token ≠ .comma then perr D off3 .expectedCommaOrEndOfObject
                else readObjectLoop g src cfg D fuel o
            | .array | .bool _ | .null | .number _ | .object => perr D off .objectKeysMustBeStrings
            | _ => perr D off .expectedObjectKey) ⟨off, d, rem⟩ := by
        intro D o d; rw [readObjectLoop]; rfl
      cases ht : nextOrEof src g off with
      | err e o1 =>
        refine ⟨[], .failed e o1 rem, fun c st _ => by show _ = _; rw [at_err (w := .key first) ht (.inl nofun), report_object (w := .key first) nofun], noF, fun D _ o d fs _ => ?_⟩
        simp only [eq]
        rw [M.bind_eq, liftTok_at, ht]
        exact .fail rfl
      | panic p =>
        refine ⟨[], .panicked p, fun _ _ _ => trivial, noP, fun D _ o d fs _ => ?_⟩
        simp only [eq]
        rw [M.bind_eq, liftTok_at, ht]
        exact .boom
      | ok tok o1 =>
        have eq2 := fun D o d => (eq D o d)
        simp only [M.bind_eq (m := liftTok _ _), liftTok_at, ht] at eq2
        have bad : ∀ (e : Error Empty), PlanEntries src g cfg (.key first) off rem [] (.failed e o1 rem) → (∀ (D : Delegate) o d, readObjectLoop g src cfg D (fuel + 1) o ⟨off, d, rem⟩ = .err e.intoFallable ⟨o1, d, rem⟩) →
            ReadsEntries (PlanEntries src g cfg (.key first)) (fun D => readObjectLoop g src cfg D (fuel + 1)) first off rem := by
          intro e hpl h
          refine ⟨[], .failed e o1 rem, hpl, noF, fun D _ o d fs _ => ?_⟩
          simp only [h]
          exact .fail rfl
        cases tok with
        | null => exact bad ⟨off, .objectKeysMustBeStrings⟩ (fun c st _ => at_stop ht (.inl nofun) rfl) eq2
        | bool b => exact bad ⟨off, .objectKeysMustBeStrings⟩ (fun c st _ => at_stop ht (.inl nofun) rfl) eq2
        | number n => exact bad ⟨off, .objectKeysMustBeStrings⟩ (fun c st _ => at_stop ht (.inl nofun) rfl) eq2
        | object => exact bad ⟨off, .objectKeysMustBeStrings⟩ (fun c st _ => at_stop ht (.inl nofun) rfl) eq2
        | array => exact bad ⟨off, .objectKeysMustBeStrings⟩ (fun c st _ => at_stop ht (.inl nofun) rfl) eq2
        | arrayEnd => exact bad ⟨off, .expectedObjectKey⟩ (fun c st _ => at_stop ht (.inl nofun) rfl) eq2
        | colon => exact bad ⟨off, .expectedObjectKey⟩ (fun c st _ => at_stop ht (.inl nofun) rfl) eq2
        | comma => exact bad ⟨off, .expectedObjectKey⟩ (fun c st _ => at_stop ht (.inl nofun) rfl) eq2
        | objectEnd =>
          simp only [] at eq2
          by_cases hc : cfg.allowTrailingCommas = true
          · simp only [hc, if_true] at eq2
            refine ⟨[], .done o1 rem, fun c st _ => ⟨rfl, at_go ht (.inl nofun) ?_⟩, fun _ _ _ => ⟨[], rfl⟩, fun D _ o d fs _ => ?_⟩
            · simp only [takeToken, hc, Bool.or_true, if_true]; rfl
            simp only [eq2]
            exact .ret rfl
          · simp only [hc] at eq2
            have emp : ∀ D, Truthful D → ∀ o d, PartObject D first o d →
                readObjectLoop g src cfg D (fuel + 1) o ⟨off, d, rem⟩ = (if first then M.pure o else perr D off .illegalTrailingComma) ⟨o1, d, rem⟩ := by
              intro D hD o d ⟨es, d0, o0, d1, e1, e2, e3⟩
              have := hD.object es d0 o0 d1 o d e1 e2
              rw [eq2, e3] at *
              simp only [if_false, Bool.false_eq_true]
              rw [M.bind_eq]
              unfold liftQ
              simp only [this]
            cases first with
            | true =>
              refine ⟨[], .done o1 rem, fun c st _ => ⟨rfl, at_go ht (.inl nofun) rfl⟩, fun _ _ _ => ⟨[], rfl⟩, fun D hD o d fs hp => ?_⟩
              simp only [emp D hD o d hp, if_true]
              exact .ret rfl
            | false =>
              refine ⟨[], .failed ⟨off, .illegalTrailingComma⟩ o1 rem, fun c st _ => at_stop ht (.inl nofun) (by simp [takeToken, hc]; rfl), noF, fun D hD o d fs hp => ?_⟩
              simp only [emp D hD o d hp]
              exact .fail rfl
        | string key =>
          simp only [] at eq2
          cases hc : nextOrEof src g o1 with
          | err e o2 =>
            refine ⟨[(off, .objectKey key)] ++ [], .failed ⟨e.offset, .expectedColon⟩ o2 rem, fun c st _ => by
              show _ = _; rw [at_go (w := .key first) (l := [(off, .objectKey key)]) (w' := .colon) (st' := .object c :: st) ht (.inl nofun) rfl, at_err (w := .colon) hc (.inl nofun)]; rfl, noF, fun D hD o d fs hp => ?_⟩
            simp only [eq2]
            refine .bind_done (w1 := fun p => .entry p.1 p.2 :: fs) (.call rfl) fun p d1 _ => ?_
            show Runs D ((nextColon g src D >>= _) ⟨o1, d1, rem⟩) _ _ _ _ _
            rw [M.bind_eq, nextColon_at, hc]
            exact .fail rfl
          | panic p =>
            refine ⟨[(off, .objectKey key)] ++ [], .panicked p, fun _ _ _ => trivial, noP, fun D hD o d fs hp => ?_⟩
            simp only [eq2]
            refine .bind_done (w1 := fun p => .entry p.1 p.2 :: fs) (.call rfl) fun p d1 _ => ?_
            show Runs D ((nextColon g src D >>= _) ⟨o1, d1, rem⟩) _ _ _ _ _
            rw [M.bind_eq, nextColon_at, hc]
            exact .boom
          | ok t2 o2 =>
            by_cases hcol : t2 = .colon
            · obtain ⟨lv, Ev, hvp, hv1, hv2⟩ := ihT o2 rem
              have hto : ∀ c st, machineAt g src cfg (.key first) (.object c :: st) off
                  = prior [(off, .objectKey key)] (machineAt g src cfg .value (.object o2 :: st) o2) := by
                intro c st
                rw [at_go (w := .key first) (l := [(off, .objectKey key)]) (w' := .colon) (st' := .object c :: st) ht (.inl nofun) rfl, at_go (w := .colon) (l := []) (w' := .value) (st' := .object o2 :: st) (t := .colon) (by rw [hc, hcol]) (.inl nofun) rfl]
                rfl
              have eq3 : ∀ (D : Delegate) (o : D.Object) (d : D.σ), readObjectLoop g src cfg D (fuel + 1) o ⟨off, d, rem⟩ =
                  (liftD D off (D.objectKey o key) >>= fun p => nextColon g src D >>= fun _ => readTokens g src cfg D fuel >>= fun value =>
                    liftD D o2 (D.objectValue p.1 p.2 value) >>= fun o => tokOffset D >>= fun off3 => liftTok D (nextOrEof src g) >>= fun token =>
                    if token = .objectEnd then M.pure o
                    else if token ≠ .comma then perr D off3 .expectedCommaOrEndOfObject
                    else readObjectLoop g src cfg D fuel o) ⟨o1, d, rem⟩ := by
                intro D o d
                rw [eq2, M.bind_eq, M.bind_eq]
                unfold liftD
                cases hk : D.objectKey o key d with
                | err x d' => rfl
                | panic p => rfl
                | ok p d1 =>
                  simp only []
                  show (nextColon g src D >>= _) ⟨o1, d1, rem⟩ = (nextColon g src D >>= _) ⟨o1, d1, rem⟩
                  rw [M.bind_eq, M.bind_eq, nextColon_at, hc]
                  simp only [hcol]
                  rfl
              have step : ∀ {β : Type} (D : Delegate) (d1 : D.σ) (f : D.Value → PM D β) {l : List (Nat × Event)} {E : Fate} {fs : List (Frame D)} {w : β → List (Frame D)},
                  Runs D ((readTokens g src cfg D fuel >>= f) ⟨o2, d1, rem⟩) l E fs w d1 →
                  Runs D ((nextColon g src D >>= fun _ => readTokens g src cfg D fuel >>= f) ⟨o1, d1, rem⟩) l E fs w d1 := by
                intro β D d1 f l E fs w h
                rw [M.bind_eq (m := nextColon g src D), nextColon_at, hc]
                exact h
              cases Ev with
              | panicked p =>
                refine ⟨[(off, .objectKey key)] ++ lv, .panicked p, fun _ _ _ => trivial, noP, fun D hD o d fs hp => ?_⟩
                simp only [eq3]
                refine .bind_done (w1 := fun p => .entry p.1 p.2 :: fs) (.call rfl) fun p d1 _ => step _ _ _ ?_
                exact .bind_panicked (hv2 D hD d1 _)
              | failed e o3 r3 =>
                refine ⟨[(off, .objectKey key)] ++ lv, .failed e o3 r3, fun c st hst => by
                  show _ = _; have hh := hvp (.object o2 :: st) hst.tail; simp only [] at hh; rw [hto, hh, report_object (w := .value) nofun]; rfl, noF, fun D hD o d fs hp => ?_⟩
                simp only [eq3]
                refine .bind_done (w1 := fun p => .entry p.1 p.2 :: fs) (.call rfl) fun p d1 _ => step _ _ _ ?_
                exact .bind_failed (hv2 D hD d1 _)
              | done o3 r3 =>
                obtain ⟨v, hv⟩ := hv1 o3 r3 rfl
                have all : ∀ (l : List (Nat × Event)) (E : Fate), PlanEntries src g cfg .separator o3 r3 l E → (∀ o r, E = .done o r → ∃ es, l.map Prod.snd = entryEvents es) →
                    (∀ D, Truthful D → ∀ (o : D.Object) (d : D.σ) (fs : List (Frame D)), PartObject D false o d → Runs D ((liftTok D (nextOrEof src g) >>= fun token =>
                      if token = .objectEnd then M.pure o
                      else if token ≠ .comma then perr D o3 .expectedCommaOrEndOfObject
                      else readObjectLoop g src cfg D fuel o) ⟨o3, d, r3⟩) l E (.object o :: fs) (fun o => .object o :: fs) d) →
                    ReadsEntries (PlanEntries src g cfg (.key first)) (fun D => readObjectLoop g src cfg D (fuel + 1)) first off rem := by
                  intro l E hpl hE hl
                  refine ⟨[(off, .objectKey key)] ++ (lv ++ ([(o2, .objectValue)] ++ l)), E, fun c st hst => ?_, ?_, fun D hD o d fs hp => ?_⟩
                  · obtain ⟨k1, k2⟩ := hvp (.object o2 :: st) hst.tail
                    have k3 := hpl o2 st (by rw [k1]; exact hst.tail)
                    rw [hto, k2]
                    simp only [List.isEmpty_cons, Bool.false_and, Bool.false_eq_true, if_false, delivered_object]
                    cases E with
                    | panicked p => trivial
                    | done o r => exact ⟨by rw [k3.1, k1], by rw [k3.2, prior_prior, prior_prior]; simp⟩
                    | failed e o r =>
                      show _ = _
                      rw [k3, prior_stop, prior_stop]
                      simp
                  · intro o r h
                    obtain ⟨es, hes⟩ := hE o r h
                    exact ⟨(key, v) :: es, by simp [entryEvents, hv, hes]⟩
                  · simp only [eq3]
                    refine .bind_done (w1 := fun p => .entry p.1 p.2 :: fs) (.call rfl) fun p d1 hr1 => step _ _ _ ?_
                    refine .bind_done (hv2 D hD d1 _) fun a d2 hr2 => ?_
                    refine .bind_done (w1 := fun o => .object o :: fs) (.call rfl) fun o' d3 hr3 => ?_
                    obtain ⟨p', k1, k2⟩ := call_ok (m := D.objectKey o key) (wrap := fun p => .entry p.1 p.2 :: fs) rfl hr1
                    injection k2 with k2 _
                    injection k2 with k2 k2'
                    obtain ⟨a', k3, k4⟩ := (events_plays.1 v lv hv _).made hr2
                    injection k4 with k4 _
                    injection k4 with k4
                    obtain ⟨o'', k5, k6⟩ := call_ok (m := D.objectValue p.1 p.2 a) (wrap := fun o => .object o :: fs) rfl hr3
                    injection k6 with k6 _
                    injection k6 with k6
                    subst k4 k6
                    have k1 : D.objectKey o key d = .ok (p.1, p.2) d1 := by rw [k1, k2, k2']
                    exact hl D hD o' d3 fs (hp.next k1 k3 k5)
                cases ht2 : nextOrEof src g o3 with
                | err e o4 =>
                  refine all [] (.failed e o4 r3) (fun c st _ => by show _ = _; rw [at_err (w := .separator) (st := .object c :: st) ht2 (.inr nofun), report_object (w := .separator) nofun]) noF fun D hD o d fs hp => ?_
                  rw [M.bind_eq, liftTok_at, ht2]
                  exact .fail rfl
                | panic p =>
                  refine all [] (.panicked p) (fun _ _ _ => trivial) noP fun D hD o d fs hp => ?_
                  rw [M.bind_eq, liftTok_at, ht2]
                  exact .boom
                | ok t4 o4 =>
                  by_cases he : t4 = .objectEnd
                  · refine all [] (.done o4 r3) (fun c st _ => ⟨rfl, at_go (he ▸ ht2) (.inr nofun) rfl⟩) (fun _ _ _ => ⟨[], rfl⟩) fun D hD o d fs hp => ?_
                    rw [M.bind_eq, liftTok_at, ht2]
                    simp only [he, if_true]
                    exact .ret rfl
                  · by_cases hm : t4 = .comma
                    · obtain ⟨l, E, hpl, hl1, hl2⟩ := ihOL false o4 r3
                      refine all l E (fun c st hst => ?_) hl1 fun D hD o d fs hp => ?_
                      · have k := hpl c st hst
                        have k2 : machineAt g src cfg .separator (.object c :: st) o3 = machineAt g src cfg (.key false) (.object c :: st) o4 :=
                          at_go (l := []) (hm ▸ ht2) (.inr nofun) rfl
                        rw [k2]
                        exact k
                      skip
                      rw [M.bind_eq, liftTok_at, ht2]
                      simp only [hm, ne_eq, not_true_eq_false, if_false]
                      exact hl2 D hD o d fs hp
                    · refine all [] (.failed ⟨o3, .expectedCommaOrEndOfObject⟩ o4 r3) (fun c st _ => at_stop ht2 (.inr nofun) (by cases t4 <;> first | rfl | contradiction)) noF fun D hD o d fs hp => ?_
                      rw [M.bind_eq, liftTok_at, ht2]
                      simp only [he, hm, ne_eq, not_false_eq_true, if_true, if_false]
                      exact .fail rfl
            · refine ⟨[(off, .objectKey key)] ++ [], .failed ⟨o1, .expectedColon⟩ o2 rem, fun c st _ => by
                show _ = _; rw [at_go (w := .key first) (l := [(off, .objectKey key)]) (w' := .colon) (st' := .object c :: st) ht (.inl nofun) rfl, at_stop (w := .colon) (l := []) (e := ⟨o1, .expectedColon⟩) hc (.inl nofun) (by cases t2 <;> first | rfl | contradiction)]; rfl, noF, fun D hD o d fs hp => ?_⟩
              simp only [eq2]
              refine .bind_done (w1 := fun p => .entry p.1 p.2 :: fs) (.call rfl) fun p d1 _ => ?_
              show Runs D ((nextColon g src D >>= _) ⟨o1, d1, rem⟩) _ _ _ _ _
              rw [M.bind_eq, nextColon_at, hc]
              simp only [hcol, ne_eq, not_false_eq_true, if_true]
              exact .fail rfl
    · intro off rem
      obtain ⟨l, E, hpl, h1, h2⟩ := ihAL true off rem
      have eq : ∀ (D : Delegate) d, readArray g src cfg D (fuel + 1) ⟨off, d, rem⟩ =
          (liftD D off D.beginArray >>= fun o => readArrayLoop g src cfg D fuel o >>= fun o =>
            liftD D off (D.endArray o) >>= fun v => endNest cfg D >>= fun _ => M.pure v) ⟨off, d, rem⟩ := by
        intro D d; rw [readArray]; rfl
      have step : ∀ D, Truthful D → ∀ (d : D.σ) (o : D.Array) (d' : D.σ) (fs : List (Frame D)),
          replay D [(off, .beginArray)] fs d = .ok (.array o :: fs) d' →
          Runs D (readArrayLoop g src cfg D fuel o ⟨off, d', rem⟩) l E (.array o :: fs) (fun o => .array o :: fs) d' := by
        intro D hD d o d' fs hr
        obtain ⟨o', h3, h4⟩ := call_ok (m := D.beginArray) (wrap := fun o => .array o :: fs) rfl hr
        cases h4
        exact h2 D hD o d' fs ⟨[], d, o, d', h3, rfl, rfl⟩
      cases E with
      | panicked p =>
        refine ⟨[(off, .beginArray)] ++ l, .panicked p, fun _ _ => trivial, noP, fun D hD d fs => ?_⟩
        simp only [eq]
        exact .bind_done (w1 := fun o => .array o :: fs) (.call rfl) fun o d' hr => .bind_panicked (step D hD d o d' fs hr)
      | failed e o1 r1 =>
        refine ⟨[(off, .beginArray)] ++ l, .failed e o1 r1, fun st hst => by show _ = _; rw [hpl _ st hst]; rfl, noF, fun D hD d fs => ?_⟩
        simp only [eq]
        exact .bind_done (w1 := fun o => .array o :: fs) (.call rfl) fun o d' hr => .bind_failed (step D hD d o d' fs hr)
      | done o1 r1 =>
        obtain ⟨es, hes⟩ := h1 o1 r1 rfl
        refine ⟨[(off, .beginArray)] ++ (l ++ ([(off, .endArray)] ++ [])), .done o1 (if cfg.recursionLimit.isSome then r1 + 1 else r1),
          fun st hst => ⟨by rw [(hpl _ st hst).1], by simp, by rw [(hpl _ st hst).2, prior_prior]; simp⟩, fun _ _ _ => ⟨.array es, by simp [events, hes]⟩, fun D hD d fs => ?_⟩
        simp only [eq]
        refine .bind_done (w1 := fun o => .array o :: fs) (.call rfl) fun o d' hr => .bind_done (step D hD d o d' fs hr) fun o d2 _ => ?_
        refine .bind_done (m := liftD D off (D.endArray o)) (w1 := fun v => .value v :: fs) (.call rfl) fun v d3 _ => ?_
        rw [M.bind_eq]
        unfold endNest
        cases hl : cfg.recursionLimit.isSome <;> exact .ret rfl
    · intro first off rem
      have eq : ∀ (D : Delegate) o d, readArrayLoop g src cfg D (fuel + 1) o ⟨off, d, rem⟩ =
          (liftTok D (tokPeek src) >>= fun k =>
            if k = some .arrayEnd then
              M.modify (fun s => { s with offset := s.offset + 1 }) >>= fun _ =>
              if cfg.allowTrailingCommas then M.pure o
              else liftQ D (D.arrayIsEmpty · o) >>= fun b => if b then M.pure o else perr D off .illegalTrailingComma
            else readTokens g src cfg D fuel >>= fun value => tokOffset D >>= fun off2 =>
                liftD D off2 (D.arrayValue o value) >>= fun o => tokOffset D >>= fun off3 => liftTok D (nextOrEof src g) >>= fun token =>
                if token = .arrayEnd then M.pure o
                else if token ≠ .comma then perr D off3 .expectedCommaOrEndOfArray
                else readArrayLoop g src cfg D fuel o) ⟨off, d, rem⟩ := by
        intro D o d; rw [readArrayLoop]; rfl
      cases ht : tokPeek src off with
      | err e o1 =>
        refine ⟨[], .failed e o1 rem, (by rw [tokPeek_eq] at ht; cases ht), noF, fun D _ o d fs _ => ?_⟩
        simp only [eq]
        rw [M.bind_eq, liftTok_at, ht]
        exact .fail rfl
      | panic p =>
        refine ⟨[], .panicked p, fun _ _ _ => trivial, noP, fun D _ o d fs _ => ?_⟩
        simp only [eq]
        rw [M.bind_eq, liftTok_at, ht]
        exact .boom
      | ok k o1 =>
        have eq2 := fun D o d => (eq D o d)
        simp only [M.bind_eq (m := liftTok _ (tokPeek src)), liftTok_at, ht] at eq2
        by_cases hk : k = some .arrayEnd
        · simp only [hk, if_true] at eq2
          obtain ⟨_, hn⟩ := peek_close (g := g) (hk ▸ ht)
          by_cases hc : cfg.allowTrailingCommas = true
          · simp only [hc, if_true] at eq2
            refine ⟨[], .done (o1 + 1) rem, fun b st _ => ⟨rfl, at_go hn (.inl nofun) ?_⟩, fun _ _ _ => ⟨[], rfl⟩, fun D _ o d fs _ => ?_⟩
            · simp only [takeToken, hc, Bool.or_true, if_true]; rfl
            simp only [eq2]
            exact .ret rfl
          · simp only [hc] at eq2
            have emp : ∀ D, Truthful D → ∀ o d, PartArray D first o d →
                readArrayLoop g src cfg D (fuel + 1) o ⟨off, d, rem⟩ = (if first then M.pure o else perr D off .illegalTrailingComma) ⟨o1 + 1, d, rem⟩ := by
              intro D hD o d ⟨es, d0, o0, d1, e1, e2, e3⟩
              have := hD.array es d0 o0 d1 o d e1 e2
              rw [eq2, e3] at *
              simp only [if_false, Bool.false_eq_true]
              show (liftQ D _ >>= _) ⟨o1 + 1, d, rem⟩ = _
              rw [M.bind_eq]
              unfold liftQ
              simp only [this]
            cases first with
            | true =>
              refine ⟨[], .done (o1 + 1) rem, fun b st _ => ⟨rfl, at_go hn (.inl nofun) rfl⟩, fun _ _ _ => ⟨[], rfl⟩, fun D hD o d fs hp => ?_⟩
              simp only [emp D hD o d hp, if_true]
              exact .ret rfl
            | false =>
              refine ⟨[], .failed ⟨off, .illegalTrailingComma⟩ (o1 + 1) rem, fun b st _ => at_stop hn (.inl nofun) (by simp [takeToken, hc]; rfl), noF, fun D hD o d fs hp => ?_⟩
              simp only [emp D hD o d hp]
              exact .fail rfl
        · simp only [hk, if_false] at eq2
          obtain ⟨lv, Ev, hvp, hv1, hv2⟩ := ihT o1 rem
          obtain ⟨ho1, hn⟩ := peek_other (g := g) ht hk
          have hto : ∀ b st, machineAt g src cfg (.element first) (.array b :: st) off = machineAt g src cfg .value (.array b :: st) o1 := by
            intro b st
            rw [at_element hn, ho1]
          cases Ev with
          | panicked p =>
            refine ⟨lv, .panicked p, fun _ _ _ => trivial, noP, fun D hD o d fs hp => ?_⟩
            simp only [eq2]
            exact .bind_panicked (hv2 D hD d _)
          | failed e o3 r3 =>
            refine ⟨lv, .failed e o3 r3, fun b st hst => by show _ = _; have hh := hvp (.array b :: st) hst; simp only [] at hh; rw [hto, hh, report_array (w := .value) nofun], noF, fun D hD o d fs hp => ?_⟩
            simp only [eq2]
            exact .bind_failed (hv2 D hD d _)
          | done o3 r3 =>
            obtain ⟨v, hv⟩ := hv1 o3 r3 rfl
            have all : ∀ (l : List (Nat × Event)) (E : Fate), PlanElems src g cfg .separator o3 r3 l E → (∀ o r, E = .done o r → ∃ es, l.map Prod.snd = elemEvents es) →
                (∀ D, Truthful D → ∀ (o : D.Array) (d : D.σ) (fs : List (Frame D)), PartArray D false o d → Runs D ((liftTok D (nextOrEof src g) >>= fun token =>
                  if token = .arrayEnd then M.pure o
                  else if token ≠ .comma then perr D o3 .expectedCommaOrEndOfArray
                  else readArrayLoop g src cfg D fuel o) ⟨o3, d, r3⟩) l E (.array o :: fs) (fun o => .array o :: fs) d) →
                ReadsElems (PlanElems src g cfg (.element first)) (fun D => readArrayLoop g src cfg D (fuel + 1)) first off rem := by
              intro l E hpl hE hl
              refine ⟨lv ++ ([(o3, .arrayValue)] ++ l), E, fun b st hst => ?_, ?_, fun D hD o d fs hp => ?_⟩
              · obtain ⟨k1, k2⟩ := hvp (.array b :: st) hst
                have k3 := hpl b st (by rw [k1]; exact hst)
                rw [hto, k2]
                simp only [List.isEmpty_cons, Bool.false_and, Bool.false_eq_true, if_false, delivered_array]
                cases E with
                | panicked p => trivial
                | done o r => exact ⟨by rw [k3.1, k1], by rw [k3.2, prior_prior]; simp⟩
                | failed e o r =>
                  show _ = _
                  rw [k3, prior_stop]
                  simp
              · intro o r h
                obtain ⟨es, hes⟩ := hE o r h
                exact ⟨v :: es, by simp [elemEvents, hv, hes]⟩
              · simp only [eq2]
                refine .bind_done (hv2 D hD d _) fun a d2 hr2 => ?_
                refine .bind_done (m := liftD D o3 (D.arrayValue o a)) (w1 := fun o => .array o :: fs) (.call rfl) fun o' d3 hr3 => ?_
                obtain ⟨a', k3, k4⟩ := (events_plays.1 v lv hv _).made hr2
                injection k4 with k4 _
                injection k4 with k4
                obtain ⟨o'', k5, k6⟩ := call_ok (m := D.arrayValue o a) (wrap := fun o => .array o :: fs) rfl hr3
                injection k6 with k6 _
                injection k6 with k6
                subst k4 k6
                exact hl D hD o' d3 fs (hp.next k3 k5)
            cases ht2 : nextOrEof src g o3 with
            | err e o4 =>
              refine all [] (.failed e o4 r3) (fun b st _ => by show _ = _; rw [at_err (w := .separator) (st := .array b :: st) ht2 (.inr nofun), report_array (w := .separator) nofun]) noF fun D hD o d fs hp => ?_
              rw [M.bind_eq, liftTok_at, ht2]
              exact .fail rfl
            | panic p =>
              refine all [] (.panicked p) (fun _ _ _ => trivial) noP fun D hD o d fs hp => ?_
              rw [M.bind_eq, liftTok_at, ht2]
              exact .boom
            | ok t4 o4 =>
              by_cases he : t4 = .arrayEnd
              · refine all [] (.done o4 r3) (fun b st _ => ⟨rfl, at_go (he ▸ ht2) (.inr nofun) rfl⟩) (fun _ _ _ => ⟨[], rfl⟩) fun D hD o d fs hp => ?_
                rw [M.bind_eq, liftTok_at, ht2]
                simp only [he, if_true]
                exact .ret rfl
              · by_cases hm : t4 = .comma
                · obtain ⟨l, E, hpl, hl1, hl2⟩ := ihAL false o4 r3
                  refine all l E (fun b st hst => ?_) hl1 fun D hD o d fs hp => ?_
                  · have k := hpl b st hst
                    have k2 : machineAt g src cfg .separator (.array b :: st) o3 = machineAt g src cfg (.element false) (.array b :: st) o4 :=
                      at_go (l := []) (hm ▸ ht2) (.inr nofun) rfl
                    rw [k2]
                    exact k
                  rw [M.bind_eq, liftTok_at, ht2]
                  simp only [hm, ne_eq, not_true_eq_false, if_false]
                  exact hl2 D hD o d fs hp
                · refine all [] (.failed ⟨o3, .expectedCommaOrEndOfArray⟩ o4 r3) (fun b st _ => at_stop ht2 (.inr nofun) (by cases t4 <;> first | rfl | contradiction)) noF fun D hD o d fs hp => ?_
                  rw [M.bind_eq, liftTok_at, ht2]
                  simp only [he, hm, ne_eq, not_false_eq_true, if_true, if_false]
                  exact .fail rfl

/-! ## Listing the callbacks -/

theorem listed_ok {α : Type} {e : Event} {m : M D.σ D.Err α} {d d' : D.σ × List Event} {a : α} (h : listed e m d = .ok a d') :
    m d.1 = .ok a d'.1 ∧ d'.2 = d.2 ++ [e] := by
  unfold listed at h
  cases hm : m d.1 with
  | ok b s => rw [hm] at h; cases h; exact ⟨rfl, rfl⟩
  | err x s => rw [hm] at h; cases h
  | panic p => rw [hm] at h; cases h

theorem logged_fold : (∀ v : Value, ∀ d a d', foldValue (logged D) v d = .ok a d' → foldValue D v d.1 = .ok a d'.1)
    ∧ (∀ es : Object, ∀ o d a d', foldEntries (logged D) es o d = .ok a d' → foldEntries D es o d.1 = .ok a d'.1)
    ∧ ∀ vs : List Value, ∀ o d a d', foldElems (logged D) vs o d = .ok a d' → foldElems D vs o d.1 = .ok a d'.1 := by
  apply Value.induct
  · intro d a d' h; exact (listed_ok h).1
  · intro b d a d' h; exact (listed_ok h).1
  · intro b d a d' h; exact (listed_ok h).1
  · intro b d a d' h; exact (listed_ok h).1
  · intro es ih d a d' h
    rw [foldValue] at h
    obtain ⟨o, d1, h1, h⟩ := bind_ok_inv h
    obtain ⟨o2, d2, h2, h⟩ := bind_ok_inv h
    rw [foldValue, M.bind_ok (listed_ok h1).1, M.bind_ok (ih _ _ _ _ h2)]
    exact (listed_ok h).1
  · intro es ih d a d' h
    rw [foldValue] at h
    obtain ⟨o, d1, h1, h⟩ := bind_ok_inv h
    obtain ⟨o2, d2, h2, h⟩ := bind_ok_inv h
    rw [foldValue, M.bind_ok (listed_ok h1).1, M.bind_ok (ih _ _ _ _ h2)]
    exact (listed_ok h).1
  · intro o d a d' h; rw [foldEntries] at h ⊢; cases h; rfl
  · intro k v es h1 h2 o d a d' h
    rw [foldEntries] at h
    obtain ⟨⟨o1, kD⟩, d1, e1, h⟩ := bind_ok_inv h
    obtain ⟨x, d2, e2, h⟩ := bind_ok_inv h
    obtain ⟨o2, d3, e3, h⟩ := bind_ok_inv h
    rw [foldEntries, M.bind_ok (listed_ok e1).1]
    simp only []
    rw [M.bind_ok (h1 _ _ _ e2), M.bind_ok (listed_ok e3).1]
    exact h2 _ _ _ _ h
  · intro o d a d' h; rw [foldElems] at h ⊢; cases h; rfl
  · intro v es h1 h2 o d a d' h
    rw [foldElems] at h
    obtain ⟨x, d2, e2, h⟩ := bind_ok_inv h
    obtain ⟨o2, d3, e3, h⟩ := bind_ok_inv h
    rw [foldElems, M.bind_ok (h1 _ _ _ e2), M.bind_ok (listed_ok e3).1]
    exact h2 _ _ _ _ h

theorem logged_truthful (h : Truthful D) : Truthful (logged D) :=
  ⟨fun es d0 o0 d1 o d2 h1 h2 => h.object es d0.1 o0 d1.1 o d2.1 (listed_ok h1).1 (logged_fold.2.1 es o0 d1 o d2 h2),
   fun es d0 o0 d1 o d2 h1 h2 => h.array es d0.1 o0 d1.1 o d2.1 (listed_ok h1).1 (logged_fold.2.2 es o0 d1 o d2 h2)⟩

theorem logged_kind (h : KindTruthful D) : KindTruthful (logged D) :=
  fun v d a d' hf => h v d.1 a d'.1 (logged_fold.1 v d a d' hf)

theorem call_listed {e : Event} {fs fs' : List (Frame (logged D))} {d d' : (logged D).σ} (h : e.call (logged D) fs d = .ok fs' d') :
    d'.2 = d.2 ++ [e] := by
  unfold Event.call at h
  split at h <;> first
    | (obtain ⟨a, d1, h1, h2⟩ := bind_ok_inv h; cases h2; exact (listed_ok h1).2)
    | cases h

theorem replay_listed {l : List (Nat × Event)} {fs fs' : List (Frame (logged D))} {d d' : (logged D).σ}
    (h : replay (logged D) l fs d = .ok fs' d') : d'.2 = d.2 ++ l.map Prod.snd := by
  induction l generalizing fs d with
  | nil => cases h; simp
  | cons q l ih =>
    obtain ⟨off, e⟩ := q
    rw [replay_cons] at h
    cases hc : e.call (logged D) fs d with
    | ok fs1 d1 =>
      rw [hc] at h
      rw [ih h, call_listed hc]
      simp
    | err y d' => rw [hc] at h; cases h
    | panic p => rw [hc] at h; cases h

theorem value_truthful : Truthful valueParser := by
  constructor
  · intro es d0 o0 d1 o d2 h1 h2
    have h1 : Out.ok ([] : Object) d0 = .ok o0 d1 := h1
    rw [value_fold.2.1] at h2
    cases h1
    cases h2
    rfl
  · intro es d0 o0 d1 o d2 h1 h2
    have h1 : Out.ok ([] : List Value) d0 = .ok o0 d1 := h1
    rw [value_fold.2.2] at h2
    cases h1
    cases h2
    rfl

theorem value_kind : KindTruthful valueParser := by
  intro v d a d' h
  rw [value_fold.1] at h
  cases h
  cases v <;> rfl

/-! ## A whole parse -/

variable (src g cfg) in
/-- the machine decides the same -/
def PlanParse (l : List (Nat × Event)) : Fate → Prop
  | .done _ _ => plan g src cfg = (l, none)
  | .failed e _ _ => plan g src cfg = (l, some e)
  | .panicked _ => True

theorem report_root {w : Want} {e : Error Empty} (hw : w ≠ .colon) : report w [] e = e := by
  cases w with
  | colon => exact absurd rfl hw
  | _ => rfl

theorem at_root_cons {o : Nat} (hi : Input g src) (hol : o ≤ src.length) : ∃ x xs, itemsAt g src o = x :: xs
    ∧ x.start = o + runLen isWs (src.drop o) := by
  cases tok_cases hi hol with
  | eof hw hn he hp => exact ⟨_, _, items_err he, rfl⟩
  | tok w b t l off' hw hd hb hv ha hs hlt hle hn he hp => exact ⟨_, _, items_ok he, rfl⟩
  | err w b t e off' hw hd hb hlt hle heo hrp hn he hp => exact ⟨_, _, items_err he, rfl⟩

theorem at_root_end {o : Nat} {w : List UInt8} (hi : Input g src) (hol : o ≤ src.length) (hw : Ws w) (hd : src.drop o = w) :
    machineAt g src cfg .separator [] o = ([], none) := by
  obtain ⟨x, xs, h1, h2⟩ := at_root_cons hi hol
  unfold machineAt
  rw [h1, drive, h2, skipWs_of (r := []) hw (by simpa using hd) (by simp)]
  have := congrArg List.length hd
  simp at this
  rw [if_pos (by omega)]

theorem at_root_more {o : Nat} {c : UInt8} {w t : List UInt8} (hi : Input g src) (hol : o ≤ src.length) (hw : Ws w)
    (hd : src.drop o = w ++ c :: t) (hc : isWs c = false) :
    machineAt g src cfg .separator [] o = ([], some ⟨o + w.length, .trailingNonWhitespace⟩) := by
  obtain ⟨x, xs, h1, h2⟩ := at_root_cons hi hol
  unfold machineAt
  rw [h1, drive, h2, skipWs_of hw hd (by simpa using hc)]
  have := congrArg List.length hd
  simp at this
  rw [if_neg (by omega)]

theorem parse_reads (hi : Input g src) : ∃ l E, PlanParse src g cfg l E ∧ (∀ o r, E = .done o r → ∃ v, l.map Prod.snd = events v)
    ∧ ∀ D, Truthful D → (cfg.allowAllTypesAtRoot = true ∨ KindTruthful D) → ∀ d,
      Runs D (parseBytes g src cfg D d) l E [] (fun a => [.value a]) d := by
  obtain ⟨l, E, hpl, h1, h2⟩ := (reads_all (g := g) (src := src) (cfg := cfg) (parseFuel src)).1 0 (cfg.recursionLimit.getD USIZE_MAX)
  have noP : ∀ {P : Prop} {p : Panic} (o r : Nat), Fate.panicked p = .done o r → P := by intro P p o r h; cases h
  have noF : ∀ {P : Prop} {e : Error Empty} {o1 r1 : Nat} (o r : Nat), Fate.failed e o1 r1 = .done o r → P := by
    intro P e o1 r1 o r h; cases h
  have hpl := hpl [] (fun n hn => by rw [hn]; rfl)
  have hplan : plan g src cfg = machineAt g src cfg .value [] 0 := by unfold plan machineAt; rw [scans_eq]
  cases E with
  | panicked p => exact ⟨l, .panicked p, trivial, noP, fun D hD _ d => .bind_panicked (h2 D hD d [])⟩
  | failed e o r =>
    exact ⟨l, .failed e o r, hplan.trans (hpl.trans (by rw [report_root (w := .value) nofun])), noF, fun D hD _ d => .bind_failed (h2 D hD d [])⟩
  | done o r =>
    obtain ⟨v, hv⟩ := h1 o r rfl
    let b : Bool := if cfg.allowAllTypesAtRoot then false else !(v.kind == .object || v.kind == .array)
    have hb1 : (([] : List Nest).isEmpty && !cfg.allowAllTypesAtRoot && l.length == 1) = b := by
      have : l.length = (events v).length := by rw [← hv, List.length_map]
      rw [this]
      simp only [b, List.isEmpty_nil, Bool.true_and]
      cases cfg.allowAllTypesAtRoot with
      | true => rfl
      | false => cases v <;> simp [events, Value.kind]
    have hol : o ≤ src.length := by
      have h3 := h2 _ value_truthful () []
      unfold Runs at h3
      have h4 := (events_plays (D := valueParser)).1 v l hv [] ()
      rw [value_fold.1] at h4
      simp only [] at h4
      rw [h4] at h3
      obtain ⟨a, _, h6⟩ := h3
      have h7 := (vp_sound (g := g) (cfg := cfg) hi.lim (parseFuel src)).1 ⟨0, (), cfg.recursionLimit.getD USIZE_MAX⟩ (Nat.zero_le _) hi.fit
      simp only [] at h6
      rw [h6] at h7
      obtain ⟨_, _, _, _, _, _, _, _, _, h8, _⟩ := h7
      exact h8
    have hpl := hplan.trans hpl.2
    rw [hb1] at hpl
    have all : ∀ E, PlanParse src g cfg l E → (∀ (D : Delegate) (a : D.Value) (d : D.σ),
        Runs D ((if b then perr D 0 .payloadsShouldBeObjectOrArray
          else (liftTok D (nextNonWs src) >>= fun x => match x with
            | none => Pure.pure a
            | some (offset, _) => perr D offset .trailingNonWhitespace) : PM D D.Value) ⟨o, d, r⟩) [] E [.value a] (fun a => [.value a]) d) →
        ∃ l E, PlanParse src g cfg l E ∧ (∀ o r, E = .done o r → ∃ v, l.map Prod.snd = events v)
          ∧ ∀ D, Truthful D → (cfg.allowAllTypesAtRoot = true ∨ KindTruthful D) → ∀ d,
            Runs D (parseBytes g src cfg D d) l E [] (fun a => [.value a]) d := by
      intro E hp hE
      refine ⟨l ++ [], E, by rw [List.append_nil]; exact hp, fun _ _ _ => ⟨v, by simpa using hv⟩, fun D hD hk d => ?_⟩
      refine .bind_done (h2 D hD d []) fun a d' hr => ?_
      obtain ⟨a', k1, k2⟩ := (events_plays.1 v l hv []).made hr
      injection k2 with k2 _
      injection k2 with k2
      subst k2
      have := hE D a d'
      by_cases hc : cfg.allowAllTypesAtRoot = true
      · simp only [b, hc, if_true] at this
        simp only [hc, if_true]
        exact this
      · have hk := (hk.resolve_left hc) v d a d' k1
        simp only [b, hc, Bool.false_eq_true, if_false] at this
        simp only [hc, Bool.false_eq_true, if_false]
        rw [M.bind_eq]
        unfold liftQ
        simp only [hk]
        exact this
    by_cases hb : b = true
    · refine all (.failed ⟨0, .payloadsShouldBeObjectOrArray⟩ o r) (by
        show _ = _
        rw [hpl, if_pos hb]
        simp [prior, delivered]) fun D a d => ?_
      rw [if_pos hb]
      exact .fail rfl
    · rw [if_neg hb] at hpl
      obtain ⟨w, hw, hd | ⟨c, t, hd, hc, _⟩⟩ := ws_cases hol
      · refine all (.done src.length r) (by
          show _ = _
          rw [hpl, at_root_end hi hol hw hd.1]
          simp [prior, delivered]) fun D a d => ?_
        rw [if_neg hb, M.bind_eq, liftTok_at, nextNonWs_nil hw hd.1 hol]
        exact .ret rfl
      · refine all (.failed ⟨o + w.length, .trailingNonWhitespace⟩ (o + w.length + 1) r) (by
          show _ = _
          rw [hpl, at_root_more hi hol hw hd hc]
          simp [prior, delivered]) fun D a d => ?_
        rw [if_neg hb, M.bind_eq, liftTok_at, nextNonWs_cons hw hd hc]
        exact .fail rfl

end
end JustJson
