import Verif.Lemmas.Log
/-! # Any two delegates are told the same -/

namespace JustJson
open Spec

set_option linter.unusedSectionVars false

section
variable {src : List UInt8} [Arch] {g : Bool} {cfg : ParseConfig} {D : Delegate}

/-! ## A successful run is a traversal, for any delegate -/

/-- success implies `P`; nothing is said of failures -/
def OkWp {σ ε α : Type} (out : Out σ ε α) (P : α → σ → Prop) : Prop := ∀ a s, out = .ok a s → P a s

theorem OkWp.bind {σ ε α β : Type} {m : M σ ε α} {f : α → M σ ε β} {s : σ} {P : α → σ → Prop}
    {P' : β → σ → Prop} (h : OkWp (m s) P) (hf : ∀ a s, P a s → OkWp (f a s) P') : OkWp ((m >>= f) s) P' := by
  rw [M.bind_eq]
  cases hm : m s with
  | ok a s1 => exact hf a s1 (h a s1 hm)
  | err e s1 => intro a s h; cases h
  | panic p => intro a s h; cases h

theorem OkWp.err {σ ε α : Type} {e : ε} {s : σ} {P : α → σ → Prop} : OkWp (.err e s) P := by
  intro a s h; cases h

theorem OkWp.pure {σ ε α : Type} {a : α} {s : σ} {P : α → σ → Prop} (h : P a s) : OkWp (.ok a s : Out σ ε α) P := by
  intro a s h; cases h; assumption

theorem ok_cb {α : Type} {off : Nat} {m : M D.σ D.Err α} {s : PState D.σ} :
    OkWp (liftD D off m s) (fun a s' => m s.delegate = .ok a s'.delegate) := by
  unfold liftD
  cases h : m s.delegate with
  | ok a d => exact OkWp.pure rfl
  | err e d => exact OkWp.err
  | panic p => intro a s h; cases h

theorem ok_tok {α : Type} {m : TokM α} {s : PState D.σ} :
    OkWp (liftTok D m s) (fun _ s' => s'.delegate = s.delegate) := by
  unfold liftTok
  cases m s.offset with
  | ok a d => exact OkWp.pure rfl
  | err e d => exact OkWp.err
  | panic p => intro a s h; cases h

theorem ok_colon {s : PState D.σ} : OkWp (nextColon g src D s) (fun _ s' => s'.delegate = s.delegate) := by
  unfold nextColon
  cases nextOrEof src g s.offset with
  | ok a d => exact OkWp.pure rfl
  | err e d => exact OkWp.err
  | panic p => intro a s h; cases h

theorem ok_q {α : Type} {q : D.σ → Res α} {s : PState D.σ} : OkWp (liftQ D q s) (fun _ s' => s' = s) := by
  unfold liftQ
  cases q s.delegate with
  | ok a => exact OkWp.pure rfl
  | panic p => intro a s h; cases h

theorem ok_begin {off : Nat} {s : PState D.σ} : OkWp (beginNest cfg D off s) (fun _ s' => s'.delegate = s.delegate) := by
  unfold beginNest
  split
  · split
    · exact OkWp.pure rfl
    · exact OkWp.err
  · exact OkWp.pure rfl

theorem ok_end {s : PState D.σ} : OkWp (endNest cfg D s) (fun _ s' => s'.delegate = s.delegate) := by
  unfold endNest
  split <;> exact OkWp.pure rfl

theorem ok_map {α : Type} {f : Error D.Err → Error D.Err} {m : PM D α} {s : PState D.σ} {P : α → PState D.σ → Prop}
    (h : OkWp (m s) P) : OkWp (M.mapErr f m s) P := by
  unfold M.mapErr
  cases hm : m s with
  | ok a d => exact OkWp.pure (h _ _ hm)
  | err e d => exact OkWp.err
  | panic p => intro a s h; cases h

theorem ok_offset {α : Type} {f : Nat → PM D α} {s : PState D.σ} {P : α → PState D.σ → Prop}
    (h : OkWp (f s.offset s) P) : OkWp ((tokOffset D >>= f) s) P := h

theorem ok_panic {σ ε α : Type} {p : Panic} {s : σ} {P : α → σ → Prop} : OkWp (M.panic p s : Out σ ε α) P := by
  intro a s h; cases h

theorem run_folds : ∀ fuel : Nat,
    (∀ s : PState D.σ, OkWp (readTokens g src cfg D fuel s) fun a s' => ∃ v, foldValue D v s.delegate = .ok a s'.delegate)
    ∧ (∀ s : PState D.σ, OkWp (readObject g src cfg D fuel s) fun a s' => ∃ v, foldValue D v s.delegate = .ok a s'.delegate)
    ∧ (∀ (o : D.Object) (s : PState D.σ), OkWp (readObjectLoop g src cfg D fuel o s) fun a s' =>
        ∃ es, foldEntries D es o s.delegate = .ok a s'.delegate)
    ∧ (∀ s : PState D.σ, OkWp (readArray g src cfg D fuel s) fun a s' => ∃ v, foldValue D v s.delegate = .ok a s'.delegate)
    ∧ (∀ (o : D.Array) (s : PState D.σ), OkWp (readArrayLoop g src cfg D fuel o s) fun a s' =>
        ∃ vs, foldElems D vs o s.delegate = .ok a s'.delegate) := by
  intro fuel
  induction fuel with
  | zero =>
    refine ⟨?_, ?_, ?_, ?_, ?_⟩
    · intro s; rw [readTokens]; exact ok_panic
    · intro s; rw [readObject]; exact ok_panic
    · intro o s; rw [readObjectLoop]; exact ok_panic
    · intro s; rw [readArray]; exact ok_panic
    · intro o s; rw [readArrayLoop]; exact ok_panic
  | succ fuel ih =>
    obtain ⟨ihT, ihO, ihOL, ihA, ihAL⟩ := ih
    have scal : ∀ {off : Nat} {m : M D.σ D.Err D.Value} {s s1 : PState D.σ} (v : Value), foldValue D v = m → s1.delegate = s.delegate →
        OkWp (liftD D off m s1) fun a s' => ∃ v, foldValue D v s.delegate = .ok a s'.delegate := by
      intro off m s s1 v hv hs a s' h
      refine ⟨v, ?_⟩
      rw [hv, ← hs]
      exact ok_cb a s' h
    refine ⟨?_, ?_, ?_, ?_, ?_⟩
    · intro s
      rw [readTokens]
      refine ok_offset ?_
      refine OkWp.bind ok_tok ?_
      intro tok s1 e1
      cases tok with
      | null => exact scal .null rfl e1
      | bool b => exact scal (.boolean b) rfl e1
      | number b => exact scal (.number b) rfl e1
      | string b => exact scal (.string b) rfl e1
      | object =>
        refine OkWp.bind ok_begin ?_
        intro _ s2 e2
        have := ihO s2
        rw [e2, e1] at this
        exact ok_map this
      | array =>
        refine OkWp.bind ok_begin ?_
        intro _ s2 e2
        have := ihA s2
        rw [e2, e1] at this
        exact ok_map this
      | _ => exact OkWp.err
    · intro s
      rw [readObject]
      refine ok_offset ?_
      refine OkWp.bind ok_cb ?_
      intro o s1 e1
      refine OkWp.bind (ihOL o s1) ?_
      rintro o2 s2 ⟨es, e2⟩
      refine ok_offset ?_
      refine OkWp.bind ok_cb ?_
      intro v s3 e3
      refine OkWp.bind ok_end ?_
      intro _ s4 e4
      refine OkWp.pure ⟨.object es, ?_⟩
      rw [foldValue, M.bind_ok e1, M.bind_ok e2, e3, e4]
    · intro o s
      rw [readObjectLoop]
      refine ok_offset ?_
      refine OkWp.bind ok_tok ?_
      intro tok s1 e1
      cases tok with
      | objectEnd =>
        have hnil : ∃ es, foldEntries D es o s.delegate = .ok o s1.delegate := ⟨[], by rw [foldEntries, e1]; rfl⟩
        simp only []
        split
        · exact OkWp.pure hnil
        refine OkWp.bind ok_q ?_
        rintro b _ rfl
        split
        · exact OkWp.pure hnil
        · exact OkWp.err
      | string k =>
        refine OkWp.bind ok_cb ?_
        rintro ⟨o1, kD⟩ s2 e2
        refine ok_offset ?_
        refine OkWp.bind ok_colon ?_
        intro tok s3 e3
        split
        · exact OkWp.err
        refine ok_offset ?_
        refine OkWp.bind (ihT s3) ?_
        rintro a s4 ⟨v, e4⟩
        refine OkWp.bind ok_cb ?_
        rintro o2 s5 e5
        refine ok_offset ?_
        refine OkWp.bind ok_tok ?_
        intro tok s6 e6
        have key : ∀ es o' d', foldEntries D es o2 s6.delegate = .ok o' d' →
            ∃ es, foldEntries D es o s.delegate = .ok o' d' := by
          intro es o' d' h
          refine ⟨(k, v) :: es, ?_⟩
          rw [foldEntries, ← e1, M.bind_ok e2]
          simp only []
          rw [← e3, M.bind_ok e4, M.bind_ok e5, ← e6]
          exact h
        split
        · exact OkWp.pure (key [] _ _ (by rw [foldEntries]; rfl))
        split
        · exact OkWp.err
        · intro o' s' h
          obtain ⟨es, h⟩ := ihOL _ _ _ _ h
          exact key es _ _ h
      | _ => exact OkWp.err
    · intro s
      rw [readArray]
      refine ok_offset ?_
      refine OkWp.bind ok_cb ?_
      intro o s1 e1
      refine OkWp.bind (ihAL o s1) ?_
      rintro o2 s2 ⟨es, e2⟩
      refine OkWp.bind ok_cb ?_
      intro v s3 e3
      refine OkWp.bind ok_end ?_
      intro _ s4 e4
      refine OkWp.pure ⟨.array es, ?_⟩
      rw [foldValue, M.bind_ok e1, M.bind_ok e2, e3, e4]
    · intro o s
      rw [readArrayLoop]
      refine ok_offset ?_
      refine OkWp.bind ok_tok ?_
      intro k s1 e1
      split
      · have hnil : ∃ es, foldElems D es o s.delegate = .ok o s1.delegate := ⟨[], by rw [foldElems, e1]; rfl⟩
        rw [M.bind_ok (M.modify_eq _ _)]
        split
        · exact OkWp.pure hnil
        refine OkWp.bind ok_q ?_
        rintro b _ rfl
        split
        · exact OkWp.pure hnil
        · exact OkWp.err
      · refine OkWp.bind (ihT s1) ?_
        rintro a s4 ⟨v, e4⟩
        refine ok_offset ?_
        refine OkWp.bind ok_cb ?_
        rintro o2 s5 e5
        refine ok_offset ?_
        refine OkWp.bind ok_tok ?_
        intro tok s6 e6
        have key : ∀ es o' d', foldElems D es o2 s6.delegate = .ok o' d' →
            ∃ es, foldElems D es o s.delegate = .ok o' d' := by
          intro es o' d' h
          refine ⟨v :: es, ?_⟩
          rw [foldElems, ← e1, M.bind_ok e4, M.bind_ok e5, ← e6]
          exact h
        split
        · exact OkWp.pure (key [] _ _ (by rw [foldElems]; rfl))
        split
        · exact OkWp.err
        · intro o' s' h
          obtain ⟨es, h⟩ := ihAL _ _ _ _ h
          exact key es _ _ h

/-- A successful parse is a traversal of some value, whatever the delegate. -/
theorem parse_folds {d : D.σ} {a : D.Value} {s : PState D.σ} (h : parseBytes g src cfg D d = .ok a s) :
    ∃ v, foldValue D v d = .ok a s.delegate := by
  have key : OkWp (parseBytes g src cfg D d) fun a s => ∃ v, foldValue D v d = .ok a s.delegate := by
    unfold parseBytes parseM
    refine OkWp.bind ((run_folds _).1 _) ?_
    rintro a s ⟨v, hv⟩
    have fin : ∀ (b : Bool), OkWp ((if b = true then perr D 0 ErrorKind.payloadsShouldBeObjectOrArray
        else do
          let r ← liftTok D (nextNonWs src)
          match r with
            | none => pure a
            | some (offset, _) => perr D offset ErrorKind.trailingNonWhitespace : PM D D.Value) s)
        fun a s => ∃ v, foldValue D v d = .ok a s.delegate := by
      intro b
      cases b with
      | true => exact OkWp.err
      | false =>
        refine OkWp.bind ok_tok ?_
        intro r s1 e1
        cases r with
        | none => exact OkWp.pure ⟨v, by rw [e1]; exact hv⟩
        | some r => exact OkWp.err
    simp only []
    split
    · exact fin false
    · refine OkWp.bind ok_q ?_
      rintro k _ rfl
      exact fin _
  exact key a s h

/-! ## Lockstep -/

variable {F : Delegate}


/-- same place, same list of callbacks, same nesting budget -/
def Twin (s1 : PState (logged D).σ) (s2 : PState (logged F).σ) : Prop :=
  s1.offset = s2.offset ∧ s1.delegate.2 = s2.delegate.2 ∧ s1.remainingDepth = s2.remainingDepth

/-- every run that ends does so with a list extending `p` -/
def Later {α : Type} (p : List Event) (out : Out (PState (logged F).σ) (Error F.Err) α) : Prop :=
  PWp out (fun _ s => p <+: s.delegate.2) (fun _ s => p <+: s.delegate.2) AnyPanic

/-- the list only grows -/
def Grows {α : Type} (m : PM (logged F) α) : Prop := ∀ s, Later s.delegate.2 (m s)

theorem Later.bind {α β : Type} {p : List Event} {m : PM (logged F) α} {f : α → PM (logged F) β}
    {s : PState (logged F).σ} (h : Later p (m s)) (hf : ∀ b, Grows (f b)) : Later p ((m >>= f) s) :=
  PWp.bind h fun a s1 h1 => (hf a s1).mono (fun _ _ q => h1.trans q) (fun _ _ q => h1.trans q) (fun _ q => q)

theorem Grows.bind {α β : Type} {m : PM (logged F) α} {f : α → PM (logged F) β}
    (h : Grows m) (hf : ∀ b, Grows (f b)) : Grows (m >>= f) := fun s => (h s).bind hf

theorem Grows.cb {α : Type} {off : Nat} {ev : Event} {m : M F.σ F.Err α} :
    Grows (liftD (logged F) off (listed ev m)) := fun s =>
  (lw_cb (D := F)).mono (fun _ s1 h => by rw [h.2.1]; exact List.prefix_append _ _)
    (fun _ s1 h => by rw [h]; exact List.prefix_append _ _) (fun _ h => h)

theorem Grows.tok {α : Type} {m : TokM α} : Grows (liftTok (logged F) m) := fun s => by
  unfold liftTok
  cases m s.offset with
  | ok a d => exact List.prefix_refl _
  | err e d => exact List.prefix_refl _
  | panic p => trivial

theorem Grows.colon : Grows (nextColon g src (logged F)) := fun s => by
  unfold nextColon
  cases nextOrEof src g s.offset with
  | ok a d => exact List.prefix_refl _
  | err e d => exact List.prefix_refl _
  | panic p => trivial

theorem Grows.q {α : Type} {q : (logged F).σ → Res α} : Grows (liftQ (logged F) q) := fun s => by
  unfold liftQ
  cases q s.delegate with
  | ok a => exact List.prefix_refl _
  | panic p => trivial

theorem Grows.begin {off : Nat} : Grows (beginNest cfg (logged F) off) := fun s => by
  unfold beginNest
  split
  · split <;> exact List.prefix_refl _
  · exact List.prefix_refl _

theorem Grows.end : Grows (endNest cfg (logged F)) := fun s => by
  unfold endNest
  split <;> exact List.prefix_refl _

theorem Grows.perr {α : Type} {off : Nat} {k : ErrorKind F.Err} : Grows (perr (logged F) off k : PM _ α) :=
  fun _ => List.prefix_refl _

theorem Grows.pure {α : Type} {a : α} : Grows (F := F) (pure a) := fun _ => List.prefix_refl _
theorem Grows.mpure {α : Type} {a : α} : Grows (F := F) (M.pure a) := fun _ => List.prefix_refl _
theorem Grows.off : Grows (tokOffset (logged F)) := fun _ => List.prefix_refl _
theorem Grows.move {f : Nat → Nat} : Grows (F := F) (M.modify fun s => { s with offset := f s.offset }) := fun _ => List.prefix_refl _

theorem Later.map {α : Type} {p : List Event} {f : Error F.Err → Error F.Err} {m : PM (logged F) α}
    {s : PState (logged F).σ} (h : Later p (m s)) : Later p (M.mapErr f m s) := by
  unfold Later M.mapErr
  unfold Later at h
  cases hm : m s with
  | ok a s1 => rw [hm] at h; exact h
  | err e s1 => rw [hm] at h; exact h
  | panic q => trivial

theorem Grows.map {α : Type} {f : Error F.Err → Error F.Err} {m : PM (logged F) α} (h : Grows m) :
    Grows (M.mapErr f m) := fun s => (h s).map

theorem Grows.panic {α : Type} {p : Panic} : Grows (M.panic p : PM (logged F) α) := fun _ => trivial

theorem Grows.ite {α : Type} {c : Prop} [Decidable c] {a b : PM (logged F) α} (h1 : Grows a) (h2 : Grows b) :
    Grows (if c then a else b) := by
  split
  · exact h1
  · exact h2

/-- growth of the pieces of the parser -/
syntax "grow" : tactic
macro_rules
  | `(tactic| grow) => `(tactic| repeat (first
    | assumption
    | exact Grows.cb | exact Grows.tok | exact Grows.colon | exact Grows.q | exact Grows.begin | exact Grows.end
    | exact Grows.perr | exact Grows.pure | exact Grows.mpure | exact Grows.off | exact Grows.move | exact Grows.panic
    | refine Grows.ite ?_ ?_
    | refine Grows.map ?_
    | (refine Grows.bind ?_ (fun _ => ?_))
    | solve | (intros; assumption)
    | split))

theorem run_grows : ∀ fuel : Nat,
    Grows (readTokens g src cfg (logged F) fuel)
    ∧ Grows (readObject g src cfg (logged F) fuel)
    ∧ (∀ n : F.Object, Grows (readObjectLoop g src cfg (logged F) fuel n))
    ∧ Grows (readArray g src cfg (logged F) fuel)
    ∧ (∀ n : F.Array, Grows (readArrayLoop g src cfg (logged F) fuel n)) := by
  intro fuel
  induction fuel with
  | zero =>
    refine ⟨?_, ?_, ?_, ?_, ?_⟩
    · rw [readTokens]; exact Grows.panic
    · rw [readObject]; exact Grows.panic
    · intro n; rw [readObjectLoop]; exact Grows.panic
    · rw [readArray]; exact Grows.panic
    · intro n; rw [readArrayLoop]; exact Grows.panic
  | succ fuel ih =>
    obtain ⟨ihT, ihO, ihOL, ihA, ihAL⟩ := ih
    refine ⟨?_, ?_, ?_, ?_, ?_⟩
    · rw [readTokens]
      refine Grows.bind Grows.off fun off => Grows.bind Grows.tok fun tok => ?_
      cases tok with
      | null => exact Grows.cb
      | bool b => exact Grows.cb
      | number b => exact Grows.cb
      | string b => exact Grows.cb
      | object => exact Grows.bind Grows.begin fun _ => Grows.map ihO
      | array => exact Grows.bind Grows.begin fun _ => Grows.map ihA
      | _ => exact Grows.perr
    · rw [readObject]
      refine Grows.bind Grows.off fun off => Grows.bind Grows.cb fun o => Grows.bind (ihOL o) fun o => ?_
      grow
    · intro n
      rw [readObjectLoop]
      refine Grows.bind Grows.off fun off => Grows.bind Grows.tok fun tok => ?_
      cases tok with
      | string k =>
        refine Grows.bind Grows.cb fun o => ?_
        obtain ⟨o, k⟩ := o
        refine Grows.bind Grows.off fun off => Grows.bind Grows.colon fun tok => Grows.ite Grows.perr ?_
        refine Grows.bind Grows.off fun off => Grows.bind ihT fun v => Grows.bind Grows.cb fun o => ?_
        refine Grows.bind Grows.off fun off => Grows.bind Grows.tok fun tok => Grows.ite Grows.pure (Grows.ite Grows.perr ?_)
        exact ihOL o
      | _ => grow
    · rw [readArray]
      refine Grows.bind Grows.off fun off => Grows.bind Grows.cb fun o => Grows.bind (ihAL o) fun o => ?_
      grow
    · intro n
      rw [readArrayLoop]
      refine Grows.bind Grows.off fun off => Grows.bind Grows.tok fun tok => Grows.ite ?_ ?_
      · grow
      · refine Grows.bind ihT fun v => ?_
        refine Grows.bind Grows.off fun off => Grows.bind Grows.cb fun o => ?_
        refine Grows.bind Grows.off fun off => Grows.bind Grows.tok fun tok => Grows.ite Grows.pure (Grows.ite Grows.perr ?_)
        exact ihAL o

/-- Errors apart from those of delegates. -/
inductive SameErr {α β : Type} : Error α → Error β → Prop where
  | mk (off : Nat) (k : ErrorKind Empty) : SameErr ⟨off, k.intoFallable⟩ ⟨off, k.intoFallable⟩

/-- Two runs in lockstep, up to the point where the first delegate fails. -/
def Lock {α β : Type} (out1 : Out (PState (logged D).σ) (Error D.Err) α)
    (out2 : Out (PState (logged F).σ) (Error F.Err) β) : Prop :=
  match out1 with
  | .ok _ s1 => ∃ b s2, out2 = .ok b s2 ∧ Twin s1 s2
  | .err e s1 => (∃ x, e.kind = .errorFromDelegate x) ∧ Later s1.delegate.2 out2
      ∨ ∃ e2 s2, out2 = .err e2 s2 ∧ Twin s1 s2 ∧ SameErr e e2
  | .panic _ => True

theorem Lock.bind {α β α' β' : Type} {m1 : PM (logged D) α} {m2 : PM (logged F) β} {f1 : α → PM (logged D) α'}
    {f2 : β → PM (logged F) β'} {s1 : PState (logged D).σ} {s2 : PState (logged F).σ} (h : Lock (m1 s1) (m2 s2))
    (hg : ∀ b, Grows (f2 b))
    (hf : ∀ a b t1 t2, m1 s1 = .ok a t1 → m2 s2 = .ok b t2 → Twin t1 t2 → Lock (f1 a t1) (f2 b t2)) :
    Lock ((m1 >>= f1) s1) ((m2 >>= f2) s2) := by
  rw [M.bind_eq]
  cases hm : m1 s1 with
  | ok a t1 =>
    rw [hm] at h
    obtain ⟨b, t2, h2, ht⟩ := h
    rw [M.bind_ok h2]
    exact hf a b t1 t2 hm h2 ht
  | err e t1 =>
    rw [hm] at h
    rcases h with ⟨h1, h2⟩ | ⟨e2, t2, h2, h3⟩
    · exact .inl ⟨h1, h2.bind hg⟩
    · exact .inr ⟨e2, t2, by rw [M.bind_err h2], h3⟩
  | panic p => trivial

theorem Lock.cb {α β : Type} {o1 o2 : Nat} {ev : Event} {m1 : M D.σ D.Err α} {m2 : M F.σ F.Err β}
    {s1 : PState (logged D).σ} {s2 : PState (logged F).σ} (h2 : ∀ d, ∃ a d', m2 d = .ok a d') (ht : Twin s1 s2) :
    Lock (liftD (logged D) o1 (listed ev m1) s1) (liftD (logged F) o2 (listed ev m2) s2) := by
  obtain ⟨b, d', hb⟩ := h2 s2.delegate.1
  have e2 : liftD (logged F) o2 (listed ev m2) s2 = .ok b ⟨s2.offset, (d', s2.delegate.2 ++ [ev]), s2.remainingDepth⟩ := by
    unfold liftD listed
    rw [hb]
  rw [e2]
  unfold liftD listed
  cases m1 s1.delegate.1 with
  | ok a d =>
    exact ⟨b, _, rfl, ht.1, by show s1.delegate.2 ++ [ev] = s2.delegate.2 ++ [ev]; rw [ht.2.1], ht.2.2⟩
  | err x d =>
    refine .inl ⟨⟨x, rfl⟩, ?_⟩
    show s1.delegate.2 ++ [ev] <+: s2.delegate.2 ++ [ev]
    rw [ht.2.1]
    exact List.prefix_refl _
  | panic p => trivial

theorem Lock.tok {α : Type} {m : TokM α} {s1 : PState (logged D).σ} {s2 : PState (logged F).σ} (ht : Twin s1 s2) :
    Lock (liftTok (logged D) m s1) (liftTok (logged F) m s2) := by
  unfold liftTok
  rw [← ht.1]
  cases m s1.offset with
  | ok a o => exact ⟨a, _, rfl, rfl, ht.2⟩
  | err e o => exact .inr ⟨_, _, rfl, ⟨rfl, ht.2⟩, SameErr.mk e.offset e.kind⟩
  | panic p => trivial

theorem tok_same {α : Type} {m : TokM α} {s1 t1 : PState (logged D).σ} {s2 t2 : PState (logged F).σ} {a b : α} (ht : Twin s1 s2)
    (h1 : liftTok (logged D) m s1 = .ok a t1) (h2 : liftTok (logged F) m s2 = .ok b t2) : a = b ∧ t1.delegate = s1.delegate := by
  unfold liftTok at h1 h2
  rw [← ht.1] at h2
  cases h : m s1.offset with
  | ok x o => rw [h] at h1 h2; cases h1; cases h2; exact ⟨rfl, rfl⟩
  | err e o => rw [h] at h1; cases h1
  | panic p => rw [h] at h1; cases h1

theorem Lock.colon {s1 : PState (logged D).σ} {s2 : PState (logged F).σ} (ht : Twin s1 s2) :
    Lock (nextColon g src (logged D) s1) (nextColon g src (logged F) s2) := by
  unfold nextColon
  rw [← ht.1]
  cases nextOrEof src g s1.offset with
  | ok a o => exact ⟨a, _, rfl, rfl, ht.2⟩
  | err e o => exact .inr ⟨_, _, rfl, ⟨rfl, ht.2⟩, SameErr.mk e.offset .expectedColon⟩
  | panic p => trivial

theorem colon_same {s1 t1 : PState (logged D).σ} {s2 t2 : PState (logged F).σ} {a b : Token} (ht : Twin s1 s2)
    (h1 : nextColon g src (logged D) s1 = .ok a t1) (h2 : nextColon g src (logged F) s2 = .ok b t2) :
    a = b ∧ t1.delegate = s1.delegate := by
  unfold nextColon at h1 h2
  rw [← ht.1] at h2
  cases h : nextOrEof src g s1.offset with
  | ok x o => rw [h] at h1 h2; cases h1; cases h2; exact ⟨rfl, rfl⟩
  | err e o => rw [h] at h1; cases h1
  | panic p => rw [h] at h1; cases h1

theorem Lock.perr {α β : Type} {off : Nat} (k : ErrorKind Empty) {s1 : PState (logged D).σ} {s2 : PState (logged F).σ}
    (ht : Twin s1 s2) : Lock (JustJson.perr (logged D) off k.intoFallable s1 : Out _ _ α) (JustJson.perr (logged F) off k.intoFallable s2 : Out _ _ β) :=
  .inr ⟨_, _, rfl, ht, SameErr.mk off k⟩

theorem Lock.pure {α β : Type} {a : α} {b : β} {s1 : PState (logged D).σ} {s2 : PState (logged F).σ} (ht : Twin s1 s2) :
    Lock (.ok a s1 : Out (PState (logged D).σ) (Error D.Err) α) (.ok b s2 : Out (PState (logged F).σ) (Error F.Err) β) := ⟨b, s2, rfl, ht⟩

theorem Lock.begin {off : Nat} {s1 : PState (logged D).σ} {s2 : PState (logged F).σ} (ht : Twin s1 s2) :
    Lock (beginNest cfg (logged D) off s1) (beginNest cfg (logged F) off s2) := by
  unfold beginNest
  rw [← ht.2.2]
  split
  · split
    · exact ⟨(), _, rfl, ht.1, ht.2.1, rfl⟩
    · exact .inr ⟨_, _, rfl, ht, SameErr.mk off .recursionLimitReached⟩
  · exact ⟨(), _, rfl, ht⟩

theorem Lock.end {s1 : PState (logged D).σ} {s2 : PState (logged F).σ} (ht : Twin s1 s2) :
    Lock (endNest cfg (logged D) s1) (endNest cfg (logged F) s2) := by
  unfold endNest
  rw [← ht.2.2]
  split
  · exact ⟨(), _, rfl, ht.1, ht.2.1, rfl⟩
  · exact ⟨(), _, rfl, ht⟩

theorem Lock.map {α β : Type} (k : ErrorKind Empty) {m1 : PM (logged D) α} {m2 : PM (logged F) β}
    {s1 : PState (logged D).σ} {s2 : PState (logged F).σ} (h : Lock (m1 s1) (m2 s2)) :
    Lock (M.mapErr (eofTo k.intoFallable) m1 s1) (M.mapErr (eofTo k.intoFallable) m2 s2) := by
  unfold M.mapErr
  cases hm : m1 s1 with
  | ok a t1 =>
    rw [hm] at h
    obtain ⟨b, t2, h2, ht⟩ := h
    rw [h2]
    exact ⟨b, t2, rfl, ht⟩
  | err e t1 =>
    rw [hm] at h
    rcases h with ⟨⟨x, h1⟩, h2⟩ | ⟨e2, t2, h2, h3, h4⟩
    · refine .inl ⟨⟨x, ?_⟩, ?_⟩
      · obtain ⟨off, kd⟩ := e
        cases h1
        rfl
      · exact h2.map (f := eofTo k.intoFallable)
    · rw [h2]
      refine .inr ⟨_, t2, rfl, h3, ?_⟩
      obtain ⟨off, k'⟩ := h4
      cases k' with
      | errorFromDelegate x => exact x.elim
      | unexpectedEof => exact SameErr.mk off k
      | _ => exact SameErr.mk off _
  | panic p => trivial

/-- what the plain delegate did -/
theorem cb_ok {α : Type} {off : Nat} {ev : Event} {m : M D.σ D.Err α} {s t : PState (logged D).σ} {a : α}
    (h : liftD (logged D) off (listed ev m) s = .ok a t) : m s.delegate.1 = .ok a t.delegate.1 := by
  unfold liftD listed at h
  cases hm : m s.delegate.1 with
  | ok b d => rw [hm] at h; cases h; rfl
  | err x d => rw [hm] at h; cases h
  | panic p => rw [hm] at h; cases h

theorem read_ok {fuel : Nat} {s t : PState (logged D).σ} {a : D.Value} (h : readTokens g src cfg (logged D) fuel s = .ok a t) :
    ∃ v, foldValue D v s.delegate.1 = .ok a t.delegate.1 := by
  have h1 := (run_strip (D := D) (g := g) (src := src) (cfg := cfg) fuel).1 s
  rw [h] at h1
  exact (run_folds fuel).1 _ _ _ h1.symm

/-- an object built by callbacks from `n` entries -/
def ObjBuilt (D : Delegate) (o : D.Object) (d : D.σ) (n : Nat) : Prop :=
  ∃ es d0 o0 d1, D.beginObject d0 = .ok o0 d1 ∧ foldEntries D es o0 d1 = .ok o d ∧ es.length = n

/-- an array built by callbacks from `n` elements -/
def ArrBuilt (D : Delegate) (o : D.Array) (d : D.σ) (n : Nat) : Prop :=
  ∃ es d0 o0 d1, D.beginArray d0 = .ok o0 d1 ∧ foldElems D es o0 d1 = .ok o d ∧ es.length = n

theorem ObjBuilt.empty (hT : Truthful D) {o : D.Object} {d : D.σ} {n : Nat} (h : ObjBuilt D o d n) :
    D.objectIsEmpty d o = .ok (n == 0) := by
  obtain ⟨es, d0, o0, d1, h1, h2, rfl⟩ := h
  rw [hT.object es d0 o0 d1 o d h1 h2]
  cases es <;> rfl

theorem ArrBuilt.empty (hT : Truthful D) {o : D.Array} {d : D.σ} {n : Nat} (h : ArrBuilt D o d n) :
    D.arrayIsEmpty d o = .ok (n == 0) := by
  obtain ⟨es, d0, o0, d1, h1, h2, rfl⟩ := h
  rw [hT.array es d0 o0 d1 o d h1 h2]
  cases es <;> rfl

theorem ObjBuilt.push {o o1 o2 : D.Object} {d d1 d2 d3 : D.σ} {n : Nat} {k : JsonString} {kD : D.Key} {v : Value} {a : D.Value}
    (h : ObjBuilt D o d n) (h1 : D.objectKey o k d = .ok (o1, kD) d1) (h2 : foldValue D v d1 = .ok a d2)
    (h3 : D.objectValue o1 kD a d2 = .ok o2 d3) : ObjBuilt D o2 d3 (n + 1) := by
  obtain ⟨es, c0, o0, c1, h4, h5, rfl⟩ := h
  refine ⟨es ++ [(k, v)], c0, o0, c1, h4, ?_, by simp⟩
  rw [foldEntries_append]
  rw [M.bind_ok h5, foldEntries, M.bind_ok h1]
  simp only []
  rw [M.bind_ok h2, M.bind_ok h3, foldEntries]
  rfl

theorem ArrBuilt.push {o o2 : D.Array} {d d2 d3 : D.σ} {n : Nat} {v : Value} {a : D.Value}
    (h : ArrBuilt D o d n) (h2 : foldValue D v d = .ok a d2)
    (h3 : D.arrayValue o a d2 = .ok o2 d3) : ArrBuilt D o2 d3 (n + 1) := by
  obtain ⟨es, c0, o0, c1, h4, h5, rfl⟩ := h
  refine ⟨es ++ [v], c0, o0, c1, h4, ?_, by simp⟩
  rw [foldElems_append]
  rw [M.bind_ok h5, foldElems, M.bind_ok h2, M.bind_ok h3, foldElems]
  rfl

theorem run_lock (hD : Truthful D) (hF : Truthful F) (hU : Unfailing F) : ∀ fuel : Nat,
    (∀ s1 s2, Twin s1 s2 → Lock (readTokens g src cfg (logged D) fuel s1) (readTokens g src cfg (logged F) fuel s2))
    ∧ (∀ s1 s2, Twin s1 s2 → Lock (readObject g src cfg (logged D) fuel s1) (readObject g src cfg (logged F) fuel s2))
    ∧ (∀ s1 s2 o1 o2 n, Twin s1 s2 → ObjBuilt D o1 s1.delegate.1 n → ObjBuilt F o2 s2.delegate.1 n →
      Lock (readObjectLoop g src cfg (logged D) fuel o1 s1) (readObjectLoop g src cfg (logged F) fuel o2 s2))
    ∧ (∀ s1 s2, Twin s1 s2 → Lock (readArray g src cfg (logged D) fuel s1) (readArray g src cfg (logged F) fuel s2))
    ∧ (∀ s1 s2 o1 o2 n, Twin s1 s2 → ArrBuilt D o1 s1.delegate.1 n → ArrBuilt F o2 s2.delegate.1 n →
      Lock (readArrayLoop g src cfg (logged D) fuel o1 s1) (readArrayLoop g src cfg (logged F) fuel o2 s2)) := by
  intro fuel
  induction fuel with
  | zero =>
    refine ⟨?_, ?_, ?_, ?_, ?_⟩
    · intro s1 s2 ht; rw [readTokens]; trivial
    · intro s1 s2 ht; rw [readObject]; trivial
    · intro s1 s2 o1 o2 n ht h1 h2; rw [readObjectLoop]; trivial
    · intro s1 s2 ht; rw [readArray]; trivial
    · intro s1 s2 o1 o2 n ht h1 h2; rw [readArrayLoop]; trivial
  | succ fuel ih =>
    obtain ⟨ihT, ihO, ihOL, ihA, ihAL⟩ := ih
    obtain ⟨gT, gO, gOL, gA, gAL⟩ := run_grows (F := F) (g := g) (src := src) (cfg := cfg) fuel
    have hoff : ∀ {s1 : PState (logged D).σ} {s2 : PState (logged F).σ}, Twin s1 s2 →
        Lock (tokOffset (logged D) s1) (tokOffset (logged F) s2) := fun ht => ⟨_, _, rfl, ht⟩
    have hoffs : ∀ {s1 t1 : PState (logged D).σ} {s2 t2 : PState (logged F).σ} {a b : Nat}, Twin s1 s2 →
        tokOffset (logged D) s1 = .ok a t1 → tokOffset (logged F) s2 = .ok b t2 → a = b ∧ t1 = s1 ∧ t2 = s2 := by
      intro s1 t1 s2 t2 a b ht h1 h2
      cases h1
      cases h2
      exact ⟨ht.1, rfl, rfl⟩
    refine ⟨?_, ?_, ?_, ?_, ?_⟩
    · intro s1 s2 ht
      rw [readTokens, readTokens]
      refine Lock.bind (hoff ht) ?_ ?_
      · intro off
        refine Grows.bind Grows.tok fun tok => ?_
        cases tok with
        | null => exact Grows.cb
        | bool b => exact Grows.cb
        | number b => exact Grows.cb
        | string b => exact Grows.cb
        | object => exact Grows.bind Grows.begin fun _ => Grows.map gO
        | array => exact Grows.bind Grows.begin fun _ => Grows.map gA
        | _ => exact Grows.perr
      intro off off' t1 t2 h1 h2 ht1
      obtain ⟨rfl, rfl, rfl⟩ := hoffs ht h1 h2
      refine Lock.bind (Lock.tok ht) ?_ ?_
      · intro tok
        cases tok with
        | null => exact Grows.cb
        | bool b => exact Grows.cb
        | number b => exact Grows.cb
        | string b => exact Grows.cb
        | object => exact Grows.bind Grows.begin fun _ => Grows.map gO
        | array => exact Grows.bind Grows.begin fun _ => Grows.map gA
        | _ => exact Grows.perr
      intro tok tok' t1 t2 h1 h2 ht2
      obtain ⟨rfl, _⟩ := tok_same ht h1 h2
      cases tok with
      | null => exact Lock.cb hU.null ht2
      | bool b => exact Lock.cb (hU.boolean b) ht2
      | number b => exact Lock.cb (hU.number b) ht2
      | string b => exact Lock.cb (hU.string b) ht2
      | object =>
        refine Lock.bind (Lock.begin ht2) (fun _ => Grows.map gO) ?_
        intro _ _ u1 u2 _ _ hu
        exact Lock.map .unclosedObject (ihO u1 u2 hu)
      | array =>
        refine Lock.bind (Lock.begin ht2) (fun _ => Grows.map gA) ?_
        intro _ _ u1 u2 _ _ hu
        exact Lock.map .unclosedArray (ihA u1 u2 hu)
      | objectEnd => exact Lock.perr (.unexpected _) ht2
      | arrayEnd => exact Lock.perr (.unexpected _) ht2
      | colon => exact Lock.perr (.unexpected _) ht2
      | comma => exact Lock.perr (.unexpected _) ht2
    · intro s1 s2 ht
      rw [readObject, readObject]
      have g1 : ∀ v : F.Value, Grows (endNest cfg (logged F) >>= fun _ => pure v) := fun v =>
        Grows.bind Grows.end fun _ => Grows.pure
      have g2 : ∀ o : F.Object, Grows (tokOffset (logged F) >>= fun offset =>
          liftD (logged F) offset ((logged F).endObject o) >>= fun v => endNest cfg (logged F) >>= fun _ => pure v) := fun o =>
        Grows.bind Grows.off fun _ => Grows.bind Grows.cb fun v => g1 v
      refine Lock.bind (hoff ht) (fun _ => Grows.bind Grows.cb fun o => Grows.bind (gOL o) fun o => g2 o) ?_
      intro off off' t1 t2 h1 h2 ht1
      obtain ⟨rfl, rfl, rfl⟩ := hoffs ht h1 h2
      refine Lock.bind (Lock.cb hU.beginObject ht) (fun o => Grows.bind (gOL o) fun o => g2 o) ?_
      intro o1 o2 u1 u2 e1 e2 hu
      refine Lock.bind (ihOL u1 u2 o1 o2 0 hu ⟨[], _, o1, _, cb_ok e1, rfl, rfl⟩ ⟨[], _, o2, _, cb_ok e2, rfl, rfl⟩) g2 ?_
      intro o1 o2 w1 w2 _ _ hw
      refine Lock.bind (hoff hw) (fun _ => Grows.bind Grows.cb fun v => g1 v) ?_
      intro off off' t1 t2 h1 h2 ht1
      obtain ⟨rfl, rfl, rfl⟩ := hoffs hw h1 h2
      refine Lock.bind (Lock.cb (hU.endObject o2) hw) g1 ?_
      intro v1 v2 x1 x2 _ _ hx
      refine Lock.bind (Lock.end hx) (fun _ => Grows.pure) ?_
      intro _ _ y1 y2 _ _ hy
      exact Lock.pure hy
    · intro s1 s2 o1 o2 n ht hb1 hb2
      rw [readObjectLoop, readObjectLoop]
      have g4 : ∀ (o : F.Object) (off : Nat) (tok : Token), Grows (if tok = .objectEnd then pure o
          else if tok ≠ .comma then perr (logged F) off .expectedCommaOrEndOfObject
          else readObjectLoop g src cfg (logged F) fuel o) := fun o off tok =>
        Grows.ite Grows.pure (Grows.ite Grows.perr (gOL o))
      have g3 : ∀ (o : F.Object), Grows (tokOffset (logged F) >>= fun off => liftTok (logged F) (nextOrEof src g) >>= fun tok =>
          if tok = .objectEnd then pure o
          else if tok ≠ .comma then perr (logged F) off .expectedCommaOrEndOfObject
          else readObjectLoop g src cfg (logged F) fuel o) := fun o =>
        Grows.bind Grows.off fun off => Grows.bind Grows.tok fun tok => g4 o off tok
      have gk : ∀ (r : F.Object × F.Key), Grows (do
          let (object, key) := r
          let offset ← tokOffset (logged F)
          let token ← nextColon g src (logged F)
          if token ≠ .colon then perr (logged F) offset .expectedColon
          else
            let offset ← tokOffset (logged F)
            let value ← readTokens g src cfg (logged F) fuel
            let object ← liftD (logged F) offset ((logged F).objectValue object key value)
            let offset ← tokOffset (logged F)
            let token ← liftTok (logged F) (nextOrEof src g)
            if token = .objectEnd then return object
            else if token ≠ .comma then perr (logged F) offset .expectedCommaOrEndOfObject
            else readObjectLoop g src cfg (logged F) fuel object) := by
        rintro ⟨o, k⟩
        refine Grows.bind Grows.off fun off => Grows.bind Grows.colon fun tok => Grows.ite Grows.perr ?_
        exact Grows.bind Grows.off fun off => Grows.bind gT fun v => Grows.bind Grows.cb g3
      have gtok : ∀ (off : Nat) (tok : Token), Grows (match tok with
          | .objectEnd =>
            if cfg.allowTrailingCommas then pure o2
            else do
              if ← liftQ (logged F) ((logged F).objectIsEmpty · o2) then return o2
              else perr (logged F) off .illegalTrailingComma
          | .string key => do
            let (object, key) ← liftD (logged F) off ((logged F).objectKey o2 key)
            let offset ← tokOffset (logged F)
            let token ← nextColon g src (logged F)
            if token ≠ .colon then perr (logged F) offset .expectedColon
            else
              let offset ← tokOffset (logged F)
              let value ← readTokens g src cfg (logged F) fuel
              let object ← liftD (logged F) offset ((logged F).objectValue object key value)
              let offset ← tokOffset (logged F)
              let token ← liftTok (logged F) (nextOrEof src g)
              if token = .objectEnd then return object
              else if token ≠ .comma then perr (logged F) offset .expectedCommaOrEndOfObject
              else readObjectLoop g src cfg (logged F) fuel object
          | .array | .bool _ | .null | .number _ | .object => perr (logged F) off .objectKeysMustBeStrings
          | _ => perr (logged F) off .expectedObjectKey) := by
        intro off tok
        cases tok with
        | objectEnd => exact Grows.ite Grows.pure (Grows.bind Grows.q fun _ => Grows.ite Grows.pure Grows.perr)
        | string k => exact Grows.bind Grows.cb gk
        | _ => exact Grows.perr
      refine Lock.bind (hoff ht) (fun off => Grows.bind Grows.tok fun tok => gtok off tok) ?_
      intro off off' t1 t2 h1 h2 ht1
      obtain ⟨rfl, rfl, rfl⟩ := hoffs ht h1 h2
      refine Lock.bind (Lock.tok ht) (fun tok => gtok off tok) ?_
      intro tok tok' u1 u2 h1 h2 hu
      have hd1 := (tok_same ht h1 h2).2
      have hd2 : u2.delegate = t2.delegate := ok_tok _ _ h2
      obtain ⟨rfl, _⟩ := tok_same ht h1 h2
      rw [← hd1] at hb1
      rw [← hd2] at hb2
      cases tok with
      | objectEnd =>
        simp only []
        split
        · exact Lock.pure hu
        have q1 : liftQ (logged D) (fun x => (logged D).objectIsEmpty x o1) u1 = .ok (n == 0) u1 := by
          unfold liftQ
          simp only []
          rw [show D.objectIsEmpty u1.delegate.1 o1 = .ok (n == 0) from hb1.empty hD]
        have q2 : liftQ (logged F) (fun x => (logged F).objectIsEmpty x o2) u2 = .ok (n == 0) u2 := by
          unfold liftQ
          simp only []
          rw [show F.objectIsEmpty u2.delegate.1 o2 = .ok (n == 0) from hb2.empty hF]
        rw [M.bind_ok q1, M.bind_ok q2]
        split
        · exact Lock.pure hu
        · exact Lock.perr .illegalTrailingComma hu
      | string k =>
        refine Lock.bind (Lock.cb (hU.objectKey o2 k) hu) gk ?_
        rintro ⟨p1, k1⟩ ⟨p2, k2⟩ w1 w2 e1 e2 hw
        have e1 := cb_ok e1
        have e2 := cb_ok e2
        simp only []
        refine Lock.bind (hoff hw) (fun off => Grows.bind Grows.colon fun tok => Grows.ite Grows.perr
          (Grows.bind Grows.off fun off => Grows.bind gT fun v => Grows.bind Grows.cb g3)) ?_
        intro off off' t1 t2 h1 h2 ht1
        obtain ⟨rfl, rfl, rfl⟩ := hoffs hw h1 h2
        refine Lock.bind (Lock.colon hw) (fun tok => Grows.ite Grows.perr
          (Grows.bind Grows.off fun off => Grows.bind gT fun v => Grows.bind Grows.cb g3)) ?_
        intro tok tok' x1 x2 h1 h2 hx
        have hd1 := (colon_same hw h1 h2).2
        have hd2 : x2.delegate = t2.delegate := ok_colon _ _ h2
        obtain ⟨rfl, _⟩ := colon_same hw h1 h2
        split
        · exact Lock.perr .expectedColon hx
        refine Lock.bind (hoff hx) (fun off => Grows.bind gT fun v => Grows.bind Grows.cb g3) ?_
        intro off off' t1 t2 h1 h2 ht1
        obtain ⟨rfl, rfl, rfl⟩ := hoffs hx h1 h2
        refine Lock.bind (ihT _ _ hx) (fun v => Grows.bind Grows.cb g3) ?_
        intro v1 v2 y1 y2 h1 h2 hy
        obtain ⟨z1, r1⟩ := read_ok h1
        obtain ⟨z2, r2⟩ := read_ok h2
        refine Lock.bind (Lock.cb (hU.objectValue p2 k2 v2) hy) g3 ?_
        intro q1 q2 a1 a2 c1 c2 ha
        rw [hd1] at r1
        rw [hd2] at r2
        have hb1 := hb1.push e1 r1 (cb_ok c1)
        have hb2 := hb2.push e2 r2 (cb_ok c2)
        refine Lock.bind (hoff ha) (fun off => Grows.bind Grows.tok fun tok => g4 q2 off tok) ?_
        intro off off' t1 t2 h1 h2 ht1
        obtain ⟨rfl, rfl, rfl⟩ := hoffs ha h1 h2
        refine Lock.bind (Lock.tok ha) (fun tok => g4 q2 off tok) ?_
        intro tok tok' x1 x2 h1 h2 hx
        have hd1 := (tok_same ha h1 h2).2
        have hd2 : x2.delegate = t2.delegate := ok_tok _ _ h2
        obtain ⟨rfl, _⟩ := tok_same ha h1 h2
        split
        · exact Lock.pure hx
        split
        · exact Lock.perr .expectedCommaOrEndOfObject hx
        rw [← hd1] at hb1
        rw [← hd2] at hb2
        exact ihOL _ _ _ _ _ hx hb1 hb2
      | array => exact Lock.perr .objectKeysMustBeStrings hu
      | bool b => exact Lock.perr .objectKeysMustBeStrings hu
      | null => exact Lock.perr .objectKeysMustBeStrings hu
      | number b => exact Lock.perr .objectKeysMustBeStrings hu
      | object => exact Lock.perr .objectKeysMustBeStrings hu
      | arrayEnd => exact Lock.perr .expectedObjectKey hu
      | colon => exact Lock.perr .expectedObjectKey hu
      | comma => exact Lock.perr .expectedObjectKey hu
    · intro s1 s2 ht
      rw [readArray, readArray]
      have g1 : ∀ v : F.Value, Grows (endNest cfg (logged F) >>= fun _ => pure v) := fun v =>
        Grows.bind Grows.end fun _ => Grows.pure
      have g2 : ∀ (offset : Nat) (o : F.Array), Grows (
          liftD (logged F) offset ((logged F).endArray o) >>= fun v => endNest cfg (logged F) >>= fun _ => pure v) := fun off o =>
        Grows.bind Grows.cb fun v => g1 v
      refine Lock.bind (hoff ht) (fun off => Grows.bind Grows.cb fun o => Grows.bind (gAL o) fun o => g2 off o) ?_
      intro off off' t1 t2 h1 h2 ht1
      obtain ⟨rfl, rfl, rfl⟩ := hoffs ht h1 h2
      refine Lock.bind (Lock.cb hU.beginArray ht) (fun o => Grows.bind (gAL o) fun o => g2 off o) ?_
      intro o1 o2 u1 u2 e1 e2 hu
      refine Lock.bind (ihAL u1 u2 o1 o2 0 hu ⟨[], _, o1, _, cb_ok e1, rfl, rfl⟩ ⟨[], _, o2, _, cb_ok e2, rfl, rfl⟩) (g2 off) ?_
      intro o1 o2 w1 w2 _ _ hw
      refine Lock.bind (Lock.cb (hU.endArray o2) hw) g1 ?_
      intro v1 v2 x1 x2 _ _ hx
      refine Lock.bind (Lock.end hx) (fun _ => Grows.pure) ?_
      intro _ _ y1 y2 _ _ hy
      exact Lock.pure hy
    · intro s1 s2 o1 o2 n ht hb1 hb2
      rw [readArrayLoop, readArrayLoop]
      have g4 : ∀ (o : F.Array) (off : Nat) (tok : Token), Grows (if tok = .arrayEnd then pure o
          else if tok ≠ .comma then perr (logged F) off .expectedCommaOrEndOfArray
          else readArrayLoop g src cfg (logged F) fuel o) := fun o off tok =>
        Grows.ite Grows.pure (Grows.ite Grows.perr (gAL o))
      have g3 : ∀ (o : F.Array), Grows (tokOffset (logged F) >>= fun off => liftTok (logged F) (nextOrEof src g) >>= fun tok =>
          if tok = .arrayEnd then pure o
          else if tok ≠ .comma then perr (logged F) off .expectedCommaOrEndOfArray
          else readArrayLoop g src cfg (logged F) fuel o) := fun o =>
        Grows.bind Grows.off fun off => Grows.bind Grows.tok fun tok => g4 o off tok
      have gq : ∀ off : Nat, Grows (if cfg.allowTrailingCommas then pure o2
          else do
            if ← liftQ (logged F) ((logged F).arrayIsEmpty · o2) then return o2
            else perr (logged F) off .illegalTrailingComma) := fun off =>
        Grows.ite Grows.pure (Grows.bind Grows.q fun _ => Grows.ite Grows.pure Grows.perr)
      have gv : Grows (readTokens g src cfg (logged F) fuel >>= fun value => tokOffset (logged F) >>= fun offset =>
          liftD (logged F) offset ((logged F).arrayValue o2 value) >>= fun o =>
            tokOffset (logged F) >>= fun off => liftTok (logged F) (nextOrEof src g) >>= fun tok =>
          if tok = .arrayEnd then pure o
          else if tok ≠ .comma then perr (logged F) off .expectedCommaOrEndOfArray
          else readArrayLoop g src cfg (logged F) fuel o) :=
        Grows.bind gT fun v => Grows.bind Grows.off fun off => Grows.bind Grows.cb g3
      refine Lock.bind (hoff ht) (fun off => Grows.bind Grows.tok fun tok => Grows.ite (Grows.bind Grows.move fun _ => gq off) gv) ?_
      intro off off' t1 t2 h1 h2 ht1
      obtain ⟨rfl, rfl, rfl⟩ := hoffs ht h1 h2
      refine Lock.bind (Lock.tok ht) (fun tok => Grows.ite (Grows.bind Grows.move fun _ => gq off) gv) ?_
      intro tok tok' u1 u2 h1 h2 hu
      have hd1 := (tok_same ht h1 h2).2
      have hd2 : u2.delegate = t2.delegate := ok_tok _ _ h2
      obtain ⟨rfl, _⟩ := tok_same ht h1 h2
      rw [← hd1] at hb1
      rw [← hd2] at hb2
      split
      · rw [M.bind_ok (M.modify_eq _ _), M.bind_ok (M.modify_eq _ _)]
        have hu' : Twin ({ u1 with offset := u1.offset + 1 } : PState (logged D).σ) ({ u2 with offset := u2.offset + 1 } : PState (logged F).σ) :=
          ⟨by show u1.offset + 1 = u2.offset + 1; rw [hu.1], hu.2⟩
        split
        · exact Lock.pure hu'
        have q1 : liftQ (logged D) (fun x => (logged D).arrayIsEmpty x o1) { u1 with offset := u1.offset + 1 } = .ok (n == 0) { u1 with offset := u1.offset + 1 } := by
          unfold liftQ
          simp only []
          rw [show D.arrayIsEmpty u1.delegate.1 o1 = .ok (n == 0) from hb1.empty hD]
        have q2 : liftQ (logged F) (fun x => (logged F).arrayIsEmpty x o2) { u2 with offset := u2.offset + 1 } = .ok (n == 0) { u2 with offset := u2.offset + 1 } := by
          unfold liftQ
          simp only []
          rw [show F.arrayIsEmpty u2.delegate.1 o2 = .ok (n == 0) from hb2.empty hF]
        rw [M.bind_ok q1, M.bind_ok q2]
        split
        · exact Lock.pure hu'
        · exact Lock.perr .illegalTrailingComma hu'
      · refine Lock.bind (ihT _ _ hu) (fun v => Grows.bind Grows.off fun off => Grows.bind Grows.cb g3) ?_
        intro v1 v2 y1 y2 h1 h2 hy
        obtain ⟨z1, r1⟩ := read_ok h1
        obtain ⟨z2, r2⟩ := read_ok h2
        refine Lock.bind (hoff hy) (fun off => Grows.bind Grows.cb g3) ?_
        intro off off' t1 t2 h1 h2 ht1
        obtain ⟨rfl, rfl, rfl⟩ := hoffs hy h1 h2
        refine Lock.bind (Lock.cb (hU.arrayValue o2 v2) hy) g3 ?_
        intro q1 q2 a1 a2 c1 c2 ha
        have hb1 := hb1.push r1 (cb_ok c1)
        have hb2 := hb2.push r2 (cb_ok c2)
        refine Lock.bind (hoff ha) (fun off => Grows.bind Grows.tok fun tok => g4 q2 off tok) ?_
        intro off off' t1 t2 h1 h2 ht1
        obtain ⟨rfl, rfl, rfl⟩ := hoffs ha h1 h2
        refine Lock.bind (Lock.tok ha) (fun tok => g4 q2 off tok) ?_
        intro tok tok' x1 x2 h1 h2 hx
        have hd1 := (tok_same ha h1 h2).2
        have hd2 : x2.delegate = t2.delegate := ok_tok _ _ h2
        obtain ⟨rfl, _⟩ := tok_same ha h1 h2
        split
        · exact Lock.pure hx
        split
        · exact Lock.perr .expectedCommaOrEndOfArray hx
        rw [← hd1] at hb1
        rw [← hd2] at hb2
        exact ihAL _ _ _ _ _ hx hb1 hb2

/-- No callback is made once the root has been read. -/
theorem tail_log {d : D.σ} {a : D.Value} {t : PState (logged D).σ}
    (h : readTokens g src cfg (logged D) (parseFuel src) ⟨0, (d, []), cfg.recursionLimit.getD USIZE_MAX⟩ = .ok a t) :
    PWp (parseBytes g src cfg (logged D) (d, [])) (fun _ s => s.delegate.2 = t.delegate.2)
      (fun e s => s.delegate.2 = t.delegate.2 ∧ ∀ x, e.kind ≠ .errorFromDelegate x) AnyPanic := by
  unfold parseBytes parseM
  rw [M.bind_ok (show readTokens g src cfg (logged D) (parseFuel src) _ = _ from h)]
  have fin : ∀ (b : Bool), PWp ((if b = true then perr (logged D) 0 ErrorKind.payloadsShouldBeObjectOrArray
        else do
          let r ← liftTok (logged D) (nextNonWs src)
          match r with
            | none => pure a
            | some (offset, _) => perr (logged D) offset ErrorKind.trailingNonWhitespace : PM (logged D) D.Value) t)
      (fun _ s => s.delegate.2 = t.delegate.2)
      (fun e s => s.delegate.2 = t.delegate.2 ∧ ∀ x, e.kind ≠ .errorFromDelegate x) AnyPanic := by
    rintro b
    cases b with
    | true => exact ⟨rfl, fun x hx => by cases hx⟩
    | false =>
      refine PWp.bind (P := fun _ s2 => s2.delegate.2 = t.delegate.2) ?_ ?_
      · unfold liftTok
        cases nextNonWs src t.offset with
        | ok r o => exact rfl
        | err e o => exact ⟨rfl, fun x hx => intoFallable_kind _ _ hx⟩
        | panic p => trivial
      rintro r s2 q
      cases r with
      | none => exact q
      | some r => exact ⟨q, fun x hx => by cases hx⟩
  simp only []
  split
  · exact fin false
  · refine PWp.bind (lw_q (q := fun x => D.kindOf x a)) ?_
    rintro k s1 rfl
    exact fin _

theorem tail_err {d : D.σ} {e : Error D.Err} {t : PState (logged D).σ}
    (h : readTokens g src cfg (logged D) (parseFuel src) ⟨0, (d, []), cfg.recursionLimit.getD USIZE_MAX⟩ = .err e t) :
    parseBytes g src cfg (logged D) (d, []) = .err e t := by
  unfold parseBytes parseM
  rw [M.bind_err (show readTokens g src cfg (logged D) (parseFuel src) _ = _ from h)]

theorem tail_panic {d : D.σ} {p : Panic}
    (h : readTokens g src cfg (logged D) (parseFuel src) ⟨0, (d, []), cfg.recursionLimit.getD USIZE_MAX⟩ = .panic p) :
    parseBytes g src cfg (logged D) (d, []) = .panic p := by
  unfold parseBytes parseM
  rw [M.bind_eq, show readTokens g src cfg (logged D) (parseFuel src) _ = _ from h]

theorem heard_eq {α : Type} {out : Out (PState (logged D).σ) (Error D.Err) α} {l l' : List Event}
    {Q : Error D.Err → Prop}
    (h : PWp out (fun _ s => s.delegate.2 = l) (fun e s => s.delegate.2 = l ∧ Q e) AnyPanic)
    (h' : heard out = some l') : l' = l := by
  cases out with
  | ok a s => cases h'; exact h
  | err e s => cases h'; exact h.1
  | panic p => cases h'

theorem parse_lock (hD : Truthful D) (hF : Truthful F) (hU : Unfailing F) (d : D.σ) (f : F.σ) {l1 l2 : List Event}
    (h1 : heard (parseBytes g src cfg (logged D) (d, [])) = some l1)
    (h2 : heard (parseBytes g src cfg (logged F) (f, [])) = some l2) :
    l1 <+: l2 ∧ (¬ delegateFailed (parseBytes g src cfg (logged D) (d, [])) → l1 = l2) := by
  have key := (run_lock (g := g) (src := src) (cfg := cfg) hD hF hU (parseFuel src)).1
    ⟨0, (d, []), cfg.recursionLimit.getD USIZE_MAX⟩ ⟨0, (f, []), cfg.recursionLimit.getD USIZE_MAX⟩ ⟨rfl, rfl, rfl⟩
  cases hr1 : readTokens g src cfg (logged D) (parseFuel src) ⟨0, (d, []), cfg.recursionLimit.getD USIZE_MAX⟩ with
  | ok a t1 =>
    rw [hr1] at key
    obtain ⟨b, t2, hr2, ht⟩ := key
    have e1 := heard_eq (tail_log hr1) h1
    have e2 := heard_eq (tail_log hr2) h2
    rw [e1, e2, ht.2.1]
    exact ⟨List.prefix_refl _, fun _ => rfl⟩
  | err e t1 =>
    have hp := tail_err hr1
    rw [hp] at h1
    cases h1
    rw [hr1] at key
    rcases key with ⟨⟨x, hx⟩, hl⟩ | ⟨e2, t2, hr2, ht, _⟩
    · refine ⟨?_, fun hn => absurd ?_ hn⟩
      · unfold Later at hl
        cases hr2 : readTokens g src cfg (logged F) (parseFuel src) ⟨0, (f, []), cfg.recursionLimit.getD USIZE_MAX⟩ with
        | ok b t2 =>
          rw [hr2] at hl
          rw [heard_eq (tail_log hr2) h2]
          exact hl
        | err e2 t2 =>
          rw [hr2] at hl
          rw [tail_err hr2] at h2
          cases h2
          exact hl
        | panic p =>
          rw [tail_panic hr2] at h2
          cases h2
      · rw [hp]
        exact ⟨x, hx⟩
    · rw [tail_err hr2] at h2
      cases h2
      rw [ht.2.1]
      exact ⟨List.prefix_refl _, fun _ => rfl⟩
  | panic p =>
    rw [tail_panic hr1] at h1
    cases h1

end
end JustJson
