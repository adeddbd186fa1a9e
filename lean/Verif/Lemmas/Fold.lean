import Verif.Lemmas.Complete
import Verif.Spec.Fold
/-! # A parse with any truthful delegate runs in lockstep with `Value` parsing -/

namespace JustJson
open Spec

set_option linter.unusedSectionVars false

section
variable {src : List UInt8} [Arch] {g : Bool} {cfg : ParseConfig} {D : Delegate}

theorem PWp.triv {σ ε α : Type} (out : Out σ ε α) : PWp out (fun _ _ => True) AnyErr AnyPanic := by
  cases out <;> exact True.intro

/-- Arrays and objects under construction only grow. -/
theorem vp_prefix : ∀ fuel : Nat,
    (∀ (s : PState Unit) (o : Object), PWp (readObjectLoop g src cfg valueParser fuel o s)
      (fun o' _ => ∃ ms, o' = o ++ ms) AnyErr AnyPanic)
    ∧ (∀ (s : PState Unit) (a : List Value), PWp (readArrayLoop g src cfg valueParser fuel a s)
      (fun a' _ => ∃ vs, a' = a ++ vs) AnyErr AnyPanic) := by
  intro fuel
  induction fuel with
  | zero => exact ⟨fun _ _ => True.intro, fun _ _ => True.intro⟩
  | succ fuel ih =>
    obtain ⟨ihO, ihA⟩ := ih
    constructor
    · intro s o
      rw [readObjectLoop]
      refine pwp_offset ?_
      refine PWp.bind (PWp.triv _) ?_
      rintro tok s1 -
      cases tok with
      | objectEnd =>
        simp only []
        split
        · exact ⟨[], by simp⟩
        · refine PWp.bind (PWp.triv _) ?_
          rintro b s2 -
          split
          · exact ⟨[], by simp⟩
          · exact True.intro
      | string k =>
        refine PWp.bind (P := fun a s' => s1 = s' ∧ a = (o, k)) ⟨rfl, rfl⟩ ?_
        rintro _ _ ⟨rfl, rfl⟩
        refine pwp_offset ?_
        refine PWp.bind (PWp.triv _) ?_
        rintro tok s2 -
        split
        · exact True.intro
        refine pwp_offset ?_
        refine PWp.bind (PWp.triv _) ?_
        rintro v s3 -
        refine PWp.bind (P := fun a s' => s3 = s' ∧ a = o ++ [(k, v)]) ⟨rfl, rfl⟩ ?_
        rintro _ _ ⟨rfl, rfl⟩
        refine pwp_offset ?_
        refine PWp.bind (PWp.triv _) ?_
        rintro tok s4 -
        split
        · exact ⟨_, rfl⟩
        split
        · exact True.intro
        refine PWp.mono (ihO _ _) ?_ (fun _ _ h => h) (fun _ h => h)
        rintro o' s' ⟨ms, rfl⟩
        exact ⟨(k, v) :: ms, by simp⟩
      | _ => exact True.intro
    · intro s o
      rw [readArrayLoop]
      refine pwp_offset ?_
      refine PWp.bind (PWp.triv _) ?_
      rintro kd s1 -
      split
      · refine PWp.bind (PWp.triv _) ?_
        rintro _ s1 -
        split
        · exact ⟨[], by simp⟩
        · refine PWp.bind (PWp.triv _) ?_
          rintro b s2 -
          split
          · exact ⟨[], by simp⟩
          · exact True.intro
      · refine PWp.bind (PWp.triv _) ?_
        rintro v s3 -
        refine pwp_offset ?_
        refine PWp.bind (P := fun a s' => s3 = s' ∧ a = o ++ [v]) ⟨rfl, rfl⟩ ?_
        rintro _ _ ⟨rfl, rfl⟩
        refine pwp_offset ?_
        refine PWp.bind (PWp.triv _) ?_
        rintro tok s4 -
        split
        · exact ⟨_, rfl⟩
        split
        · exact True.intro
        refine PWp.mono (ihA _ _) ?_ (fun _ _ h => h) (fun _ h => h)
        rintro o' s' ⟨ms, rfl⟩
        exact ⟨v :: ms, by simp⟩

/-- A failing callback. -/
inductive Fl (D : Delegate) where
  | err (x : D.Err) (d : D.σ)
  | panic (p : Panic)

/-- as an outcome -/
def Fl.out {β : Type} : Fl D → Out D.σ D.Err β
  | .err x d => .err x d
  | .panic p => .panic p

/-- how it shows in a run -/
def Fl.On {β : Type} : Fl D → Out (PState D.σ) (Error D.Err) β → Prop
  | .err x d, out => ∃ off s, out = .err ⟨off, .errorFromDelegate x⟩ s ∧ s.delegate = d
  | .panic p, out => out = .panic p

/-- A run with the delegate's result `F` once the text is read up to `s'`. -/
def Match {β : Type} (F : Out D.σ D.Err β) (s' : PState Unit) (out : Out (PState D.σ) (Error D.Err) β) : Prop :=
  match F with
  | .ok b d => out = .ok b ⟨s'.offset, d, s'.remainingDepth⟩
  | .err x d => Fl.On (.err x d) out
  | .panic p => Fl.On (D := D) (.panic p) out

/-- Simulation: `Value` parsing on the left, `D` on the right. -/
def Sim {α β : Type} (fold : α → Out D.σ D.Err β) (outV : Out (PState Unit) (Error Empty) α)
    (outD : Out (PState D.σ) (Error D.Err) β) : Prop :=
  match outV with
  | .ok a s' => Match (fold a) s' outD
  | .err e s' => (∃ d, outD = .err e.intoFallable ⟨s'.offset, d, s'.remainingDepth⟩)
      ∨ ∃ f : Fl D, f.On outD ∧ ∃ a, fold a = f.out
  | .panic _ => True

theorem Fl.match {β : Type} {f : Fl D} {s' : PState Unit} {out : Out (PState D.σ) (Error D.Err) β} (h : f.On out) :
    Match f.out s' out := by
  cases f <;> exact h

theorem Sim.fail {α β : Type} {fold : α → Out D.σ D.Err β} {outV : Out (PState Unit) (Error Empty) α}
    {outD : Out (PState D.σ) (Error D.Err) β} {f : Fl D} (hf : f.On outD) (hex : ∃ a, fold a = f.out)
    (h : PWp outV (fun a _ => fold a = f.out) AnyErr AnyPanic) : Sim fold outV outD := by
  cases outV with
  | ok a s =>
    show Match (fold a) s outD
    rw [show fold a = f.out from h]
    exact Fl.match hf
  | err e s => exact .inr ⟨f, hf, hex⟩
  | panic p => exact True.intro

theorem Fl.bind {β γ : Type} {m : PM D β} {f : β → PM D γ} {s : PState D.σ} {fl : Fl D} (h : fl.On (m s)) :
    fl.On ((m >>= f) s) := by
  rw [M.bind_eq]
  cases fl with
  | err x d => obtain ⟨off, s', h, hd⟩ := h; rw [h]; exact ⟨off, s', rfl, hd⟩
  | panic p => rw [show m s = _ from h]; rfl

theorem out_cases {β : Type} (o : Out D.σ D.Err β) : (∃ b d, o = .ok b d) ∨ ∃ f : Fl D, o = f.out := by
  cases o with
  | ok b d => exact .inl ⟨b, d, rfl⟩
  | err x d => exact .inr ⟨.err x d, rfl⟩
  | panic p => exact .inr ⟨.panic p, rfl⟩

/-- both sides run in sequence -/
theorem Sim.bind {α β α' β' : Type} {fold1 : α → Out D.σ D.Err β} {fold : α' → Out D.σ D.Err β'}
    {mV : PM valueParser α} {fV : α → PM valueParser α'} {sV : PState Unit}
    {mD : PM D β} {fD : β → PM D β'} {sD : PState D.σ} (h : Sim fold1 (mV sV) (mD sD))
    (hok : ∀ a s' b d, mV sV = .ok a s' → fold1 a = .ok b d →
      Sim fold (fV a s') (fD b ⟨s'.offset, d, s'.remainingDepth⟩))
    (hfail : ∀ a s' (f : Fl D), mV sV = .ok a s' → fold1 a = f.out →
      PWp (fV a s') (fun c _ => fold c = f.out) AnyErr AnyPanic)
    (hex : ∀ a (f : Fl D), fold1 a = f.out → ∃ c, fold c = f.out) :
    Sim fold ((mV >>= fV) sV) ((mD >>= fD) sD) := by
  rw [M.bind_eq]
  cases hm : mV sV with
  | ok a s =>
    rw [hm] at h
    rcases out_cases (fold1 a) with ⟨b, d, hb⟩ | ⟨f, hf⟩
    · have h : Match (fold1 a) s (mD sD) := h
      rw [hb] at h
      rw [M.bind_ok (show mD sD = _ from h)]
      exact hok a s b d hm hb
    · have h : Match (fold1 a) s (mD sD) := h
      rw [hf] at h
      refine Sim.fail (f := f) (Fl.bind ?_) (hex a f hf) (hfail a s f hm hf)
      cases f <;> exact h
  | err e s =>
    rw [hm] at h
    rcases h with ⟨d, h⟩ | ⟨f, hf, a, ha⟩
    · exact .inl ⟨d, by rw [M.bind_err h]⟩
    · exact .inr ⟨f, Fl.bind hf, hex a f ha⟩
  | panic p => exact True.intro

/-- a callback on the right -/
theorem Sim.step {α β γ : Type} {fold : α → Out D.σ D.Err β} {outV : Out (PState Unit) (Error Empty) α}
    {off : Nat} {m : M D.σ D.Err γ} {fD : γ → PM D β} {s : PState D.σ}
    (hok : ∀ c d, m s.delegate = .ok c d → Sim fold outV (fD c { s with delegate := d }))
    (hfail : ∀ f : Fl D, m s.delegate = f.out → PWp outV (fun a _ => fold a = f.out) AnyErr AnyPanic)
    (hex : ∀ f : Fl D, m s.delegate = f.out → ∃ a, fold a = f.out) :
    Sim fold outV ((liftD D off m >>= fD) s) := by
  rw [M.bind_eq]
  rcases h : m s.delegate with ⟨c, d⟩ | ⟨x, d⟩ | p
  · have : liftD D off m s = .ok c { s with delegate := d } := by unfold liftD; rw [h]
    rw [this]
    exact hok c d h
  · have : liftD D off m s = .err ⟨off, .errorFromDelegate x⟩ { s with delegate := d } := by unfold liftD; rw [h]
    rw [this]
    exact Sim.fail (f := .err x d) ⟨off, _, rfl, rfl⟩ (hex (.err x d) h) (hfail (.err x d) h)
  · have : liftD D off m s = .panic p := by unfold liftD; rw [h]
    rw [this]
    exact Sim.fail (f := .panic p) rfl (hex (.panic p) h) (hfail (.panic p) h)

/-- a final callback -/
theorem Sim.last {α : Type} {fold : α → Out D.σ D.Err D.Value} {a : α} {off : Nat} {s : PState D.σ} {s' : PState Unit}
    (h1 : s'.offset = s.offset) (h2 : s'.remainingDepth = s.remainingDepth) {m : M D.σ D.Err D.Value}
    (h : fold a = m s.delegate) : Sim fold (.ok a s') (liftD D off m s) := by
  show Match (fold a) s' _
  rw [h]
  unfold liftD
  cases hm : m s.delegate with
  | ok b d =>
    show _ = _
    rw [h1, h2]
  | err x d => exact ⟨off, _, rfl, rfl⟩
  | panic p => rfl

/-- a token on both sides -/
theorem Sim.tok {α β γ : Type} {fold : α → Out D.σ D.Err β} {m : TokM γ} {fV : γ → PM valueParser α}
    {fD : γ → PM D β} {off rem : Nat} {d : D.σ}
    (h : ∀ t off', m off = .ok t off' → Sim fold (fV t ⟨off', (), rem⟩) (fD t ⟨off', d, rem⟩)) :
    Sim fold ((liftTok valueParser m >>= fV) ⟨off, (), rem⟩) ((liftTok D m >>= fD) ⟨off, d, rem⟩) := by
  rw [M.bind_eq, M.bind_eq]
  unfold liftTok
  cases hm : m off with
  | ok t off' => exact h t off' hm
  | err e off' =>
    refine .inl ⟨d, ?_⟩
    have : (e.intoFallable : Error Empty) = e := by
      obtain ⟨o, k⟩ := e
      cases k <;> first | rfl | (rename_i x; exact x.elim)
    show Out.err _ _ = Out.err _ _
    rw [this]
  | panic p => exact True.intro

theorem Sim.colon {α β : Type} {fold : α → Out D.σ D.Err β} {fV : Token → PM valueParser α}
    {fD : Token → PM D β} {off rem : Nat} {d : D.σ}
    (h : ∀ t off', nextOrEof src g off = .ok t off' → Sim fold (fV t ⟨off', (), rem⟩) (fD t ⟨off', d, rem⟩)) :
    Sim fold ((nextColon g src valueParser >>= fV) ⟨off, (), rem⟩) ((nextColon g src D >>= fD) ⟨off, d, rem⟩) := by
  rw [M.bind_eq, M.bind_eq]
  unfold nextColon
  cases hm : nextOrEof src g off with
  | ok t off' => exact h t off' hm
  | err e off' => exact .inl ⟨d, rfl⟩
  | panic p => exact True.intro

theorem Sim.perr {α β : Type} {fold : α → Out D.σ D.Err β} {o off rem : Nat} {d : D.σ} (k : ErrorKind Empty)
    {kD : ErrorKind D.Err} (hk : kD = k.intoFallable) :
    Sim fold (perr valueParser o k ⟨off, (), rem⟩ : Out _ _ α) (perr D o kD ⟨off, d, rem⟩) := by
  subst hk
  exact .inl ⟨d, rfl⟩

theorem Sim.mapErr {α β : Type} {fold : α → Out D.σ D.Err β} {mV : PM valueParser α} {mD : PM D β}
    {sV : PState Unit} {sD : PState D.σ} (k : ErrorKind Empty) (kD : ErrorKind D.Err) (hk : kD = k.intoFallable)
    (h : Sim fold (mV sV) (mD sD)) :
    Sim fold (M.mapErr (eofTo k) mV sV) (M.mapErr (eofTo kD) mD sD) := by
  have hfl : ∀ f : Fl D, f.On (mD sD) → f.On (M.mapErr (eofTo kD) mD sD) := by
    intro f hf
    unfold M.mapErr
    cases f with
    | err x d =>
      obtain ⟨off, s, hm, hd⟩ := hf
      rw [hm]
      exact ⟨off, s, rfl, hd⟩
    | panic p => rw [show mD sD = _ from hf]; rfl
  cases hm : mV sV with
  | ok a s =>
    rw [hm] at h
    have : M.mapErr (eofTo k) mV sV = .ok a s := by unfold M.mapErr; rw [hm]
    rw [this]
    show Match (fold a) s _
    rcases out_cases (fold a) with ⟨b, d, hb⟩ | ⟨f, hf⟩
    · have h : Match (fold a) s (mD sD) := h
      rw [hb] at h ⊢
      show M.mapErr (eofTo kD) mD sD = _
      unfold M.mapErr
      rw [show mD sD = _ from h]
    · have h : Match (fold a) s (mD sD) := h
      rw [hf] at h ⊢
      refine Fl.match (hfl f ?_)
      cases f <;> exact h
  | err e s =>
    rw [hm] at h
    have : M.mapErr (eofTo k) mV sV = .err (eofTo k e) s := by unfold M.mapErr; rw [hm]
    rw [this]
    rcases h with ⟨d, h⟩ | ⟨f, hf, hx⟩
    · refine .inl ⟨d, ?_⟩
      unfold M.mapErr
      rw [h]
      subst hk
      obtain ⟨o, kk⟩ := e
      cases kk <;> first | rfl | (rename_i x; exact x.elim)
    · exact .inr ⟨f, hfl f hf, hx⟩
  | panic p =>
    have : M.mapErr (eofTo k) mV sV = .panic p := by unfold M.mapErr; rw [hm]
    rw [this]
    exact True.intro

theorem foldEntries_append (es es' : List (JsonString × Value)) (o : D.Object) (d : D.σ) :
    foldEntries D (es ++ es') o d = (foldEntries D es o >>= foldEntries D es') d := by
  induction es generalizing o d with
  | nil => rfl
  | cons e es ih =>
    obtain ⟨k, v⟩ := e
    simp only [List.cons_append, foldEntries, M.bind_eq]
    cases D.objectKey o k d with
    | ok a d =>
      obtain ⟨o, k⟩ := a
      simp only [M.bind_eq]
      cases foldValue D v d with
      | ok v d =>
        simp only []
        cases D.objectValue o k v d with
        | ok o d => simp only []; rw [ih, M.bind_eq]
        | err x d => rfl
        | panic p => rfl
      | err x d => rfl
      | panic p => rfl
    | err x d => rfl
    | panic p => rfl

theorem foldElems_append (es es' : List Value) (o : D.Array) (d : D.σ) :
    foldElems D (es ++ es') o d = (foldElems D es o >>= foldElems D es') d := by
  induction es generalizing o d with
  | nil => rfl
  | cons v es ih =>
    simp only [List.cons_append, foldElems, M.bind_eq]
    cases foldValue D v d with
    | ok v d =>
      simp only []
      cases D.arrayValue o v d with
      | ok o d => simp only []; rw [ih, M.bind_eq]
      | err x d => rfl
      | panic p => rfl
    | err x d => rfl
    | panic p => rfl

theorem Fl.bind_out {β γ : Type} {m : M D.σ D.Err β} {f : β → M D.σ D.Err γ} {d : D.σ} {fl : Fl D} (h : m d = fl.out) :
    (m >>= f) d = fl.out := by
  rw [M.bind_eq, h]
  cases fl <;> rfl

theorem foldEntries_key {k : JsonString} {v : Value} {es : List (JsonString × Value)} {o o1 : D.Object} {kD : D.Key}
    {d d2 : D.σ} (hk : D.objectKey o k d = .ok (o1, kD) d2) :
    foldEntries D ((k, v) :: es) o d =
      (foldValue D v >>= fun vD => D.objectValue o1 kD vD >>= fun o => foldEntries D es o) d2 := by
  rw [foldEntries, M.bind_ok hk]

/-- The lockstep theorem. -/
theorem run_fold (hT : Truthful D) : ∀ fuel : Nat,
    (∀ off rem d, Sim (fun v => foldValue D v d) (readTokens g src cfg valueParser fuel ⟨off, (), rem⟩)
      (readTokens g src cfg D fuel ⟨off, d, rem⟩))
    ∧ (∀ off rem d, Sim (fun v => foldValue D v d) (readObject g src cfg valueParser fuel ⟨off, (), rem⟩)
      (readObject g src cfg D fuel ⟨off, d, rem⟩))
    ∧ (∀ off rem d0 o0 d1 es o d, D.beginObject d0 = .ok o0 d1 → foldEntries D es o0 d1 = .ok o d →
      Sim (fun es' => foldEntries D es' o0 d1) (readObjectLoop g src cfg valueParser fuel es ⟨off, (), rem⟩)
      (readObjectLoop g src cfg D fuel o ⟨off, d, rem⟩))
    ∧ (∀ off rem d, Sim (fun v => foldValue D v d) (readArray g src cfg valueParser fuel ⟨off, (), rem⟩)
      (readArray g src cfg D fuel ⟨off, d, rem⟩))
    ∧ (∀ off rem d0 a0 d1 vs a d, D.beginArray d0 = .ok a0 d1 → foldElems D vs a0 d1 = .ok a d →
      Sim (fun vs' => foldElems D vs' a0 d1) (readArrayLoop g src cfg valueParser fuel vs ⟨off, (), rem⟩)
      (readArrayLoop g src cfg D fuel a ⟨off, d, rem⟩)) := by
  intro fuel
  induction fuel with
  | zero => refine ⟨?_, ?_, ?_, ?_, ?_⟩ <;> (intros; exact True.intro)
  | succ fuel ih =>
    obtain ⟨ihT, ihO, ihOL, ihA, ihAL⟩ := ih
    have nest : ∀ {off rem d o} {mV : PM valueParser Value} {mD : PM D D.Value} {k : ErrorKind Empty},
        (∀ off rem d, Sim (fun v => foldValue D v d) (mV ⟨off, (), rem⟩) (mD ⟨off, d, rem⟩)) →
        Sim (fun v => foldValue D v d)
          ((beginNest cfg valueParser o >>= fun _ => M.mapErr (eofTo k) mV) ⟨off, (), rem⟩)
          ((beginNest cfg D o >>= fun _ => M.mapErr (eofTo k.intoFallable) mD) ⟨off, d, rem⟩) := by
      intro off rem d o mV mD k h
      rw [M.bind_eq, M.bind_eq]
      unfold beginNest
      by_cases hl : cfg.recursionLimit.isSome = true
      · rw [if_pos hl, if_pos hl]
        by_cases hr : rem > 0
        · rw [if_pos (show (PState.mk off () rem).remainingDepth > 0 from hr),
            if_pos (show (PState.mk off d rem).remainingDepth > 0 from hr)]
          exact Sim.mapErr _ _ rfl (h _ _ _)
        · rw [if_neg (show ¬ (PState.mk off () rem).remainingDepth > 0 from hr),
            if_neg (show ¬ (PState.mk off d rem).remainingDepth > 0 from hr)]
          exact .inl ⟨d, rfl⟩
      · rw [if_neg hl, if_neg hl]
        exact Sim.mapErr _ _ rfl (h _ _ _)
    have fin : ∀ {off rem d} {v : Value} {vD : D.Value} {dd : D.σ}, foldValue D v d = .ok vD dd →
        Sim (fun v => foldValue D v d) ((endNest cfg valueParser >>= fun _ => (Pure.pure v : PM valueParser Value)) ⟨off, (), rem⟩)
          ((endNest cfg D >>= fun _ => (Pure.pure vD : PM D D.Value)) ⟨off, dd, rem⟩) := by
      intro off rem d v vD dd h
      rw [M.bind_eq, M.bind_eq]
      unfold endNest
      by_cases hl : cfg.recursionLimit.isSome = true
      · rw [if_pos hl, if_pos hl]
        show Match (foldValue D v d) _ _
        rw [h]; rfl
      · rw [if_neg hl, if_neg hl]
        show Match (foldValue D v d) _ _
        rw [h]; rfl
    refine ⟨?_, ?_, ?_, ?_, ?_⟩
    · intro off rem d
      rw [readTokens, readTokens, M.bind_ok (tokOffset_eq _), M.bind_ok (tokOffset_eq _)]
      refine Sim.tok ?_
      intro t off' _
      cases t with
      | null => exact Sim.last rfl rfl rfl
      | bool b => exact Sim.last rfl rfl rfl
      | string s => exact Sim.last rfl rfl rfl
      | number n => exact Sim.last rfl rfl rfl
      | objectEnd => exact Sim.perr _ rfl
      | arrayEnd => exact Sim.perr _ rfl
      | colon => exact Sim.perr _ rfl
      | comma => exact Sim.perr _ rfl
      | object => exact nest ihO
      | array => exact nest ihA
    · intro off rem d
      rw [readObject, readObject, M.bind_ok (tokOffset_eq _), M.bind_ok (tokOffset_eq _)]
      refine Sim.step ?_ ?_ ?_
      · intro o0 d1 hb
        refine (M.bind_ok (s' := (⟨off, (), rem⟩ : PState Unit)) (a := ([] : Object)) rfl) ▸ ?_
        refine Sim.bind (ihOL off rem d o0 d1 [] o0 d1 hb rfl) ?_ ?_ ?_
        · intro es s' o d2 _ hes
          rw [M.bind_ok (tokOffset_eq _), M.bind_ok (tokOffset_eq _)]
          refine (M.bind_ok (s' := s') (a := Value.object es) rfl) ▸ ?_
          refine Sim.step ?_ ?_ ?_
          · intro v d3 hv
            refine fin ?_
            rw [foldValue, M.bind_ok hb, M.bind_ok hes]
            exact hv
          · intro f hf
            refine PWp.bind (PWp.triv _) ?_
            rintro _ s2 -
            show foldValue D _ d = _
            rw [foldValue, M.bind_ok hb, M.bind_ok hes]
            exact hf
          · intro f hf
            refine ⟨.object es, ?_⟩
            show foldValue D _ d = _
            rw [foldValue, M.bind_ok hb, M.bind_ok hes]
            exact hf
        · intro es s' f _ hf
          refine pwp_offset ?_
          refine PWp.bind (P := fun a _ => a = Value.object es) rfl ?_
          rintro _ s2 rfl
          refine PWp.bind (PWp.triv _) ?_
          rintro _ s3 -
          show foldValue D _ d = _
          rw [foldValue, M.bind_ok hb]
          exact Fl.bind_out hf
        · intro es f hf
          refine ⟨.object es, ?_⟩
          show foldValue D _ d = _
          rw [foldValue, M.bind_ok hb]
          exact Fl.bind_out hf
      · intro f hf
        refine PWp.bind (PWp.triv _) ?_
        rintro o s1 -
        refine PWp.bind (PWp.triv _) ?_
        rintro o s1 -
        refine pwp_offset ?_
        refine PWp.bind (P := fun a _ => a = Value.object o) rfl ?_
        rintro _ s2 rfl
        refine PWp.bind (PWp.triv _) ?_
        rintro _ s3 -
        show foldValue D _ d = _
        rw [foldValue]
        exact Fl.bind_out hf
      · intro f hf
        refine ⟨.object [], ?_⟩
        show foldValue D _ d = _
        rw [foldValue]
        exact Fl.bind_out hf
    · intro off rem d0 o0 d1 es o d hb hes
      rw [readObjectLoop, readObjectLoop, M.bind_ok (tokOffset_eq _), M.bind_ok (tokOffset_eq _)]
      refine Sim.tok ?_
      intro t off' _
      cases t with
      | null => exact Sim.perr _ rfl
      | bool b => exact Sim.perr _ rfl
      | number n => exact Sim.perr _ rfl
      | arrayEnd => exact Sim.perr _ rfl
      | colon => exact Sim.perr _ rfl
      | comma => exact Sim.perr _ rfl
      | object => exact Sim.perr _ rfl
      | array => exact Sim.perr _ rfl
      | objectEnd =>
        simp only []
        have hret : Sim (fun es' => foldEntries D es' o0 d1) (.ok es ⟨off', (), rem⟩) (.ok o ⟨off', d, rem⟩) := by
          show Match (foldEntries D es o0 d1) _ _
          rw [hes]; rfl
        by_cases htc : cfg.allowTrailingCommas = true
        · rw [if_pos htc, if_pos htc]
          exact hret
        · rw [if_neg htc, if_neg htc]
          have h1 : liftQ valueParser (fun x => valueParser.objectIsEmpty x es) ⟨off', (), rem⟩ = .ok es.isEmpty ⟨off', (), rem⟩ := rfl
          have h2 : liftQ D (fun x => D.objectIsEmpty x o) ⟨off', d, rem⟩ = .ok es.isEmpty ⟨off', d, rem⟩ := by
            unfold liftQ
            simp only []
            rw [hT.object es d0 o0 d1 o d hb hes]
          rw [M.bind_ok h1, M.bind_ok h2]
          cases es.isEmpty
          · exact Sim.perr _ rfl
          · exact hret
      | string k =>
        simp only []
        have tail : ∀ (s : PState Unit) (f : Fl D), (∀ v ms, foldEntries D (es ++ (k, v) :: ms) o0 d1 = f.out) →
            PWp ((do
              let offset ← tokOffset valueParser
              let token ← nextColon g src valueParser
              if token ≠ .colon then perr valueParser offset .expectedColon
              else
                let offset ← tokOffset valueParser
                let value ← readTokens g src cfg valueParser fuel
                let object ← liftD valueParser offset (valueParser.objectValue es k value)
                let offset ← tokOffset valueParser
                let token ← liftTok valueParser (nextOrEof src g)
                if token = .objectEnd then return object
                else if token ≠ .comma then perr valueParser offset .expectedCommaOrEndOfObject
                else readObjectLoop g src cfg valueParser fuel object : PM valueParser Object) s)
              (fun es' _ => foldEntries D es' o0 d1 = f.out) AnyErr AnyPanic := by
          intro s f hall
          refine pwp_offset ?_
          refine PWp.bind (PWp.triv _) ?_
          rintro tok s2 -
          split
          · exact True.intro
          refine pwp_offset ?_
          refine PWp.bind (PWp.triv _) ?_
          rintro v s3 -
          refine PWp.bind (P := fun a s' => s3 = s' ∧ a = es ++ [(k, v)]) ⟨rfl, rfl⟩ ?_
          rintro _ _ ⟨rfl, rfl⟩
          refine pwp_offset ?_
          refine PWp.bind (PWp.triv _) ?_
          rintro tok s4 -
          split
          · exact hall v []
          split
          · exact True.intro
          refine PWp.mono ((vp_prefix fuel).1 _ _) ?_ (fun _ _ h => h) (fun _ h => h)
          rintro o' s' ⟨ms, rfl⟩
          rw [List.append_assoc]
          exact hall v ms
        refine (M.bind_ok (s' := (⟨off', (), rem⟩ : PState Unit)) (a := (es, k)) rfl) ▸ ?_
        refine Sim.step ?_ ?_ ?_
        · rintro ⟨o1, kD⟩ d2 hk
          simp only []
          rw [M.bind_ok (tokOffset_eq _), M.bind_ok (tokOffset_eq _)]
          refine Sim.colon ?_
          intro t off2 _
          by_cases htk : t ≠ .colon
          · rw [if_pos htk, if_pos htk]
            exact Sim.perr _ rfl
          · rw [if_neg htk, if_neg htk]
            rw [M.bind_ok (tokOffset_eq _), M.bind_ok (tokOffset_eq _)]
            have hk : D.objectKey o k d = .ok (o1, kD) d2 := hk
            have tail2 : ∀ (s : PState Unit) (v : Value) (f : Fl D), (∀ ms, foldEntries D (es ++ (k, v) :: ms) o0 d1 = f.out) →
                PWp ((do
                    let offset ← tokOffset valueParser
                    let token ← liftTok valueParser (nextOrEof src g)
                    if token = .objectEnd then return (es ++ [(k, v)])
                    else if token ≠ .comma then perr valueParser offset .expectedCommaOrEndOfObject
                    else readObjectLoop g src cfg valueParser fuel (es ++ [(k, v)]) : PM valueParser Object) s)
                  (fun es' _ => foldEntries D es' o0 d1 = f.out) AnyErr AnyPanic := by
              intro s v f hall
              refine pwp_offset ?_
              refine PWp.bind (PWp.triv _) ?_
              rintro tok s4 -
              split
              · exact hall []
              split
              · exact True.intro
              refine PWp.mono ((vp_prefix fuel).1 _ _) ?_ (fun _ _ h => h) (fun _ h => h)
              rintro o' s' ⟨ms, rfl⟩
              rw [List.append_assoc]
              exact hall ms
            refine Sim.bind (ihT off2 rem d2) ?_ ?_ ?_
            · intro v s' vD d3 _ hv
              refine (M.bind_ok (s' := s') (a := es ++ [(k, v)]) rfl) ▸ ?_
              refine Sim.step ?_ ?_ ?_
              · intro o2 d4 ho
                have ho : D.objectValue o1 kD vD d3 = .ok o2 d4 := ho
                have hes' : foldEntries D (es ++ [(k, v)]) o0 d1 = .ok o2 d4 := by
                  rw [foldEntries_append, M.bind_ok hes, foldEntries_key hk, M.bind_ok hv, M.bind_ok ho]
                  rfl
                rw [M.bind_ok (tokOffset_eq _), M.bind_ok (tokOffset_eq _)]
                refine Sim.tok ?_
                intro t off3 _
                by_cases h1 : t = .objectEnd
                · rw [if_pos h1, if_pos h1]
                  show Match (foldEntries D (es ++ [(k, v)]) o0 d1) _ _
                  rw [hes']; rfl
                rw [if_neg h1, if_neg h1]
                by_cases h2 : t ≠ .comma
                · rw [if_pos h2, if_pos h2]
                  exact Sim.perr _ rfl
                rw [if_neg h2, if_neg h2]
                exact ihOL off3 s'.remainingDepth d0 o0 d1 _ o2 d4 hb hes'
              · intro f hf
                refine tail2 s' v f ?_
                intro ms
                rw [foldEntries_append, M.bind_ok hes, foldEntries_key hk, M.bind_ok hv]
                exact Fl.bind_out hf
              · intro f hf
                refine ⟨es ++ [(k, v)], ?_⟩
                show foldEntries D _ o0 d1 = _
                rw [foldEntries_append, M.bind_ok hes, foldEntries_key hk, M.bind_ok hv]
                exact Fl.bind_out hf
            · intro v s' f _ hf
              refine PWp.bind (P := fun a s2 => s' = s2 ∧ a = es ++ [(k, v)]) ⟨rfl, rfl⟩ ?_
              rintro _ _ ⟨rfl, rfl⟩
              refine tail2 s' v f ?_
              intro ms
              rw [foldEntries_append, M.bind_ok hes, foldEntries_key hk]
              exact Fl.bind_out hf
            · intro v f hf
              refine ⟨es ++ [(k, v)], ?_⟩
              show foldEntries D _ o0 d1 = _
              rw [foldEntries_append, M.bind_ok hes, foldEntries_key hk]
              exact Fl.bind_out hf
        · intro f hf
          refine tail _ f ?_
          intro v ms
          rw [foldEntries_append, M.bind_ok hes, foldEntries]
          exact Fl.bind_out hf
        · intro f hf
          refine ⟨es ++ [(k, .null)], ?_⟩
          show foldEntries D _ o0 d1 = _
          rw [foldEntries_append, M.bind_ok hes, foldEntries]
          exact Fl.bind_out hf
    · intro off rem d
      rw [readArray, readArray, M.bind_ok (tokOffset_eq _), M.bind_ok (tokOffset_eq _)]
      refine Sim.step ?_ ?_ ?_
      · intro o0 d1 hb
        refine (M.bind_ok (s' := (⟨off, (), rem⟩ : PState Unit)) (a := ([] : List Value)) rfl) ▸ ?_
        refine Sim.bind (ihAL off rem d o0 d1 [] o0 d1 hb rfl) ?_ ?_ ?_
        · intro es s' o d2 _ hes
          refine (M.bind_ok (s' := s') (a := Value.array es) rfl) ▸ ?_
          refine Sim.step ?_ ?_ ?_
          · intro v d3 hv
            refine fin ?_
            rw [foldValue, M.bind_ok hb, M.bind_ok hes]
            exact hv
          · intro f hf
            refine PWp.bind (PWp.triv _) ?_
            rintro _ s2 -
            show foldValue D _ d = _
            rw [foldValue, M.bind_ok hb, M.bind_ok hes]
            exact hf
          · intro f hf
            refine ⟨.array es, ?_⟩
            show foldValue D _ d = _
            rw [foldValue, M.bind_ok hb, M.bind_ok hes]
            exact hf
        · intro es s' f _ hf
          refine PWp.bind (P := fun a _ => a = Value.array es) rfl ?_
          rintro _ s2 rfl
          refine PWp.bind (PWp.triv _) ?_
          rintro _ s3 -
          show foldValue D _ d = _
          rw [foldValue, M.bind_ok hb]
          exact Fl.bind_out hf
        · intro es f hf
          refine ⟨.array es, ?_⟩
          show foldValue D _ d = _
          rw [foldValue, M.bind_ok hb]
          exact Fl.bind_out hf
      · intro f hf
        refine PWp.bind (PWp.triv _) ?_
        rintro o s1 -
        refine PWp.bind (PWp.triv _) ?_
        rintro o s1 -
        refine PWp.bind (P := fun a _ => a = Value.array o) rfl ?_
        rintro _ s2 rfl
        refine PWp.bind (PWp.triv _) ?_
        rintro _ s3 -
        show foldValue D _ d = _
        rw [foldValue]
        exact Fl.bind_out hf
      · intro f hf
        refine ⟨.array [], ?_⟩
        show foldValue D _ d = _
        rw [foldValue]
        exact Fl.bind_out hf
    · intro off rem d0 o0 d1 es o d hb hes
      rw [readArrayLoop, readArrayLoop, M.bind_ok (tokOffset_eq _), M.bind_ok (tokOffset_eq _)]
      refine Sim.tok ?_
      intro t off' _
      by_cases hpk : t = some .arrayEnd
      · rw [if_pos hpk, if_pos hpk]
        have hret : Sim (fun es' => foldElems D es' o0 d1) (.ok es ⟨off' + 1, (), rem⟩) (.ok o ⟨off' + 1, d, rem⟩) := by
          show Match (foldElems D es o0 d1) _ _
          rw [hes]; rfl
        refine (M.bind_ok (M.modify_eq _ _)) ▸ ?_
        refine (M.bind_ok (M.modify_eq (fun s : PState D.σ => { s with offset := s.offset + 1 }) ⟨off', d, rem⟩)) ▸ ?_
        by_cases htc : cfg.allowTrailingCommas = true
        · rw [if_pos htc, if_pos htc]
          exact hret
        · rw [if_neg htc, if_neg htc]
          have h1 : liftQ valueParser (fun x => valueParser.arrayIsEmpty x es) ⟨off' + 1, (), rem⟩ = .ok es.isEmpty ⟨off' + 1, (), rem⟩ := rfl
          have h2 : liftQ D (fun x => D.arrayIsEmpty x o) ⟨off' + 1, d, rem⟩ = .ok es.isEmpty ⟨off' + 1, d, rem⟩ := by
            unfold liftQ
            simp only []
            rw [hT.array es d0 o0 d1 o d hb hes]
          rw [M.bind_ok h1, M.bind_ok h2]
          cases es.isEmpty
          · exact Sim.perr _ rfl
          · exact hret
      · rw [if_neg hpk, if_neg hpk]
        have tail2 : ∀ (s : PState Unit) (v : Value) (f : Fl D), (∀ ms, foldElems D (es ++ v :: ms) o0 d1 = f.out) →
            PWp ((do
                let offset ← tokOffset valueParser
                let token ← liftTok valueParser (nextOrEof src g)
                if token = .arrayEnd then return (es ++ [v])
                else if token ≠ .comma then perr valueParser offset .expectedCommaOrEndOfArray
                else readArrayLoop g src cfg valueParser fuel (es ++ [v]) : PM valueParser (List Value)) s)
              (fun es' _ => foldElems D es' o0 d1 = f.out) AnyErr AnyPanic := by
          intro s v f hall
          refine pwp_offset ?_
          refine PWp.bind (PWp.triv _) ?_
          rintro tok s4 -
          split
          · exact hall []
          split
          · exact True.intro
          refine PWp.mono ((vp_prefix fuel).2 _ _) ?_ (fun _ _ h => h) (fun _ h => h)
          rintro o' s' ⟨ms, rfl⟩
          rw [List.append_assoc]
          exact hall ms
        refine Sim.bind (ihT off' rem d) ?_ ?_ ?_
        · intro v s' vD d3 _ hv
          rw [M.bind_ok (tokOffset_eq _), M.bind_ok (tokOffset_eq _)]
          refine (M.bind_ok (s' := s') (a := es ++ [v]) rfl) ▸ ?_
          refine Sim.step ?_ ?_ ?_
          · intro o2 d4 ho
            have ho : D.arrayValue o vD d3 = .ok o2 d4 := ho
            have hes' : foldElems D (es ++ [v]) o0 d1 = .ok o2 d4 := by
              rw [foldElems_append, M.bind_ok hes, foldElems, M.bind_ok hv, M.bind_ok ho]
              rfl
            rw [M.bind_ok (tokOffset_eq _), M.bind_ok (tokOffset_eq _)]
            refine Sim.tok ?_
            intro t off3 _
            by_cases h1 : t = .arrayEnd
            · rw [if_pos h1, if_pos h1]
              show Match (foldElems D (es ++ [v]) o0 d1) _ _
              rw [hes']; rfl
            rw [if_neg h1, if_neg h1]
            by_cases h2 : t ≠ .comma
            · rw [if_pos h2, if_pos h2]
              exact Sim.perr _ rfl
            rw [if_neg h2, if_neg h2]
            exact ihAL off3 s'.remainingDepth d0 o0 d1 _ o2 d4 hb hes'
          · intro f hf
            refine tail2 s' v f ?_
            intro ms
            rw [foldElems_append, M.bind_ok hes, foldElems, M.bind_ok hv]
            exact Fl.bind_out hf
          · intro f hf
            refine ⟨es ++ [v], ?_⟩
            show foldElems D _ o0 d1 = _
            rw [foldElems_append, M.bind_ok hes, foldElems, M.bind_ok hv]
            exact Fl.bind_out hf
        · intro v s' f _ hf
          refine pwp_offset ?_
          refine PWp.bind (P := fun a s2 => s' = s2 ∧ a = es ++ [v]) ⟨rfl, rfl⟩ ?_
          rintro _ _ ⟨rfl, rfl⟩
          refine tail2 s' v f ?_
          intro ms
          rw [foldElems_append, M.bind_ok hes, foldElems]
          exact Fl.bind_out hf
        · intro v f hf
          refine ⟨es ++ [v], ?_⟩
          show foldElems D _ o0 d1 = _
          rw [foldElems_append, M.bind_ok hes, foldElems]
          exact Fl.bind_out hf

/-- The whole parse. -/
theorem parse_fold (hT : Truthful D) (hK : cfg.allowAllTypesAtRoot = true ∨ KindTruthful D) (d : D.σ) :
    Sim (fun v => foldValue D v d) (parseBytes g src cfg valueParser ()) (parseBytes g src cfg D d) := by
  unfold parseBytes parseM
  refine Sim.bind ((run_fold hT _).1 0 _ d) ?_ ?_ (fun a f h => ⟨a, h⟩)
  · intro v s' vD d' _ hv
    have htail : Sim (fun v => foldValue D v d)
        ((liftTok valueParser (nextNonWs src) >>= fun r => match r with
          | none => (return v : PM valueParser Value)
          | some (offset, _) => perr valueParser offset .trailingNonWhitespace) ⟨s'.offset, (), s'.remainingDepth⟩)
        ((liftTok D (nextNonWs src) >>= fun r => match r with
          | none => (return vD : PM D D.Value)
          | some (offset, _) => perr D offset .trailingNonWhitespace) ⟨s'.offset, d', s'.remainingDepth⟩) := by
      refine Sim.tok ?_
      intro r off' _
      cases r with
      | none =>
        show Match (foldValue D v d) _ _
        rw [hv]; rfl
      | some r =>
        obtain ⟨o, x⟩ := r
        exact Sim.perr _ rfl
    by_cases ha : cfg.allowAllTypesAtRoot = true
    · rw [if_pos ha, if_pos ha]
      exact htail
    · rw [if_neg ha, if_neg ha]
      have hk := (hK.resolve_left ha) v d vD d' hv
      have h1 : liftQ valueParser (fun x => valueParser.kindOf x v) s' = .ok v.kind s' := by cases v <;> rfl
      have h2 : liftQ D (fun x => D.kindOf x vD) ⟨s'.offset, d', s'.remainingDepth⟩ = .ok v.kind ⟨s'.offset, d', s'.remainingDepth⟩ := by
        unfold liftQ
        simp only []
        rw [hk]
      rw [M.bind_ok h1, M.bind_ok h2]
      cases hb : (!(v.kind == JsonKind.object || v.kind == JsonKind.array))
      · exact htail
      · exact Sim.perr _ rfl
  · intro v s' f _ hf
    have hend : ∀ (b : Bool) (s1 : PState Unit), PWp ((if b = true then perr valueParser 0 .payloadsShouldBeObjectOrArray
        else (liftTok valueParser (nextNonWs src) >>= fun r => match r with
          | none => (return v : PM valueParser Value)
          | some (offset, _) => perr valueParser offset .trailingNonWhitespace) : PM valueParser Value) s1)
        (fun c _ => foldValue D c d = f.out) AnyErr AnyPanic := by
      intro b s1
      split
      · exact True.intro
      · refine PWp.bind (PWp.triv _) ?_
        rintro r s2 -
        cases r with
        | none => exact hf
        | some r => exact True.intro
    by_cases ha : cfg.allowAllTypesAtRoot = true
    · rw [if_pos ha]
      exact hend false s'
    · rw [if_neg ha]
      refine PWp.bind (PWp.triv _) ?_
      rintro k s1 -
      exact hend _ s1

end
end JustJson
