import Verif.Lemmas.Trace
/-! # The list of callbacks of a run -/

namespace JustJson
open Spec

set_option linter.unusedSectionVars false

section
variable {src : List UInt8} [Arch] {g : Bool} {cfg : ParseConfig} {D : Delegate}

theorem strip_liftD {α : Type} (ev : Event) (off : Nat) (m : M D.σ D.Err α) (s : PState (logged D).σ) :
    forget (liftD (logged D) off (listed ev m) s) = liftD D off m (fg s) := by
  have e1 : liftD D off m (fg s) = match m s.delegate.1 with
    | .ok a d => .ok a ⟨s.offset, d, s.remainingDepth⟩
    | .err e d => .err ⟨off, .errorFromDelegate e⟩ ⟨s.offset, d, s.remainingDepth⟩
    | .panic p => .panic p := rfl
  rw [e1]
  unfold liftD listed
  cases m s.delegate.1 <;> rfl

theorem strip_liftTok {α : Type} (m : TokM α) (s : PState (logged D).σ) :
    forget (liftTok (logged D) m s) = liftTok D m (fg s) := by
  unfold liftTok fg
  simp only []
  cases m s.offset <;> rfl

theorem strip_nextColon (s : PState (logged D).σ) :
    forget (nextColon g src (logged D) s) = nextColon g src D (fg s) := by
  unfold nextColon fg
  simp only []
  cases nextOrEof src g s.offset <;> rfl

theorem strip_liftQ {α : Type} (q : D.σ → Res α) (s : PState (logged D).σ) :
    forget (liftQ (logged D) (fun x => q x.1) s) = liftQ D q (fg s) := by
  unfold liftQ fg
  simp only []
  cases q s.delegate.1 <;> rfl

theorem strip_beginNest (off : Nat) (s : PState (logged D).σ) :
    forget (beginNest cfg (logged D) off s) = beginNest cfg D off (fg s) := by
  unfold beginNest fg
  simp only []
  split
  · split <;> rfl
  · rfl

theorem strip_endNest (s : PState (logged D).σ) :
    forget (endNest cfg (logged D) s) = endNest cfg D (fg s) := by
  unfold endNest fg
  simp only []
  split <;> rfl

theorem strip_mapErr {α : Type} {k : ErrorKind D.Err} {m' : PM (logged D) α} {m : PM D α}
    {s : PState (logged D).σ} (h : forget (m' s) = m (fg s)) :
    forget (M.mapErr (eofTo k) m' s) = M.mapErr (eofTo k) m (fg s) := by
  unfold M.mapErr
  rw [← h]
  cases m' s <;> rfl

theorem run_strip : ∀ fuel : Nat,
    (∀ s, forget (readTokens g src cfg (logged D) fuel s) = readTokens g src cfg D fuel (fg s))
    ∧ (∀ s, forget (readObject g src cfg (logged D) fuel s) = readObject g src cfg D fuel (fg s))
    ∧ (∀ o s, forget (readObjectLoop g src cfg (logged D) fuel o s) = readObjectLoop g src cfg D fuel o (fg s))
    ∧ (∀ s, forget (readArray g src cfg (logged D) fuel s) = readArray g src cfg D fuel (fg s))
    ∧ (∀ o s, forget (readArrayLoop g src cfg (logged D) fuel o s) = readArrayLoop g src cfg D fuel o (fg s)) := by
  intro fuel
  induction fuel with
  | zero =>
    refine ⟨?_, ?_, ?_, ?_, ?_⟩
    · intro s; rfl
    · intro s; rfl
    · intro o s; rw [readObjectLoop, readObjectLoop]; rfl
    · intro s; rfl
    · intro o s; rw [readArrayLoop, readArrayLoop]; rfl
  | succ fuel ih =>
    obtain ⟨ihT, ihO, ihOL, ihA, ihAL⟩ := ih
    have hoff : ∀ s, forget (tokOffset (logged D) s) = tokOffset D (fg s) := fun s => rfl
    refine ⟨?_, ?_, ?_, ?_, ?_⟩
    · intro s
      rw [readTokens, readTokens]
      refine forget_bind (hoff s) fun off s1 => ?_
      refine forget_bind (strip_liftTok _ _) fun tok s2 => ?_
      cases tok with
      | null => exact strip_liftD _ _ _ _
      | bool b => exact strip_liftD _ _ _ _
      | string b => exact strip_liftD _ _ _ _
      | number b => exact strip_liftD _ _ _ _
      | object => exact forget_bind (strip_beginNest _ _) fun _ s3 => strip_mapErr (ihO s3)
      | array => exact forget_bind (strip_beginNest _ _) fun _ s3 => strip_mapErr (ihA s3)
      | _ => rfl
    · intro s
      rw [readObject, readObject]
      refine forget_bind (hoff s) fun off s1 => ?_
      refine forget_bind (strip_liftD _ _ _ _) fun o s2 => ?_
      refine forget_bind (ihOL o s2) fun o s3 => ?_
      refine forget_bind (hoff _) fun off s1 => ?_
      refine forget_bind (strip_liftD _ _ _ _) fun v s2 => ?_
      refine forget_bind (strip_endNest _) fun _ s2 => ?_
      rfl
    · intro o s
      rw [readObjectLoop, readObjectLoop]
      refine forget_bind (hoff s) fun off s1 => ?_
      refine forget_bind (strip_liftTok _ _) fun tok s2 => ?_
      cases tok with
      | objectEnd =>
        simp only []
        split
        · rfl
        refine forget_bind (strip_liftQ (fun x => D.objectIsEmpty x o) s2) fun b s3 => ?_
        split <;> rfl
      | string k =>
        refine forget_bind (strip_liftD _ _ _ _) fun r s3 => ?_
        obtain ⟨o, k⟩ := r
        refine forget_bind (hoff _) fun off s1 => ?_
        refine forget_bind (strip_nextColon _) fun tok s4 => ?_
        split
        · rfl
        refine forget_bind (hoff _) fun off s1 => ?_
        refine forget_bind (ihT _) fun v s1 => ?_
        refine forget_bind (strip_liftD _ _ _ _) fun o s3 => ?_
        refine forget_bind (hoff _) fun off s1 => ?_
        refine forget_bind (strip_liftTok _ _) fun tok s2 => ?_
        split
        · rfl
        split
        · rfl
        exact ihOL _ _
      | _ => rfl
    · intro s
      rw [readArray, readArray]
      refine forget_bind (hoff s) fun off s1 => ?_
      refine forget_bind (strip_liftD _ _ _ _) fun o s2 => ?_
      refine forget_bind (ihAL o s2) fun o s3 => ?_
      refine forget_bind (strip_liftD _ _ _ _) fun v s2 => ?_
      refine forget_bind (strip_endNest _) fun _ s2 => ?_
      rfl
    · intro o s
      rw [readArrayLoop, readArrayLoop]
      refine forget_bind (hoff s) fun off s1 => ?_
      refine forget_bind (strip_liftTok _ _) fun k s2 => ?_
      split
      · refine forget_bind rfl fun _ s3 => ?_
        split
        · rfl
        refine forget_bind (strip_liftQ (fun x => D.arrayIsEmpty x o) s3) fun b s3 => ?_
        split <;> rfl
      · refine forget_bind (ihT _) fun v s1 => ?_
        refine forget_bind (hoff _) fun off s1 => ?_
        refine forget_bind (strip_liftD _ _ _ _) fun o s3 => ?_
        refine forget_bind (hoff _) fun off s1 => ?_
        refine forget_bind (strip_liftTok _ _) fun tok s2 => ?_
        split
        · rfl
        split
        · rfl
        exact ihAL _ _

theorem parse_strip (d : D.σ) (l : List Event) :
    forget (parseBytes g src cfg (logged D) (d, l)) = parseBytes g src cfg D d := by
  unfold parseBytes parseM
  refine forget_bind (s := ⟨0, (d, l), cfg.recursionLimit.getD USIZE_MAX⟩) ((run_strip _).1 _) fun v s1 => ?_
  by_cases ha : cfg.allowAllTypesAtRoot = true
  · rw [if_pos ha, if_pos ha]
    refine forget_bind rfl fun b s2 => ?_
    cases b with
    | true => rfl
    | false =>
      refine forget_bind (strip_liftTok _ _) fun r s3 => ?_
      cases r <;> rfl
  · rw [if_neg ha, if_neg ha]
    refine forget_bind (strip_liftQ (fun x => D.kindOf x v) s1) fun k s2 => ?_
    refine forget_bind rfl fun b s2 => ?_
    cases b with
    | true => rfl
    | false =>
      refine forget_bind (strip_liftTok _ _) fun r s3 => ?_
      cases r <;> rfl


/-! ## The shape of the list -/

/-- the nesting budget left suffices for `dep` -/
def Room (cfg : ParseConfig) (rem dep : Nat) : Prop := cfg.recursionLimit.isSome = true → dep ≤ rem

/-- `rem'` is `rem` with the nesting level of a container entered given back -/
def Back (cfg : ParseConfig) (rem rem' : Nat) : Prop :=
  (cfg.recursionLimit.isSome = true → rem' = rem + 1) ∧ (cfg.recursionLimit.isSome = false → rem' = rem)

/-- a listed callback -/
theorem lw_cb {α : Type} {ev : Event} {off : Nat} {m : M D.σ D.Err α} {s : PState (logged D).σ} :
    PWp (liftD (logged D) off (listed ev m) s)
      (fun _ s' => s'.offset = s.offset ∧ s'.delegate.2 = s.delegate.2 ++ [ev] ∧ s'.remainingDepth = s.remainingDepth)
      (fun _ s' => s'.delegate.2 = s.delegate.2 ++ [ev]) AnyPanic := by
  unfold liftD listed
  cases h : m s.delegate.1
  · exact ⟨rfl, rfl, rfl⟩
  · exact rfl
  · trivial

theorem lw_tok {α : Type} {m : TokM α} {s : PState (logged D).σ} {lo : Nat} {P : α → Nat → Prop}
    (h : Wp src lo (m s.offset) P) :
    PWp (liftTok (logged D) m s)
      (fun a s' => P a s'.offset ∧ s'.delegate.2 = s.delegate.2 ∧ s'.remainingDepth = s.remainingDepth)
      (fun _ s' => s'.delegate.2 = s.delegate.2) AnyPanic := by
  unfold liftTok
  cases hm : m s.offset with
  | ok a off => rw [hm] at h; exact ⟨h, rfl, rfl⟩
  | err e off => exact rfl
  | panic p => trivial

theorem lw_colon {s : PState (logged D).σ} {lo : Nat} {P : Token → Nat → Prop}
    (h : Wp src lo (nextOrEof src g s.offset) P) :
    PWp (nextColon g src (logged D) s)
      (fun a s' => P a s'.offset ∧ s'.delegate.2 = s.delegate.2 ∧ s'.remainingDepth = s.remainingDepth)
      (fun _ s' => s'.delegate.2 = s.delegate.2) AnyPanic := by
  unfold nextColon
  cases hm : nextOrEof src g s.offset with
  | ok a off => rw [hm] at h; exact ⟨h, rfl, rfl⟩
  | err e off => exact rfl
  | panic p => trivial

theorem lw_q {α : Type} {q : D.σ → Res α} {s : PState (logged D).σ} {Q : Error D.Err → PState (logged D).σ → Prop} :
    PWp (liftQ (logged D) (fun x => q x.1) s) (fun _ s' => s' = s) Q AnyPanic := by
  unfold liftQ
  simp only []
  cases h : q s.delegate.1
  · exact rfl
  · trivial

theorem lw_begin {off : Nat} {s : PState (logged D).σ} :
    PWp (beginNest cfg (logged D) off s)
      (fun _ s' => s'.offset = s.offset ∧ s'.delegate.2 = s.delegate.2 ∧ Back cfg s'.remainingDepth s.remainingDepth)
      (fun _ s' => s'.delegate.2 = s.delegate.2) AnyPanic := by
  unfold beginNest Back
  split
  · rename_i hc
    split
    · refine ⟨rfl, rfl, fun _ => ?_, fun h => ?_⟩
      · show s.remainingDepth = s.remainingDepth - 1 + 1
        omega
      · rw [hc] at h; cases h
    · exact rfl
  · rename_i hc
    exact ⟨rfl, rfl, fun h => absurd h hc, fun _ => rfl⟩

theorem lw_end {s : PState (logged D).σ} {Q : Error D.Err → PState (logged D).σ → Prop} :
    PWp (endNest cfg (logged D) s)
      (fun _ s' => s'.offset = s.offset ∧ s'.delegate.2 = s.delegate.2 ∧ Back cfg s.remainingDepth s'.remainingDepth)
      Q AnyPanic := by
  unfold endNest Back
  split
  · rename_i hc
    refine ⟨rfl, rfl, fun _ => rfl, fun h => ?_⟩
    rw [hc] at h; cases h
  · rename_i hc
    exact ⟨rfl, rfl, fun h => absurd h hc, fun _ => rfl⟩

/-- What is listed by a run reading one value, if it succeeds and if it fails. -/
def TokLog (g : Bool) (src : List UInt8) (cfg : ParseConfig) (s : PState (logged D).σ)
    (out : Out (PState (logged D).σ) (Error D.Err) D.Value) : Prop :=
  PWp out
    (fun _ s' => (s'.offset ≤ src.length ∧ s.offset < s'.offset ∧ Fit g src s'.offset)
      ∧ s'.remainingDepth = s.remainingDepth
      ∧ ∃ v : Value, s'.delegate.2 = s.delegate.2 ++ events v ∧ Room cfg s.remainingDepth v.depth
        ∧ 2 * (events v).length + 1 ≤ 3 * (s'.offset - s.offset))
    (fun _ s' => ∃ (v : Value) (p : List Event), s'.delegate.2 = s.delegate.2 ++ p ∧ p <+: events v
      ∧ Room cfg s.remainingDepth v.depth ∧ 2 * p.length ≤ 3 * (src.length - s.offset))
    AnyPanic

/-- for `read_object` -/
def ObjLog (g : Bool) (src : List UInt8) (cfg : ParseConfig) (s : PState (logged D).σ)
    (out : Out (PState (logged D).σ) (Error D.Err) D.Value) : Prop :=
  PWp out
    (fun _ s' => (s'.offset ≤ src.length ∧ s.offset < s'.offset ∧ Fit g src s'.offset)
      ∧ Back cfg s.remainingDepth s'.remainingDepth
      ∧ ∃ es : Object, s'.delegate.2 = s.delegate.2 ++ events (.object es)
        ∧ Room cfg s.remainingDepth (Value.depthEntries es)
        ∧ 2 * (events (.object es)).length ≤ 3 * (s'.offset - s.offset) + 2)
    (fun _ s' => ∃ (es : Object) (p : List Event), s'.delegate.2 = s.delegate.2 ++ p
      ∧ p <+: events (.object es)
      ∧ Room cfg s.remainingDepth (Value.depthEntries es) ∧ 2 * p.length ≤ 3 * (src.length - s.offset) + 3)
    AnyPanic

/-- for `read_array` -/
def ArrLog (g : Bool) (src : List UInt8) (cfg : ParseConfig) (s : PState (logged D).σ)
    (out : Out (PState (logged D).σ) (Error D.Err) D.Value) : Prop :=
  PWp out
    (fun _ s' => (s'.offset ≤ src.length ∧ s.offset < s'.offset ∧ Fit g src s'.offset)
      ∧ Back cfg s.remainingDepth s'.remainingDepth
      ∧ ∃ vs : List Value, s'.delegate.2 = s.delegate.2 ++ events (.array vs)
        ∧ Room cfg s.remainingDepth (Value.depthList vs)
        ∧ 2 * (events (.array vs)).length ≤ 3 * (s'.offset - s.offset) + 2)
    (fun _ s' => ∃ (vs : List Value) (p : List Event), s'.delegate.2 = s.delegate.2 ++ p
      ∧ p <+: events (.array vs)
      ∧ Room cfg s.remainingDepth (Value.depthList vs) ∧ 2 * p.length ≤ 3 * (src.length - s.offset) + 3)
    AnyPanic

/-- for the loop of `read_object` -/
def ObjLoopLog (g : Bool) (src : List UInt8) (cfg : ParseConfig) (s : PState (logged D).σ)
    (out : Out (PState (logged D).σ) (Error D.Err) D.Object) : Prop :=
  PWp out
    (fun _ s' => (s'.offset ≤ src.length ∧ s.offset < s'.offset ∧ Fit g src s'.offset)
      ∧ s'.remainingDepth = s.remainingDepth
      ∧ ∃ es : Object, s'.delegate.2 = s.delegate.2 ++ entryEvents es
        ∧ Room cfg s.remainingDepth (Value.depthEntries es)
        ∧ 2 * (entryEvents es).length + 2 ≤ 3 * (s'.offset - s.offset))
    (fun _ s' => ∃ (es : Object) (p : List Event), s'.delegate.2 = s.delegate.2 ++ p
      ∧ p <+: entryEvents es
      ∧ Room cfg s.remainingDepth (Value.depthEntries es) ∧ 2 * p.length ≤ 3 * (src.length - s.offset))
    AnyPanic

/-- for the loop of `read_array` -/
def ArrLoopLog (g : Bool) (src : List UInt8) (cfg : ParseConfig) (s : PState (logged D).σ)
    (out : Out (PState (logged D).σ) (Error D.Err) D.Array) : Prop :=
  PWp out
    (fun _ s' => (s'.offset ≤ src.length ∧ s.offset < s'.offset ∧ Fit g src s'.offset)
      ∧ s'.remainingDepth = s.remainingDepth
      ∧ ∃ vs : List Value, s'.delegate.2 = s.delegate.2 ++ elemEvents vs
        ∧ Room cfg s.remainingDepth (Value.depthList vs)
        ∧ 2 * (elemEvents vs).length + 2 ≤ 3 * (s'.offset - s.offset))
    (fun _ s' => ∃ (vs : List Value) (p : List Event), s'.delegate.2 = s.delegate.2 ++ p
      ∧ p <+: elemEvents vs
      ∧ Room cfg s.remainingDepth (Value.depthList vs) ∧ 2 * p.length ≤ 3 * (src.length - s.offset) + 1)
    AnyPanic

theorem PWp.bindE {σ ε α β : Type} {m : M σ ε α} {f : α → M σ ε β} {s : σ} {P : α → σ → Prop}
    {P' : β → σ → Prop} {Q Q' : ε → σ → Prop} {N : Panic → Prop} (h : PWp (m s) P Q N)
    (hq : ∀ e s, Q e s → Q' e s)
    (hf : ∀ a s, P a s → PWp (f a s) P' Q' N) : PWp ((m >>= f) s) P' Q' N :=
  PWp.bind (h.mono (fun _ _ h => h) hq (fun _ h => h)) hf

theorem room_zero (rem : Nat) : Room cfg rem 0 := fun _ => Nat.zero_le _

theorem run_log (hlim : src.length < LIM) : ∀ fuel : Nat,
    (∀ s : PState (logged D).σ, s.offset ≤ src.length → Fit g src s.offset →
      TokLog g src cfg s (readTokens g src cfg (logged D) fuel s))
    ∧ (∀ s : PState (logged D).σ, s.offset ≤ src.length → Fit g src s.offset →
      ObjLog g src cfg s (readObject g src cfg (logged D) fuel s))
    ∧ (∀ (s : PState (logged D).σ) (o : D.Object), s.offset ≤ src.length → Fit g src s.offset →
      ObjLoopLog g src cfg s (readObjectLoop g src cfg (logged D) fuel o s))
    ∧ (∀ s : PState (logged D).σ, s.offset ≤ src.length → Fit g src s.offset →
      ArrLog g src cfg s (readArray g src cfg (logged D) fuel s))
    ∧ (∀ (s : PState (logged D).σ) (a : D.Array), s.offset ≤ src.length → Fit g src s.offset →
      ArrLoopLog g src cfg s (readArrayLoop g src cfg (logged D) fuel a s)) := by
  intro fuel
  induction fuel with
  | zero =>
    refine ⟨?_, ?_, ?_, ?_, ?_⟩
    · intro s _ _; rw [readTokens]; trivial
    · intro s _ _; rw [readObject]; trivial
    · intro s o _ _; rw [readObjectLoop]; trivial
    · intro s _ _; rw [readArray]; trivial
    · intro s o _ _; rw [readArrayLoop]; trivial
  | succ fuel ih =>
    obtain ⟨ihT, ihO, ihOL, ihA, ihAL⟩ := ih
    refine ⟨?_, ?_, ?_, ?_, ?_⟩
    · -- readTokens
      intro s hl hf
      unfold TokLog
      rw [readTokens, M.bind_ok (tokOffset_eq s)]
      have hnone : ∀ s1 : PState (logged D).σ, s1.delegate.2 = s.delegate.2 → ∃ (v : Value) (p : List Event),
          s1.delegate.2 = s.delegate.2 ++ p ∧ p <+: events v
            ∧ Room cfg s.remainingDepth v.depth ∧ 2 * p.length ≤ 3 * (src.length - s.offset) :=
        fun s1 h => ⟨.null, [], by rw [h]; simp, List.nil_prefix, room_zero _, by simp⟩
      refine PWp.bindE (lw_tok (wp_next hl hlim hf)) (fun e s1 h => hnone s1 h) ?_
      rintro tok s1 ⟨⟨w, l, hw, hv, ha, rfl, hs, h1, h2, h3⟩, e1, e2⟩
      have hcb : ∀ {m : M D.σ D.Err D.Value} (ev : Event) (v : Value), events v = [ev] → v.depth = 0 →
          TokLog g src cfg s (liftD (logged D) s.offset (listed ev m) s1) := by
        intro m ev v hev hd
        refine (lw_cb).mono ?_ ?_ (fun _ h => h)
        · rintro _ s2 ⟨q1, q2, q3⟩
          refine ⟨by rw [q1]; exact ⟨h2, h1, h3⟩, by rw [q3, e2], v, by rw [q2, e1, hev], by rw [hd]; exact room_zero _, ?_⟩
          rw [hev, q1]
          simp only [List.length_singleton]
          omega
        · rintro _ s2 q
          refine ⟨v, [ev], by rw [q, e1], by rw [hev]; exact List.prefix_refl _, by rw [hd]; exact room_zero _, ?_⟩
          simp only [List.length_singleton]
          omega
      cases l with
      | null => exact hcb .null .null rfl rfl
      | bool b => exact hcb (.boolean b) (.boolean b) rfl rfl
      | num n => exact hcb (.number _) (.number _) rfl rfl
      | str is => exact hcb (.string _) (.string _) rfl rfl
      | objC => exact hnone s1 e1
      | arrC => exact hnone s1 e1
      | comma => exact hnone s1 e1
      | colon => exact hnone s1 e1
      | objO =>
        refine PWp.bindE lw_begin (fun e s2 h => hnone s2 (h.trans e1)) ?_
        rintro _ s2 ⟨q1, q2, q3⟩
        refine PWp.mapErr ?_ (fun e s h => h)
        refine PWp.mono (ihO s2 (by omega) (by rw [q1]; exact h3)) ?_ ?_ (fun _ h => h)
        · rintro _ s3 ⟨⟨r1, r2, r3⟩, r4, es, r5, r6, r7⟩
          refine ⟨⟨r1, by omega, r3⟩, ?_, .object es, by rw [r5, q2, e1], ?_, by omega⟩
          · rw [← e2]
            cases hc : cfg.recursionLimit.isSome with
            | true => rw [q3.1 hc, r4.1 hc]
            | false => rw [q3.2 hc, r4.2 hc]
          · intro hc
            have := r6 hc
            have := q3.1 hc
            rw [Value.depth]
            omega
        · rintro _ s3 ⟨es, p, r5, r8, r6, r7⟩
          refine ⟨.object es, p, by rw [r5, q2, e1], r8, ?_, by omega⟩
          intro hc
          have := r6 hc
          have := q3.1 hc
          rw [Value.depth]
          omega
      | arrO =>
        refine PWp.bindE lw_begin (fun e s2 h => hnone s2 (h.trans e1)) ?_
        rintro _ s2 ⟨q1, q2, q3⟩
        refine PWp.mapErr ?_ (fun e s h => h)
        refine PWp.mono (ihA s2 (by omega) (by rw [q1]; exact h3)) ?_ ?_ (fun _ h => h)
        · rintro _ s3 ⟨⟨r1, r2, r3⟩, r4, es, r5, r6, r7⟩
          refine ⟨⟨r1, by omega, r3⟩, ?_, .array es, by rw [r5, q2, e1], ?_, by omega⟩
          · rw [← e2]
            cases hc : cfg.recursionLimit.isSome with
            | true => rw [q3.1 hc, r4.1 hc]
            | false => rw [q3.2 hc, r4.2 hc]
          · intro hc
            have := r6 hc
            have := q3.1 hc
            rw [Value.depth]
            omega
        · rintro _ s3 ⟨es, p, r5, r8, r6, r7⟩
          refine ⟨.array es, p, by rw [r5, q2, e1], r8, ?_, by omega⟩
          intro hc
          have := r6 hc
          have := q3.1 hc
          rw [Value.depth]
          omega
    · -- readObject
      intro s hl hf
      unfold ObjLog
      rw [readObject, M.bind_ok (tokOffset_eq s)]
      refine PWp.bindE lw_cb ?_ ?_
      · intro e s1 q
        refine ⟨[], [.beginObject], q, ?_, room_zero _, by simp⟩
        rw [events]
        exact ⟨_, rfl⟩
      rintro o s1 ⟨q1, q2, q3⟩
      refine PWp.bindE (ihOL s1 o (by omega) (by rw [q1]; exact hf)) ?_ ?_
      · rintro e s2 ⟨es, p, r1, ⟨t, r2⟩, r3, r4⟩
        refine ⟨es, .beginObject :: p, by rw [r1, q2]; simp, ⟨t ++ [.endObject], ?_⟩, by rw [← q3]; exact r3, ?_⟩
        · rw [events, ← r2]; simp
        · simp only [List.length_cons]
          omega
      rintro o s2 ⟨⟨r1, r2, r3⟩, r4, es, r5, r6, r7⟩
      refine pwp_offset (D := logged D) ?_
      have hev : (events (.object es)).length = (entryEvents es).length + 2 := by
        rw [events]; simp
      refine PWp.bindE lw_cb ?_ ?_
      · intro e s3 q
        refine ⟨es, events (.object es), ?_, List.prefix_refl _, by rw [← q3]; exact r6, by omega⟩
        rw [q, r5, q2, events]
        simp
      rintro v s3 ⟨t1, t2, t3⟩
      refine PWp.bind lw_end ?_
      rintro _ s4 ⟨u1, u2, u3⟩
      refine ⟨⟨by omega, by omega, by rw [u1, t1]; exact r3⟩, ?_, es, ?_, by rw [← q3]; exact r6, by omega⟩
      · have e : s3.remainingDepth = s.remainingDepth := by rw [t3, r4, q3]
        rw [← e]
        exact u3
      · rw [u2, t2, r5, q2, events]
        simp
    · -- readObjectLoop
      intro s o hl hf
      unfold ObjLoopLog
      rw [readObjectLoop, M.bind_ok (tokOffset_eq s)]
      have hnone : ∀ s1 : PState (logged D).σ, s1.delegate.2 = s.delegate.2 → ∃ (es : Object) (p : List Event),
          s1.delegate.2 = s.delegate.2 ++ p ∧ p <+: entryEvents es
            ∧ Room cfg s.remainingDepth (Value.depthEntries es) ∧ 2 * p.length ≤ 3 * (src.length - s.offset) :=
        fun s1 h => ⟨[], [], by rw [h]; simp, List.nil_prefix, room_zero _, by simp⟩
      refine PWp.bindE (lw_tok (wp_next hl hlim hf)) (fun e s1 h => hnone s1 h) ?_
      rintro tok s1 ⟨⟨w, l, hw, hv, ha, rfl, hs, h1, h2, h3⟩, e1, e2⟩
      cases l with
      | null => exact hnone s1 e1
      | bool b => exact hnone s1 e1
      | num n => exact hnone s1 e1
      | arrC => exact hnone s1 e1
      | comma => exact hnone s1 e1
      | colon => exact hnone s1 e1
      | objO => exact hnone s1 e1
      | arrO => exact hnone s1 e1
      | objC =>
        have hok : (s1.offset ≤ src.length ∧ s.offset < s1.offset ∧ Fit g src s1.offset)
            ∧ s1.remainingDepth = s.remainingDepth
            ∧ ∃ es : Object, s1.delegate.2 = s.delegate.2 ++ entryEvents es
              ∧ Room cfg s.remainingDepth (Value.depthEntries es)
              ∧ 2 * (entryEvents es).length + 2 ≤ 3 * (s1.offset - s.offset) := by
          refine ⟨⟨h2, h1, h3⟩, e2, [], by rw [e1, entryEvents]; simp, room_zero _, ?_⟩
          rw [entryEvents]
          simp only [List.length_nil]
          omega
        simp only [Lex.token]
        split
        · exact hok
        · refine PWp.bind (lw_q (q := fun x => D.objectIsEmpty x o)) ?_
          rintro b _ rfl
          split
          · exact hok
          · exact hnone _ e1
      | str is =>
        simp only [Lex.token]
        refine PWp.bindE lw_cb ?_ ?_
        · intro e s2 q
          refine ⟨[(canonStr is, .null)], [.objectKey (canonStr is)], by rw [q, e1], ?_, ?_, ?_⟩
          · rw [entryEvents]
            exact ⟨_, rfl⟩
          · exact room_zero _
          · simp only [List.length_singleton]; omega
        rintro ⟨o, k⟩ s2 ⟨q1, q2, q3⟩
        simp only
        refine pwp_offset (D := logged D) ?_
        have hkey : ∀ s3 : PState (logged D).σ, s3.delegate.2 = s2.delegate.2 → ∃ (es : Object) (p : List Event),
            s3.delegate.2 = s.delegate.2 ++ p ∧ p <+: entryEvents es
              ∧ Room cfg s.remainingDepth (Value.depthEntries es) ∧ 2 * p.length ≤ 3 * (src.length - s.offset) := by
          intro s3 q
          refine ⟨[(canonStr is, .null)], [.objectKey (canonStr is)], by rw [q, q2, e1], ?_, ?_, ?_⟩
          · rw [entryEvents]
            exact ⟨_, rfl⟩
          · exact room_zero _
          · simp only [List.length_singleton]; omega
        refine PWp.bindE (lw_colon (wp_next (by omega) hlim (by rw [q1]; exact h3))) (fun e s3 h => hkey s3 h) ?_
        rintro tok s3 ⟨⟨w', l', hw', hv', ha', rfl, hs', h1', h2', h3'⟩, e1', e2'⟩
        split
        · exact hkey s3 e1'
        refine pwp_offset (D := logged D) ?_
        refine PWp.bindE (ihT s3 h2' h3') ?_ ?_
        · rintro e s4 ⟨v, p, r1, ⟨t, r2⟩, r3, r4⟩
          refine ⟨[(canonStr is, v)], .objectKey (canonStr is) :: p, by rw [r1, e1', q2, e1]; simp, ?_, ?_, ?_⟩
          · rw [entryEvents, ← r2]
            exact ⟨t ++ [.objectValue], by simp [entryEvents]⟩
          · intro hc
            have := r3 hc
            rw [Value.depthEntries, Value.depthEntries]
            omega
          · simp only [List.length_cons]; omega
        rintro v s4 ⟨⟨r1, r2, r3⟩, r4, x, r5, r6, r7⟩
        have hval : ∀ s5 : PState (logged D).σ, s5.delegate.2 = s4.delegate.2 ++ [.objectValue] → ∃ (es : Object) (p : List Event),
            s5.delegate.2 = s.delegate.2 ++ p ∧ p <+: entryEvents es
              ∧ Room cfg s.remainingDepth (Value.depthEntries es) ∧ 2 * p.length ≤ 3 * (src.length - s.offset) := by
          intro s5 q
          refine ⟨[(canonStr is, x)], entryEvents [(canonStr is, x)], by rw [q, r5, e1', q2, e1, entryEvents, entryEvents]; simp, List.prefix_refl _, ?_, ?_⟩
          · intro hc
            have := r6 hc
            rw [Value.depthEntries, Value.depthEntries]
            omega
          · rw [entryEvents, entryEvents]
            simp only [List.length_cons, List.length_append, List.length_nil]
            omega
        refine PWp.bindE lw_cb (fun e s5 q => hval s5 q) ?_
        rintro o s5 ⟨t1, t2, t3⟩
        refine pwp_offset (D := logged D) ?_
        refine PWp.bindE (lw_tok (wp_next (by omega) hlim (by rw [t1]; exact r3))) (fun e s6 h => hval s6 (h.trans t2)) ?_
        rintro tok s6 ⟨⟨w2, l2, hw2, hv2, ha2, rfl, hs2, h12, h22, h32⟩, e12, e22⟩
        have hlog : ∀ es : Object, s6.delegate.2 ++ entryEvents es = s.delegate.2 ++ entryEvents ((canonStr is, x) :: es) := by
          intro es
          rw [e12, t2, r5, e1', q2, e1, entryEvents]
          simp
        have hlen : ∀ (k : JsonString) (es : Object), (entryEvents ((k, x) :: es)).length = (events x).length + 2 + (entryEvents es).length := by
          intro k es
          rw [entryEvents]
          simp only [List.length_cons, List.length_append]
          omega
        split
        · refine ⟨⟨h22, by omega, h32⟩, by omega, [(canonStr is, x)], ?_, ?_, ?_⟩
          · rw [← hlog, entryEvents]; simp
          · intro hc
            have := r6 hc
            rw [Value.depthEntries, Value.depthEntries]
            omega
          · rw [hlen, entryEvents, List.length_nil]
            omega
        split
        · exact hval s6 (e12.trans t2)
        refine PWp.mono (ihOL s6 o h22 h32) ?_ ?_ (fun _ h => h)
        · rintro _ s7 ⟨⟨u1, u2, u3⟩, u4, es, u5, u6, u7⟩
          refine ⟨⟨u1, by omega, u3⟩, by omega, (canonStr is, x) :: es, by rw [u5, hlog], ?_, ?_⟩
          · intro hc
            have := r6 hc
            have := u6 hc
            rw [Value.depthEntries]
            omega
          · rw [hlen]
            omega
        · rintro _ s7 ⟨es, p, u1, ⟨t, u2⟩, u3, u4⟩
          have h0 := hlog []
          rw [entryEvents, List.append_nil] at h0
          refine ⟨(canonStr is, x) :: es, entryEvents [(canonStr is, x)] ++ p, by rw [u1, h0, List.append_assoc], ⟨t, ?_⟩, ?_, ?_⟩
          · rw [entryEvents, entryEvents, entryEvents, ← u2]
            simp
          · intro hc
            have := r6 hc
            have := u3 hc
            rw [Value.depthEntries]
            omega
          · rw [List.length_append, hlen, entryEvents, List.length_nil]
            omega
    · -- readArray
      intro s hl hf
      unfold ArrLog
      rw [readArray, M.bind_ok (tokOffset_eq s)]
      refine PWp.bindE lw_cb ?_ ?_
      · intro e s1 q
        refine ⟨[], [.beginArray], q, ?_, room_zero _, by simp⟩
        rw [events]
        exact ⟨_, rfl⟩
      rintro o s1 ⟨q1, q2, q3⟩
      refine PWp.bindE (ihAL s1 o (by omega) (by rw [q1]; exact hf)) ?_ ?_
      · rintro e s2 ⟨es, p, r1, ⟨t, r2⟩, r3, r4⟩
        refine ⟨es, .beginArray :: p, by rw [r1, q2]; simp, ⟨t ++ [.endArray], ?_⟩, by rw [← q3]; exact r3, ?_⟩
        · rw [events, ← r2]; simp
        · simp only [List.length_cons]
          omega
      rintro o s2 ⟨⟨r1, r2, r3⟩, r4, es, r5, r6, r7⟩
      have hev : (events (.array es)).length = (elemEvents es).length + 2 := by
        rw [events]; simp
      refine PWp.bindE lw_cb ?_ ?_
      · intro e s3 q
        refine ⟨es, events (.array es), ?_, List.prefix_refl _, by rw [← q3]; exact r6, by omega⟩
        rw [q, r5, q2, events]
        simp
      rintro v s3 ⟨t1, t2, t3⟩
      refine PWp.bind lw_end ?_
      rintro _ s4 ⟨u1, u2, u3⟩
      refine ⟨⟨by omega, by omega, by rw [u1, t1]; exact r3⟩, ?_, es, ?_, by rw [← q3]; exact r6, by omega⟩
      · have e : s3.remainingDepth = s.remainingDepth := by rw [t3, r4, q3]
        rw [← e]
        exact u3
      · rw [u2, t2, r5, q2, events]
        simp
    · -- readArrayLoop
      intro s a hl hf
      unfold ArrLoopLog
      rw [readArrayLoop, M.bind_ok (tokOffset_eq s)]
      have hnone : ∀ s1 : PState (logged D).σ, s1.delegate.2 = s.delegate.2 → ∃ (es : List Value) (p : List Event),
          s1.delegate.2 = s.delegate.2 ++ p ∧ p <+: elemEvents es
            ∧ Room cfg s.remainingDepth (Value.depthList es) ∧ 2 * p.length ≤ 3 * (src.length - s.offset) + 1 :=
        fun s1 h => ⟨[], [], by rw [h]; simp, List.nil_prefix, room_zero _, by simp⟩
      refine PWp.bindE (lw_tok (wp_peek hl hf)) (fun e s1 h => hnone s1 h) ?_
      rintro k s1 ⟨⟨w, hw, ha, h1, h2, h3, h4, h5⟩, e1, e2⟩
      have hmono := ha.mono
      split
      · rename_i hk
        have ha1 := h4 hk
        have hl1 := ha1.le h1
        have hf1 : Fit g src (s1.offset + 1) := fun hg => (h2 hg).adv_ascii ha1 (by decide)
        rw [M.bind_ok (M.modify_eq _ _)]
        have hok : (s1.offset + 1 ≤ src.length ∧ s.offset < s1.offset + 1 ∧ Fit g src (s1.offset + 1))
            ∧ s1.remainingDepth = s.remainingDepth
            ∧ ∃ es : List Value, s1.delegate.2 = s.delegate.2 ++ elemEvents es
              ∧ Room cfg s.remainingDepth (Value.depthList es)
              ∧ 2 * (elemEvents es).length + 2 ≤ 3 * (s1.offset + 1 - s.offset) := by
          refine ⟨⟨hl1, by omega, hf1⟩, e2, [], by rw [e1, elemEvents]; simp, room_zero _, ?_⟩
          rw [elemEvents]
          simp only [List.length_nil]
          omega
        split
        · exact hok
        · refine PWp.bind (lw_q (q := fun x => D.arrayIsEmpty x a)) ?_
          rintro b _ rfl
          split
          · exact hok
          · exact hnone _ e1
      · refine PWp.bindE (ihT s1 h1 h2) ?_ ?_
        · rintro e s4 ⟨v, p, r1, ⟨t, r2⟩, r3, r4⟩
          refine ⟨[v], p, by rw [r1, e1], ?_, ?_, by omega⟩
          · rw [elemEvents, ← r2]
            exact ⟨t ++ [.arrayValue], by simp [elemEvents]⟩
          · intro hc
            have := r3 hc
            rw [Value.depthList, Value.depthList]
            omega
        rintro v s4 ⟨⟨r1, r2, r3⟩, r4, x, r5, r6, r7⟩
        refine pwp_offset (D := logged D) ?_
        have hval : ∀ s5 : PState (logged D).σ, s5.delegate.2 = s4.delegate.2 ++ [.arrayValue] → ∃ (es : List Value) (p : List Event),
            s5.delegate.2 = s.delegate.2 ++ p ∧ p <+: elemEvents es
              ∧ Room cfg s.remainingDepth (Value.depthList es) ∧ 2 * p.length ≤ 3 * (src.length - s.offset) + 1 := by
          intro s5 q
          refine ⟨[x], elemEvents [x], by rw [q, r5, e1, elemEvents, elemEvents]; simp, List.prefix_refl _, ?_, ?_⟩
          · intro hc
            have := r6 hc
            rw [Value.depthList, Value.depthList]
            omega
          · rw [elemEvents, elemEvents]
            simp only [List.length_cons, List.length_append, List.length_nil]
            omega
        refine PWp.bindE lw_cb (fun e s5 q => hval s5 q) ?_
        rintro o s5 ⟨t1, t2, t3⟩
        refine pwp_offset (D := logged D) ?_
        refine PWp.bindE (lw_tok (wp_next (by omega) hlim (by rw [t1]; exact r3))) (fun e s6 h => hval s6 (h.trans t2)) ?_
        rintro tok s6 ⟨⟨w2, l2, hw2, hv2, ha2, rfl, hs2, h12, h22, h32⟩, e12, e22⟩
        have hlog : ∀ es : List Value, s6.delegate.2 ++ elemEvents es = s.delegate.2 ++ elemEvents (x :: es) := by
          intro es
          rw [e12, t2, r5, e1, elemEvents]
          simp
        have hlen : ∀ es : List Value, (elemEvents (x :: es)).length = (events x).length + 1 + (elemEvents es).length := by
          intro es
          rw [elemEvents]
          simp only [List.length_cons, List.length_append]
          omega
        split
        · refine ⟨⟨h22, by omega, h32⟩, by omega, [x], ?_, ?_, ?_⟩
          · rw [← hlog, elemEvents]; simp
          · intro hc
            have := r6 hc
            rw [Value.depthList, Value.depthList]
            omega
          · rw [hlen, elemEvents, List.length_nil]
            omega
        split
        · exact hval s6 (e12.trans t2)
        refine PWp.mono (ihAL s6 o h22 h32) ?_ ?_ (fun _ h => h)
        · rintro _ s7 ⟨⟨u1, u2, u3⟩, u4, es, u5, u6, u7⟩
          refine ⟨⟨u1, by omega, u3⟩, by omega, x :: es, by rw [u5, hlog], ?_, ?_⟩
          · intro hc
            have := r6 hc
            have := u6 hc
            rw [Value.depthList]
            omega
          · rw [hlen]
            omega
        · rintro _ s7 ⟨es, p, u1, ⟨t, u2⟩, u3, u4⟩
          have h0 := hlog []
          rw [elemEvents, List.append_nil] at h0
          refine ⟨x :: es, elemEvents [x] ++ p, by rw [u1, h0, List.append_assoc], ⟨t, ?_⟩, ?_, ?_⟩
          · rw [elemEvents, elemEvents, elemEvents, ← u2]
            simp
          · intro hc
            have := r6 hc
            have := u3 hc
            rw [Value.depthList]
            omega
          · rw [List.length_append, hlen, elemEvents, List.length_nil]
            omega

/-- The list of a whole run. -/
theorem parse_log (h : Input g src) (d : D.σ) :
    PWp (parseBytes g src cfg (logged D) (d, []))
      (fun _ s => ∃ v : Value, s.delegate.2 = events v ∧ (∀ n, cfg.recursionLimit = some n → v.depth ≤ n)
        ∧ 2 * (events v).length + 1 ≤ 3 * src.length)
      (fun _ s => ∃ v : Value, s.delegate.2 <+: events v ∧ (∀ n, cfg.recursionLimit = some n → v.depth ≤ n)
        ∧ 2 * s.delegate.2.length ≤ 3 * src.length) AnyPanic := by
  have hroom : ∀ dep, Room cfg (cfg.recursionLimit.getD USIZE_MAX) dep → ∀ n, cfg.recursionLimit = some n → dep ≤ n := by
    intro dep hr n hn
    have := hr (by rw [hn]; rfl)
    rw [hn] at this
    exact this
  have key := (run_log (g := g) (cfg := cfg) (D := D) h.lim (parseFuel src)).1 ⟨0, (d, []), cfg.recursionLimit.getD USIZE_MAX⟩
    (Nat.zero_le _) h.fit
  unfold parseBytes parseM
  refine PWp.bindE key ?_ ?_
  · rintro e s ⟨v, p, r1, r2, r3, r4⟩
    simp only [List.nil_append] at r1
    rw [r1]
    exact ⟨v, r2, hroom _ r3, r4⟩
  rintro a s ⟨⟨r1, r2, r3⟩, r4, v, r5, r6, r7⟩
  simp only [List.nil_append, Nat.sub_zero] at r5 r7
  have hok : ∀ s1 : PState (logged D).σ, s1.delegate.2 = s.delegate.2 → ∃ v : Value, s1.delegate.2 = events v ∧ (∀ n, cfg.recursionLimit = some n → v.depth ≤ n)
        ∧ 2 * (events v).length + 1 ≤ 3 * src.length := fun s1 e => ⟨v, e.trans r5, hroom _ r6, by omega⟩
  have herr : ∀ s1 : PState (logged D).σ, s1.delegate.2 = s.delegate.2 → ∃ v : Value, s1.delegate.2 <+: events v ∧ (∀ n, cfg.recursionLimit = some n → v.depth ≤ n)
        ∧ 2 * s1.delegate.2.length ≤ 3 * src.length := by
    intro s1 e
    rw [e, r5]
    exact ⟨v, List.prefix_refl _, hroom _ r6, by omega⟩
  have fin : ∀ (b : Bool) (s1 : PState (logged D).σ), s1 = s → PWp ((if b = true then perr (logged D) 0 ErrorKind.payloadsShouldBeObjectOrArray
        else do
          let r ← liftTok (logged D) (nextNonWs src)
          match r with
            | none => pure a
            | some (offset, _) => perr (logged D) offset ErrorKind.trailingNonWhitespace : PM (logged D) D.Value) s1)
      (fun _ s => ∃ v : Value, s.delegate.2 = events v ∧ (∀ n, cfg.recursionLimit = some n → v.depth ≤ n)
        ∧ 2 * (events v).length + 1 ≤ 3 * src.length)
      (fun _ s => ∃ v : Value, s.delegate.2 <+: events v ∧ (∀ n, cfg.recursionLimit = some n → v.depth ≤ n)
        ∧ 2 * s.delegate.2.length ≤ 3 * src.length) AnyPanic := by
    rintro b s1 rfl
    cases b with
    | true => exact herr s1 rfl
    | false =>
      refine PWp.bindE (P := fun _ s2 => s2.delegate.2 = s1.delegate.2) (Q := fun _ s2 => s2.delegate.2 = s1.delegate.2)
        ?_ (fun e s2 q => herr s2 q) ?_
      · unfold liftTok
        cases nextNonWs src s1.offset with
        | ok r o => exact rfl
        | err e o => exact rfl
        | panic p => trivial
      rintro r s2 q
      cases r with
      | none => exact hok s2 q
      | some r => exact herr s2 q
  simp only []
  split
  · exact fin false s rfl
  · refine PWp.bind (lw_q (q := fun x => D.kindOf x a)) ?_
    rintro k s1 rfl
    exact fin _ s1 rfl

/-! ## Brackets -/

theorem begins_append (a b : List Event) : begins (a ++ b) = begins a + begins b := List.countP_append ..
theorem ends_append (a b : List Event) : ends (a ++ b) = ends a + ends b := List.countP_append ..
theorem begins_cons (e : Event) (l : List Event) : begins (e :: l) = begins [e] + begins l := begins_append [e] l
theorem ends_cons (e : Event) (l : List Event) : ends (e :: l) = ends [e] + ends l := ends_append [e] l

theorem events_balanced : (∀ v : Value, begins (events v) = ends (events v))
    ∧ (∀ es : Object, begins (entryEvents es) = ends (entryEvents es))
    ∧ ∀ vs : List Value, begins (elemEvents vs) = ends (elemEvents vs) := by
  apply Value.induct
  · rfl
  · intro b; rfl
  · intro b; rfl
  · intro b; rfl
  · intro es ih
    rw [events, begins_cons, ends_cons, begins_append, ends_append, ih]
    show 1 + (_ + 0) = 0 + (_ + 1)
    omega
  · intro es ih
    rw [events, begins_cons, ends_cons, begins_append, ends_append, ih]
    show 1 + (_ + 0) = 0 + (_ + 1)
    omega
  · rfl
  · intro k v es hv hes
    rw [entryEvents, begins_cons, ends_cons, begins_append, ends_append, begins_cons .objectValue, ends_cons .objectValue, hv, hes]
    rfl
  · rfl
  · intro v es hv hes
    rw [elemEvents, begins_append, ends_append, begins_cons .arrayValue, ends_cons .arrayValue, hv, hes]
    rfl

/-- splitting a prefix of `a ++ b` -/
theorem prefix_append_cases {α : Type} {p a b : List α} (h : p <+: a ++ b) : p <+: a ∨ ∃ q, p = a ++ q ∧ q <+: b := by
  obtain ⟨t, ht⟩ := h
  rcases List.append_eq_append_iff.mp ht with ⟨x, h1, h2⟩ | ⟨x, h1, h2⟩
  · exact .inl ⟨x, h1.symm⟩
  · exact .inr ⟨x, h1, ⟨t, h2.symm⟩⟩

theorem events_open : (∀ v : Value, ∀ p, p <+: events v → ends p ≤ begins p ∧ begins p ≤ ends p + v.depth)
    ∧ (∀ es : Object, ∀ p, p <+: entryEvents es → ends p ≤ begins p ∧ begins p ≤ ends p + Value.depthEntries es)
    ∧ ∀ vs : List Value, ∀ p, p <+: elemEvents vs → ends p ≤ begins p ∧ begins p ≤ ends p + Value.depthList vs := by
  have scal : ∀ (e : Event) (dep : Nat), begins [e] = 0 → ends [e] = 0 → ∀ p, p <+: [e] → ends p ≤ begins p ∧ begins p ≤ ends p + dep := by
    intro e dep h1 h2 p hp
    rcases List.prefix_cons_iff.mp hp with rfl | ⟨t, rfl, ht⟩
    · exact ⟨Nat.le_refl _, Nat.zero_le _⟩
    · rw [List.prefix_nil] at ht
      subst ht
      rw [h1, h2]
      omega
  have scal' : ∀ {e : Event}, begins [e] = 0 → ends [e] = 1 → ∀ p, p <+: [e] → begins p = 0 ∧ ends p ≤ 1 := by
    intro e h1 h2 p hp
    rcases List.prefix_cons_iff.mp hp with rfl | ⟨t, rfl, ht⟩
    · exact ⟨rfl, Nat.zero_le _⟩
    · rw [List.prefix_nil] at ht
      subst ht
      rw [h1, h2]
      omega
  apply Value.induct
  · exact scal _ _ rfl rfl
  · intro b; exact scal _ _ rfl rfl
  · intro b; exact scal _ _ rfl rfl
  · intro b; exact scal _ _ rfl rfl
  · intro es ih p hp
    rw [events] at hp
    rw [Value.depth]
    rcases List.prefix_cons_iff.mp hp with rfl | ⟨t, rfl, ht⟩
    · exact ⟨Nat.le_refl _, Nat.zero_le _⟩
    rw [begins_cons, ends_cons]
    have b1 : begins [Event.beginObject] = 1 := rfl
    have b2 : ends [Event.beginObject] = 0 := rfl
    rcases prefix_append_cases ht with h | ⟨q, rfl, h⟩
    · have := ih t h
      omega
    · have := scal' rfl rfl q h
      have := events_balanced.2.1 es
      rw [begins_append, ends_append]
      omega
  · intro es ih p hp
    rw [events] at hp
    rw [Value.depth]
    rcases List.prefix_cons_iff.mp hp with rfl | ⟨t, rfl, ht⟩
    · exact ⟨Nat.le_refl _, Nat.zero_le _⟩
    rw [begins_cons, ends_cons]
    have b1 : begins [Event.beginArray] = 1 := rfl
    have b2 : ends [Event.beginArray] = 0 := rfl
    rcases prefix_append_cases ht with h | ⟨q, rfl, h⟩
    · have := ih t h
      omega
    · have := scal' rfl rfl q h
      have := events_balanced.2.2 es
      rw [begins_append, ends_append]
      omega
  · intro p hp
    rw [entryEvents, List.prefix_nil] at hp
    subst hp
    exact ⟨Nat.le_refl _, Nat.zero_le _⟩
  · intro k v es hv hes p hp
    rw [entryEvents] at hp
    rw [Value.depthEntries]
    rcases List.prefix_cons_iff.mp hp with rfl | ⟨t, rfl, ht⟩
    · exact ⟨Nat.le_refl _, Nat.zero_le _⟩
    rw [begins_cons, ends_cons]
    have b1 : begins [Event.objectKey k] = 0 := rfl
    have b2 : ends [Event.objectKey k] = 0 := rfl
    rcases prefix_append_cases ht with h | ⟨q, rfl, h⟩
    · have := hv t h
      omega
    · have := events_balanced.1 v
      rw [begins_append, ends_append]
      rcases List.prefix_cons_iff.mp h with rfl | ⟨t', rfl, ht'⟩
      · have : begins ([] : List Event) = 0 := rfl
        have : ends ([] : List Event) = 0 := rfl
        omega
      · have := hes t' ht'
        rw [begins_cons .objectValue, ends_cons .objectValue]
        have b1 : begins [Event.objectValue] = 0 := rfl
        have b2 : ends [Event.objectValue] = 0 := rfl
        omega
  · intro p hp
    rw [elemEvents, List.prefix_nil] at hp
    subst hp
    exact ⟨Nat.le_refl _, Nat.zero_le _⟩
  · intro v es hv hes p hp
    rw [elemEvents] at hp
    rw [Value.depthList]
    rcases prefix_append_cases hp with h | ⟨q, rfl, h⟩
    · have := hv p h
      omega
    · have := events_balanced.1 v
      rw [begins_append, ends_append]
      rcases List.prefix_cons_iff.mp h with rfl | ⟨t', rfl, ht'⟩
      · have : begins ([] : List Event) = 0 := rfl
        have : ends ([] : List Event) = 0 := rfl
        omega
      · have := hes t' ht'
        rw [begins_cons .arrayValue, ends_cons .arrayValue]
        have b1 : begins [Event.arrayValue] = 0 := rfl
        have b2 : ends [Event.arrayValue] = 0 := rfl
        omega

end
end JustJson
