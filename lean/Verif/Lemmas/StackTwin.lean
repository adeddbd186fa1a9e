import Verif.Lemmas.StackNeed
/-! # The stack needed by any delegate is that needed for a `Value` -/

namespace JustJson
open Spec

set_option linter.unusedSectionVars false

section
variable [Arch] {g : Bool} {src : List UInt8} {cfg : ParseConfig} {D : Delegate}

/-- Two runs, one with a delegate `D` and one that makes a `Value`: if both succeed, they are at the same place and the first needs a number
of calls that `R` tells from the results. -/
def StkTwin {α β : Type} (R : α → β → Nat → Prop) (mS : Nat → PM D α) (m : PM D α) (mV : PM valueParser β)
    (s : PState D.σ) (t : PState valueParser.σ) : Prop :=
  ∀ a s1 b t1, m s = .ok a s1 → mV t = .ok b t1 →
    ∃ n, (∀ stk, mS stk s = if n ≤ stk then .ok a s1 else .panic .stack) ∧ s1.offset = t1.offset ∧ R a b n

theorem StkTwin.const {α β : Type} {R : α → β → Nat → Prop} {m : PM D α} {mV : PM valueParser β} {s : PState D.σ} {t : PState valueParser.σ}
    (h : ∀ a s1 b t1, m s = .ok a s1 → mV t = .ok b t1 → s1.offset = t1.offset ∧ R a b 0) : StkTwin R (fun _ => m) m mV s t := by
  intro a s1 b t1 h1 h2
  exact ⟨0, fun stk => by rw [if_pos (Nat.zero_le _)]; exact h1, h a s1 b t1 h1 h2⟩

theorem StkTwin.bind {α β γ δ : Type} {Q : α → β → Nat → Prop} {R : γ → δ → Nat → Prop} {mS : Nat → PM D α} {m : PM D α} {mV : PM valueParser β}
    {fS : Nat → α → PM D γ} {f : α → PM D γ} {fV : β → PM valueParser δ} {s : PState D.σ} {t : PState valueParser.σ}
    (h : StkTwin Q mS m mV s t)
    (hf : ∀ a b s1 t1 n, s1.offset = t1.offset → Q a b n → StkTwin (fun x y k => R x y (max n k)) (fun stk => fS stk a) (f a) (fV b) s1 t1) :
    StkTwin R (fun stk => mS stk >>= fS stk) (m >>= f) (mV >>= fV) s t := by
  intro x s2 y t2 hx hy
  obtain ⟨a, s1, h1, h2⟩ := bind_ok_inv hx
  obtain ⟨b, t1, h3, h4⟩ := bind_ok_inv hy
  obtain ⟨n, h5, h6, h7⟩ := h a s1 b t1 h1 h3
  obtain ⟨k, h8, h9, h10⟩ := hf a b s1 t1 n h6 h7 x s2 y t2 h2 h4
  refine ⟨max n k, fun stk => ?_, h9, h10⟩
  show (mS stk >>= fS stk) s = _
  rw [M.bind_eq, h5]
  by_cases hn : n ≤ stk
  · rw [if_pos hn]
    show fS stk a s1 = _
    have h8 : fS stk a s1 = _ := h8 stk
    rw [h8]
    by_cases hk : k ≤ stk
    · rw [if_pos hk, if_pos (by omega)]
    · rw [if_neg hk, if_neg (by omega)]
  · rw [if_neg hn, if_neg (by omega)]

/-- a first step that calls nothing -/
theorem StkTwin.step {α β γ δ : Type} {Q : α → β → Prop} {R : γ → δ → Nat → Prop} {m : PM D α} {mV : PM valueParser β}
    {fS : Nat → α → PM D γ} {f : α → PM D γ} {fV : β → PM valueParser δ} {s : PState D.σ} {t : PState valueParser.σ}
    (h : ∀ a s1 b t1, m s = .ok a s1 → mV t = .ok b t1 → s1.offset = t1.offset ∧ Q a b)
    (hf : ∀ a b s1 t1, s1.offset = t1.offset → Q a b → StkTwin R (fun stk => fS stk a) (f a) (fV b) s1 t1) :
    StkTwin R (fun stk => m >>= fS stk) (m >>= f) (mV >>= fV) s t := by
  refine StkTwin.bind (Q := fun a b n => n = 0 ∧ Q a b) (StkTwin.const fun a s1 b t1 h1 h2 => ⟨(h a s1 b t1 h1 h2).1, rfl, (h a s1 b t1 h1 h2).2⟩)
    fun a b s1 t1 n ho hq => ?_
  obtain ⟨rfl, hq⟩ := hq
  have := hf a b s1 t1 ho hq
  simpa only [Nat.zero_max] using this

theorem StkTwin.mapErr {α β : Type} {R : α → β → Nat → Prop} {mS : Nat → PM D α} {m : PM D α} {mV : PM valueParser β}
    {s : PState D.σ} {t : PState valueParser.σ} {k : Error D.Err → Error D.Err} {k' : Error valueParser.Err → Error valueParser.Err}
    (h : StkTwin R mS m mV s t) : StkTwin R (fun stk => M.mapErr k (mS stk)) (M.mapErr k m) (M.mapErr k' mV) s t := by
  intro a s1 b t1 h1 h2
  have h1' : m s = .ok a s1 := by
    unfold M.mapErr at h1
    cases hm : m s with
    | ok b s1 => rw [hm] at h1; exact h1
    | err e s1 => rw [hm] at h1; cases h1
    | panic p => rw [hm] at h1; cases h1
  have h2' : mV t = .ok b t1 := by
    unfold M.mapErr at h2
    cases hm : mV t with
    | ok b s1 => rw [hm] at h2; exact h2
    | err e s1 => rw [hm] at h2; cases h2
    | panic p => rw [hm] at h2; cases h2
  obtain ⟨n, h3, h4⟩ := h a s1 b t1 h1' h2'
  refine ⟨n, fun stk => ?_, h4⟩
  show M.mapErr k (mS stk) s = _
  unfold M.mapErr
  rw [h3]
  by_cases hn : n ≤ stk
  · simp only [if_pos hn]
  · simp only [if_neg hn]

theorem StkTwin.call {α β : Type} {R : α → β → Nat → Prop} {mS bS : Nat → PM D α} {m : PM D α} {mV : PM valueParser β}
    {s : PState D.σ} {t : PState valueParser.σ} (h : StkTwin (fun a b n => R a b (n + 1)) bS m mV s t)
    (h0 : mS 0 s = .panic .stack) (h1 : ∀ stk, mS (stk + 1) s = bS stk s) : StkTwin R mS m mV s t := by
  intro a s1 b t1 ha hb
  obtain ⟨n, h2, h3, h4⟩ := h a s1 b t1 ha hb
  refine ⟨n + 1, fun stk => ?_, h3, h4⟩
  cases stk with
  | zero => rw [h0, if_neg (by omega)]
  | succ stk =>
    rw [h1, h2]
    by_cases hn : n ≤ stk
    · rw [if_pos hn, if_pos (by omega)]
    · rw [if_neg hn, if_neg (by omega)]

theorem StkTwin.mono {α β : Type} {R R' : α → β → Nat → Prop} {mS : Nat → PM D α} {m : PM D α} {mV : PM valueParser β}
    {s : PState D.σ} {t : PState valueParser.σ} (h : StkTwin R mS m mV s t) (hr : ∀ a b n, R a b n → R' a b n) : StkTwin R' mS m mV s t := by
  intro a s1 b t1 ha hb
  obtain ⟨n, h2, h3, h4⟩ := h a s1 b t1 ha hb
  exact ⟨n, h2, h3, hr _ _ _ h4⟩

theorem StkTwin.fail {α β : Type} {R : α → β → Nat → Prop} {m : PM D α} {mV : PM valueParser β} {s : PState D.σ} {t : PState valueParser.σ}
    (h : ∀ b t1, mV t ≠ .ok b t1) : StkTwin R (fun _ => m) m mV s t := fun _ _ b t1 _ h2 => absurd h2 (h b t1)

theorem StkTwin.pure {α β : Type} {R : α → β → Nat → Prop} {a : α} {b : β} {s : PState D.σ} {t : PState valueParser.σ}
    (ho : s.offset = t.offset) (h : R a b 0) : StkTwin R (fun _ => (Pure.pure a : PM D α)) (Pure.pure a) (Pure.pure b) s t :=
  .const fun _ _ _ _ h1 h2 => by
    injection h1 with h1 h1'; injection h2 with h2 h2'; subst h1 h1' h2 h2'; exact ⟨ho, h⟩

theorem twin_offset {s : PState D.σ} {t : PState valueParser.σ} (ho : s.offset = t.offset) :
    ∀ a s1 b t1, tokOffset D s = .ok a s1 → tokOffset valueParser t = .ok b t1 → s1.offset = t1.offset ∧ True := by
  intro a s1 b t1 h1 h2
  injection h1 with _ h1; injection h2 with _ h2; subst h1 h2; exact ⟨ho, trivial⟩

theorem liftD_offset {D : Delegate} {α : Type} {off : Nat} {m : M D.σ D.Err α} {s s' : PState D.σ} {a : α} (h : liftD D off m s = .ok a s') :
    s'.offset = s.offset := by
  unfold liftD at h
  split at h
  · injection h with _ h; subst h; rfl
  · cases h
  · cases h

theorem liftQ_offset {D : Delegate} {α : Type} {m : D.σ → Res α} {s s' : PState D.σ} {a : α} (h : liftQ D m s = .ok a s') :
    s'.offset = s.offset := by
  unfold liftQ at h
  split at h
  · injection h with _ h; subst h; rfl
  · cases h

theorem twin_tok {α : Type} {m : TokM α} {s : PState D.σ} {t : PState valueParser.σ} (ho : s.offset = t.offset) :
    ∀ a s1 b t1, liftTok D m s = .ok a s1 → liftTok valueParser m t = .ok b t1 → s1.offset = t1.offset ∧ a = b := by
  intro a s1 b t1 h1 h2
  unfold liftTok at h1 h2
  rw [ho] at h1
  cases hm : m t.offset with
  | ok x off =>
    rw [hm] at h1 h2
    injection h1 with h1 h1'; injection h2 with h2 h2'; subst h1 h1' h2 h2'
    exact ⟨rfl, rfl⟩
  | err e off => rw [hm] at h1; cases h1
  | panic p => rw [hm] at h1; cases h1

theorem twin_colon {s : PState D.σ} {t : PState valueParser.σ} (ho : s.offset = t.offset) :
    ∀ a s1 b t1, nextColon g src D s = .ok a s1 → nextColon g src valueParser t = .ok b t1 → s1.offset = t1.offset ∧ a = b := by
  intro a s1 b t1 h1 h2
  unfold nextColon at h1 h2
  rw [ho] at h1
  cases hm : nextOrEof src g t.offset with
  | ok x off =>
    rw [hm] at h1 h2
    injection h1 with h1 h1'; injection h2 with h2 h2'; subst h1 h1' h2 h2'
    exact ⟨rfl, rfl⟩
  | err e off => rw [hm] at h1; cases h1
  | panic p => rw [hm] at h1; cases h1

theorem nest_offset {D : Delegate} {off : Nat} {s s' : PState D.σ} {a : Unit} :
    (beginNest cfg D off s = .ok a s' → s'.offset = s.offset) ∧ (endNest cfg D s = .ok a s' → s'.offset = s.offset) := by
  constructor
  · intro h
    unfold beginNest at h
    split at h
    · split at h
      · injection h with _ h; subst h; rfl
      · cases h
    · injection h with _ h; subst h; rfl
  · intro h
    unfold endNest at h
    split at h
    · injection h with _ h; subst h; rfl
    · injection h with _ h; subst h; rfl

theorem twin_read : ∀ (fuel : Nat),
    (∀ s t, s.offset = t.offset → StkTwin (fun _ v n => v.height = n) (readTokensS g src cfg D fuel) (readTokens g src cfg D fuel)
      (readTokens g src cfg valueParser fuel) s t)
    ∧ (∀ s t, s.offset = t.offset → StkTwin (fun _ v n => v.height = n + 1) (readObjectS g src cfg D fuel) (readObject g src cfg D fuel)
      (readObject g src cfg valueParser fuel) s t)
    ∧ (∀ s t o oV, s.offset = t.offset → StkTwin (fun _ oV' k => Value.heightEntries oV' = max (Value.heightEntries oV) k)
        (fun stk => readObjectLoopS g src cfg D fuel stk o) (readObjectLoop g src cfg D fuel o) (readObjectLoop g src cfg valueParser fuel oV) s t)
    ∧ (∀ s t, s.offset = t.offset → StkTwin (fun _ v n => v.height = n + 1) (readArrayS g src cfg D fuel) (readArray g src cfg D fuel)
      (readArray g src cfg valueParser fuel) s t)
    ∧ (∀ s t o oV, s.offset = t.offset → StkTwin (fun _ oV' k => Value.heightList oV' = max (Value.heightList oV) k)
        (fun stk => readArrayLoopS g src cfg D fuel stk o) (readArrayLoop g src cfg D fuel o) (readArrayLoop g src cfg valueParser fuel oV) s t) := by
  intro fuel
  induction fuel with
  | zero =>
    refine ⟨fun s t _ => ?_, fun s t _ => ?_, fun s t o oV _ => ?_, fun s t _ => ?_, fun s t o oV _ => ?_⟩
    · intro a s1 b t1 h _; rw [readTokens] at h; cases h
    · intro a s1 b t1 h _; rw [readObject] at h; cases h
    · intro a s1 b t1 h _; rw [readObjectLoop] at h; cases h
    · intro a s1 b t1 h _; rw [readArray] at h; cases h
    · intro a s1 b t1 h _; rw [readArrayLoop] at h; cases h
  | succ fuel ih =>
    obtain ⟨iT, iO, iOL, iA, iAL⟩ := ih
    refine ⟨fun s t ho => ?_, fun s t ho => ?_, fun s t o oV ho => ?_, fun s t ho => ?_, fun s t o oV ho => ?_⟩
    · refine StkTwin.call (bS := fun stk => (do
        let offset ← tokOffset D
        let token ← liftTok D (nextOrEof src g)
        match token with
        | .null => liftD D offset D.null
        | .object =>
          beginNest cfg D offset
          M.mapErr (eofTo .unclosedObject) (readObjectS g src cfg D fuel stk)
        | .array =>
          beginNest cfg D offset
          M.mapErr (eofTo .unclosedArray) (readArrayS g src cfg D fuel stk)
        | .objectEnd => perr D offset (.unexpected 0x7D)
        | .arrayEnd => perr D offset (.unexpected 0x5D)
        | .colon => perr D offset (.unexpected 0x3A)
        | .comma => perr D offset (.unexpected 0x2C)
        | .bool b => liftD D offset (D.boolean b)
        | .string s => liftD D offset (D.string s)
        | .number n => liftD D offset (D.number n))) ?_ (by rw [readTokensS]; rfl) (fun stk => by rw [readTokensS]; rfl)
      rw [readTokens, readTokens]
      refine StkTwin.step (twin_offset ho) fun off off' s1 t1 ho _ => ?_
      refine StkTwin.step (twin_tok ho) fun tok tok' s2 t2 ho ht => ?_
      subst ht
      have scalar : ∀ {m : M D.σ D.Err D.Value} {v : Value}, v.height = 1 →
          StkTwin (fun _ v n => v.height = n + 1) (fun _ => liftD D off m) (liftD D off m) (liftD valueParser off' (M.pure v)) s2 t2 := by
        intro m v hv
        refine .const fun a s3 b t3 h1 h2 => ?_
        injection h2 with h2 h2'
        subst h2 h2'
        exact ⟨(liftD_offset h1).trans ho, hv⟩
      cases tok with
      | null => exact scalar rfl
      | bool b => exact scalar rfl
      | string b => exact scalar rfl
      | number b => exact scalar rfl
      | objectEnd => exact .fail fun _ _ h => by cases h
      | arrayEnd => exact .fail fun _ _ h => by cases h
      | colon => exact .fail fun _ _ h => by cases h
      | comma => exact .fail fun _ _ h => by cases h
      | object =>
        exact StkTwin.step (Q := fun _ _ => True) (fun a s3 b t3 h1 h2 => ⟨by rw [nest_offset.1 h1, nest_offset.1 h2, ho], trivial⟩)
          fun _ _ s3 t3 ho _ => (iO s3 t3 ho).mapErr
      | array =>
        exact StkTwin.step (Q := fun _ _ => True) (fun a s3 b t3 h1 h2 => ⟨by rw [nest_offset.1 h1, nest_offset.1 h2, ho], trivial⟩)
          fun _ _ s3 t3 ho _ => (iA s3 t3 ho).mapErr
    · rw [readObject, readObject]
      have : readObjectS g src cfg D (fuel + 1) = fun stk => (do
          let offset ← tokOffset D
          let object ← liftD D offset D.beginObject
          let object ← readObjectLoopS g src cfg D fuel stk object
          let offset ← tokOffset D
          let value ← liftD D offset (D.endObject object)
          endNest cfg D
          return value) := by funext stk; rw [readObjectS]
      rw [this]
      refine StkTwin.step (twin_offset ho) fun off off' s1 t1 ho _ => ?_
      refine StkTwin.step (Q := fun _ oV => oV = []) (fun a s3 b t3 h1 h2 => ?_) fun o oV s2 t2 ho hoV => ?_
      · injection h2 with h2 h2'; subst h2 h2'; exact ⟨(liftD_offset h1).trans ho, rfl⟩
      subst hoV
      refine StkTwin.bind (iOL s2 t2 o [] ho) fun o' oV' s3 t3 n ho hn => ?_
      refine StkTwin.step (twin_offset ho) fun off off' s1 t1 ho _ => ?_
      refine StkTwin.step (Q := fun _ v => v = .object oV') (fun a s3 b t3 h1 h2 => ?_) fun v vV s4 t4 ho hv => ?_
      · injection h2 with h2 h2'; subst h2 h2'; exact ⟨(liftD_offset h1).trans ho, rfl⟩
      subst hv
      refine StkTwin.step (Q := fun _ _ => True) (fun a s3 b t3 h1 h2 => ⟨by rw [(nest_offset (off := 0)).2 h1, (nest_offset (off := 0)).2 h2, ho], trivial⟩) fun _ _ s5 t5 ho _ => ?_
      refine StkTwin.pure ho ?_
      rw [Value.height, hn, Value.heightEntries]; omega
    · rw [readObjectLoop, readObjectLoop]
      have : (fun stk => readObjectLoopS g src cfg D (fuel + 1) stk o) = fun stk => (do
          let offset ← tokOffset D
          let token ← liftTok D (nextOrEof src g)
          match token with
          | .objectEnd =>
            if cfg.allowTrailingCommas then return o
            else if ← liftQ D (D.objectIsEmpty · o) then return o
            else perr D offset .illegalTrailingComma
          | .string key =>
            let (object, key) ← liftD D offset (D.objectKey o key)
            let offset ← tokOffset D
            let token ← nextColon g src D
            if token ≠ .colon then perr D offset .expectedColon
            else
              let offset ← tokOffset D
              let value ← readTokensS g src cfg D fuel stk
              let object ← liftD D offset (D.objectValue object key value)
              let offset ← tokOffset D
              let token ← liftTok D (nextOrEof src g)
              if token = .objectEnd then return object
              else if token ≠ .comma then perr D offset .expectedCommaOrEndOfObject
              else readObjectLoopS g src cfg D fuel stk object
          | .array | .bool _ | .null | .number _ | .object => perr D offset .objectKeysMustBeStrings
          | _ => perr D offset .expectedObjectKey) := by funext stk; rw [readObjectLoopS]; rfl
      rw [this]
      refine StkTwin.step (twin_offset ho) fun off off' s1 t1 ho _ => ?_
      refine StkTwin.step (twin_tok ho) fun tok tok' s2 t2 ho ht => ?_
      subst ht
      have done : Value.heightEntries oV = max (Value.heightEntries oV) 0 := by omega
      cases tok with
      | null => exact .fail fun _ _ h => by cases h
      | bool b => exact .fail fun _ _ h => by cases h
      | number b => exact .fail fun _ _ h => by cases h
      | object => exact .fail fun _ _ h => by cases h
      | array => exact .fail fun _ _ h => by cases h
      | arrayEnd => exact .fail fun _ _ h => by cases h
      | colon => exact .fail fun _ _ h => by cases h
      | comma => exact .fail fun _ _ h => by cases h
      | objectEnd =>
        dsimp only
        by_cases hc : cfg.allowTrailingCommas = true
        · rw [if_pos hc, if_pos hc]; exact .pure ho done
        · rw [if_neg hc, if_neg hc]
          refine StkTwin.step (Q := fun _ _ => True) (fun a s3 b t3 h1 h2 => ⟨by rw [liftQ_offset h1, liftQ_offset h2, ho], trivial⟩) fun b b' s3 t3 ho _ => ?_
          cases b'
          · intro _ _ _ _ _ h; cases h
          · cases b
            · intro _ _ _ _ h _; cases h
            · exact .pure ho done
      | string key =>
        dsimp only
        refine StkTwin.step (Q := fun _ r => r = (oV, key)) (fun a s3 b t3 h1 h2 => ?_) fun r rV s3 t3 ho hr => ?_
        · injection h2 with h2 h2'; subst h2 h2'; exact ⟨(liftD_offset h1).trans ho, rfl⟩
        subst hr
        obtain ⟨o1, key'⟩ := r
        refine StkTwin.step (twin_offset ho) fun off off' s1 t1 ho _ => ?_
        refine StkTwin.step (twin_colon ho) fun tok tok' s2 t2 ho ht => ?_
        subst ht
        by_cases hc : tok ≠ .colon
        · rw [if_pos hc, if_pos hc]; simp only [if_pos hc]; exact .fail fun _ _ h => by cases h
        rw [if_neg hc, if_neg hc]; simp only [if_neg hc]
        refine StkTwin.step (twin_offset ho) fun off off' s1 t1 ho _ => ?_
        refine StkTwin.bind (iT _ _ ho) fun v vV s7 t7 m ho hv => ?_
        refine StkTwin.step (Q := fun _ r => r = oV ++ [(key, vV)]) (fun a s3 b t3 h1 h2 => ?_) fun o2 oV2 s3 t3 ho hr => ?_
        · injection h2 with h2 h2'; subst h2 h2'; exact ⟨(liftD_offset h1).trans ho, rfl⟩
        subst hr
        have hh : Value.heightEntries (oV ++ [(key, vV)]) = max (Value.heightEntries oV) m := by
          rw [heightEntries_append, Value.heightEntries, Value.heightEntries, hv]; omega
        refine StkTwin.step (twin_offset ho) fun off off' s1 t1 ho _ => ?_
        refine StkTwin.step (twin_tok ho) fun tok tok' s2 t2 ho ht => ?_
        subst ht
        by_cases h1 : tok = .objectEnd
        · rw [if_pos h1, if_pos h1]; simp only [if_pos h1]; exact .pure ho (by rw [hh]; omega)
        rw [if_neg h1, if_neg h1]; simp only [if_neg h1]
        by_cases h2 : tok ≠ .comma
        · rw [if_pos h2, if_pos h2]; simp only [if_pos h2]; exact .fail fun _ _ h => by cases h
        rw [if_neg h2, if_neg h2]; simp only [if_neg h2]
        refine (iOL _ _ o2 _ ho).mono fun _ oV3 k h => ?_
        rw [h, hh]; omega
    · rw [readArray, readArray]
      have : readArrayS g src cfg D (fuel + 1) = fun stk => (do
          let offset ← tokOffset D
          let array ← liftD D offset D.beginArray
          let array ← readArrayLoopS g src cfg D fuel stk array
          let value ← liftD D offset (D.endArray array)
          endNest cfg D
          return value) := by funext stk; rw [readArrayS]
      rw [this]
      refine StkTwin.step (twin_offset ho) fun off off' s1 t1 ho _ => ?_
      refine StkTwin.step (Q := fun _ oV => oV = []) (fun a s3 b t3 h1 h2 => ?_) fun o oV s2 t2 ho hoV => ?_
      · injection h2 with h2 h2'; subst h2 h2'; exact ⟨(liftD_offset h1).trans ho, rfl⟩
      subst hoV
      refine StkTwin.bind (iAL s2 t2 o [] ho) fun o' oV' s3 t3 n ho hn => ?_
      refine StkTwin.step (Q := fun _ v => v = .array oV') (fun a s3 b t3 h1 h2 => ?_) fun v vV s4 t4 ho hv => ?_
      · injection h2 with h2 h2'; subst h2 h2'; exact ⟨(liftD_offset h1).trans ho, rfl⟩
      subst hv
      refine StkTwin.step (Q := fun _ _ => True) (fun a s3 b t3 h1 h2 => ⟨by rw [(nest_offset (off := 0)).2 h1, (nest_offset (off := 0)).2 h2, ho], trivial⟩) fun _ _ s5 t5 ho _ => ?_
      refine StkTwin.pure ho ?_
      rw [Value.height, hn, Value.heightList]; omega
    · rw [readArrayLoop, readArrayLoop]
      have : (fun stk => readArrayLoopS g src cfg D (fuel + 1) stk o) = fun stk => (do
          let offset ← tokOffset D
          if (← liftTok D (tokPeek src)) = some .arrayEnd then
            M.modify fun s => { s with offset := s.offset + 1 }
            if cfg.allowTrailingCommas then return o
            else if ← liftQ D (D.arrayIsEmpty · o) then return o
            else perr D offset .illegalTrailingComma
          else
            let value ← readTokensS g src cfg D fuel stk
            let offset ← tokOffset D
            let array ← liftD D offset (D.arrayValue o value)
            let offset ← tokOffset D
            let token ← liftTok D (nextOrEof src g)
            if token = .arrayEnd then return array
            else if token ≠ .comma then perr D offset .expectedCommaOrEndOfArray
            else readArrayLoopS g src cfg D fuel stk array) := by funext stk; rw [readArrayLoopS]
      rw [this]
      have done : Value.heightList oV = max (Value.heightList oV) 0 := by omega
      refine StkTwin.step (twin_offset ho) fun off off' s1 t1 ho _ => ?_
      refine StkTwin.step (twin_tok ho) fun tok tok' s2 t2 ho ht => ?_
      subst ht
      by_cases hp : tok = some .arrayEnd
      · rw [if_pos hp, if_pos hp]; simp only [if_pos hp]
        refine StkTwin.step (Q := fun _ _ => True) (fun a s3 b t3 h1 h2 => ?_) fun _ _ s3 t3 ho _ => ?_
        · injection h1 with _ h1; injection h2 with _ h2; subst h1 h2
          exact ⟨by show s2.offset + 1 = t2.offset + 1; rw [ho], trivial⟩
        by_cases hc : cfg.allowTrailingCommas = true
        · rw [if_pos hc, if_pos hc]; exact .pure ho done
        · rw [if_neg hc, if_neg hc]
          refine StkTwin.step (Q := fun _ _ => True) (fun a s3 b t3 h1 h2 => ⟨by rw [liftQ_offset h1, liftQ_offset h2, ho], trivial⟩) fun b b' s3 t3 ho _ => ?_
          cases b'
          · intro _ _ _ _ _ h; cases h
          · cases b
            · intro _ _ _ _ h _; cases h
            · exact .pure ho done
      · rw [if_neg hp, if_neg hp]; simp only [if_neg hp]
        refine StkTwin.bind (iT _ _ ho) fun v vV s7 t7 m ho hv => ?_
        refine StkTwin.step (twin_offset ho) fun off off' s1 t1 ho _ => ?_
        refine StkTwin.step (Q := fun _ r => r = oV ++ [vV]) (fun a s3 b t3 h1 h2 => ?_) fun o2 oV2 s3 t3 ho hr => ?_
        · injection h2 with h2 h2'; subst h2 h2'; exact ⟨(liftD_offset h1).trans ho, rfl⟩
        subst hr
        have hh : Value.heightList (oV ++ [vV]) = max (Value.heightList oV) m := by
          rw [heightList_append, Value.heightList, Value.heightList, hv]; omega
        refine StkTwin.step (twin_offset ho) fun off off' s1 t1 ho _ => ?_
        refine StkTwin.step (twin_tok ho) fun tok tok' s2 t2 ho ht => ?_
        subst ht
        by_cases h1 : tok = .arrayEnd
        · rw [if_pos h1, if_pos h1]; simp only [if_pos h1]; exact .pure ho (by rw [hh]; omega)
        rw [if_neg h1, if_neg h1]; simp only [if_neg h1]
        by_cases h2 : tok ≠ .comma
        · rw [if_pos h2, if_pos h2]; simp only [if_pos h2]; exact .fail fun _ _ h => by cases h
        rw [if_neg h2, if_neg h2]; simp only [if_neg h2]
        refine (iAL _ _ o2 _ ho).mono fun _ oV3 k h => ?_
        rw [h, hh]; omega

/-- a parse that succeeded read a value first -/
theorem parse_read {D : Delegate} {d : D.σ} {a : D.Value} {s : PState D.σ} (h : parseBytes g src cfg D d = .ok a s) :
    ∃ s1, readTokens g src cfg D (parseFuel src) ⟨0, d, cfg.recursionLimit.getD USIZE_MAX⟩ = .ok a s1 := by
  unfold parseBytes parseM at h
  obtain ⟨v, s1, h1, ha⟩ := bind_ok_inv h
  have fin : ∀ (r : Bool) (s2 : PState D.σ), ((if r then perr D 0 .payloadsShouldBeObjectOrArray
      else (do
        match ← liftTok D (nextNonWs src) with
        | none => return v
        | some (offset, _) => perr D offset .trailingNonWhitespace)) : PM D D.Value) s2 = .ok a s → a = v := by
    intro r s2 ha
    cases r with
    | true => cases ha
    | false =>
      rw [if_neg (by decide)] at ha
      obtain ⟨x, s3, _, ha⟩ := bind_ok_inv ha
      cases x with
      | none => injection ha with ha _; exact ha.symm
      | some p => cases ha
  by_cases hc : cfg.allowAllTypesAtRoot = true
  · rw [if_pos hc] at ha
    obtain rfl := fin false s1 ha
    exact ⟨s1, h1⟩
  · rw [if_neg hc] at ha
    obtain ⟨k, s2, _, ha⟩ := bind_ok_inv ha
    obtain rfl := fin _ s2 ha
    exact ⟨s1, h1⟩

theorem parse_twin {d : D.σ} {a : D.Value} {s : PState D.σ} {v : Value} {t : PState valueParser.σ}
    (h : parseBytes g src cfg D d = .ok a s) (hv : parseBytes g src cfg valueParser () = .ok v t) (stk : Nat) :
    parseBytesS g src cfg D stk d = if v.height ≤ stk then .ok a s else .panic .stack := by
  obtain ⟨s1, h1⟩ := parse_read h
  obtain ⟨t1, h2⟩ := parse_read hv
  obtain ⟨n, h3, _, h4⟩ := (twin_read (g := g) (src := src) (cfg := cfg) (D := D) (parseFuel src)).1 _ _ rfl _ _ _ _ h1 h2
  have h4 : v.height = n := h4
  unfold parseBytesS parseMS
  unfold parseBytes parseM at h
  rw [M.bind_ok h1] at h
  have h3 := h3 stk
  rw [h4]
  by_cases hn : n ≤ stk
  · rw [if_pos hn] at h3 ⊢
    rw [M.bind_ok h3]
    exact h
  · rw [if_neg hn] at h3 ⊢
    rw [M.bind_eq, h3]

end
end JustJson
