import Verif.Lemmas.Stack
import Verif.Lemmas.DocRead
/-! # How much stack a call needs, exactly -/

namespace JustJson
open Spec

/-- There is a number of calls that the run needs; with fewer, the stack is full. `R` holds between a result and that number. -/
def Need {σ ε α : Type} (R : α → Nat → Prop) (mS : Nat → M σ ε α) (m : M σ ε α) (s : σ) : Prop :=
  ∃ n, (∀ stk, mS stk s = if n ≤ stk then m s else .panic .stack) ∧ ∀ a s', m s = .ok a s' → R a n

section
variable {σ ε α β : Type}

theorem Need.const {R : α → Nat → Prop} {m : M σ ε α} {s : σ} (h : ∀ a s', m s = .ok a s' → R a 0) : Need R (fun _ => m) m s :=
  ⟨0, fun stk => by rw [if_pos (Nat.zero_le _)], h⟩

theorem Need.mono {R R' : α → Nat → Prop} {mS : Nat → M σ ε α} {m : M σ ε α} {s : σ} (h : Need R mS m s) (hr : ∀ a n, R a n → R' a n) :
    Need R' mS m s := by
  obtain ⟨n, h1, h2⟩ := h
  exact ⟨n, h1, fun a s' ha => hr a n (h2 a s' ha)⟩

theorem Need.bind {Q : α → Nat → Prop} {R : β → Nat → Prop} {mS : Nat → M σ ε α} {m : M σ ε α} {fS : Nat → α → M σ ε β} {f : α → M σ ε β}
    {s : σ} (h : Need Q mS m s) (hf : ∀ a s' n, Q a n → Need (fun b k => R b (max n k)) (fun stk => fS stk a) (f a) s') :
    Need R (fun stk => mS stk >>= fS stk) (m >>= f) s := by
  obtain ⟨n, h1, h2⟩ := h
  cases hm : m s with
  | ok a s' =>
    obtain ⟨k, h3, h4⟩ := hf a s' n (h2 a s' hm)
    refine ⟨max n k, fun stk => ?_, fun b s'' hb => ?_⟩
    · show (mS stk >>= fS stk) s = _
      rw [M.bind_eq, M.bind_eq, h1, hm]
      by_cases hn : n ≤ stk
      · rw [if_pos hn]
        show fS stk a s' = _
        have h3 : fS stk a s' = _ := h3 stk
        rw [h3]
        by_cases hk : k ≤ stk
        · rw [if_pos hk, if_pos (by omega)]
        · rw [if_neg hk, if_neg (by omega)]
      · rw [if_neg hn, if_neg (by omega)]
    · rw [M.bind_eq, hm] at hb
      exact h4 b s'' hb
  | err e s' =>
    refine ⟨n, fun stk => ?_, fun b s'' hb => ?_⟩
    · show (mS stk >>= fS stk) s = _
      rw [M.bind_eq, M.bind_eq, h1, hm]
      by_cases hn : n ≤ stk
      · rw [if_pos hn, if_pos hn]
      · rw [if_neg hn, if_neg hn]
    · rw [M.bind_eq, hm] at hb; cases hb
  | panic p =>
    refine ⟨n, fun stk => ?_, fun b s'' hb => ?_⟩
    · show (mS stk >>= fS stk) s = _
      rw [M.bind_eq, M.bind_eq, h1, hm]
      by_cases hn : n ≤ stk
      · rw [if_pos hn, if_pos hn]
      · rw [if_neg hn, if_neg hn]
    · rw [M.bind_eq, hm] at hb; cases hb

/-- a first step that calls nothing -/
theorem Need.step {R : β → Nat → Prop} {m : M σ ε α} {fS : Nat → α → M σ ε β} {f : α → M σ ε β}
    {s : σ} (hf : ∀ a s', m s = .ok a s' → Need R (fun stk => fS stk a) (f a) s') :
    Need R (fun stk => m >>= fS stk) (m >>= f) s := by
  cases hm : m s with
  | ok a s' =>
    obtain ⟨n, h1, h2⟩ := hf a s' hm
    refine ⟨n, fun stk => ?_, fun b s'' hb => ?_⟩
    · show (m >>= fS stk) s = _
      rw [M.bind_eq, M.bind_eq, hm]; exact h1 stk
    · rw [M.bind_eq, hm] at hb; exact h2 b s'' hb
  | err e s' =>
    refine ⟨0, fun stk => ?_, fun b s'' hb => ?_⟩
    · show (m >>= fS stk) s = _
      rw [M.bind_eq, M.bind_eq, hm, if_pos (Nat.zero_le _)]
    · rw [M.bind_eq, hm] at hb; cases hb
  | panic p =>
    refine ⟨0, fun stk => ?_, fun b s'' hb => ?_⟩
    · show (m >>= fS stk) s = _
      rw [M.bind_eq, M.bind_eq, hm, if_pos (Nat.zero_le _)]
    · rw [M.bind_eq, hm] at hb; cases hb

theorem Need.mapErr {R : α → Nat → Prop} {mS : Nat → M σ ε α} {m : M σ ε α} {s : σ} {k : ε → ε} (h : Need R mS m s) :
    Need R (fun stk => M.mapErr k (mS stk)) (M.mapErr k m) s := by
  obtain ⟨n, h1, h2⟩ := h
  refine ⟨n, fun stk => ?_, fun a s' ha => ?_⟩
  · show M.mapErr k (mS stk) s = _
    unfold M.mapErr
    rw [h1]
    by_cases hn : n ≤ stk
    · rw [if_pos hn, if_pos hn]
    · rw [if_neg hn, if_neg hn]
  · apply h2 a s'
    unfold M.mapErr at ha
    cases hm : m s with
    | ok b s1 => rw [hm] at ha; exact ha
    | err e s1 => rw [hm] at ha; cases ha
    | panic p => rw [hm] at ha; cases ha

/-- one call -/
theorem Need.call {R : α → Nat → Prop} {mS bS : Nat → M σ ε α} {m : M σ ε α} {s : σ} (h : Need (fun a n => R a (n + 1)) bS m s)
    (h0 : mS 0 s = .panic .stack) (h1 : ∀ stk, mS (stk + 1) s = bS stk s) : Need R mS m s := by
  obtain ⟨n, h2, h3⟩ := h
  refine ⟨n + 1, fun stk => ?_, h3⟩
  cases stk with
  | zero => rw [h0, if_neg (by omega)]
  | succ stk =>
    rw [h1, h2]
    by_cases hn : n ≤ stk
    · rw [if_pos hn, if_pos (by omega)]
    · rw [if_neg hn, if_neg (by omega)]

theorem Need.throw {R : α → Nat → Prop} {e : ε} {s : σ} : Need R (fun _ => (M.throw e : M σ ε α)) (M.throw e) s :=
  .const fun _ _ h => by cases h

theorem Need.panic {R : α → Nat → Prop} {p : Panic} {s : σ} : Need R (fun _ => (M.panic p : M σ ε α)) (M.panic p) s :=
  .const fun _ _ h => by cases h

theorem Need.pure {R : α → Nat → Prop} {a : α} {s : σ} (h : R a 0) : Need R (fun _ => (Pure.pure a : M σ ε α)) (Pure.pure a) s :=
  .const fun _ _ e => by injection e with e _; subst e; exact h

end

section
variable [Arch] {g : Bool} {src : List UInt8} {cfg : ParseConfig}

/-- How many calls it takes to make a value, for a delegate. -/
structure Gauge (D : Delegate) where
  V : D.Value → Nat → Prop
  O : D.Object → Nat → Prop
  A : D.Array → Nat → Prop
  null : ∀ d a d', D.null d = .ok a d' → V a 1
  boolean : ∀ b d a d', D.boolean b d = .ok a d' → V a 1
  number : ∀ b d a d', D.number b d = .ok a d' → V a 1
  string : ∀ b d a d', D.string b d = .ok a d' → V a 1
  beginObject : ∀ d a d', D.beginObject d = .ok a d' → O a 0
  objectKey : ∀ o k d a d' n, D.objectKey o k d = .ok a d' → O o n → O a.1 n
  objectValue : ∀ o k v d a d' n m, D.objectValue o k v d = .ok a d' → O o n → V v m → O a (max n m)
  endObject : ∀ o d a d' n, D.endObject o d = .ok a d' → O o n → V a (n + 1)
  beginArray : ∀ d a d', D.beginArray d = .ok a d' → A a 0
  arrayValue : ∀ o v d a d' n m, D.arrayValue o v d = .ok a d' → A o n → V v m → A a (max n m)
  endArray : ∀ o d a d' n, D.endArray o d = .ok a d' → A o n → V a (n + 1)

/-- for any delegate -/
def Gauge.any (D : Delegate) : Gauge D where
  V _ _ := True
  O _ _ := True
  A _ _ := True
  null := by intros; trivial
  boolean := by intros; trivial
  number := by intros; trivial
  string := by intros; trivial
  beginObject := by intros; trivial
  objectKey := by intros; trivial
  objectValue := by intros; trivial
  endObject := by intros; trivial
  beginArray := by intros; trivial
  arrayValue := by intros; trivial
  endArray := by intros; trivial

theorem heightList_append (a b : List Value) : Value.heightList (a ++ b) = max (Value.heightList a) (Value.heightList b) := by
  induction a with
  | nil => rw [List.nil_append, Value.heightList]; omega
  | cons v a ih => rw [List.cons_append, Value.heightList, Value.heightList, ih]; omega

theorem heightEntries_append (a b : List (JsonString × Value)) :
    Value.heightEntries (a ++ b) = max (Value.heightEntries a) (Value.heightEntries b) := by
  induction a with
  | nil => rw [List.nil_append, Value.heightEntries]; omega
  | cons v a ih => obtain ⟨k, v⟩ := v; rw [List.cons_append, Value.heightEntries, Value.heightEntries, ih]; omega

/-- for `Value`: the height -/
def Gauge.value : Gauge valueParser where
  V v n := v.height = n
  O o n := Value.heightEntries o = n
  A a n := Value.heightList a = n
  null := by intro d a d' h; injection h with h _; subst h; rfl
  boolean := by intro b d a d' h; injection h with h _; subst h; rfl
  number := by intro b d a d' h; injection h with h _; subst h; rfl
  string := by intro b d a d' h; injection h with h _; subst h; rfl
  beginObject := by intro d a d' h; injection h with h _; subst h; rfl
  objectKey := by intro o k d a d' n h ho; injection h with h _; subst h; exact ho
  objectValue := by
    intro o k v d a d' n m h ho hv
    injection h with h _
    subst h
    rw [heightEntries_append, ho, Value.heightEntries, Value.heightEntries, hv]; omega
  endObject := by intro o d a d' n h ho; injection h with h _; subst h; rw [Value.height, ho]; omega
  beginArray := by intro d a d' h; injection h with h _; subst h; rfl
  arrayValue := by
    intro o v d a d' n m h ho hv
    injection h with h _
    subst h
    rw [heightList_append, ho, Value.heightList, Value.heightList, hv]; omega
  endArray := by intro o d a d' n h ho; injection h with h _; subst h; rw [Value.height, ho]; omega

theorem liftD_inv {D : Delegate} {α : Type} {off : Nat} {m : M D.σ D.Err α} {s s' : PState D.σ} {a : α} (h : liftD D off m s = .ok a s') :
    ∃ d', m s.delegate = .ok a d' := by
  unfold liftD at h
  split at h
  · next a' d' hm => injection h with h _; subst h; exact ⟨d', hm⟩
  · cases h
  · cases h

theorem gauge_need {D : Delegate} (G : Gauge D) : ∀ (fuel : Nat),
    (∀ s, Need G.V (readTokensS g src cfg D fuel) (readTokens g src cfg D fuel) s)
    ∧ (∀ s, Need (fun v n => G.V v (n + 1)) (readObjectS g src cfg D fuel) (readObject g src cfg D fuel) s)
    ∧ (∀ s o n, G.O o n → Need (fun o' k => G.O o' (max n k)) (fun stk => readObjectLoopS g src cfg D fuel stk o) (readObjectLoop g src cfg D fuel o) s)
    ∧ (∀ s, Need (fun v n => G.V v (n + 1)) (readArrayS g src cfg D fuel) (readArray g src cfg D fuel) s)
    ∧ (∀ s o n, G.A o n → Need (fun o' k => G.A o' (max n k)) (fun stk => readArrayLoopS g src cfg D fuel stk o) (readArrayLoop g src cfg D fuel o) s) := by
  intro fuel
  induction fuel with
  | zero =>
    refine ⟨fun s => ?_, fun s => ?_, fun s o n _ => ?_, fun s => ?_, fun s o n _ => ?_⟩
    · refine ⟨0, fun stk => ?_, fun a s' h => ?_⟩
      · rw [if_pos (Nat.zero_le _), readTokensS, readTokens]
      · rw [readTokens] at h; cases h
    · refine ⟨0, fun stk => ?_, fun a s' h => ?_⟩
      · rw [if_pos (Nat.zero_le _), readObjectS, readObject]
      · rw [readObject] at h; cases h
    · refine ⟨0, fun stk => ?_, fun a s' h => ?_⟩
      · show readObjectLoopS g src cfg D 0 stk o s = _
        rw [if_pos (Nat.zero_le _), readObjectLoopS, readObjectLoop]
      · rw [readObjectLoop] at h; cases h
    · refine ⟨0, fun stk => ?_, fun a s' h => ?_⟩
      · rw [if_pos (Nat.zero_le _), readArrayS, readArray]
      · rw [readArray] at h; cases h
    · refine ⟨0, fun stk => ?_, fun a s' h => ?_⟩
      · show readArrayLoopS g src cfg D 0 stk o s = _
        rw [if_pos (Nat.zero_le _), readArrayLoopS, readArrayLoop]
      · rw [readArrayLoop] at h; cases h
  | succ fuel ih =>
    obtain ⟨iT, iO, iOL, iA, iAL⟩ := ih
    refine ⟨fun s => ?_, fun s => ?_, fun s o n ho => ?_, fun s => ?_, fun s o n ho => ?_⟩
    · refine Need.call (bS := fun stk => (do
        let offset ← tokOffset D
        let token ← liftTok D (nextOrEof src g)
        match token with
        | .null => liftD D offset D.null
        | .object =>
          beginNest cfg D offset
          M.mapErr (eofTo .unclosedObject) (readObjectS g src cfg D fuel stk)
        | .array =>
          beginNest cfg D offset
          M.mapErr (eofTo .unclosedArray) (readArrayS g src cfg D fuel stk)
        | .objectEnd => perr D offset (.unexpected 0x7D)
        | .arrayEnd => perr D offset (.unexpected 0x5D)
        | .colon => perr D offset (.unexpected 0x3A)
        | .comma => perr D offset (.unexpected 0x2C)
        | .bool b => liftD D offset (D.boolean b)
        | .string s => liftD D offset (D.string s)
        | .number n => liftD D offset (D.number n))) ?_ (by rw [readTokensS]; rfl) (fun stk => by rw [readTokensS]; rfl)
      rw [readTokens]
      refine Need.step fun offset s1 _ => ?_
      refine Need.step fun tok s2 _ => ?_
      cases tok with
      | null => exact .const fun a s' h => by obtain ⟨d', h⟩ := liftD_inv h; exact G.null _ _ _ h
      | bool b => exact .const fun a s' h => by obtain ⟨d', h⟩ := liftD_inv h; exact G.boolean _ _ _ _ h
      | string b => exact .const fun a s' h => by obtain ⟨d', h⟩ := liftD_inv h; exact G.string _ _ _ _ h
      | number b => exact .const fun a s' h => by obtain ⟨d', h⟩ := liftD_inv h; exact G.number _ _ _ _ h
      | objectEnd => exact .throw
      | arrayEnd => exact .throw
      | colon => exact .throw
      | comma => exact .throw
      | object => exact Need.step fun _ s3 _ => (iO s3).mapErr
      | array => exact Need.step fun _ s3 _ => (iA s3).mapErr
    · rw [readObject]
      refine Need.mono (R := fun v n => G.V v (n + 1)) ?_ fun _ _ h => h
      have : readObjectS g src cfg D (fuel + 1) = fun stk => (do
          let offset ← tokOffset D
          let object ← liftD D offset D.beginObject
          let object ← readObjectLoopS g src cfg D fuel stk object
          let offset ← tokOffset D
          let value ← liftD D offset (D.endObject object)
          endNest cfg D
          return value) := by funext stk; rw [readObjectS]
      rw [this]
      refine Need.step fun offset s1 _ => ?_
      refine Need.step fun o s2 h2 => ?_
      obtain ⟨d2, h2⟩ := liftD_inv h2
      refine Need.bind (iOL s2 o 0 (G.beginObject _ _ _ h2)) fun o' s3 n ho' => ?_
      refine Need.step fun offset s4 _ => ?_
      refine Need.step fun v s5 h5 => ?_
      obtain ⟨d5, h5⟩ := liftD_inv h5
      refine Need.step fun _ s6 _ => Need.pure ?_
      have := G.endObject _ _ _ _ _ h5 ho'
      simpa using this
    · rw [readObjectLoop]
      have : (fun stk => readObjectLoopS g src cfg D (fuel + 1) stk o) = fun stk => (do
          let offset ← tokOffset D
          let token ← liftTok D (nextOrEof src g)
          match token with
          | .objectEnd =>
            if cfg.allowTrailingCommas then return o
            else if ← liftQ D (D.objectIsEmpty · o) then return o
            else perr D offset .illegalTrailingComma
          | .string key =>
            let (object, key) ← liftD D offset (D.objectKey o key)
            let offset ← tokOffset D
            let token ← nextColon g src D
            if token ≠ .colon then perr D offset .expectedColon
            else
              let offset ← tokOffset D
              let value ← readTokensS g src cfg D fuel stk
              let object ← liftD D offset (D.objectValue object key value)
              let offset ← tokOffset D
              let token ← liftTok D (nextOrEof src g)
              if token = .objectEnd then return object
              else if token ≠ .comma then perr D offset .expectedCommaOrEndOfObject
              else readObjectLoopS g src cfg D fuel stk object
          | .array | .bool _ | .null | .number _ | .object => perr D offset .objectKeysMustBeStrings
          | _ => perr D offset .expectedObjectKey) := by funext stk; rw [readObjectLoopS]; rfl
      rw [this]
      refine Need.step fun offset s1 _ => ?_
      refine Need.step fun tok s2 _ => ?_
      have done : G.O o (max n 0) := by rw [Nat.max_zero]; exact ho
      cases tok with
      | null => exact .throw
      | bool b => exact .throw
      | number b => exact .throw
      | object => exact .throw
      | array => exact .throw
      | arrayEnd => exact .throw
      | colon => exact .throw
      | comma => exact .throw
      | objectEnd =>
        dsimp only
        by_cases hc : cfg.allowTrailingCommas = true
        · rw [if_pos hc]; exact .pure done
        · rw [if_neg hc]
          refine Need.step fun b s3 _ => ?_
          cases b
          · exact .throw
          · exact .pure done
      | string key =>
        dsimp only
        refine Need.step fun r s3 h3 => ?_
        obtain ⟨d3, h3⟩ := liftD_inv h3
        obtain ⟨o1, key'⟩ := r
        have ho1 := G.objectKey _ _ _ _ _ _ h3 ho
        refine Need.step fun offset s4 _ => ?_
        refine Need.step fun tok s5 _ => ?_
        by_cases hc : tok ≠ .colon
        · rw [if_pos hc]; simp only [if_pos hc]; exact .throw
        rw [if_neg hc]; simp only [if_neg hc]
        refine Need.step fun offset s6 _ => ?_
        refine Need.bind (iT s6) fun v s7 m hv => ?_
        refine Need.step fun o2 s8 h8 => ?_
        obtain ⟨d8, h8⟩ := liftD_inv h8
        have ho2 := G.objectValue _ _ _ _ _ _ _ _ h8 ho1 hv
        have done2 : G.O o2 (max n (max m 0)) := by rw [Nat.max_zero]; exact ho2
        refine Need.step fun offset s9 _ => ?_
        refine Need.step fun tok s10 _ => ?_
        by_cases h1 : tok = .objectEnd
        · rw [if_pos h1]; simp only [if_pos h1]; exact .pure done2
        rw [if_neg h1]; simp only [if_neg h1]
        by_cases h2 : tok ≠ .comma
        · rw [if_pos h2]; simp only [if_pos h2]; exact .throw
        rw [if_neg h2]; simp only [if_neg h2]
        refine (iOL s10 o2 _ ho2).mono fun o3 k h => ?_
        rw [← Nat.max_assoc]; exact h
    · rw [readArray]
      have : readArrayS g src cfg D (fuel + 1) = fun stk => (do
          let offset ← tokOffset D
          let array ← liftD D offset D.beginArray
          let array ← readArrayLoopS g src cfg D fuel stk array
          let value ← liftD D offset (D.endArray array)
          endNest cfg D
          return value) := by funext stk; rw [readArrayS]
      rw [this]
      refine Need.step fun offset s1 _ => ?_
      refine Need.step fun o s2 h2 => ?_
      obtain ⟨d2, h2⟩ := liftD_inv h2
      refine Need.bind (iAL s2 o 0 (G.beginArray _ _ _ h2)) fun o' s3 n ho' => ?_
      refine Need.step fun v s5 h5 => ?_
      obtain ⟨d5, h5⟩ := liftD_inv h5
      refine Need.step fun _ s6 _ => Need.pure ?_
      have := G.endArray _ _ _ _ _ h5 ho'
      simpa using this
    · rw [readArrayLoop]
      have : (fun stk => readArrayLoopS g src cfg D (fuel + 1) stk o) = fun stk => (do
          let offset ← tokOffset D
          if (← liftTok D (tokPeek src)) = some .arrayEnd then
            M.modify fun s => { s with offset := s.offset + 1 }
            if cfg.allowTrailingCommas then return o
            else if ← liftQ D (D.arrayIsEmpty · o) then return o
            else perr D offset .illegalTrailingComma
          else
            let value ← readTokensS g src cfg D fuel stk
            let offset ← tokOffset D
            let array ← liftD D offset (D.arrayValue o value)
            let offset ← tokOffset D
            let token ← liftTok D (nextOrEof src g)
            if token = .arrayEnd then return array
            else if token ≠ .comma then perr D offset .expectedCommaOrEndOfArray
            else readArrayLoopS g src cfg D fuel stk array) := by funext stk; rw [readArrayLoopS]
      rw [this]
      have done : G.A o (max n 0) := by rw [Nat.max_zero]; exact ho
      refine Need.step fun offset s1 _ => ?_
      refine Need.step fun p s2 _ => ?_
      by_cases hp : p = some .arrayEnd
      · rw [if_pos hp]; simp only [if_pos hp]
        refine Need.step fun _ s3 _ => ?_
        by_cases hc : cfg.allowTrailingCommas = true
        · rw [if_pos hc]; exact .pure done
        · rw [if_neg hc]
          refine Need.step fun b s3 _ => ?_
          cases b
          · exact .throw
          · exact .pure done
      · rw [if_neg hp]; simp only [if_neg hp]
        refine Need.bind (iT s2) fun v s7 m hv => ?_
        refine Need.step fun offset s9 _ => ?_
        refine Need.step fun o2 s8 h8 => ?_
        obtain ⟨d8, h8⟩ := liftD_inv h8
        have ho2 := G.arrayValue _ _ _ _ _ _ _ h8 ho hv
        have done2 : G.A o2 (max n (max m 0)) := by rw [Nat.max_zero]; exact ho2
        refine Need.step fun offset s9 _ => ?_
        refine Need.step fun tok s10 _ => ?_
        by_cases h1 : tok = .arrayEnd
        · rw [if_pos h1]; simp only [if_pos h1]; exact .pure done2
        rw [if_neg h1]; simp only [if_neg h1]
        by_cases h2 : tok ≠ .comma
        · rw [if_pos h2]; simp only [if_pos h2]; exact .throw
        rw [if_neg h2]; simp only [if_neg h2]
        refine (iAL s10 o2 _ ho2).mono fun o3 k h => ?_
        rw [← Nat.max_assoc]; exact h

theorem parse_need {D : Delegate} (G : Gauge D) (d : D.σ) :
    ∃ n, (∀ stk, parseBytesS g src cfg D stk d = if n ≤ stk then parseBytes g src cfg D d else .panic .stack)
      ∧ ∀ a s', parseBytes g src cfg D d = .ok a s' → G.V a n := by
  have h : Need G.V (fun stk => parseMS g src cfg D stk) (parseM g src cfg D) ⟨0, d, cfg.recursionLimit.getD USIZE_MAX⟩ := by
    unfold parseMS parseM
    refine Need.bind ((gauge_need (g := g) (src := src) (cfg := cfg) G (parseFuel src)).1 _) fun v s' n hv => ?_
    refine Need.const fun a s'' ha => ?_
    rw [Nat.max_zero]
    have fin : ∀ (r : Bool) (s2 : PState D.σ), ((if r then perr D 0 .payloadsShouldBeObjectOrArray
        else (do
          match ← liftTok D (nextNonWs src) with
          | none => return v
          | some (offset, _) => perr D offset .trailingNonWhitespace)) : PM D D.Value) s2 = .ok a s'' → G.V a n := by
      intro r s2 ha
      cases r with
      | true => cases ha
      | false =>
        rw [if_neg (by decide)] at ha
        obtain ⟨x, s3, _, ha⟩ := bind_ok_inv ha
        cases x with
        | none => injection ha with ha _; subst ha; exact hv
        | some p => cases ha
    by_cases hc : cfg.allowAllTypesAtRoot = true
    · rw [if_pos hc] at ha
      exact fin false s' ha
    · rw [if_neg hc] at ha
      obtain ⟨k, s2, _, ha⟩ := bind_ok_inv ha
      exact fin _ s2 ha
  exact h

end
end JustJson
