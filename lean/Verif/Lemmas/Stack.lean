import Verif.Model.Stack
import Verif.Spec.Stack
import Verif.Lemmas.Cost
import Verif.Lemmas.Delegates
/-! # The recursive functions on a stack of bounded size -/

namespace JustJson
open Spec

theorem openers_drop (src : List UInt8) {a b : Nat} (h : a ≤ b) : openers (src.drop b) ≤ openers (src.drop a) := by
  have : src.drop b = (src.drop a).drop (b - a) := by rw [List.drop_drop]; congr 1; omega
  rw [this]
  exact (List.drop_sublist _ _).countP_le

section
variable [Arch] {g : Bool} {src : List UInt8} {cfg : ParseConfig} {D : Delegate}

theorem next_mono {off off' : Nat} {tok : Token} (h : nextOrEof src g off = .ok tok off') : off ≤ off' := by
  by_cases hl : off ≤ src.length
  · have := sim_next (src := src) (t := ⟨off, 0⟩) g hl
    unfold TMirror Mirror at this
    cases hm : nextOrEofC src g ⟨off, 0⟩ with
    | ok a t =>
      rw [hm] at this
      obtain ⟨h1, h2, _⟩ := this
      have h1 : nextOrEof src g off = _ := h1
      rw [h] at h1
      injection h1 with _ h1
      have h1 : off' = t.offset := h1
      have : off < t.offset := h2
      omega
    | err e t =>
      rw [hm] at this
      have h1 : nextOrEof src g off = _ := this.1
      rw [h] at h1
      cases h1
    | panic p =>
      rw [hm] at this
      have h1 : nextOrEof src g off = _ := this
      rw [h] at h1
      cases h1
  · exfalso
    have hd : src.drop off = [] := List.drop_eq_nil_of_le (by omega)
    unfold nextOrEof at h
    obtain ⟨a, s1, h1, _⟩ := bind_ok_inv h
    unfold readNonWs at h1
    obtain ⟨_, s2, h2, h3⟩ := bind_ok_inv h1
    rw [skipWs_eq, hd] at h2
    injection h2 with _ h2
    subst h2
    have : src[off]? = none := List.getElem?_eq_none (by omega)
    simp only [runLen, Nat.add_zero] at h3
    unfold read at h3
    rw [read_none this] at h3
    cases h3

theorem readPeek_opener {o off off' : Nat} {b : UInt8} {tok : Token} (h : readPeek src g o b off = .ok tok off')
    (ht : tok = .object ∨ tok = .array) : (b = 0x5B ∨ b = 0x7B) ∧ off' = off := by
  have str : ∀ {m : TokM JsonString} {s s' : Nat}, (do return .string (← m) : TokM Token) s ≠ .ok tok s' := by
    intro m s s' hh
    obtain ⟨a, _, _, h2⟩ := bind_ok_inv hh
    injection h2 with h2 _
    rcases ht with rfl | rfl <;> cases h2
  have num : ∀ {m : TokM JsonNumber} {s s' : Nat}, (do return .number (← m) : TokM Token) s ≠ .ok tok s' := by
    intro m s s' hh
    obtain ⟨a, _, _, h2⟩ := bind_ok_inv hh
    injection h2 with h2 _
    rcases ht with rfl | rfl <;> cases h2
  have lit : ∀ {m : TokM Unit} {s s' : Nat} {k : Token}, k ≠ .object → k ≠ .array → (m >>= fun _ => (pure k : TokM Token)) s ≠ .ok tok s' := by
    intro m s s' k hk1 hk2 hh
    obtain ⟨a, _, _, h2⟩ := bind_ok_inv hh
    injection h2 with h2 _
    rcases ht with rfl | rfl
    · exact hk1 h2
    · exact hk2 h2
  have no : ∀ {k : Token} {s s' : Nat}, k ≠ .object → k ≠ .array → (M.pure k : TokM Token) s ≠ .ok tok s' := by
    intro k s s' hk1 hk2 hh
    injection hh with h2 _
    rcases ht with rfl | rfl
    · exact hk1 h2
    · exact hk2 h2
  unfold readPeek at h
  by_cases h0 : b = 0x7B
  · rw [if_pos h0] at h; injection h with _ h; exact ⟨.inr h0, h.symm⟩
  rw [if_neg h0] at h
  by_cases c0 : b = 0x7D
  · rw [if_pos c0] at h; exact absurd h (no (by simp) (by simp))
  rw [if_neg c0] at h
  by_cases c1 : b = 0x5B
  · rw [if_pos c1] at h; injection h with _ h; exact ⟨.inl c1, h.symm⟩
  rw [if_neg c1] at h
  by_cases c2 : b = 0x5D
  · rw [if_pos c2] at h; exact absurd h (no (by simp) (by simp))
  rw [if_neg c2] at h
  by_cases c3 : b = 0x2C
  · rw [if_pos c3] at h; exact absurd h (no (by simp) (by simp))
  rw [if_neg c3] at h
  by_cases c4 : b = 0x3A
  · rw [if_pos c4] at h; exact absurd h (no (by simp) (by simp))
  rw [if_neg c4] at h
  by_cases c5 : b = 0x22
  · rw [if_pos c5] at h; exact absurd h str
  rw [if_neg c5] at h
  by_cases c6 : b = 0x2D
  · rw [if_pos c6] at h; exact absurd h num
  rw [if_neg c6] at h
  by_cases c7 : b = 0x30
  · rw [if_pos c7] at h; exact absurd h num
  rw [if_neg c7] at h
  by_cases c8 : 0x31 ≤ b ∧ b ≤ 0x39
  · rw [if_pos c8] at h; exact absurd h num
  rw [if_neg c8] at h
  by_cases c9 : b = 0x74
  · rw [if_pos c9] at h; exact absurd h (lit (by simp) (by simp))
  rw [if_neg c9] at h
  by_cases c10 : b = 0x66
  · rw [if_pos c10] at h; exact absurd h (lit (by simp) (by simp))
  rw [if_neg c10] at h
  by_cases c11 : b = 0x6E
  · rw [if_pos c11] at h; exact absurd h (lit (by simp) (by simp))
  rw [if_neg c11] at h
  cases h

theorem next_opener {off off' : Nat} {tok : Token} (h : nextOrEof src g off = .ok tok off') (ht : tok = .object ∨ tok = .array) :
    openers (src.drop off') < openers (src.drop off) := by
  by_cases hl : off ≤ src.length
  · unfold nextOrEof at h
    obtain ⟨w, hw, h1 | ⟨b, t, h1, hb, ha, hd⟩⟩ := ws_cases hl
    · rw [M.bind_err (readNonWs_nil hw h1.1 hl)] at h
      cases h
    · rw [M.bind_ok (readNonWs_cons hw h1 hb)] at h
      have ht' : src.drop (off + w.length + 1) = t := drop_succ_of_cons hd
      have key : (b = 0x5B ∨ b = 0x7B) ∧ off' = off + w.length + 1 := readPeek_opener h ht
      obtain ⟨hb', rfl⟩ := key
      rw [ht', h1]
      unfold openers
      rw [List.countP_append, List.countP_cons, if_pos (by rcases hb' with rfl | rfl <;> decide)]
      omega
  · have hd : src.drop off = [] := List.drop_eq_nil_of_le (by omega)
    have := next_mono h
    exfalso
    have h' := h
    unfold nextOrEof at h
    obtain ⟨a, s1, h1, _⟩ := bind_ok_inv h
    unfold readNonWs at h1
    obtain ⟨_, s2, h2, h3⟩ := bind_ok_inv h1
    rw [skipWs_eq, hd] at h2
    injection h2 with _ h2
    subst h2
    have : src[off]? = none := List.getElem?_eq_none (by omega)
    simp only [runLen, Nat.add_zero] at h3
    unfold read at h3
    rw [read_none this] at h3
    cases h3

theorem peek_mono {off off' : Nat} {k : Option PeekableTokenKind} (h : tokPeek src off = .ok k off') : off ≤ off' := by
  rw [tokPeek_eq] at h
  injection h with _ h
  omega

/-! ## Enough room -/

/-- two runs are the same, and what holds if they succeed -/
def Same {α : Type} (Q : α → PState D.σ → Prop) (mS m : PM D α) (s : PState D.σ) : Prop :=
  mS s = m s ∧ ∀ a s', m s = .ok a s' → Q a s'

theorem Same.refl {α : Type} {Q : α → PState D.σ → Prop} {m : PM D α} {s : PState D.σ} (h : ∀ a s', m s = .ok a s' → Q a s') :
    Same Q m m s := ⟨rfl, h⟩

theorem Same.bind {α β : Type} {Q : α → PState D.σ → Prop} {R : β → PState D.σ → Prop} {mS m : PM D α} {fS f : α → PM D β}
    {s : PState D.σ} (h : Same Q mS m s) (hf : ∀ a s', Q a s' → Same R (fS a) (f a) s') : Same R (mS >>= fS) (m >>= f) s := by
  obtain ⟨h1, h2⟩ := h
  constructor
  · rw [M.bind_eq, M.bind_eq, h1]
    cases hm : m s with
    | ok a s' => exact (hf a s' (h2 a s' hm)).1
    | err e s' => rfl
    | panic p => rfl
  · intro b s'' hb
    obtain ⟨a, s', h3, h4⟩ := bind_ok_inv hb
    exact (hf a s' (h2 a s' h3)).2 b s'' h4

theorem Same.mapErr {α : Type} {Q : α → PState D.σ → Prop} {mS m : PM D α} {s : PState D.σ} {k : Error D.Err → Error D.Err}
    (h : Same Q mS m s) : Same Q (M.mapErr k mS) (M.mapErr k m) s := by
  obtain ⟨h1, h2⟩ := h
  constructor
  · unfold M.mapErr; rw [h1]
  · intro a s' ha
    apply h2
    unfold M.mapErr at ha
    cases hm : m s with
    | ok b s1 => rw [hm] at ha; exact ha
    | err e s1 => rw [hm] at ha; cases ha
    | panic p => rw [hm] at ha; cases ha

theorem Same.mono {α : Type} {Q R : α → PState D.σ → Prop} {mS m : PM D α} {s : PState D.σ} (h : Same Q mS m s)
    (hq : ∀ a s', Q a s' → R a s') : Same R mS m s := ⟨h.1, fun a s' ha => hq a s' (h.2 a s' ha)⟩

variable (src cfg) in
/-- there is room for the calls still to come: by the recursion limit, or by the brackets left -/
def Fits (stk : Nat) (s : PState D.σ) : Prop :=
  (cfg.recursionLimit.isSome = true ∧ s.remainingDepth < stk) ∨ openers (src.drop s.offset) < stk

variable (cfg) in
/-- the depth is the same (plus `n`), and the tokenizer has not gone back -/
def Keeps (n : Nat) (s s' : PState D.σ) : Prop :=
  (cfg.recursionLimit.isSome = true → s'.remainingDepth = s.remainingDepth + n) ∧ s.offset ≤ s'.offset

theorem Keeps.refl (s : PState D.σ) : Keeps cfg 0 s s := ⟨fun _ => rfl, Nat.le_refl _⟩
theorem Keeps.trans {n n' : Nat} {s s' s'' : PState D.σ} (h : Keeps cfg n s s') (h' : Keeps cfg n' s' s'') : Keeps cfg (n + n') s s'' :=
  ⟨fun hc => by rw [h'.1 hc, h.1 hc]; omega, Nat.le_trans h.2 h'.2⟩
theorem Fits.keeps {stk : Nat} {s s' : PState D.σ} (h : Fits src cfg stk s) (hk : Keeps cfg 0 s s') : Fits src cfg stk s' := by
  rcases h with ⟨h1, h2⟩ | h
  · exact .inl ⟨h1, by rw [hk.1 h1]; exact h2⟩
  · exact .inr (Nat.lt_of_le_of_lt (openers_drop src hk.2) h)

theorem keeps_tokOffset {s : PState D.σ} : Same (fun _ s' => Keeps cfg 0 s s') (tokOffset D) (tokOffset D) s :=
  .refl fun _ _ h => by injection h with _ h; subst h; exact .refl s

theorem keeps_liftD {α : Type} {off : Nat} {m : M D.σ D.Err α} {s : PState D.σ} :
    Same (fun _ s' => Keeps cfg 0 s s') (liftD D off m) (liftD D off m) s := by
  refine .refl fun a s' h => ?_
  unfold liftD at h
  split at h
  · injection h with _ h; subst h; exact ⟨fun _ => rfl, Nat.le_refl _⟩
  · cases h
  · cases h

theorem keeps_liftQ {α : Type} {q : D.σ → Res α} {s : PState D.σ} :
    Same (fun _ s' => Keeps cfg 0 s s') (liftQ D q) (liftQ D q) s := by
  refine .refl fun a s' h => ?_
  unfold liftQ at h
  split at h
  · injection h with _ h; subst h; exact .refl s
  · cases h

theorem keeps_next {s : PState D.σ} :
    Same (fun tok s' => Keeps cfg 0 s s' ∧ (tok = .object ∨ tok = .array → openers (src.drop s'.offset) < openers (src.drop s.offset)))
      (liftTok D (nextOrEof src g)) (liftTok D (nextOrEof src g)) s := by
  refine .refl fun a s' h => ?_
  unfold liftTok at h
  cases hm : nextOrEof src g s.offset with
  | ok t off =>
    rw [hm] at h
    injection h with h1 h2
    subst h1 h2
    exact ⟨⟨fun _ => rfl, next_mono hm⟩, next_opener hm⟩
  | err e off => rw [hm] at h; cases h
  | panic p => rw [hm] at h; cases h

theorem keeps_peek {s : PState D.σ} :
    Same (fun _ s' => Keeps cfg 0 s s') (liftTok D (tokPeek src)) (liftTok D (tokPeek src)) s := by
  refine .refl fun a s' h => ?_
  unfold liftTok at h
  cases hm : tokPeek src s.offset with
  | ok t off =>
    rw [hm] at h
    injection h with h1 h2
    subst h1 h2
    exact ⟨fun _ => rfl, peek_mono hm⟩
  | err e off => rw [hm] at h; cases h
  | panic p => rw [hm] at h; cases h

theorem keeps_colon {s : PState D.σ} : Same (fun _ s' => Keeps cfg 0 s s') (nextColon g src D) (nextColon g src D) s := by
  refine .refl fun a s' h => ?_
  unfold nextColon at h
  cases hm : nextOrEof src g s.offset with
  | ok t off =>
    rw [hm] at h
    injection h with h1 h2
    subst h1 h2
    exact ⟨fun _ => rfl, next_mono hm⟩
  | err e off => rw [hm] at h; cases h
  | panic p => rw [hm] at h; cases h

theorem keeps_end {s : PState D.σ} : Same (fun _ s' => Keeps cfg 1 s s') (endNest cfg D) (endNest cfg D) s := by
  refine .refl fun a s' h => ?_
  unfold endNest at h
  split at h
  · injection h with _ h; subst h; exact ⟨fun _ => rfl, Nat.le_refl _⟩
  · next hc => injection h with _ h; subst h; exact ⟨fun h => absurd h hc, Nat.le_refl _⟩

theorem fits_begin {off stk : Nat} {s0 s : PState D.σ} (hf : Fits src cfg (stk + 1) s0) (hk : Keeps cfg 0 s0 s)
    (ho : openers (src.drop s.offset) < openers (src.drop s0.offset)) :
    Same (fun _ s' => Fits src cfg stk s' ∧ ∀ s'', Keeps cfg 1 s' s'' → Keeps cfg 0 s s'') (beginNest cfg D off) (beginNest cfg D off) s := by
  refine .refl fun a s' h => ?_
  unfold beginNest at h
  split at h
  · next hc =>
    split at h
    · next hr =>
      injection h with _ h
      subst h
      refine ⟨?_, fun s'' hk' => ⟨fun hc => by rw [hk'.1 hc]; show s.remainingDepth - 1 + 1 = _; omega, hk'.2⟩⟩
      rcases hf with ⟨h1, h2⟩ | h2
      · refine .inl ⟨h1, ?_⟩
        show s.remainingDepth - 1 < stk
        have := hk.1 h1
        omega
      · refine .inr ?_
        show openers (src.drop s.offset) < stk
        omega
    · cases h
  · next hc =>
    injection h with _ h
    subst h
    refine ⟨?_, fun s'' hk' => ⟨fun h => absurd h hc, hk'.2⟩⟩
    rcases hf with ⟨h1, h2⟩ | h2
    · exact absurd h1 hc
    · exact .inr (by omega)

theorem same_throw {α : Type} {Q : α → PState D.σ → Prop} {off : Nat} {k : ErrorKind D.Err} {s : PState D.σ} :
    Same Q (perr D off k : PM D α) (perr D off k) s := .refl fun _ _ h => by cases h

theorem same_panic {α : Type} {Q : α → PState D.σ → Prop} {p : Panic} {s : PState D.σ} :
    Same Q (M.panic p : PM D α) (M.panic p) s := .refl fun _ _ h => by cases h

theorem same_pure {α : Type} {Q : α → PState D.σ → Prop} {a : α} {s : PState D.σ} (h : Q a s) :
    Same Q (pure a : PM D α) (pure a) s := .refl fun _ _ e => by injection e with e1 e2; subst e1 e2; exact h

/-- what the five functions of the parser do -/
def StackOK (g : Bool) (src : List UInt8) (cfg : ParseConfig) (D : Delegate) (fuel : Nat) : Prop :=
  ∀ (stk : Nat) (s : PState D.σ), Fits src cfg stk s →
    Same (fun _ s' => Keeps cfg 0 s s') (readTokensS g src cfg D fuel stk) (readTokens g src cfg D fuel) s
    ∧ Same (fun _ s' => Keeps cfg 1 s s') (readObjectS g src cfg D fuel stk) (readObject g src cfg D fuel) s
    ∧ (∀ o, Same (fun _ s' => Keeps cfg 0 s s') (readObjectLoopS g src cfg D fuel stk o) (readObjectLoop g src cfg D fuel o) s)
    ∧ Same (fun _ s' => Keeps cfg 1 s s') (readArrayS g src cfg D fuel stk) (readArray g src cfg D fuel) s
    ∧ (∀ a, Same (fun _ s' => Keeps cfg 0 s s') (readArrayLoopS g src cfg D fuel stk a) (readArrayLoop g src cfg D fuel a) s)

theorem stackOK : ∀ fuel, StackOK g src cfg D fuel := by
  intro fuel
  induction fuel with
  | zero =>
    intro stk s _
    refine ⟨?_, ?_, fun _ => ?_, ?_, fun _ => ?_⟩
    · rw [readTokensS, readTokens]; exact same_panic
    · rw [readObjectS, readObject]; exact same_panic
    · rw [readObjectLoopS, readObjectLoop]; exact same_panic
    · rw [readArrayS, readArray]; exact same_panic
    · rw [readArrayLoopS, readArrayLoop]; exact same_panic
  | succ fuel ih =>
    intro stk s hf
    refine ⟨?_, ?_, fun o => ?_, ?_, fun a => ?_⟩
    · obtain ⟨stk, rfl⟩ : ∃ n, stk = n + 1 := by
        rcases hf with ⟨_, h⟩ | h
        · exact ⟨stk - 1, by omega⟩
        · exact ⟨stk - 1, by omega⟩
      rw [readTokensS, readTokens]
      refine Same.bind (keeps_tokOffset (cfg := cfg)) fun offset s1 k1 => ?_
      refine Same.bind (keeps_next (cfg := cfg)) fun tok s2 k2 => ?_
      obtain ⟨k2, ho⟩ := k2
      have k12 := k1.trans k2
      have hle : openers (src.drop s1.offset) ≤ openers (src.drop s.offset) := openers_drop src k1.2
      cases tok with
      | null => exact keeps_liftD.mono fun _ _ k => k12.trans k
      | bool b => exact keeps_liftD.mono fun _ _ k => k12.trans k
      | string b => exact keeps_liftD.mono fun _ _ k => k12.trans k
      | number b => exact keeps_liftD.mono fun _ _ k => k12.trans k
      | objectEnd => exact same_throw
      | arrayEnd => exact same_throw
      | colon => exact same_throw
      | comma => exact same_throw
      | object =>
        refine Same.bind (fits_begin hf k12 (Nat.lt_of_lt_of_le (ho (.inl rfl)) hle)) fun _ s3 k3 => ?_
        exact (Same.mapErr (ih stk s3 k3.1).2.1).mono fun _ _ k => k12.trans (k3.2 _ k)
      | array =>
        refine Same.bind (fits_begin hf k12 (Nat.lt_of_lt_of_le (ho (.inr rfl)) hle)) fun _ s3 k3 => ?_
        exact (Same.mapErr (ih stk s3 k3.1).2.2.2.1).mono fun _ _ k => k12.trans (k3.2 _ k)
    · rw [readObjectS, readObject]
      refine Same.bind (keeps_tokOffset (cfg := cfg)) fun offset s1 k => ?_
      refine Same.bind (keeps_liftD.mono fun _ _ k' => k.trans k') fun o s2 k => ?_
      refine Same.bind (((ih stk s2 (hf.keeps k)).2.2.1 o).mono fun _ _ k' => k.trans k') fun o s3 k => ?_
      refine Same.bind (keeps_tokOffset.mono fun _ _ k' => k.trans k') fun offset s4 k => ?_
      refine Same.bind (keeps_liftD.mono fun _ _ k' => k.trans k') fun v s5 k => ?_
      refine Same.bind (keeps_end.mono fun _ _ k' => k.trans k') fun _ s6 k => ?_
      exact same_pure k
    · rw [readObjectLoopS, readObjectLoop]
      refine Same.bind (keeps_tokOffset (cfg := cfg)) fun offset s1 k => ?_
      refine Same.bind (keeps_next.mono fun _ _ k' => k.trans k'.1) fun tok s2 k => ?_
      cases tok with
      | null => exact same_throw
      | bool b => exact same_throw
      | number b => exact same_throw
      | object => exact same_throw
      | array => exact same_throw
      | arrayEnd => exact same_throw
      | colon => exact same_throw
      | comma => exact same_throw
      | objectEnd =>
        dsimp only
        by_cases hc : cfg.allowTrailingCommas = true
        · rw [if_pos hc]; exact same_pure k
        · rw [if_neg hc]
          refine Same.bind (keeps_liftQ.mono fun _ _ k' => k.trans k') fun b s3 k => ?_
          cases b
          · exact same_throw
          · exact same_pure k
      | string key =>
        dsimp only
        refine Same.bind (keeps_liftD.mono fun _ _ k' => k.trans k') fun r s3 k => ?_
        obtain ⟨o', key'⟩ := r
        refine Same.bind (keeps_tokOffset.mono fun _ _ k' => k.trans k') fun offset s4 k => ?_
        refine Same.bind (keeps_colon.mono fun _ _ k' => k.trans k') fun tok s5 k => ?_
        by_cases hc : tok ≠ .colon
        · rw [if_pos hc, if_pos hc]; exact same_throw
        rw [if_neg hc, if_neg hc]
        refine Same.bind (keeps_tokOffset.mono fun _ _ k' => k.trans k') fun offset s6 k => ?_
        refine Same.bind ((ih stk s6 (hf.keeps k)).1.mono fun _ _ k' => k.trans k') fun v s7 k => ?_
        refine Same.bind (keeps_liftD.mono fun _ _ k' => k.trans k') fun o s8 k => ?_
        refine Same.bind (keeps_tokOffset.mono fun _ _ k' => k.trans k') fun offset s9 k => ?_
        refine Same.bind (keeps_next.mono fun _ _ k' => k.trans k'.1) fun tok s10 k => ?_
        by_cases h1 : tok = .objectEnd
        · rw [if_pos h1, if_pos h1]; exact same_pure k
        rw [if_neg h1, if_neg h1]
        by_cases h2 : tok ≠ .comma
        · rw [if_pos h2, if_pos h2]; exact same_throw
        rw [if_neg h2, if_neg h2]
        exact ((ih stk s10 (hf.keeps k)).2.2.1 o).mono fun _ _ k' => k.trans k'
    · rw [readArrayS, readArray]
      refine Same.bind (keeps_tokOffset (cfg := cfg)) fun offset s1 k => ?_
      refine Same.bind (keeps_liftD.mono fun _ _ k' => k.trans k') fun o s2 k => ?_
      refine Same.bind (((ih stk s2 (hf.keeps k)).2.2.2.2 o).mono fun _ _ k' => k.trans k') fun o s3 k => ?_
      refine Same.bind (keeps_liftD.mono fun _ _ k' => k.trans k') fun v s5 k => ?_
      refine Same.bind (keeps_end.mono fun _ _ k' => k.trans k') fun _ s6 k => ?_
      exact same_pure k
    · rw [readArrayLoopS, readArrayLoop]
      refine Same.bind (keeps_tokOffset (cfg := cfg)) fun offset s1 k => ?_
      refine Same.bind (keeps_peek.mono fun _ _ k' => k.trans k') fun o s2 k => ?_
      by_cases hc : o = some .arrayEnd
      · rw [if_pos hc, if_pos hc]
        refine Same.bind (Q := fun _ s' => Keeps cfg 0 s s') (.refl fun _ s' h => ?_) fun _ s3 k => ?_
        · injection h with _ h
          subst h
          exact k.trans (n' := 0) ⟨fun _ => rfl, Nat.le_succ _⟩
        by_cases hc : cfg.allowTrailingCommas = true
        · rw [if_pos hc]; exact same_pure k
        · rw [if_neg hc]
          refine Same.bind (keeps_liftQ.mono fun _ _ k' => k.trans k') fun b s3 k => ?_
          cases b
          · exact same_throw
          · exact same_pure k
      · rw [if_neg hc, if_neg hc]
        refine Same.bind ((ih stk s2 (hf.keeps k)).1.mono fun _ _ k' => k.trans k') fun v s7 k => ?_
        refine Same.bind (keeps_tokOffset.mono fun _ _ k' => k.trans k') fun offset s9 k => ?_
        refine Same.bind (keeps_liftD.mono fun _ _ k' => k.trans k') fun o s8 k => ?_
        refine Same.bind (keeps_tokOffset.mono fun _ _ k' => k.trans k') fun offset s9 k => ?_
        refine Same.bind (keeps_next.mono fun _ _ k' => k.trans k'.1) fun tok s10 k => ?_
        by_cases h1 : tok = .arrayEnd
        · rw [if_pos h1, if_pos h1]; exact same_pure k
        rw [if_neg h1, if_neg h1]
        by_cases h2 : tok ≠ .comma
        · rw [if_pos h2, if_pos h2]; exact same_throw
        rw [if_neg h2, if_neg h2]
        exact ((ih stk s10 (hf.keeps k)).2.2.2.2 o).mono fun _ _ k' => k.trans k'

theorem parse_stack {stk : Nat} {d : D.σ} (hf : Fits src cfg stk (⟨0, d, cfg.recursionLimit.getD USIZE_MAX⟩ : PState D.σ)) :
    parseBytesS g src cfg D stk d = parseBytes g src cfg D d := by
  have h := (stackOK (g := g) (parseFuel src) stk _ hf).1
  have := Same.bind (R := fun _ _ => True) (fS := fun value => (do
    let reject ← if cfg.allowAllTypesAtRoot then M.pure false else do
      let k ← liftQ D (D.kindOf · value)
      M.pure (!(k == .object || k == .array))
    if reject then perr D 0 .payloadsShouldBeObjectOrArray
    else
      match ← liftTok D (nextNonWs src) with
      | none => return value
      | some (offset, _) => perr D offset .trailingNonWhitespace : PM D D.Value)) h (fun a s' _ => Same.refl fun _ _ _ => trivial)
  exact this.1

end
end JustJson
