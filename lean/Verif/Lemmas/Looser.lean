import Verif.Props.Accept
import Verif.Lemmas.Errors
import Verif.Spec.Trace
import Verif.Spec.Looser
/-! # Runs under a configuration and under a looser one -/

namespace JustJson
open Spec

set_option linter.unusedSectionVars false

section
variable {src : List UInt8} [Arch] {cfg cfg' : ParseConfig} {D : Delegate} {U : Prop}

/-- nothing goes wrong before `lo` -/
def Beyond (src : List UInt8) (lo : Nat) {α : Type} (out : Out (PState D.σ) (Error D.Err) α) : Prop :=
  match out with
  | .ok _ s => lo ≤ s.offset ∧ s.offset ≤ src.length
  | .err e _ => lo ≤ e.offset
  | .panic _ => True

/-- a part of the parser that fails nowhere before the place where it began -/
def Ahead (src : List UInt8) {α : Type} (m : PM D α) : Prop :=
  ∀ lo s, lo ≤ s.offset → s.offset ≤ src.length → Beyond src lo (m s)

theorem Beyond.bind {α β : Type} {m : PM D α} {f : α → PM D β} {s : PState D.σ} {lo : Nat} (h : Beyond src lo (m s))
    (hf : ∀ a s', lo ≤ s'.offset → s'.offset ≤ src.length → Beyond src lo (f a s')) : Beyond src lo ((m >>= f) s) := by
  rw [M.bind_eq]
  cases hm : m s with
  | ok a s1 => rw [hm] at h; exact hf a s1 h.1 h.2
  | err e s1 => rw [hm] at h; exact h
  | panic p => exact True.intro

theorem Ahead.bind {α β : Type} {m : PM D α} {f : α → PM D β} (h : Ahead src m) (hf : ∀ a, Ahead src (f a)) : Ahead src (m >>= f) :=
  fun lo s h1 h2 => Beyond.bind (h lo s h1 h2) fun a s' h3 h4 => hf a lo s' h3 h4

theorem Ahead.mapErr {α : Type} {m : PM D α} {k : ErrorKind D.Err} (h : Ahead src m) : Ahead src (M.mapErr (eofTo k) m) := by
  intro lo s h1 h2
  have h3 := h lo s h1 h2
  unfold M.mapErr
  cases hm : m s with
  | ok a s1 => rw [hm] at h3; exact h3
  | err e s1 =>
    rw [hm] at h3
    have e2 : (eofTo k e).offset = e.offset := by unfold eofTo; split <;> rfl
    show lo ≤ (eofTo k e).offset
    rw [e2]; exact h3
  | panic p => exact True.intro

theorem ahead_next (hlim : src.length < LIM) {s : PState D.σ} {lo : Nat} (h1 : lo ≤ s.offset) (h2 : s.offset ≤ src.length) :
    match nextOrEof src false s.offset with
    | .ok _ off => lo ≤ off ∧ off ≤ src.length
    | .err e _ => lo ≤ e.offset
    | .panic _ => True := by
  have hw := wp_next (g := false) h2 hlim (fun h => by cases h)
  cases hm : nextOrEof src false s.offset with
  | ok tok off =>
    rw [hm] at hw
    obtain ⟨w, l, -, -, -, -, -, h3, h4, -⟩ := hw
    exact ⟨by omega, h4⟩
  | err e off => exact Nat.le_trans h1 (err_offset_ge hlim h2 hm)
  | panic p => exact True.intro

theorem ahead_tok (hlim : src.length < LIM) : Ahead src (liftTok D (nextOrEof src false)) := by
  intro lo s h1 h2
  have h3 := ahead_next hlim h1 h2
  unfold liftTok
  cases hm : nextOrEof src false s.offset with
  | ok tok off => rw [hm] at h3; exact h3
  | err e off => rw [hm] at h3; exact h3
  | panic p => exact True.intro

theorem ahead_colon (hlim : src.length < LIM) : Ahead src (nextColon false src D) := by
  intro lo s h1 h2
  have h3 := ahead_next hlim h1 h2
  unfold nextColon
  cases hm : nextOrEof src false s.offset with
  | ok tok off => rw [hm] at h3; exact h3
  | err e off => rw [hm] at h3; exact h3
  | panic p => exact True.intro

theorem beyond_perr {α : Type} {lo off : Nat} {s : PState D.σ} {k : ErrorKind D.Err} (h : lo ≤ off) :
    Beyond src lo ((perr D off k : PM D α) s) := h

theorem ahead_pure {α : Type} (a : α) : Ahead src (M.pure a : PM D α) := fun _ _ h1 h2 => ⟨h1, h2⟩

theorem ahead_cb {α : Type} {m : M D.σ D.Err α} {off : Nat} (h : ∀ d, ∃ a d', m d = .ok a d') : Ahead src (liftD D off m) := by
  intro lo s h1 h2
  obtain ⟨a, d', h3⟩ := h s.delegate
  unfold liftD
  rw [h3]
  exact ⟨h1, h2⟩

theorem ahead_q {α : Type} {q : D.σ → Res α} : Ahead src (liftQ D q) := by
  intro lo s h1 h2
  unfold liftQ
  cases q s.delegate with
  | ok a => exact ⟨h1, h2⟩
  | panic p => exact True.intro

theorem beyond_begin {lo off : Nat} {s : PState D.σ} (h : lo ≤ off) (h1 : lo ≤ s.offset) (h2 : s.offset ≤ src.length) :
    Beyond src lo (beginNest cfg D off s) := by
  unfold beginNest
  split
  · split
    · exact ⟨h1, h2⟩
    · exact h
  · exact ⟨h1, h2⟩

theorem ahead_end : Ahead src (endNest cfg D) := by
  intro lo s h1 h2
  unfold endNest
  split <;> exact ⟨h1, h2⟩

/-- a run with a delegate that does not fail -/
theorem ahead_run (hU : Unfailing D) (hlim : src.length < LIM) : ∀ fuel : Nat,
    Ahead src (readTokens false src cfg D fuel) ∧ Ahead src (readObject false src cfg D fuel)
    ∧ (∀ o, Ahead src (readObjectLoop false src cfg D fuel o)) ∧ Ahead src (readArray false src cfg D fuel)
    ∧ ∀ a, Ahead src (readArrayLoop false src cfg D fuel a) := by
  intro fuel
  induction fuel with
  | zero =>
    exact ⟨fun _ _ _ _ => True.intro, fun _ _ _ _ => True.intro, fun _ _ _ _ _ => True.intro, fun _ _ _ _ => True.intro,
      fun _ _ _ _ _ => True.intro⟩
  | succ fuel ih =>
    obtain ⟨ihT, ihO, ihOL, ihA, ihAL⟩ := ih
    refine ⟨?_, ?_, ?_, ?_, ?_⟩
    · intro lo s h1 h2
      rw [readTokens, M.bind_ok (tokOffset_eq s)]
      refine Beyond.bind (ahead_tok hlim lo s h1 h2) fun tok s1 h3 h4 => ?_
      cases tok with
      | null => exact ahead_cb hU.null lo s1 h3 h4
      | bool b => exact ahead_cb (hU.boolean b) lo s1 h3 h4
      | string b => exact ahead_cb (hU.string b) lo s1 h3 h4
      | number b => exact ahead_cb (hU.number b) lo s1 h3 h4
      | object => exact Beyond.bind (beyond_begin h1 h3 h4) fun _ s2 h5 h6 => ihO.mapErr lo s2 h5 h6
      | array => exact Beyond.bind (beyond_begin h1 h3 h4) fun _ s2 h5 h6 => ihA.mapErr lo s2 h5 h6
      | objectEnd => exact beyond_perr h1
      | arrayEnd => exact beyond_perr h1
      | colon => exact beyond_perr h1
      | comma => exact beyond_perr h1
    · intro lo s h1 h2
      rw [readObject, M.bind_ok (tokOffset_eq s)]
      refine Beyond.bind (ahead_cb hU.beginObject lo s h1 h2) fun o s1 h3 h4 => Beyond.bind (ihOL o lo s1 h3 h4) fun o s2 h5 h6 => ?_
      rw [M.bind_ok (tokOffset_eq s2)]
      exact Beyond.bind (ahead_cb (hU.endObject _) lo s2 h5 h6) fun v s3 h7 h8 =>
        Beyond.bind (ahead_end lo s3 h7 h8) fun _ s4 h9 h10 => ⟨h9, h10⟩
    · intro o lo s h1 h2
      rw [readObjectLoop, M.bind_ok (tokOffset_eq s)]
      refine Beyond.bind (ahead_tok hlim lo s h1 h2) fun tok s1 h3 h4 => ?_
      cases tok with
      | objectEnd =>
        simp only
        split
        · exact ⟨h3, h4⟩
        · refine Beyond.bind (ahead_q lo s1 h3 h4) fun b s2 h5 h6 => ?_
          split
          · exact ⟨h5, h6⟩
          · exact beyond_perr h1
      | string key =>
        refine Beyond.bind (ahead_cb (hU.objectKey _ _) lo s1 h3 h4) ?_
        rintro ⟨o, k⟩ s2 h5 h6
        simp only
        rw [M.bind_ok (tokOffset_eq s2)]
        refine Beyond.bind (ahead_colon hlim lo s2 h5 h6) fun tok s3 h7 h8 => ?_
        split
        · exact beyond_perr h5
        · rw [M.bind_ok (tokOffset_eq s3)]
          refine Beyond.bind (ihT lo s3 h7 h8) fun v s4 h9 h10 =>
            Beyond.bind (ahead_cb (hU.objectValue _ _ _) lo s4 h9 h10) fun o s5 h11 h12 => ?_
          rw [M.bind_ok (tokOffset_eq s5)]
          refine Beyond.bind (ahead_tok hlim lo s5 h11 h12) fun tok s6 h13 h14 => ?_
          split
          · exact ⟨h13, h14⟩
          split
          · exact beyond_perr h11
          · exact ihOL _ lo s6 h13 h14
      | null => exact beyond_perr h1
      | bool b => exact beyond_perr h1
      | number b => exact beyond_perr h1
      | object => exact beyond_perr h1
      | array => exact beyond_perr h1
      | arrayEnd => exact beyond_perr h1
      | colon => exact beyond_perr h1
      | comma => exact beyond_perr h1
    · intro lo s h1 h2
      rw [readArray, M.bind_ok (tokOffset_eq s)]
      exact Beyond.bind (ahead_cb hU.beginArray lo s h1 h2) fun o s1 h3 h4 => Beyond.bind (ihAL o lo s1 h3 h4) fun o s2 h5 h6 =>
        Beyond.bind (ahead_cb (hU.endArray _) lo s2 h5 h6) fun v s3 h7 h8 =>
        Beyond.bind (ahead_end lo s3 h7 h8) fun _ s4 h9 h10 => ⟨h9, h10⟩
    · intro a lo s h1 h2
      rw [readArrayLoop, M.bind_ok (tokOffset_eq s)]
      have hpk : liftTok D (tokPeek src) s
          = .ok ((src.drop (s.offset + runLen isWs (src.drop s.offset))).head?.map peekKind)
              { s with offset := s.offset + runLen isWs (src.drop s.offset) } := by
        unfold liftTok
        rw [tokPeek_eq]
      rw [M.bind_ok hpk]
      have hle := runLen_le isWs (src.drop s.offset)
      rw [List.length_drop] at hle
      split
      · rename_i hend
        have hlt : s.offset + runLen isWs (src.drop s.offset) < src.length := by
          cases hd : src.drop (s.offset + runLen isWs (src.drop s.offset)) with
          | nil => rw [hd] at hend; cases hend
          | cons b r => exact lt_of_drop_cons hd
        rw [M.bind_ok (M.modify_eq _ _)]
        have h3 : lo ≤ s.offset + runLen isWs (src.drop s.offset) + 1 := by omega
        split
        · exact ⟨h3, hlt⟩
        · refine Beyond.bind (ahead_q lo _ h3 hlt) fun b s2 h5 h6 => ?_
          split
          · exact ⟨h5, h6⟩
          · exact beyond_perr h1
      · refine Beyond.bind (ihT lo _ (by show lo ≤ s.offset + _; omega) (by show s.offset + _ ≤ _; omega)) fun v s3 h3 h4 => ?_
        rw [M.bind_ok (tokOffset_eq s3)]
        refine Beyond.bind (ahead_cb (hU.arrayValue _ _) lo s3 h3 h4) fun o s4 h5 h6 => ?_
        rw [M.bind_ok (tokOffset_eq s4)]
        refine Beyond.bind (ahead_tok hlim lo s4 h5 h6) fun tok s5 h7 h8 => ?_
        split
        · exact ⟨h7, h8⟩
        split
        · exact beyond_perr h5
        · exact ihAL _ lo s5 h7 h8

/-! ## Two configurations -/

/-- the same state, but for the remaining depth -/
def Alike (cfg cfg' : ParseConfig) (s s' : PState D.σ) : Prop :=
  s'.offset = s.offset ∧ s'.delegate = s.delegate ∧ (cfg'.recursionLimit.isSome → s.remainingDepth ≤ s'.remainingDepth)
    ∧ (cfg.recursionLimit = cfg'.recursionLimit → s'.remainingDepth = s.remainingDepth)

/-- outcomes under `cfg` and under `cfg'` -/
def CRel (src : List UInt8) (cfg cfg' : ParseConfig) (U : Prop) {α : Type} (out out' : Out (PState D.σ) (Error D.Err) α) : Prop :=
  match out with
  | .ok a s => s.offset ≤ src.length ∧ ∃ s', out' = .ok a s' ∧ Alike cfg cfg' s s'
  | .err e s => (∃ s', out' = .err e s' ∧ s'.delegate = s.delegate) ∨ (ConfigError cfg cfg' e.kind ∧ (U → Beyond src e.offset out'))
  | .panic _ => True

/-- ... where nothing depends on the configuration -/
def CRel0 (src : List UInt8) (cfg cfg' : ParseConfig) {α : Type} (out out' : Out (PState D.σ) (Error D.Err) α) : Prop :=
  match out with
  | .ok a s => s.offset ≤ src.length ∧ ∃ s', out' = .ok a s' ∧ Alike cfg cfg' s s'
  | .err e s => ∃ s', out' = .err e s' ∧ s'.delegate = s.delegate
  | .panic _ => True

theorem CRel0.crel {α : Type} {out out' : Out (PState D.σ) (Error D.Err) α} (h : CRel0 src cfg cfg' out out') : CRel src cfg cfg' U out out' := by
  cases out with
  | ok a s => exact h
  | err e s => exact .inl h
  | panic p => exact True.intro

theorem CRel.bind {α β : Type} {m m' : PM D α} {f f' : α → PM D β} {s s' : PState D.σ} (h : CRel src cfg cfg' U (m s) (m' s'))
    (hB : U → ∀ a, Ahead src (f' a)) (hf : ∀ a s1 s1', s1.offset ≤ src.length → Alike cfg cfg' s1 s1' → CRel src cfg cfg' U (f a s1) (f' a s1')) :
    CRel src cfg cfg' U ((m >>= f) s) ((m' >>= f') s') := by
  cases hm : m s with
  | ok a s1 =>
    rw [hm] at h
    obtain ⟨h1, s1', h2, h3⟩ := h
    rw [M.bind_ok hm, M.bind_ok h2]
    exact hf a s1 s1' h1 h3
  | err e s1 =>
    rw [hm] at h
    rw [M.bind_err hm]
    rcases h with ⟨s1', h1, h2⟩ | ⟨h1, h2⟩
    · exact .inl ⟨s1', M.bind_err h1, h2⟩
    · exact .inr ⟨h1, fun hu => Beyond.bind (h2 hu) fun a s2 h3 h4 => hB hu a _ s2 h3 h4⟩
  | panic p => rw [M.bind_eq, hm]; exact True.intro

theorem CRel0.bind {α β : Type} {m m' : PM D α} {f f' : α → PM D β} {s s' : PState D.σ} (h : CRel0 src cfg cfg' (m s) (m' s'))
    (hf : ∀ a s1 s1', s1.offset ≤ src.length → Alike cfg cfg' s1 s1' → CRel src cfg cfg' U (f a s1) (f' a s1')) :
    CRel src cfg cfg' U ((m >>= f) s) ((m' >>= f') s') := by
  cases hm : m s with
  | ok a s1 =>
    rw [hm] at h
    obtain ⟨h1, s1', h2, h3⟩ := h
    rw [M.bind_ok hm, M.bind_ok h2]
    exact hf a s1 s1' h1 h3
  | err e s1 =>
    rw [hm] at h
    rw [M.bind_err hm]
    obtain ⟨s1', h1, h2⟩ := h
    exact .inl ⟨s1', M.bind_err h1, h2⟩
  | panic p => rw [M.bind_eq, hm]; exact True.intro

theorem crel_off {s s' : PState D.σ} (h : Alike cfg cfg' s s') : tokOffset D s' = .ok s.offset s' := by
  unfold tokOffset
  rw [h.1]

theorem crel_perr {α : Type} {off : Nat} {k : ErrorKind D.Err} {s s' : PState D.σ} (h : Alike cfg cfg' s s') :
    CRel src cfg cfg' U ((perr D off k : PM D α) s) ((perr D off k : PM D α) s') := .inl ⟨s', rfl, h.2.1⟩

theorem crel_pure {α : Type} {a : α} {s s' : PState D.σ} (hl : s.offset ≤ src.length) (h : Alike cfg cfg' s s') :
    CRel src cfg cfg' U ((M.pure a : PM D α) s) ((M.pure a : PM D α) s') := ⟨hl, s', rfl, h⟩

theorem crel_tok (hlim : src.length < LIM) {s s' : PState D.σ} (hl : s.offset ≤ src.length) (h : Alike cfg cfg' s s') :
    CRel0 src cfg cfg' (liftTok D (nextOrEof src false) s) (liftTok D (nextOrEof src false) s') := by
  have h3 := ahead_next hlim (Nat.le_refl _) hl
  unfold liftTok
  rw [h.1]
  cases hm : nextOrEof src false s.offset with
  | ok tok off => rw [hm] at h3; exact ⟨h3.2, _, rfl, rfl, h.2.1, h.2.2⟩
  | err e off => exact ⟨_, rfl, h.2.1⟩
  | panic p => exact True.intro

theorem crel_colon (hlim : src.length < LIM) {s s' : PState D.σ} (hl : s.offset ≤ src.length) (h : Alike cfg cfg' s s') :
    CRel0 src cfg cfg' (nextColon false src D s) (nextColon false src D s') := by
  have h3 := ahead_next hlim (Nat.le_refl _) hl
  unfold nextColon
  rw [h.1]
  cases hm : nextOrEof src false s.offset with
  | ok tok off => rw [hm] at h3; exact ⟨h3.2, _, rfl, rfl, h.2.1, h.2.2⟩
  | err e off => exact ⟨_, rfl, h.2.1⟩
  | panic p => exact True.intro

theorem crel_cb {α : Type} {m : M D.σ D.Err α} {off : Nat} {s s' : PState D.σ} (hl : s.offset ≤ src.length) (h : Alike cfg cfg' s s') :
    CRel0 src cfg cfg' (liftD D off m s) (liftD D off m s') := by
  unfold liftD
  rw [h.2.1]
  cases m s.delegate with
  | ok a d => exact ⟨hl, _, rfl, h.1, rfl, h.2.2⟩
  | err e d => exact ⟨_, rfl, rfl⟩
  | panic p => exact True.intro

theorem crel_q {α : Type} {q : D.σ → Res α} {s s' : PState D.σ} (hl : s.offset ≤ src.length) (h : Alike cfg cfg' s s') :
    CRel0 src cfg cfg' (liftQ D q s) (liftQ D q s') := by
  unfold liftQ
  rw [h.2.1]
  cases q s.delegate with
  | ok a => exact ⟨hl, _, rfl, h⟩
  | panic p => exact True.intro

theorem crel_begin (hc : LooserOrEqual cfg cfg') {off : Nat} {s s' : PState D.σ} (ho : off ≤ s.offset) (hl : s.offset ≤ src.length)
    (h : Alike cfg cfg' s s') : CRel src cfg cfg' U (beginNest cfg D off s) (beginNest cfg' D off s') := by
  obtain ⟨h1, h2, h3, h4⟩ := h
  unfold beginNest
  by_cases hs : cfg.recursionLimit.isSome = true
  · rw [if_pos hs]
    by_cases hs' : cfg'.recursionLimit.isSome = true
    · rw [if_pos hs']
      have h5 := h3 hs'
      by_cases hp : s.remainingDepth > 0
      · rw [if_pos hp, if_pos (by omega)]
        refine ⟨hl, _, rfl, h1, h2, fun _ => by simp only; omega, fun he => by simp only [h4 he]⟩
      · rw [if_neg hp]
        by_cases hp' : s'.remainingDepth > 0
        · rw [if_pos hp']
          refine .inr ⟨fun he => ?_, fun _ => ⟨by show off ≤ s'.offset; omega, by show s'.offset ≤ _; omega⟩⟩
          have := h4 he
          omega
        · rw [if_neg hp']
          exact .inl ⟨_, rfl, h2⟩
    · rw [if_neg hs']
      have hne : cfg.recursionLimit ≠ cfg'.recursionLimit := fun he => hs' (he ▸ hs)
      by_cases hp : s.remainingDepth > 0
      · rw [if_pos hp]
        exact ⟨hl, _, rfl, h1, h2, fun h => absurd h hs', fun he => absurd he hne⟩
      · rw [if_neg hp]
        exact .inr ⟨hne, fun _ => ⟨by show off ≤ s'.offset; omega, by show s'.offset ≤ _; omega⟩⟩
  · rw [if_neg hs]
    have hs' : ¬ cfg'.recursionLimit.isSome = true := by
      intro h5
      obtain ⟨n', hn'⟩ := Option.isSome_iff_exists.mp h5
      obtain ⟨n, hn, -⟩ := hc.limit n' hn'
      rw [hn] at hs
      exact hs rfl
    rw [if_neg hs']
    exact ⟨hl, _, rfl, h1, h2, h3, h4⟩

theorem crel_end (hc : LooserOrEqual cfg cfg') {s s' : PState D.σ} (hl : s.offset ≤ src.length)
    (h : Alike cfg cfg' s s') : CRel0 src cfg cfg' (endNest cfg D s) (endNest cfg' D s') := by
  obtain ⟨h1, h2, h3, h4⟩ := h
  unfold endNest
  by_cases hs : cfg.recursionLimit.isSome = true
  · rw [if_pos hs]
    by_cases hs' : cfg'.recursionLimit.isSome = true
    · rw [if_pos hs']
      have h5 := h3 hs'
      exact ⟨hl, _, rfl, h1, h2, fun _ => by simp only; omega, fun he => by simp only [h4 he]⟩
    · rw [if_neg hs']
      have hne : cfg.recursionLimit ≠ cfg'.recursionLimit := fun he => hs' (he ▸ hs)
      exact ⟨hl, _, rfl, h1, h2, fun h => absurd h hs', fun he => absurd he hne⟩
  · rw [if_neg hs]
    have hs' : ¬ cfg'.recursionLimit.isSome = true := by
      intro h5
      obtain ⟨n', hn'⟩ := Option.isSome_iff_exists.mp h5
      obtain ⟨n, hn, -⟩ := hc.limit n' hn'
      rw [hn] at hs
      exact hs rfl
    rw [if_neg hs']
    exact ⟨hl, _, rfl, h1, h2, h3, h4⟩

theorem crel_mapErr {α : Type} {m m' : PM D α} {s s' : PState D.σ} {k : ErrorKind D.Err} (h : CRel src cfg cfg' U (m s) (m' s')) :
    CRel src cfg cfg' U (M.mapErr (eofTo k) m s) (M.mapErr (eofTo k) m' s') := by
  have e2 : ∀ e : Error D.Err, (eofTo k e).offset = e.offset := by intro e; unfold eofTo; split <;> rfl
  cases hm : m s with
  | ok a s1 =>
    rw [hm] at h
    obtain ⟨h1, s1', h2, h3⟩ := h
    unfold M.mapErr
    rw [hm, h2]
    exact ⟨h1, s1', rfl, h3⟩
  | err e s1 =>
    rw [hm] at h
    have e1 : M.mapErr (eofTo k) m s = .err (eofTo k e) s1 := by unfold M.mapErr; rw [hm]
    rw [e1]
    rcases h with ⟨s1', h1, h2⟩ | ⟨h1, h2⟩
    · exact .inl ⟨s1', by unfold M.mapErr; rw [h1], h2⟩
    · refine .inr ⟨?_, fun hu => ?_⟩
      · have : eofTo k e = e := by
          unfold eofTo
          split
          · rename_i hk; rw [hk] at h1; exact h1.elim
          · rfl
        rw [this]; exact h1
      · rw [e2]
        have h3 := h2 hu
        unfold M.mapErr
        cases hm' : m' s' with
        | ok a s2 => rw [hm'] at h3; exact h3
        | err e' s2 => rw [hm'] at h3; show e.offset ≤ (eofTo k e').offset; rw [e2]; exact h3
        | panic p => exact True.intro
  | panic p => unfold M.mapErr; rw [hm]; exact True.intro

theorem run_looser (hc : LooserOrEqual cfg cfg') (hU : U → Unfailing D) (hlim : src.length < LIM) : ∀ fuel : Nat,
    (∀ s s' : PState D.σ, s.offset ≤ src.length → Alike cfg cfg' s s' →
      CRel src cfg cfg' U (readTokens false src cfg D fuel s) (readTokens false src cfg' D fuel s'))
    ∧ (∀ s s' : PState D.σ, s.offset ≤ src.length → Alike cfg cfg' s s' →
      CRel src cfg cfg' U (readObject false src cfg D fuel s) (readObject false src cfg' D fuel s'))
    ∧ (∀ (s s' : PState D.σ) o, s.offset ≤ src.length → Alike cfg cfg' s s' →
      CRel src cfg cfg' U (readObjectLoop false src cfg D fuel o s) (readObjectLoop false src cfg' D fuel o s'))
    ∧ (∀ s s' : PState D.σ, s.offset ≤ src.length → Alike cfg cfg' s s' →
      CRel src cfg cfg' U (readArray false src cfg D fuel s) (readArray false src cfg' D fuel s'))
    ∧ (∀ (s s' : PState D.σ) a, s.offset ≤ src.length → Alike cfg cfg' s s' →
      CRel src cfg cfg' U (readArrayLoop false src cfg D fuel a s) (readArrayLoop false src cfg' D fuel a s')) := by
  intro fuel
  induction fuel with
  | zero =>
    exact ⟨fun _ _ _ _ => True.intro, fun _ _ _ _ => True.intro, fun _ _ _ _ _ => True.intro, fun _ _ _ _ => True.intro,
      fun _ _ _ _ _ => True.intro⟩
  | succ fuel ih =>
    obtain ⟨ihT, ihO, ihOL, ihA, ihAL⟩ := ih
    have aT := fun hu => (ahead_run (cfg := cfg') (hU hu) hlim fuel).1
    have aO := fun hu => (ahead_run (cfg := cfg') (hU hu) hlim fuel).2.1
    have aOL := fun hu => (ahead_run (cfg := cfg') (hU hu) hlim fuel).2.2.1
    have aA := fun hu => (ahead_run (cfg := cfg') (hU hu) hlim fuel).2.2.2.1
    have aAL := fun hu => (ahead_run (cfg := cfg') (hU hu) hlim fuel).2.2.2.2
    -- the end of a container with entries
    have closing : ∀ {γ : Type} {o : γ} {q : D.σ → Res Bool} {off : Nat} {s1 s1' : PState D.σ}, off ≤ s1.offset → s1.offset ≤ src.length →
        Alike cfg cfg' s1 s1' → CRel src cfg cfg' U
        ((if cfg.allowTrailingCommas = true then M.pure o else
          (do if ← liftQ D q then return o else perr D off .illegalTrailingComma) : PM D γ) s1)
        ((if cfg'.allowTrailingCommas = true then M.pure o else
          (do if ← liftQ D q then return o else perr D off .illegalTrailingComma) : PM D γ) s1') := by
      intro γ o q off s1 s1' ho hl1 h1
      by_cases ha : cfg.allowTrailingCommas = true
      · rw [if_pos ha, if_pos (hc.commas ha)]
        exact crel_pure hl1 h1
      · rw [if_neg ha]
        by_cases ha' : cfg'.allowTrailingCommas = true
        · rw [if_pos ha']
          cases hq : q s1.delegate with
          | panic p =>
            have hb : liftQ D q s1 = .panic p := by unfold liftQ; rw [hq]
            rw [M.bind_eq, hb]; exact True.intro
          | ok b =>
            have hb : liftQ D q s1 = .ok b s1 := by unfold liftQ; rw [hq]
            rw [M.bind_ok hb]
            cases b with
            | true => exact crel_pure hl1 h1
            | false =>
              refine .inr ⟨⟨by simpa using ha, ha'⟩, fun _ => ?_⟩
              exact ⟨by show off ≤ s1'.offset; rw [h1.1]; exact ho, by rw [h1.1]; exact hl1⟩
        · rw [if_neg ha']
          refine CRel0.bind (crel_q hl1 h1) ?_
          intro b s2 s2' hl2 h2
          cases b with
          | true => exact crel_pure hl2 h2
          | false => exact crel_perr h2
    refine ⟨?_, ?_, ?_, ?_, ?_⟩
    · intro s s' hl h
      rw [readTokens, readTokens, M.bind_ok (tokOffset_eq s), M.bind_ok (crel_off h)]
      have hadv := ahead_tok (D := D) hlim s.offset s (Nat.le_refl _) hl
      have hk := crel_tok (D := D) (cfg := cfg) (cfg' := cfg') hlim hl h
      cases hm : liftTok D (nextOrEof src false) s with
      | panic p => rw [M.bind_eq, hm]; exact True.intro
      | err e s1 =>
        rw [hm] at hk
        obtain ⟨s1', h1, h2⟩ := hk
        rw [M.bind_err hm, M.bind_err h1]
        exact .inl ⟨s1', rfl, h2⟩
      | ok tok s1 =>
        rw [hm] at hk hadv
        obtain ⟨hl1, s1', h2, h1⟩ := hk
        rw [M.bind_ok hm, M.bind_ok h2]
        cases tok with
        | null => exact (crel_cb hl1 h1).crel
        | bool b => exact (crel_cb hl1 h1).crel
        | string x => exact (crel_cb hl1 h1).crel
        | number n => exact (crel_cb hl1 h1).crel
        | objectEnd => exact crel_perr h1
        | arrayEnd => exact crel_perr h1
        | colon => exact crel_perr h1
        | comma => exact crel_perr h1
        | object =>
          exact CRel.bind (crel_begin hc hadv.1 hl1 h1) (fun hu _ => (aO hu).mapErr) fun _ s2 s2' hl2 h2 => crel_mapErr (ihO s2 s2' hl2 h2)
        | array =>
          exact CRel.bind (crel_begin hc hadv.1 hl1 h1) (fun hu _ => (aA hu).mapErr) fun _ s2 s2' hl2 h2 => crel_mapErr (ihA s2 s2' hl2 h2)
    · intro s s' hl h
      rw [readObject, readObject, M.bind_ok (tokOffset_eq s), M.bind_ok (crel_off h)]
      refine CRel0.bind (crel_cb hl h) fun o s1 s1' hl1 h1 => ?_
      refine CRel.bind (ihOL s1 s1' o hl1 h1) ?_ fun o s2 s2' hl2 h2 => ?_
      · intro hu o lo s2 h3 h4
        rw [M.bind_ok (tokOffset_eq s2)]
        exact Beyond.bind (ahead_cb ((hU hu).endObject _) lo s2 h3 h4) fun v s3 h7 h8 =>
          Beyond.bind (ahead_end lo s3 h7 h8) fun _ s4 h9 h10 => ⟨h9, h10⟩
      · rw [M.bind_ok (tokOffset_eq s2), M.bind_ok (crel_off h2)]
        exact CRel0.bind (crel_cb hl2 h2) fun v s3 s3' hl3 h3 => CRel0.bind (crel_end hc hl3 h3) fun _ s4 s4' hl4 h4 => crel_pure hl4 h4
    · intro s s' o hl h
      rw [readObjectLoop, readObjectLoop, M.bind_ok (tokOffset_eq s), M.bind_ok (crel_off h)]
      have hadv := ahead_tok (D := D) hlim s.offset s (Nat.le_refl _) hl
      have hk := crel_tok (D := D) (cfg := cfg) (cfg' := cfg') hlim hl h
      cases hm : liftTok D (nextOrEof src false) s with
      | panic p => rw [M.bind_eq, hm]; exact True.intro
      | err e s1 =>
        rw [hm] at hk
        obtain ⟨s1', h1, h2⟩ := hk
        rw [M.bind_err hm, M.bind_err h1]
        exact .inl ⟨s1', rfl, h2⟩
      | ok tok s1 =>
        rw [hm] at hk hadv
        obtain ⟨hl1, s1', h2, h1⟩ := hk
        rw [M.bind_ok hm, M.bind_ok h2]
        cases tok with
        | null => exact crel_perr h1
        | bool b => exact crel_perr h1
        | number n => exact crel_perr h1
        | object => exact crel_perr h1
        | array => exact crel_perr h1
        | arrayEnd => exact crel_perr h1
        | colon => exact crel_perr h1
        | comma => exact crel_perr h1
        | objectEnd => exact closing hadv.1 hl1 h1
        | string key =>
          refine CRel0.bind (crel_cb hl1 h1) ?_
          rintro ⟨o, k⟩ s2 s2' hl2 h2
          simp only
          rw [M.bind_ok (tokOffset_eq s2), M.bind_ok (crel_off h2)]
          refine CRel0.bind (crel_colon hlim hl2 h2) fun tok s3 s3' hl3 h3 => ?_
          split
          · exact crel_perr h3
          rw [M.bind_ok (tokOffset_eq s3), M.bind_ok (crel_off h3)]
          refine CRel.bind (ihT s3 s3' hl3 h3) ?_ fun v s4 s4' hl4 h4 => ?_
          · intro hu v lo s4 h5 h6
            refine Beyond.bind (ahead_cb ((hU hu).objectValue _ _ _) lo s4 h5 h6) fun o s5 h11 h12 => ?_
            rw [M.bind_ok (tokOffset_eq s5)]
            refine Beyond.bind (ahead_tok hlim lo s5 h11 h12) fun tok s6 h13 h14 => ?_
            split
            · exact ⟨h13, h14⟩
            split
            · exact beyond_perr h11
            · exact aOL hu _ lo s6 h13 h14
          refine CRel0.bind (crel_cb hl4 h4) fun o s5 s5' hl5 h5 => ?_
          rw [M.bind_ok (tokOffset_eq s5), M.bind_ok (crel_off h5)]
          refine CRel0.bind (crel_tok hlim hl5 h5) fun tok s6 s6' hl6 h6 => ?_
          split
          · exact crel_pure hl6 h6
          split
          · exact crel_perr h6
          · exact ihOL s6 s6' _ hl6 h6
    · intro s s' hl h
      rw [readArray, readArray, M.bind_ok (tokOffset_eq s), M.bind_ok (crel_off h)]
      refine CRel0.bind (crel_cb hl h) fun o s1 s1' hl1 h1 => ?_
      refine CRel.bind (ihAL s1 s1' o hl1 h1) ?_ fun o s2 s2' hl2 h2 => ?_
      · intro hu o lo s2 h3 h4
        exact Beyond.bind (ahead_cb ((hU hu).endArray _) lo s2 h3 h4) fun v s3 h7 h8 =>
          Beyond.bind (ahead_end lo s3 h7 h8) fun _ s4 h9 h10 => ⟨h9, h10⟩
      · exact CRel0.bind (crel_cb hl2 h2) fun v s3 s3' hl3 h3 => CRel0.bind (crel_end hc hl3 h3) fun _ s4 s4' hl4 h4 => crel_pure hl4 h4
    · intro s s' a hl h
      rw [readArrayLoop, readArrayLoop, M.bind_ok (tokOffset_eq s), M.bind_ok (crel_off h)]
      have hpk : ∀ s : PState D.σ, liftTok D (tokPeek src) s
          = .ok ((src.drop (s.offset + runLen isWs (src.drop s.offset))).head?.map peekKind)
              { s with offset := s.offset + runLen isWs (src.drop s.offset) } := by
        intro s
        unfold liftTok
        rw [tokPeek_eq]
      rw [M.bind_ok (hpk s), M.bind_ok (hpk s'), h.1]
      have hle := runLen_le isWs (src.drop s.offset)
      rw [List.length_drop] at hle
      have hal : Alike cfg cfg' { s with offset := s.offset + runLen isWs (src.drop s.offset) }
          { s' with offset := s.offset + runLen isWs (src.drop s.offset) } := ⟨rfl, h.2⟩
      split
      · rename_i hend
        have hlt : s.offset + runLen isWs (src.drop s.offset) < src.length := by
          cases hd : src.drop (s.offset + runLen isWs (src.drop s.offset)) with
          | nil => rw [hd] at hend; cases hend
          | cons b r => exact lt_of_drop_cons hd
        have hal' : Alike cfg cfg' { s with offset := s.offset + runLen isWs (src.drop s.offset) + 1 }
            { s' with offset := s.offset + runLen isWs (src.drop s.offset) + 1 } := ⟨rfl, h.2⟩
        rw [M.bind_ok (M.modify_eq _ _), M.bind_ok (M.modify_eq _ _)]
        exact closing (by show s.offset ≤ s.offset + _ + 1; omega) hlt hal'
      · refine CRel.bind (ihT _ _ (by show s.offset + _ ≤ _; omega) hal) ?_ fun v s3 s3' hl3 h3 => ?_
        · intro hu v lo s3 h3 h4
          rw [M.bind_ok (tokOffset_eq s3)]
          refine Beyond.bind (ahead_cb ((hU hu).arrayValue _ _) lo s3 h3 h4) fun o s4 h5 h6 => ?_
          rw [M.bind_ok (tokOffset_eq s4)]
          refine Beyond.bind (ahead_tok hlim lo s4 h5 h6) fun tok s5 h7 h8 => ?_
          split
          · exact ⟨h7, h8⟩
          split
          · exact beyond_perr h5
          · exact aAL hu _ lo s5 h7 h8
        rw [M.bind_ok (tokOffset_eq s3), M.bind_ok (crel_off h3)]
        refine CRel0.bind (crel_cb hl3 h3) fun o s4 s4' hl4 h4 => ?_
        rw [M.bind_ok (tokOffset_eq s4), M.bind_ok (crel_off h4)]
        refine CRel0.bind (crel_tok hlim hl4 h4) fun tok s5 s5' hl5 h5 => ?_
        split
        · exact crel_pure hl5 h5
        split
        · exact crel_perr h5
        · exact ihAL s5 s5' _ hl5 h5

end
end JustJson
