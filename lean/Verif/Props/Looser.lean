import Verif.Props.Steady
import Verif.Lemmas.Looser
/-! # An option changes only the errors it is about: C70 -/

namespace JustJson
open Spec

set_option linter.unusedSectionVars false

section
variable [Arch] {src : List UInt8} {cfg cfg' : ParseConfig} {D : Delegate} {U : Prop}

theorem M.bind_ok_inv {σ ε α β : Type} {m : M σ ε α} {f : α → M σ ε β} {s s2 : σ} {b : β} (h : (m >>= f) s = .ok b s2) :
    ∃ a s1, m s = .ok a s1 ∧ f a s1 = .ok b s2 := by
  rw [M.bind_eq] at h
  cases hm : m s with
  | ok a s1 => rw [hm] at h; exact ⟨a, s1, rfl, h⟩
  | err e s1 => rw [hm] at h; cases h
  | panic p => rw [hm] at h; cases h

theorem mapErr_ok_inv {σ ε α : Type} {m : M σ ε α} {f : ε → ε} {s s2 : σ} {b : α} (h : M.mapErr f m s = .ok b s2) :
    m s = .ok b s2 := by
  unfold M.mapErr at h
  cases hm : m s with
  | ok a s1 => rw [hm] at h; exact h
  | err e s1 => rw [hm] at h; cases h
  | panic p => rw [hm] at h; cases h

theorem alike_start (hc : LooserOrEqual cfg cfg') (d : D.σ) :
    Alike cfg cfg' (⟨0, d, cfg.recursionLimit.getD USIZE_MAX⟩ : PState D.σ) ⟨0, d, cfg'.recursionLimit.getD USIZE_MAX⟩ := by
  refine ⟨rfl, rfl, fun h => ?_, fun h => by rw [h]⟩
  cases hn : cfg'.recursionLimit with
  | none => rw [hn] at h; cases h
  | some n' =>
    obtain ⟨n, h1, h2⟩ := hc.limit n' hn
    rw [h1]
    exact h2

/-- after the root value -/
theorem rest_looser (hc : LooserOrEqual cfg cfg') {v : D.Value} {s s' : PState D.σ} (ho : s'.offset = s.offset)
    (hd : s'.delegate = s.delegate) {rest rest' : PM D D.Value}
    (hrest : rest = (do
      let reject ← if cfg.allowAllTypesAtRoot then M.pure false else do
        let k ← liftQ D (D.kindOf · v)
        M.pure (!(k == .object || k == .array))
      if reject then perr D 0 .payloadsShouldBeObjectOrArray
      else
        match ← liftTok D (nextNonWs src) with
        | none => return v
        | some (offset, _) => perr D offset .trailingNonWhitespace : PM D D.Value))
    (hrest' : rest' = (do
      let reject ← if cfg'.allowAllTypesAtRoot then M.pure false else do
        let k ← liftQ D (D.kindOf · v)
        M.pure (!(k == .object || k == .array))
      if reject then perr D 0 .payloadsShouldBeObjectOrArray
      else
        match ← liftTok D (nextNonWs src) with
        | none => return v
        | some (offset, _) => perr D offset .trailingNonWhitespace : PM D D.Value)) {e : Error D.Err} {s1 : PState D.σ}
    (h : rest s = .err e s1) :
    (∃ s1', rest' s' = .err e s1' ∧ s1'.delegate = s1.delegate) ∨ (ConfigError cfg cfg' e.kind ∧ e.offset = 0) := by
  subst hrest hrest'
  -- what follows the root check
  have fin : ∀ b : Bool, ∀ {e : Error D.Err} {s1 : PState D.σ},
      ((if b = true then perr D 0 .payloadsShouldBeObjectOrArray
        else (do
          match ← liftTok D (nextNonWs src) with
          | none => return v
          | some (offset, _) => perr D offset .trailingNonWhitespace) : PM D D.Value) s) = .err e s1 →
      ∃ s1', ((if b = true then perr D 0 .payloadsShouldBeObjectOrArray
        else (do
          match ← liftTok D (nextNonWs src) with
          | none => return v
          | some (offset, _) => perr D offset .trailingNonWhitespace) : PM D D.Value) s') = .err e s1' ∧ s1'.delegate = s1.delegate := by
    intro b e s1 h
    cases b with
    | true => injection h with h1 h2; exact ⟨s', by rw [← h1]; rfl, by rw [← h2]; exact hd⟩
    | false =>
      simp only [Bool.false_eq_true, if_false] at h ⊢
      rw [M.bind_eq] at h ⊢
      unfold liftTok at h ⊢
      rw [ho]
      cases hm : nextNonWs src s.offset with
      | panic p => rw [hm] at h; cases h
      | err e2 off => rw [hm] at h; injection h with h1 h2; exact ⟨_, by rw [← h1], by rw [← h2]; exact hd⟩
      | ok o off =>
        rw [hm] at h
        cases o with
        | none => cases h
        | some p => injection h with h1 h2; exact ⟨_, by rw [← h1]; rfl, by rw [← h2]; exact hd⟩
  dsimp only at h ⊢
  by_cases ha : cfg.allowAllTypesAtRoot = true
  · rw [if_pos ha] at h
    rw [if_pos (hc.root ha)]
    exact .inl (fin false h)
  · rw [if_neg ha] at h
    cases hq : D.kindOf s.delegate v with
    | panic p =>
      have hb : liftQ D (D.kindOf · v) s = .panic p := by unfold liftQ; dsimp only; rw [hq]
      rw [M.bind_eq, hb] at h; cases h
    | ok k =>
      have hb : liftQ D (D.kindOf · v) s = .ok k s := by unfold liftQ; dsimp only; rw [hq]
      have hb' : liftQ D (D.kindOf · v) s' = .ok k s' := by unfold liftQ; dsimp only; rw [hd, hq]
      rw [M.bind_ok hb] at h
      by_cases ha' : cfg'.allowAllTypesAtRoot = true
      · rw [if_pos ha']
        cases hk : (!(k == .object || k == .array)) with
        | false =>
          rw [hk] at h
          exact .inl (fin false h)
        | true =>
          rw [hk] at h
          right
          injection h with h1 h2
          rw [← h1]
          exact ⟨⟨by simpa using ha, ha'⟩, rfl⟩
      · rw [if_neg ha', M.bind_ok hb']
        exact .inl (fin _ h)

/-- **What a looser configuration does to an error.** -/
theorem parse_looser (hc : LooserOrEqual cfg cfg') (hlim : src.length < LIM) {d : D.σ} {e : Error D.Err} {s : PState D.σ}
    (h : parseBytes false src cfg D d = .err e s) :
    (∃ s', parseBytes false src cfg' D d = .err e s' ∧ s'.delegate = s.delegate) ∨ ConfigError cfg cfg' e.kind := by
  have hT := (run_looser (U := False) (D := D) hc (fun h => h.elim) hlim (parseFuel src)).1 _ _ (Nat.zero_le _) (alike_start hc d)
  unfold parseBytes parseM at h ⊢
  cases hm : readTokens false src cfg D (parseFuel src) ⟨0, d, cfg.recursionLimit.getD USIZE_MAX⟩ with
  | panic p => rw [M.bind_eq, hm] at h; cases h
  | err e1 s1 =>
    rw [hm] at hT
    rw [M.bind_err hm] at h
    injection h with h1 h2
    subst h1 h2
    rcases hT with ⟨s', hT, h2⟩ | ⟨hT, -⟩
    · exact .inl ⟨s', M.bind_err hT, h2⟩
    · exact .inr hT
  | ok v s1 =>
    rw [hm] at hT
    obtain ⟨-, s1', hT, ha⟩ := hT
    rw [M.bind_ok hm] at h
    rw [M.bind_ok hT]
    rcases rest_looser hc ha.1 ha.2.1 rfl rfl h with h | h
    · exact .inl h
    · exact .inr h.1

theorem tok_inv {D : Delegate} {g : Bool} {s s1 : PState D.σ} {tok : Token} (h : liftTok D (nextOrEof src g) s = .ok tok s1) :
    nextOrEof src g s.offset = .ok tok s1.offset ∧ s1 = { s with offset := s1.offset } := by
  unfold liftTok at h
  cases hm : nextOrEof src g s.offset with
  | ok t off => rw [hm] at h; injection h with h1 h2; subst h1 h2; exact ⟨rfl, rfl⟩
  | err e off => rw [hm] at h; cases h
  | panic p => rw [hm] at h; cases h

/-- A scalar at the root reads the same under every configuration. -/
theorem scalar_root {g : Bool} {fuel : Nat} {s s' s1' : PState Unit} (ho : s'.offset = s.offset) {v : Value}
    (h : readTokens g src cfg' valueParser fuel s' = .ok v s1') (hk : (v.kind == .object || v.kind == .array) = false) :
    ∃ s1, readTokens g src cfg valueParser fuel s = .ok v s1 := by
  cases fuel with
  | zero => rw [readTokens] at h; cases h
  | succ fuel =>
    rw [readTokens] at h
    rw [readTokens]
    obtain ⟨off, s0, h0, h⟩ := M.bind_ok_inv h
    injection h0 with h0 h0'
    subst h0 h0'
    obtain ⟨tok, s2', h1, h⟩ := M.bind_ok_inv h
    obtain ⟨h2, h3⟩ := tok_inv h1
    rw [ho] at h2
    cases tok with
    | null => injection h with h _; rw [← h]; exact ⟨_, (M.bind_ok (tokOffset_eq _)).trans ((M.bind_ok (liftTok_ok h2)).trans rfl)⟩
    | bool b => injection h with h _; rw [← h]; exact ⟨_, (M.bind_ok (tokOffset_eq _)).trans ((M.bind_ok (liftTok_ok h2)).trans rfl)⟩
    | string x => injection h with h _; rw [← h]; exact ⟨_, (M.bind_ok (tokOffset_eq _)).trans ((M.bind_ok (liftTok_ok h2)).trans rfl)⟩
    | number n => injection h with h _; rw [← h]; exact ⟨_, (M.bind_ok (tokOffset_eq _)).trans ((M.bind_ok (liftTok_ok h2)).trans rfl)⟩
    | objectEnd => cases h
    | arrayEnd => cases h
    | colon => cases h
    | comma => cases h
    | object =>
      exfalso
      obtain ⟨_, s3, -, h⟩ := M.bind_ok_inv h
      have h := mapErr_ok_inv h
      cases fuel with
      | zero => rw [readObject] at h; cases h
      | succ fuel =>
        rw [readObject] at h
        obtain ⟨_, s4, -, h⟩ := M.bind_ok_inv h
        obtain ⟨o, s5, -, h⟩ := M.bind_ok_inv h
        obtain ⟨o2, s6, -, h⟩ := M.bind_ok_inv h
        obtain ⟨_, s7, -, h⟩ := M.bind_ok_inv h
        obtain ⟨v2, s8, h8, h⟩ := M.bind_ok_inv h
        obtain ⟨_, s9, -, h⟩ := M.bind_ok_inv h
        have h8 : (Out.ok (Value.object o2) s7 : Out (PState Unit) (Error Empty) Value) = .ok v2 s8 := h8
        injection h8 with h8 _
        have h : (Out.ok v2 s9 : Out (PState Unit) (Error Empty) Value) = .ok v s1' := h
        injection h with h _
        rw [← h, ← h8] at hk
        cases hk
    | array =>
      exfalso
      obtain ⟨_, s3, -, h⟩ := M.bind_ok_inv h
      have h := mapErr_ok_inv h
      cases fuel with
      | zero => rw [readArray] at h; cases h
      | succ fuel =>
        rw [readArray] at h
        obtain ⟨_, s4, -, h⟩ := M.bind_ok_inv h
        obtain ⟨o, s5, -, h⟩ := M.bind_ok_inv h
        obtain ⟨o2, s6, -, h⟩ := M.bind_ok_inv h
        obtain ⟨v2, s8, h8, h⟩ := M.bind_ok_inv h
        obtain ⟨_, s9, -, h⟩ := M.bind_ok_inv h
        have h8 : (Out.ok (Value.array o2) s6 : Out (PState Unit) (Error Empty) Value) = .ok v2 s8 := h8
        injection h8 with h8 _
        have h : (Out.ok v2 s9 : Out (PState Unit) (Error Empty) Value) = .ok v s1' := h
        injection h with h _
        rw [← h, ← h8] at hk
        cases hk

theorem value_unfailing : Unfailing valueParser := by
  constructor <;> (intros; exact ⟨_, _, rfl⟩)

/-- **A looser configuration never reports an earlier place**, for `Value`. -/
theorem value_later (hc : LooserOrEqual cfg cfg') (hlim : src.length < LIM) {e e' : Error Empty} {s s' : PState Unit}
    (h : parseBytes false src cfg valueParser () = .err e s) (h' : parseBytes false src cfg' valueParser () = .err e' s') :
    e.offset ≤ e'.offset := by
  have hT := (run_looser (U := True) (D := valueParser) hc (fun _ => value_unfailing) hlim (parseFuel src)).1 _ _ (Nat.zero_le _) (alike_start hc ())
  cases hm : readTokens false src cfg valueParser (parseFuel src) ⟨0, (), cfg.recursionLimit.getD USIZE_MAX⟩ with
  | panic p => unfold parseBytes parseM at h; rw [M.bind_eq, hm] at h; cases h
  | err e1 s1 =>
    rw [hm] at hT
    unfold parseBytes parseM at h
    rw [M.bind_err hm] at h
    injection h with h1 h2
    subst h1 h2
    rcases hT with ⟨s2, hT, h2⟩ | ⟨hT, hB⟩
    · unfold parseBytes parseM at h'
      rw [M.bind_err hT] at h'
      injection h' with h1 h2
      rw [h1]
      exact Nat.le_refl _
    · have hB := hB True.intro
      cases hm' : readTokens false src cfg' valueParser (parseFuel src) ⟨0, (), cfg'.recursionLimit.getD USIZE_MAX⟩ with
      | panic p => unfold parseBytes parseM at h'; rw [M.bind_eq, hm'] at h'; cases h'
      | err e2 s2 =>
        rw [hm'] at hB
        unfold parseBytes parseM at h'
        rw [M.bind_err hm'] at h'
        injection h' with h1 h2
        rw [← h1]
        exact hB
      | ok v s2 =>
        rw [hm'] at hB
        rw [parseM_after hm'] at h'
        split at h'
        · rename_i hk
          obtain ⟨s3, h3⟩ := scalar_root (cfg := cfg) (s := ⟨0, (), cfg.recursionLimit.getD USIZE_MAX⟩)
            (s' := ⟨0, (), cfg'.recursionLimit.getD USIZE_MAX⟩) rfl hm' hk.2
          rw [h3] at hm
          cases hm
        · obtain ⟨w, hw, hd | ⟨c, r, hd, hc, ha, hd'⟩⟩ := ws_cases hB.2
          · rw [M.bind_ok (liftTok_ok (nextNonWs_nil hw hd.1 hB.2))] at h'
            cases h'
          · rw [M.bind_ok (liftTok_ok (nextNonWs_cons hw hd hc))] at h'
            injection h' with h1 h2
            rw [← h1]
            exact Nat.le_trans hB.1 (Nat.le_add_right _ _)
  | ok v s1 =>
    rw [hm] at hT
    obtain ⟨-, s1', hT, ha⟩ := hT
    unfold parseBytes parseM at h h'
    rw [M.bind_ok hm] at h
    rw [M.bind_ok hT] at h'
    rcases rest_looser hc ha.1 ha.2.1 rfl rfl h with ⟨s2, h2, -⟩ | h2
    · have h3 := h2.symm.trans h'
      injection h3 with h1 h2
      rw [h1]
      exact Nat.le_refl _
    · rw [h2.2]; exact Nat.zero_le _

/-- **C70.** An error of a parse, with any delegate, is the error under every looser configuration, with the delegate in
the same state, unless it is an error about the very option that differs. -/
theorem C70_any_delegate (g : Bool) (src : List UInt8) (h : Input g src) (cfg cfg' : ParseConfig) (hc : LooserOrEqual cfg cfg')
    (D : Delegate) (d d' : D.σ) (e : Error D.Err) (he : Stopped (parseBytes g src cfg D d) e d') :
    Stopped (parseBytes g src cfg' D d) e d' ∨ ConfigError cfg cfg' e.kind := by
  obtain ⟨s, he, rfl⟩ := he
  rw [parseBytes_input h] at he
  rw [parseBytes_input h]
  rcases parse_looser hc h.lim he with ⟨s', h1, h2⟩ | h1
  · exact .inl ⟨s', h1, h2⟩
  · exact .inr h1

theorem value_err {g : Bool} {e : Error Empty} (he : Value.parseWithConfig g src cfg = .err e) :
    ∃ s, parseBytes g src cfg valueParser () = .err e s := by
  unfold Value.parseWithConfig at he
  cases hp : parseBytes g src cfg valueParser () with
  | ok v s => rw [hp] at he; cases he
  | panic p => rw [hp] at he; cases he
  | err e' s => rw [hp] at he; injection he with he; rw [← he]; exact ⟨s, rfl⟩

/-- **C70** for `Value::from_json*_with_config`: the error is the same, or is one about the difference. -/
theorem C70_value (g : Bool) (src : List UInt8) (h : Input g src) (cfg cfg' : ParseConfig) (hc : LooserOrEqual cfg cfg')
    (e : Error Empty) (he : Value.parseWithConfig g src cfg = .err e) :
    Value.parseWithConfig g src cfg' = .err e ∨ ConfigError cfg cfg' e.kind := by
  obtain ⟨s, hs⟩ := value_err he
  rcases C70_any_delegate g src h cfg cfg' hc valueParser () s.delegate e ⟨s, hs, rfl⟩ with ⟨s', h1, -⟩ | h1
  · left
    unfold Value.parseWithConfig
    rw [h1]; rfl
  · exact .inr h1

/-- **C70.** The place of the error under a looser configuration is never before the place of the error under the
stricter one. -/
theorem C70_never_earlier (g : Bool) (src : List UInt8) (h : Input g src) (cfg cfg' : ParseConfig) (hc : LooserOrEqual cfg cfg')
    (e e' : Error Empty) (he : Value.parseWithConfig g src cfg = .err e) (he' : Value.parseWithConfig g src cfg' = .err e') :
    e.offset ≤ e'.offset := by
  obtain ⟨s, hs⟩ := value_err he
  obtain ⟨s', hs'⟩ := value_err he'
  rw [parseBytes_input h] at hs hs'
  exact value_later hc h.lim hs hs'

/-- **C70** for documents, growing or of bounded capacity. -/
theorem C70_document (cap : Option Nat) (g : Bool) (src : List UInt8) (h : Input g src) (cfg cfg' : ParseConfig)
    (hc : LooserOrEqual cfg cfg') (e : Error Empty) (he : docFromJsonWithConfig cap g src cfg = .err e) :
    docFromJsonWithConfig cap g src cfg' = .err e ∨ ConfigError cfg cfg' e.kind := by
  unfold docFromJsonWithConfig at he ⊢
  cases hp : parseBytes g src cfg (nodesDelegate cap) [] with
  | ok v s => rw [hp] at he; cases he
  | panic p => rw [hp] at he; cases he
  | err e' s =>
    rw [hp] at he
    injection he with he
    rcases C70_any_delegate g src h cfg cfg' hc (nodesDelegate cap) [] s.delegate e' ⟨s, hp, rfl⟩ with ⟨s', h1, -⟩ | h1
    · left; rw [h1, ← he]
    · right
      have : ConfigError cfg cfg' e.kind := by
        rw [← he]
        obtain ⟨off, k⟩ := e'
        cases k <;> first | exact h1 | exact h1.elim
      exact this

end

/-! ## Concrete cases -/

section
local instance : Arch := arch64

/-- a malformed text fails in the same way under the default and under the loosest configuration -/
example : Value.parseWithConfig false (b8 "[1, {\"k\" 2,},]") ⟨true, none, true⟩ = .err ⟨8, .expectedColon⟩ := by
  have h := C70_value false (b8 "[1, {\"k\" 2,},]") (input_bytes (by unfold SliceFits; decide +kernel)) .strict ⟨true, none, true⟩
    ⟨fun _ => rfl, fun n h => (by cases h), fun _ => rfl⟩ ⟨8, .expectedColon⟩ (Outcome.error_eq (by decide +kernel))
  rcases h with h | h
  · exact h
  · exact h.elim

/-- an error about the option that differs gives way to another, not before it -/
example : (Value.parseWithConfig false (b8 "[1, ] x") .strict).error? = some ⟨3, .illegalTrailingComma⟩
    ∧ (Value.parseWithConfig false (b8 "[1, ] x") ⟨true, none, true⟩).error? = some ⟨6, .trailingNonWhitespace⟩
    ∧ ConfigError (δ := Empty) .strict ⟨true, none, true⟩ .illegalTrailingComma := by
  refine ⟨by decide +kernel, by decide +kernel, rfl, rfl⟩

end

/-! ## Instances: each theorem above applied to a concrete case that meets its hypotheses -/
section Instances
attribute [local instance] arch64

theorem looserEx : LooserOrEqual .strict ⟨true, none, true⟩ := ⟨fun _ => rfl, fun n h => (by cases h), fun _ => rfl⟩
theorem looserEx_stopped : ∃ e d, Stopped (parseBytes true (b8 "[1, ] x") .strict unitDelegate ()) e d := by
  obtain ⟨e, s, h⟩ := Out.exists_err (o := parseBytes true (b8 "[1, ] x") .strict unitDelegate ()) (by decide +kernel)
  exact ⟨e, _, s, h, rfl⟩
example := C70_any_delegate true (b8 "[1, ] x") (by lit) .strict ⟨true, none, true⟩ looserEx unitDelegate () _ _
  looserEx_stopped.choose_spec.choose_spec
example := C70_value true (b8 "[1, ] x") (by lit) .strict ⟨true, none, true⟩ looserEx ⟨3, .illegalTrailingComma⟩ (Outcome.error_eq (by decide +kernel))
example := C70_never_earlier true (b8 "[1, ] x") (by lit) .strict ⟨true, none, true⟩ looserEx ⟨3, .illegalTrailingComma⟩ ⟨6, .trailingNonWhitespace⟩
  (Outcome.error_eq (by decide +kernel)) (Outcome.error_eq (by decide +kernel))
example := C70_document (some 9) true (b8 "[1, ] x") (by lit) .strict ⟨true, none, true⟩ looserEx ⟨3, .illegalTrailingComma⟩
  (Outcome.error_eq (by decide +kernel))

end Instances
end JustJson
