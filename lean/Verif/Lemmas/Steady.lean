import Verif.Lemmas.Extend
/-! # A run on a source and on a continuation of it, with any delegate -/

namespace JustJson
open Spec

set_option linter.unusedSectionVars false

/-- Tokens read at offsets in `G` are the same in the source and in its continuation, up to the end of the source. -/
structure Steady [Arch] (src t : List UInt8) (G : Nat → Prop) : Prop where
  le : ∀ {off}, G off → off ≤ src.length
  ok : ∀ {off tok off'}, G off → nextOrEof src false off = .ok tok off' → G off' ∧ nextOrEof (src ++ t) false off = .ok tok off'
  err : ∀ {off e off'}, G off → nextOrEof src false off = .err e off' →
    (∃ off'', nextOrEof (src ++ t) false off = .err e off'') ∨ e.offset = src.length
  ws : ∀ {off w off'}, G off → Ws w → Adv src off w off' → G off'
  close : ∀ {off r}, G off → src.drop off = 0x5D :: r → G (off + 1)

section
variable {src t : List UInt8} [Arch] {cfg : ParseConfig} {D : Delegate} {R : D.σ → D.σ → Prop} {G : Nat → Prop}

/-- how a run ends, seen from a delegate state `d`: in a later state -/
def After (R : D.σ → D.σ → Prop) {α : Type} (d : D.σ) (out : Out (PState D.σ) (Error D.Err) α) : Prop :=
  match out with
  | .ok _ s => R d s.delegate
  | .err _ s => R d s.delegate
  | .panic _ => True

/-- a part of the parser leads to later delegate states -/
def Onward (R : D.σ → D.σ → Prop) {α : Type} (m : PM D α) : Prop := ∀ s, After R s.delegate (m s)

/-- the same on both sides, unless the source ended -/
def DRel (src : List UInt8) (G : Nat → Prop) (R : D.σ → D.σ → Prop) {α : Type} (out out' : Out (PState D.σ) (Error D.Err) α) : Prop :=
  match out with
  | .ok a s => G s.offset ∧ out' = .ok a s
  | .err e s => (∃ off, out' = .err e { s with offset := off }) ∨ (e.offset = src.length ∧ After R s.delegate out')
  | .panic _ => True

/-- `R` is an order, and callbacks lead to later states -/
structure Growing (D : Delegate) (R : D.σ → D.σ → Prop) : Prop where
  refl : ∀ d, R d d
  trans : ∀ {a b c}, R a b → R b c → R a c
  cb : ∀ d0, CbSpec D (R d0) (fun _ d => R d0 d) (fun _ => True)

theorem After.trans (hR : Growing D R) {α : Type} {d d' : D.σ} {out : Out (PState D.σ) (Error D.Err) α} (h : R d d') (h' : After R d' out) : After R d out := by
  cases out with
  | ok a s => exact hR.trans h h'
  | err e s => exact hR.trans h h'
  | panic p => exact True.intro

theorem Onward.bind (hR : Growing D R) {α β : Type} {m : PM D α} {f : α → PM D β} (h : Onward R m) (hf : ∀ a, Onward R (f a)) : Onward R (m >>= f) := by
  intro s
  have h1 := h s
  rw [M.bind_eq]
  cases hm : m s with
  | ok a s1 => rw [hm] at h1; exact (hf a s1).trans hR h1
  | err e s1 => rw [hm] at h1; exact h1
  | panic p => exact True.intro

theorem Onward.mapErr {α : Type} {m : PM D α} {f : Error D.Err → Error D.Err} (h : Onward R m) : Onward R (M.mapErr f m) := by
  intro s
  have h1 := h s
  unfold M.mapErr
  cases hm : m s with
  | ok a s1 => rw [hm] at h1; exact h1
  | err e s1 => rw [hm] at h1; exact h1
  | panic p => exact True.intro

theorem later_tok (hR : Growing D R) {α : Type} {m : TokM α} : Onward R (liftTok D m) := by
  intro s
  unfold liftTok
  cases m s.offset <;> first | exact hR.refl _ | exact True.intro

theorem later_colon (hR : Growing D R) {src : List UInt8} : Onward R (nextColon false src D) := by
  intro s
  unfold nextColon
  cases nextOrEof src false s.offset <;> first | exact hR.refl _ | exact True.intro

theorem later_cb (hR : Growing D R) {α : Type} {m : M D.σ D.Err α} {off : Nat} (h : ∀ d0, Cb (R d0) (fun _ d => R d0 d) (fun _ => True) m) :
    Onward R (liftD D off m) := by
  intro s
  have h1 := h s.delegate s.delegate (hR.refl _)
  unfold liftD
  cases hm : m s.delegate with
  | ok a d => rw [hm] at h1; exact h1
  | err e d => rw [hm] at h1; exact h1
  | panic p => exact True.intro

theorem later_q (hR : Growing D R) {α : Type} {q : D.σ → Res α} : Onward R (liftQ D q) := by
  intro s
  unfold liftQ
  cases q s.delegate <;> first | exact hR.refl _ | exact True.intro

theorem later_pure (hR : Growing D R) {α : Type} (a : α) : Onward R (M.pure a : PM D α) := fun _ => hR.refl _
theorem later_perr (hR : Growing D R) {α : Type} {off : Nat} {k : ErrorKind D.Err} : Onward R (perr D off k : PM D α) := fun _ => hR.refl _
theorem later_off (hR : Growing D R) : Onward R (tokOffset D) := fun _ => hR.refl _
theorem later_modify (hR : Growing D R) {f : Nat → Nat} : Onward R (M.modify fun s => { s with offset := f s.offset } : PM D Unit) := fun _ => hR.refl _
theorem later_begin (hR : Growing D R) {off : Nat} : Onward R (beginNest cfg D off) := by
  intro s
  unfold beginNest
  split
  · split <;> exact hR.refl _
  · exact hR.refl _
theorem later_end (hR : Growing D R) : Onward R (endNest cfg D) := by
  intro s
  unfold endNest
  split <;> exact hR.refl _

/-- a run leads to later states -/
theorem later_run (hR : Growing D R) (src : List UInt8) : ∀ fuel : Nat,
    Onward R (readTokens false src cfg D fuel) ∧ Onward R (readObject false src cfg D fuel)
    ∧ (∀ o, Onward R (readObjectLoop false src cfg D fuel o)) ∧ Onward R (readArray false src cfg D fuel)
    ∧ ∀ a, Onward R (readArrayLoop false src cfg D fuel a) := by
  intro fuel
  induction fuel with
  | zero => exact ⟨fun _ => True.intro, fun _ => True.intro, fun _ _ => True.intro, fun _ => True.intro, fun _ _ => True.intro⟩
  | succ fuel ih =>
    obtain ⟨ihT, ihO, ihOL, ihA, ihAL⟩ := ih
    refine ⟨?_, ?_, ?_, ?_, ?_⟩
    · rw [readTokens]
      refine Onward.bind hR (later_off hR) fun off => Onward.bind hR (later_tok hR) fun tok => ?_
      cases tok with
      | null => exact later_cb hR fun d0 => (hR.cb d0).null
      | bool b => exact later_cb hR fun d0 => (hR.cb d0).boolean b
      | string b => exact later_cb hR fun d0 => (hR.cb d0).string b
      | number b => exact later_cb hR fun d0 => (hR.cb d0).number b
      | object => exact Onward.bind hR (later_begin hR) fun _ => ihO.mapErr
      | array => exact Onward.bind hR (later_begin hR) fun _ => ihA.mapErr
      | objectEnd => exact later_perr hR
      | arrayEnd => exact later_perr hR
      | colon => exact later_perr hR
      | comma => exact later_perr hR
    · rw [readObject]
      refine Onward.bind hR (later_off hR) fun off => Onward.bind hR (later_cb hR fun d0 => (hR.cb d0).beginObject) fun o =>
        Onward.bind hR (ihOL _) fun o => Onward.bind hR (later_off hR) fun off =>
        Onward.bind hR (later_cb hR fun d0 => (hR.cb d0).endObject _) fun v => Onward.bind hR (later_end hR) fun _ => later_pure hR _
    · intro o
      rw [readObjectLoop]
      refine Onward.bind hR (later_off hR) fun off => Onward.bind hR (later_tok hR) fun tok => ?_
      cases tok with
      | objectEnd =>
        simp only
        split
        · exact later_pure hR _
        · refine Onward.bind hR (later_q hR) fun b => ?_
          split
          · exact later_pure hR _
          · exact later_perr hR
      | string key =>
        refine Onward.bind hR (later_cb hR fun d0 => (hR.cb d0).objectKey _ _) ?_
        rintro ⟨o, k⟩
        refine Onward.bind hR (later_off hR) fun off => Onward.bind hR (later_colon hR) fun tok => ?_
        split
        · exact later_perr hR
        · refine Onward.bind hR (later_off hR) fun off => Onward.bind hR ihT fun v =>
            Onward.bind hR (later_cb hR fun d0 => (hR.cb d0).objectValue _ _ _) fun o =>
            Onward.bind hR (later_off hR) fun off => Onward.bind hR (later_tok hR) fun tok => ?_
          split
          · exact later_pure hR _
          split
          · exact later_perr hR
          · exact ihOL _
      | null => exact later_perr hR
      | bool b => exact later_perr hR
      | number b => exact later_perr hR
      | object => exact later_perr hR
      | array => exact later_perr hR
      | arrayEnd => exact later_perr hR
      | colon => exact later_perr hR
      | comma => exact later_perr hR
    · rw [readArray]
      refine Onward.bind hR (later_off hR) fun off => Onward.bind hR (later_cb hR fun d0 => (hR.cb d0).beginArray) fun o =>
        Onward.bind hR (ihAL _) fun o =>
        Onward.bind hR (later_cb hR fun d0 => (hR.cb d0).endArray _) fun v => Onward.bind hR (later_end hR) fun _ => later_pure hR _
    · intro a
      rw [readArrayLoop]
      refine Onward.bind hR (later_off hR) fun off => Onward.bind hR (later_tok hR) fun k => ?_
      split
      · refine Onward.bind hR (later_modify hR) fun _ => ?_
        split
        · exact later_pure hR _
        · refine Onward.bind hR (later_q hR) fun b => ?_
          split
          · exact later_pure hR _
          · exact later_perr hR
      · refine Onward.bind hR ihT fun v => Onward.bind hR (later_off hR) fun off =>
          Onward.bind hR (later_cb hR fun d0 => (hR.cb d0).arrayValue _ _) fun o =>
          Onward.bind hR (later_off hR) fun off => Onward.bind hR (later_tok hR) fun tok => ?_
        split
        · exact later_pure hR _
        split
        · exact later_perr hR
        · exact ihAL _

/-! ## Both sides -/

theorem DRel.bind (hR : Growing D R) {α β : Type} {m m' : PM D α} {f f' : α → PM D β} {s : PState D.σ} (h : DRel src G R (m s) (m' s))
    (hl : ∀ a, Onward R (f' a)) (hf : ∀ a s', G s'.offset → m s = .ok a s' → DRel src G R (f a s') (f' a s')) :
    DRel src G R ((m >>= f) s) ((m' >>= f') s) := by
  cases hm : m s with
  | ok a s1 =>
    rw [hm] at h
    rw [M.bind_ok hm, M.bind_ok h.2]
    exact hf a s1 h.1 hm
  | err e s1 =>
    rw [hm] at h
    rw [M.bind_err hm]
    rcases h with ⟨off, h⟩ | ⟨h, h2⟩
    · exact .inl ⟨off, M.bind_err h⟩
    · refine .inr ⟨h, ?_⟩
      rw [M.bind_eq]
      cases hm' : m' s with
      | ok a s2 => rw [hm'] at h2; exact (hl a s2).trans hR h2
      | err e s2 => rw [hm'] at h2; exact h2
      | panic p => exact True.intro
  | panic p => rw [M.bind_eq, hm]; exact True.intro

theorem drel_same {α : Type} {m : PM D α} {s : PState D.σ} (h : ∀ a s', m s = .ok a s' → G s'.offset) : DRel src G R (m s) (m s) := by
  cases hm : m s with
  | ok a s1 => exact ⟨h _ _ hm, rfl⟩
  | err e s1 => exact .inl ⟨s1.offset, rfl⟩
  | panic p => exact True.intro

theorem drel_perr {α : Type} {s : PState D.σ} {o : Nat} {k : ErrorKind D.Err} : DRel src G R ((perr D o k : PM D α) s) ((perr D o k : PM D α) s) :=
  .inl ⟨s.offset, rfl⟩

theorem drel_pure {α : Type} {s : PState D.σ} (a : α) (h : G s.offset) : DRel src G R ((M.pure a : PM D α) s) ((M.pure a : PM D α) s) := ⟨h, rfl⟩

theorem drel_cb {α : Type} {m : M D.σ D.Err α} {off : Nat} {s : PState D.σ} (h : G s.offset) : DRel src G R (liftD D off m s) (liftD D off m s) :=
  drel_same fun _ _ he => by rw [liftD_ok he]; exact h

theorem drel_q {α : Type} {q : D.σ → Res α} {s : PState D.σ} (h : G s.offset) : DRel src G R (liftQ D q s) (liftQ D q s) := by
  refine drel_same fun a s' he => ?_
  unfold liftQ at he
  cases hq : q s.delegate with
  | ok b => rw [hq] at he; injection he with _ he; rw [← he]; exact h
  | panic p => rw [hq] at he; cases he

theorem drel_begin {off : Nat} {s : PState D.σ} (h : G s.offset) : DRel src G R (beginNest cfg D off s) (beginNest cfg D off s) := by
  refine drel_same fun a s' he => ?_
  unfold beginNest at he
  split at he
  · split at he
    · injection he with _ he; rw [← he]; exact h
    · cases he
  · injection he with _ he; rw [← he]; exact h

theorem drel_end {s : PState D.σ} (h : G s.offset) : DRel src G R (endNest cfg D s) (endNest cfg D s) := by
  refine drel_same fun a s' he => ?_
  unfold endNest at he
  split at he <;> (injection he with _ he; rw [← he]; exact h)

theorem drel_mapErr {α : Type} {m m' : PM D α} {s : PState D.σ} {k : ErrorKind D.Err} (h : DRel src G R (m s) (m' s)) :
    DRel src G R (M.mapErr (eofTo k) m s) (M.mapErr (eofTo k) m' s) := by
  cases hm : m s with
  | ok a s1 =>
    rw [hm] at h
    unfold M.mapErr
    rw [hm, h.2]
    exact ⟨h.1, rfl⟩
  | err e s1 =>
    rw [hm] at h
    have e1 : M.mapErr (eofTo k) m s = .err (eofTo k e) s1 := by unfold M.mapErr; rw [hm]
    have e2 : (eofTo k e).offset = e.offset := by unfold eofTo; split <;> rfl
    rw [e1]
    rcases h with ⟨off, h⟩ | ⟨h, h2⟩
    · exact .inl ⟨off, by unfold M.mapErr; rw [h]⟩
    · refine .inr ⟨by rw [e2]; exact h, ?_⟩
      unfold M.mapErr
      cases hm' : m' s with
      | ok a s2 => rw [hm'] at h2; exact h2
      | err e s2 => rw [hm'] at h2; exact h2
      | panic p => exact True.intro
  | panic p => unfold M.mapErr; rw [hm]; exact True.intro

theorem drel_tok (hG : Steady src t G) (hR : Growing D R) {s : PState D.σ} (h : G s.offset) :
    DRel src G R (liftTok D (nextOrEof src false) s) (liftTok D (nextOrEof (src ++ t) false) s) := by
  cases hm : nextOrEof src false s.offset with
  | ok tok o =>
    have h1 := hG.ok h hm
    unfold liftTok
    rw [hm, h1.2]
    exact ⟨h1.1, rfl⟩
  | err e o =>
    have e1 : liftTok D (nextOrEof src false) s = .err e.intoFallable { s with offset := o } := by unfold liftTok; rw [hm]
    rw [e1]
    rcases hG.err h hm with ⟨o', h1⟩ | h1
    · exact .inl ⟨o', by unfold liftTok; rw [h1]⟩
    · exact .inr ⟨h1, later_tok hR s⟩
  | panic p => unfold liftTok; rw [hm]; exact True.intro

theorem drel_colon (hG : Steady src t G) (hR : Growing D R) {s : PState D.σ} (h : G s.offset) :
    DRel src G R (nextColon false src D s) (nextColon false (src ++ t) D s) := by
  cases hm : nextOrEof src false s.offset with
  | ok tok o =>
    have h1 := hG.ok h hm
    unfold nextColon
    rw [hm, h1.2]
    exact ⟨h1.1, rfl⟩
  | err e o =>
    have e1 : nextColon false src D s = .err (toExpectedColon e) { s with offset := o } := by unfold nextColon; rw [hm]
    rw [e1]
    rcases hG.err h hm with ⟨o', h1⟩ | h1
    · exact .inl ⟨o', by unfold nextColon; rw [h1]⟩
    · exact .inr ⟨h1, later_colon hR s⟩
  | panic p => unfold nextColon; rw [hm]; exact True.intro

/-- The parser on a source and on a continuation of it. -/
theorem run_steady (hG : Steady src t G) (hR : Growing D R) : ∀ fuel fuel' : Nat, fuel ≤ fuel' →
    (∀ s : PState D.σ, G s.offset →
      DRel src G R (readTokens false src cfg D fuel s) (readTokens false (src ++ t) cfg D fuel' s))
    ∧ (∀ s : PState D.σ, G s.offset →
      DRel src G R (readObject false src cfg D fuel s) (readObject false (src ++ t) cfg D fuel' s))
    ∧ (∀ (s : PState D.σ) o, G s.offset →
      DRel src G R (readObjectLoop false src cfg D fuel o s) (readObjectLoop false (src ++ t) cfg D fuel' o s))
    ∧ (∀ s : PState D.σ, G s.offset →
      DRel src G R (readArray false src cfg D fuel s) (readArray false (src ++ t) cfg D fuel' s))
    ∧ (∀ (s : PState D.σ) a, G s.offset →
      DRel src G R (readArrayLoop false src cfg D fuel a s) (readArrayLoop false (src ++ t) cfg D fuel' a s)) := by
  intro fuel
  induction fuel with
  | zero => intro fuel' _; exact ⟨fun _ _ => True.intro, fun _ _ => True.intro, fun _ _ _ => True.intro, fun _ _ => True.intro, fun _ _ _ => True.intro⟩
  | succ fuel ih =>
    intro fuel' hf
    obtain ⟨fuel', rfl⟩ : ∃ k, fuel' = k + 1 := ⟨fuel' - 1, by omega⟩
    obtain ⟨ihT, ihO, ihOL, ihA, ihAL⟩ := ih fuel' (by omega)
    obtain ⟨lT, lO, lOL, lA, lAL⟩ := later_run (cfg := cfg) hR (src ++ t) fuel'
    obtain ⟨lT', lO', lOL', lA', lAL'⟩ := later_run (cfg := cfg) hR (src ++ t) (fuel' + 1)
    refine ⟨?_, ?_, ?_, ?_, ?_⟩
    · intro s h
      rw [readTokens, readTokens, M.bind_ok (tokOffset_eq s), M.bind_ok (tokOffset_eq s)]
      refine DRel.bind hR (drel_tok hG hR h) ?_ ?_
      · intro tok
        cases tok with
        | null => exact later_cb hR fun d0 => (hR.cb d0).null
        | bool b => exact later_cb hR fun d0 => (hR.cb d0).boolean b
        | string b => exact later_cb hR fun d0 => (hR.cb d0).string b
        | number b => exact later_cb hR fun d0 => (hR.cb d0).number b
        | object => exact Onward.bind hR (later_begin hR) fun _ => lO.mapErr
        | array => exact Onward.bind hR (later_begin hR) fun _ => lA.mapErr
        | objectEnd => exact later_perr hR
        | arrayEnd => exact later_perr hR
        | colon => exact later_perr hR
        | comma => exact later_perr hR
      · intro tok s1 h1 _
        cases tok with
        | null => exact drel_cb h1
        | bool b => exact drel_cb h1
        | string x => exact drel_cb h1
        | number n => exact drel_cb h1
        | objectEnd => exact drel_perr
        | arrayEnd => exact drel_perr
        | colon => exact drel_perr
        | comma => exact drel_perr
        | object => exact DRel.bind hR (drel_begin h1) (fun _ => lO.mapErr) (fun _ s2 h2 _ => drel_mapErr (ihO s2 h2))
        | array => exact DRel.bind hR (drel_begin h1) (fun _ => lA.mapErr) (fun _ s2 h2 _ => drel_mapErr (ihA s2 h2))
    · intro s h
      rw [readObject, readObject, M.bind_ok (tokOffset_eq s), M.bind_ok (tokOffset_eq s)]
      have l3 : ∀ v : D.Value, Onward R (do endNest cfg D; return v : PM D D.Value) := fun v => Onward.bind hR (later_end hR) fun _ => later_pure hR _
      have l2 : ∀ o : D.Object, Onward R (do let offset ← tokOffset D; let value ← liftD D offset (D.endObject o); endNest cfg D; return value : PM D D.Value) :=
        fun o => Onward.bind hR (later_off hR) fun off => Onward.bind hR (later_cb hR fun d0 => (hR.cb d0).endObject _) l3
      refine DRel.bind hR (drel_cb h) (fun o => Onward.bind hR (lOL _) l2) ?_
      intro o s1 h1 _
      refine DRel.bind hR (ihOL s1 o h1) l2 ?_
      intro o s2 h2 _
      rw [M.bind_ok (tokOffset_eq s2)]
      refine DRel.bind hR (drel_cb h2) l3 ?_
      intro v s3 h3 _
      exact DRel.bind hR (drel_end h3) (fun _ => later_pure hR _) (fun _ s4 h4 _ => drel_pure _ h4)
    · intro s o h
      rw [readObjectLoop, readObjectLoop, M.bind_ok (tokOffset_eq s), M.bind_ok (tokOffset_eq s)]
      have l1 := lOL' o s
      rw [readObjectLoop, M.bind_ok (tokOffset_eq s)] at l1
      have l2 : ∀ o, Onward R (do
                  let offset ← tokOffset D
                  let token ← liftTok D (nextOrEof (src ++ t) false)
                  if token = .objectEnd then return o
                  else if token ≠ .comma then perr D offset .expectedCommaOrEndOfObject
                  else readObjectLoop false (src ++ t) cfg D fuel' o : PM D D.Object) := by
        intro o
        refine Onward.bind hR (later_off hR) fun off => Onward.bind hR (later_tok hR) fun tok => ?_
        split
        · exact later_pure hR _
        split
        · exact later_perr hR
        · exact lOL _
      have l3 : ∀ (o : D.Object) (k : D.Key), Onward R (do
                  let offset ← tokOffset D
                  let token ← nextColon false (src ++ t) D
                  if token ≠ .colon then perr D offset .expectedColon
                  else
                    let offset ← tokOffset D
                    let value ← readTokens false (src ++ t) cfg D fuel'
                    let object ← liftD D offset (D.objectValue o k value)
                    let offset ← tokOffset D
                    let token ← liftTok D (nextOrEof (src ++ t) false)
                    if token = .objectEnd then return object
                    else if token ≠ .comma then perr D offset .expectedCommaOrEndOfObject
                    else readObjectLoop false (src ++ t) cfg D fuel' object : PM D D.Object) := by
        intro o k
        refine Onward.bind hR (later_off hR) fun off => Onward.bind hR (later_colon hR) fun tok => ?_
        split
        · exact later_perr hR
        · exact Onward.bind hR (later_off hR) fun off => Onward.bind hR lT fun v =>
            Onward.bind hR (later_cb hR fun d0 => (hR.cb d0).objectValue _ _ _) l2
      refine DRel.bind hR (drel_tok hG hR h) ?_ ?_
      · intro tok
        cases tok with
        | objectEnd =>
          simp only
          split
          · exact later_pure hR _
          · refine Onward.bind hR (later_q hR) fun b => ?_
            split
            · exact later_pure hR _
            · exact later_perr hR
        | string key =>
          refine Onward.bind hR (later_cb hR fun d0 => (hR.cb d0).objectKey _ _) ?_
          rintro ⟨o, k⟩
          exact l3 o k
        | null => exact later_perr hR
        | bool b => exact later_perr hR
        | number b => exact later_perr hR
        | object => exact later_perr hR
        | array => exact later_perr hR
        | arrayEnd => exact later_perr hR
        | colon => exact later_perr hR
        | comma => exact later_perr hR
      · intro tok s1 h1 _
        cases tok with
        | null => exact drel_perr
        | bool b => exact drel_perr
        | number n => exact drel_perr
        | object => exact drel_perr
        | array => exact drel_perr
        | arrayEnd => exact drel_perr
        | colon => exact drel_perr
        | comma => exact drel_perr
        | objectEnd =>
          simp only
          split
          · exact drel_pure _ h1
          · refine DRel.bind hR (drel_q h1) ?_ ?_
            · intro b
              split
              · exact later_pure hR _
              · exact later_perr hR
            · intro b s2 h2 _
              split
              · exact drel_pure _ h2
              · exact drel_perr
        | string key =>
          refine DRel.bind hR (drel_cb h1) ?_ ?_
          · rintro ⟨o, k⟩
            exact l3 o k
          rintro ⟨o, k⟩ s2 h2 -
          simp only
          rw [M.bind_ok (tokOffset_eq s2), M.bind_ok (tokOffset_eq s2)]
          refine DRel.bind hR (drel_colon hG hR h2) ?_ ?_
          · intro tok
            split
            · exact later_perr hR
            · exact Onward.bind hR (later_off hR) fun off => Onward.bind hR lT fun v =>
                Onward.bind hR (later_cb hR fun d0 => (hR.cb d0).objectValue _ _ _) l2
          intro tok s3 h3 _
          split
          · exact drel_perr
          rw [M.bind_ok (tokOffset_eq s3), M.bind_ok (tokOffset_eq s3)]
          refine DRel.bind hR (ihT s3 h3) (fun v => Onward.bind hR (later_cb hR fun d0 => (hR.cb d0).objectValue _ _ _) l2) ?_
          intro v s4 h4 _
          refine DRel.bind hR (drel_cb h4) l2 ?_
          intro o s5 h5 _
          rw [M.bind_ok (tokOffset_eq s5), M.bind_ok (tokOffset_eq s5)]
          refine DRel.bind hR (drel_tok hG hR h5) ?_ ?_
          · intro tok
            split
            · exact later_pure hR _
            split
            · exact later_perr hR
            · exact lOL _
          intro tok s6 h6 _
          split
          · exact drel_pure _ h6
          split
          · exact drel_perr
          · exact ihOL s6 _ h6
    · intro s h
      rw [readArray, readArray, M.bind_ok (tokOffset_eq s), M.bind_ok (tokOffset_eq s)]
      have l3 : ∀ v : D.Value, Onward R (do endNest cfg D; return v : PM D D.Value) := fun v => Onward.bind hR (later_end hR) fun _ => later_pure hR _
      have l2 : ∀ o : D.Array, Onward R (do let value ← liftD D s.offset (D.endArray o); endNest cfg D; return value : PM D D.Value) :=
        fun o => Onward.bind hR (later_cb hR fun d0 => (hR.cb d0).endArray _) l3
      refine DRel.bind hR (drel_cb h) (fun o => Onward.bind hR (lAL _) l2) ?_
      intro o s1 h1 _
      refine DRel.bind hR (ihAL s1 o h1) l2 ?_
      intro o s2 h2 _
      refine DRel.bind hR (drel_cb h2) l3 ?_
      intro v s3 h3 _
      exact DRel.bind hR (drel_end h3) (fun _ => later_pure hR _) (fun _ s4 h4 _ => drel_pure _ h4)
    · intro s a h
      have l0 := lAL' a s
      rw [readArrayLoop, readArrayLoop, M.bind_ok (tokOffset_eq s), M.bind_ok (tokOffset_eq s)]
      rw [readArrayLoop, M.bind_ok (tokOffset_eq s)] at l0
      have hpk : ∀ src : List UInt8, liftTok D (tokPeek src) s
          = .ok ((src.drop (s.offset + runLen isWs (src.drop s.offset))).head?.map peekKind)
              { s with offset := s.offset + runLen isWs (src.drop s.offset) } := by
        intro src
        unfold liftTok
        rw [tokPeek_eq]
      obtain ⟨w, hw, ha, hle', -⟩ := ws_split (hG.le h)
      have h1 := hG.ws h hw ha
      have l2 : ∀ o, Onward R (do
                  let offset ← tokOffset D
                  let token ← liftTok D (nextOrEof (src ++ t) false)
                  if token = .arrayEnd then return o
                  else if token ≠ .comma then perr D offset .expectedCommaOrEndOfArray
                  else readArrayLoop false (src ++ t) cfg D fuel' o : PM D D.Array) := by
        intro o
        refine Onward.bind hR (later_off hR) fun off => Onward.bind hR (later_tok hR) fun tok => ?_
        split
        · exact later_pure hR _
        split
        · exact later_perr hR
        · exact lAL _
      have hle := runLen_le isWs (src.drop s.offset)
      have hG' := hG.le h
      rw [List.length_drop] at hle
      by_cases hlt : s.offset + runLen isWs (src.drop s.offset) < src.length
      · have he : runLen isWs (src.drop s.offset ++ t) = runLen isWs (src.drop s.offset) := by
          rcases runLen_ext (t := t) isWs (src.drop s.offset) with he | he
          · exact he
          · rw [List.length_drop] at he; omega
        rw [M.bind_ok (hpk src), M.bind_ok (hpk (src ++ t)), drop_ext hG', he, head_ext hlt]
        split
        · rename_i hend
          obtain ⟨r, hr⟩ : ∃ r, src.drop (s.offset + runLen isWs (src.drop s.offset)) = 0x5D :: r := by
            cases hd : src.drop (s.offset + runLen isWs (src.drop s.offset)) with
            | nil => rw [hd] at hend; cases hend
            | cons b r =>
              rw [hd] at hend
              injection hend with hend
              exact ⟨r, by rw [peekKind_arrayEnd hend]⟩
          rw [M.bind_ok (M.modify_eq _ _)]
          have h2 := hG.close h1 hr
          split
          · exact drel_pure _ h2
          · refine DRel.bind hR (drel_q h2) ?_ ?_
            · intro b
              split
              · exact later_pure hR _
              · exact later_perr hR
            · intro b s2 h2 _
              split
              · exact drel_pure _ h2
              · exact drel_perr
        · refine DRel.bind hR (ihT _ h1) (fun v => Onward.bind hR (later_off hR) fun off =>
            Onward.bind hR (later_cb hR fun d0 => (hR.cb d0).arrayValue _ _) l2) ?_
          intro v s3 h3 _
          rw [M.bind_ok (tokOffset_eq s3), M.bind_ok (tokOffset_eq s3)]
          refine DRel.bind hR (drel_cb h3) l2 ?_
          intro o s4 h4 _
          rw [M.bind_ok (tokOffset_eq s4), M.bind_ok (tokOffset_eq s4)]
          refine DRel.bind hR (drel_tok hG hR h4) ?_ ?_
          · intro tok
            split
            · exact later_pure hR _
            split
            · exact later_perr hR
            · exact lAL _
          intro tok s6 h6 _
          split
          · exact drel_pure _ h6
          split
          · exact drel_perr
          · exact ihAL s6 _ h6
      · have hend : s.offset + runLen isWs (src.drop s.offset) = src.length := by omega
        revert l0
        generalize hout : ((liftTok D (tokPeek (src ++ t)) >>= _ : PM D D.Array) s) = out'
        intro l0
        rw [M.bind_ok (hpk src), hend, List.drop_length]
        rw [if_neg (by simp)]
        cases fuel with
        | zero => exact True.intro
        | succ fuel =>
          have hE : liftTok D (nextOrEof src false) { s with offset := src.length } = .err ⟨src.length, .unexpectedEof⟩ { s with offset := src.length } := by
            unfold liftTok nextOrEof
            simp only
            rw [M.bind_err (readNonWs_nil (w := []) (by intro b hb; cases hb) (by simp) (Nat.le_refl _))]
            rfl
          have h3 : readTokens false src cfg D (fuel + 1) { s with offset := src.length } = .err ⟨src.length, .unexpectedEof⟩ { s with offset := src.length } := by
            rw [readTokens, M.bind_ok (tokOffset_eq _)]
            exact M.bind_err hE
          rw [M.bind_err h3]
          exact .inr ⟨rfl, l0⟩

/-- what is done after the root value -/
theorem later_rest (hR : Growing D R) : ∀ (src : List UInt8) (v : D.Value), Onward R (do
    let reject ← if cfg.allowAllTypesAtRoot then M.pure false else do
      let k ← liftQ D (D.kindOf · v)
      M.pure (!(k == .object || k == .array))
    if reject then perr D 0 .payloadsShouldBeObjectOrArray
    else
      match ← liftTok D (nextNonWs src) with
      | none => return v
      | some (offset, _) => perr D offset .trailingNonWhitespace : PM D D.Value) := by
  intro src v
  have ljp : ∀ b : Bool, Onward R (if b = true then perr D 0 .payloadsShouldBeObjectOrArray
      else (do
        match ← liftTok D (nextNonWs src) with
        | none => return v
        | some (offset, _) => perr D offset .trailingNonWhitespace) : PM D D.Value) := by
    intro b
    split
    · exact later_perr hR
    · refine Onward.bind hR (later_tok hR) fun o => ?_
      cases o with
      | none => exact later_pure hR _
      | some p => exact later_perr hR
  dsimp only
  split
  · exact Onward.bind hR (later_pure hR _) ljp
  · exact Onward.bind hR (later_q hR) fun _ => Onward.bind hR (later_pure hR _) ljp

/-- **A parse of a source that fails before its end fails in the same way on a continuation, having said the same to the
delegate; one that fails at its end says more to the delegate on a continuation.** -/
theorem parse_steady (hG : Steady src t G) (h0 : G 0) (hR : Growing D R) {d : D.σ} {e : Error D.Err} {s : PState D.σ}
    (h : parseBytes false src cfg D d = .err e s) :
    (∃ off, parseBytes false (src ++ t) cfg D d = .err e { s with offset := off })
    ∨ (e.offset = src.length ∧ After R s.delegate (parseBytes false (src ++ t) cfg D d)) := by
  have hT := (run_steady (cfg := cfg) hG hR (parseFuel src) (parseFuel (src ++ t))
    (by unfold parseFuel; simp; omega)).1 ⟨0, d, cfg.recursionLimit.getD USIZE_MAX⟩ h0
  have key : DRel src (fun _ => True) R (parseBytes false src cfg D d) (parseBytes false (src ++ t) cfg D d)
      ∨ ∃ v s', parseBytes false src cfg D d = .ok v s' := by
    unfold parseBytes parseM
    cases hm : readTokens false src cfg D (parseFuel src) ⟨0, d, cfg.recursionLimit.getD USIZE_MAX⟩ with
    | panic p => left; rw [M.bind_eq, hm]; exact True.intro
    | err e1 s1 =>
      left
      rw [hm] at hT
      rw [M.bind_err hm]
      rcases hT with ⟨off, hT⟩ | ⟨hT, h2⟩
      · exact .inl ⟨off, M.bind_err hT⟩
      · refine .inr ⟨hT, ?_⟩
        rw [M.bind_eq]
        cases hm' : readTokens false (src ++ t) cfg D (parseFuel (src ++ t)) ⟨0, d, cfg.recursionLimit.getD USIZE_MAX⟩ with
        | ok a s2 => rw [hm'] at h2; exact (later_rest hR _ a s2).trans hR h2
        | err e s2 => rw [hm'] at h2; exact h2
        | panic p => exact True.intro
    | ok v s1 =>
      rw [hm] at hT
      rw [M.bind_ok hm, M.bind_ok hT.2]
      have h1 := hT.1
      -- the root check
      have fin : ∀ b : Bool, DRel src (fun _ => True) R
          ((if b = true then perr D 0 .payloadsShouldBeObjectOrArray
            else (do
              match ← liftTok D (nextNonWs src) with
              | none => return v
              | some (offset, _) => perr D offset .trailingNonWhitespace) : PM D D.Value) s1)
          ((if b = true then perr D 0 .payloadsShouldBeObjectOrArray
            else (do
              match ← liftTok D (nextNonWs (src ++ t)) with
              | none => return v
              | some (offset, _) => perr D offset .trailingNonWhitespace) : PM D D.Value) s1)
          ∨ ∃ v' s', ((if b = true then perr D 0 .payloadsShouldBeObjectOrArray
            else (do
              match ← liftTok D (nextNonWs src) with
              | none => return v
              | some (offset, _) => perr D offset .trailingNonWhitespace) : PM D D.Value) s1) = .ok v' s' := by
        intro b
        split
        · left; exact .inl ⟨s1.offset, rfl⟩
        · have hle := hG.le h1
          obtain ⟨w, hw, hd | ⟨c, r, hd, hc, ha, hd'⟩⟩ := ws_cases hle
          · right
            have hl : liftTok D (nextNonWs src) s1 = .ok none { s1 with offset := src.length } := by
              unfold liftTok; rw [nextNonWs_nil hw hd.1 hle]
            rw [M.bind_ok hl]
            exact ⟨_, _, rfl⟩
          · left
            have hl : liftTok D (nextNonWs src) s1 = .ok (some (s1.offset + w.length, c)) { s1 with offset := s1.offset + w.length + 1 } := by
              unfold liftTok; rw [nextNonWs_cons hw hd hc]
            have hl' : liftTok D (nextNonWs (src ++ t)) s1 = .ok (some (s1.offset + w.length, c)) { s1 with offset := s1.offset + w.length + 1 } := by
              unfold liftTok; rw [nextNonWs_cons (t := r ++ t) hw (by rw [drop_ext hle, hd]; simp) hc]
            rw [M.bind_ok hl, M.bind_ok hl']
            exact .inl ⟨_, rfl⟩
      dsimp only
      split
      · exact fin false
      · cases hk : liftQ D (D.kindOf · v) s1 with
        | panic p => left; rw [M.bind_eq, hk]; exact True.intro
        | err e2 s2 => left; rw [M.bind_err hk, M.bind_err hk]; exact .inl ⟨s2.offset, rfl⟩
        | ok k s2 =>
          have hs2 : s2 = s1 := by
            unfold liftQ at hk
            dsimp only at hk
            cases hq : D.kindOf s1.delegate v with
            | ok k => rw [hq] at hk; injection hk with _ hk; exact hk.symm
            | panic p => rw [hq] at hk; cases hk
          subst hs2
          rw [M.bind_ok hk, M.bind_ok hk]
          exact fin _
  rcases key with key | ⟨v, s', key⟩
  · rw [h] at key; exact key
  · rw [key] at h; cases h

/-- **What a delegate has heard at the end of a source, it has heard at some point of every continuation.** -/
theorem parse_later (hG : Steady src t G) (h0 : G 0) (hR : Growing D R) {d : D.σ} :
    match parseBytes false src cfg D d with
    | .ok _ s => After R s.delegate (parseBytes false (src ++ t) cfg D d)
    | .err _ s => After R s.delegate (parseBytes false (src ++ t) cfg D d)
    | .panic _ => True := by
  cases hm : parseBytes false src cfg D d with
  | panic p => exact True.intro
  | err e s =>
    rcases parse_steady hG h0 hR hm with ⟨off, h⟩ | ⟨_, h⟩
    · simp only; rw [h]; exact hR.refl _
    · exact h
  | ok v s =>
    simp only
    unfold parseBytes parseM at hm ⊢
    have hT := (run_steady (cfg := cfg) hG hR (parseFuel src) (parseFuel (src ++ t))
      (by unfold parseFuel; simp; omega)).1 ⟨0, d, cfg.recursionLimit.getD USIZE_MAX⟩ h0
    obtain ⟨v1, s1, h1, h2⟩ := bind_ok_inv' hm
    rw [h1] at hT
    rw [M.bind_ok hT.2]
    have hd : s.delegate = s1.delegate := by
      have fin : ∀ b : Bool, ((if b = true then perr D 0 .payloadsShouldBeObjectOrArray
            else (do
              match ← liftTok D (nextNonWs src) with
              | none => return v1
              | some (offset, _) => perr D offset .trailingNonWhitespace) : PM D D.Value) s1) = .ok v s → s.delegate = s1.delegate := by
        intro b hb
        split at hb
        · cases hb
        · obtain ⟨x, s2, h3, h4⟩ := bind_ok_inv' hb
          have e2 : s2.delegate = s1.delegate := by
            unfold liftTok at h3
            split at h3
            · injection h3 with _ h3; rw [← h3]
            · cases h3
            · cases h3
          cases x with
          | none => injection h4 with _ h4; rw [← h4]; exact e2
          | some p => cases h4
      dsimp only at h2
      split at h2
      · exact fin false h2
      · obtain ⟨k, s2, h3, h4⟩ := bind_ok_inv' h2
        have hs2 : s2 = s1 := by
          unfold liftQ at h3
          split at h3
          · injection h3 with _ h3; exact h3.symm
          · cases h3
        subst hs2
        exact fin _ h4
    rw [hd]
    exact later_rest hR _ v1 s1

end
end JustJson
