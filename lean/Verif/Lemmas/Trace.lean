import Verif.Lemmas.Outcome
import Verif.Spec.Trace
/-! # Recording delegates -/

namespace JustJson
open Spec

set_option linter.unusedSectionVars false

section
variable {src : List UInt8} [Arch] {g : Bool} {cfg : ParseConfig} {D : Delegate}

/-- forget the record of a state -/
def fg {σ β : Type} (s : PState (σ × List β)) : PState σ := ⟨s.offset, s.delegate.1, s.remainingDepth⟩

theorem forget_bind {σ ε α β γ : Type} {m' : M (PState (σ × List γ)) ε α} {f' : α → M (PState (σ × List γ)) ε β}
    {m : M (PState σ) ε α} {f : α → M (PState σ) ε β} {s : PState (σ × List γ)}
    (h : forget (m' s) = m (fg s)) (hf : ∀ a s1, forget (f' a s1) = f a (fg s1)) :
    forget ((m' >>= f') s) = (m >>= f) (fg s) := by
  rw [M.bind_eq, M.bind_eq, ← h]
  cases m' s with
  | ok a s1 => exact hf a s1
  | err e s1 => rfl
  | panic p => rfl

theorem forget_liftD {α : Type} (off : Nat) (m : M D.σ D.Err α) (s : PState (traced D).σ) :
    forget (liftD (traced D) off (recorded m) s) = liftD D off m (fg s) := by
  have e1 : liftD D off m (fg s) = match m s.delegate.1 with
    | .ok a d => .ok a ⟨s.offset, d, s.remainingDepth⟩
    | .err e d => .err ⟨off, .errorFromDelegate e⟩ ⟨s.offset, d, s.remainingDepth⟩
    | .panic p => .panic p := rfl
  rw [e1]
  unfold liftD recorded
  cases m s.delegate.1 <;> rfl

theorem forget_liftTok {α : Type} (m : TokM α) (s : PState (traced D).σ) :
    forget (liftTok (traced D) m s) = liftTok D m (fg s) := by
  unfold liftTok fg
  simp only []
  cases m s.offset <;> rfl

theorem forget_nextColon (s : PState (traced D).σ) :
    forget (nextColon g src (traced D) s) = nextColon g src D (fg s) := by
  unfold nextColon fg
  simp only []
  cases nextOrEof src g s.offset <;> rfl

theorem forget_liftQ {α : Type} (q : D.σ → Res α) (s : PState (traced D).σ) :
    forget (liftQ (traced D) (fun x => q x.1) s) = liftQ D q (fg s) := by
  unfold liftQ fg
  simp only []
  cases q s.delegate.1 <;> rfl

theorem forget_beginNest (off : Nat) (s : PState (traced D).σ) :
    forget (beginNest cfg (traced D) off s) = beginNest cfg D off (fg s) := by
  unfold beginNest fg
  simp only []
  split
  · split <;> rfl
  · rfl

theorem forget_endNest (s : PState (traced D).σ) :
    forget (endNest cfg (traced D) s) = endNest cfg D (fg s) := by
  unfold endNest fg
  simp only []
  split <;> rfl

theorem forget_mapErr {α : Type} {k : ErrorKind D.Err} {m' : PM (traced D) α} {m : PM D α}
    {s : PState (traced D).σ} (h : forget (m' s) = m (fg s)) :
    forget (M.mapErr (eofTo k) m' s) = M.mapErr (eofTo k) m (fg s) := by
  unfold M.mapErr
  rw [← h]
  cases m' s <;> rfl

theorem run_forget : ∀ fuel : Nat,
    (∀ s, forget (readTokens g src cfg (traced D) fuel s) = readTokens g src cfg D fuel (fg s))
    ∧ (∀ s, forget (readObject g src cfg (traced D) fuel s) = readObject g src cfg D fuel (fg s))
    ∧ (∀ o s, forget (readObjectLoop g src cfg (traced D) fuel o s) = readObjectLoop g src cfg D fuel o (fg s))
    ∧ (∀ s, forget (readArray g src cfg (traced D) fuel s) = readArray g src cfg D fuel (fg s))
    ∧ (∀ o s, forget (readArrayLoop g src cfg (traced D) fuel o s) = readArrayLoop g src cfg D fuel o (fg s)) := by
  intro fuel
  induction fuel with
  | zero =>
    refine ⟨?_, ?_, ?_, ?_, ?_⟩
    · intro s; rfl
    · intro s; rfl
    · intro o s; rw [readObjectLoop, readObjectLoop]; rfl
    · intro s; rfl
    · intro o s; rw [readArrayLoop, readArrayLoop]; rfl
  | succ fuel ih =>
    obtain ⟨ihT, ihO, ihOL, ihA, ihAL⟩ := ih
    have hoff : ∀ s, forget (tokOffset (traced D) s) = tokOffset D (fg s) := fun s => rfl
    refine ⟨?_, ?_, ?_, ?_, ?_⟩
    · intro s
      rw [readTokens, readTokens]
      refine forget_bind (hoff s) fun off s1 => ?_
      refine forget_bind (forget_liftTok _ _) fun tok s2 => ?_
      cases tok with
      | null => exact forget_liftD _ _ _
      | bool b => exact forget_liftD _ _ _
      | string b => exact forget_liftD _ _ _
      | number b => exact forget_liftD _ _ _
      | object => exact forget_bind (forget_beginNest _ _) fun _ s3 => forget_mapErr (ihO s3)
      | array => exact forget_bind (forget_beginNest _ _) fun _ s3 => forget_mapErr (ihA s3)
      | _ => rfl
    · intro s
      rw [readObject, readObject]
      refine forget_bind (hoff s) fun off s1 => ?_
      refine forget_bind (forget_liftD _ _ _) fun o s2 => ?_
      refine forget_bind (ihOL o s2) fun o s3 => ?_
      refine forget_bind (hoff _) fun off s1 => ?_
      refine forget_bind (forget_liftD _ _ _) fun v s2 => ?_
      refine forget_bind (forget_endNest _) fun _ s2 => ?_
      rfl
    · intro o s
      rw [readObjectLoop, readObjectLoop]
      refine forget_bind (hoff s) fun off s1 => ?_
      refine forget_bind (forget_liftTok _ _) fun tok s2 => ?_
      cases tok with
      | objectEnd =>
        simp only []
        split
        · rfl
        refine forget_bind (forget_liftQ (fun x => D.objectIsEmpty x o) s2) fun b s3 => ?_
        split <;> rfl
      | string k =>
        refine forget_bind (forget_liftD _ _ _) fun r s3 => ?_
        obtain ⟨o, k⟩ := r
        refine forget_bind (hoff _) fun off s1 => ?_
        refine forget_bind (forget_nextColon _) fun tok s4 => ?_
        split
        · rfl
        refine forget_bind (hoff _) fun off s1 => ?_
        refine forget_bind (ihT _) fun v s1 => ?_
        refine forget_bind (forget_liftD _ _ _) fun o s3 => ?_
        refine forget_bind (hoff _) fun off s1 => ?_
        refine forget_bind (forget_liftTok _ _) fun tok s2 => ?_
        split
        · rfl
        split
        · rfl
        exact ihOL _ _
      | _ => rfl
    · intro s
      rw [readArray, readArray]
      refine forget_bind (hoff s) fun off s1 => ?_
      refine forget_bind (forget_liftD _ _ _) fun o s2 => ?_
      refine forget_bind (ihAL o s2) fun o s3 => ?_
      refine forget_bind (forget_liftD _ _ _) fun v s2 => ?_
      refine forget_bind (forget_endNest _) fun _ s2 => ?_
      rfl
    · intro o s
      rw [readArrayLoop, readArrayLoop]
      refine forget_bind (hoff s) fun off s1 => ?_
      refine forget_bind (forget_liftTok _ _) fun k s2 => ?_
      split
      · refine forget_bind rfl fun _ s3 => ?_
        split
        · rfl
        refine forget_bind (forget_liftQ (fun x => D.arrayIsEmpty x o) s3) fun b s3 => ?_
        split <;> rfl
      · refine forget_bind (ihT _) fun v s1 => ?_
        refine forget_bind (hoff _) fun off s1 => ?_
        refine forget_bind (forget_liftD _ _ _) fun o s3 => ?_
        refine forget_bind (hoff _) fun off s1 => ?_
        refine forget_bind (forget_liftTok _ _) fun tok s2 => ?_
        split
        · rfl
        split
        · rfl
        exact ihAL _ _

theorem parse_forget (d : D.σ) (l : List (Option D.Err)) :
    forget (parseBytes g src cfg (traced D) (d, l)) = parseBytes g src cfg D d := by
  unfold parseBytes parseM
  refine forget_bind (s := ⟨0, (d, l), cfg.recursionLimit.getD USIZE_MAX⟩) ((run_forget _).1 _) fun v s1 => ?_
  by_cases ha : cfg.allowAllTypesAtRoot = true
  · rw [if_pos ha, if_pos ha]
    refine forget_bind rfl fun b s2 => ?_
    cases b with
    | true => rfl
    | false =>
      refine forget_bind (forget_liftTok _ _) fun r s3 => ?_
      cases r <;> rfl
  · rw [if_neg ha, if_neg ha]
    refine forget_bind (forget_liftQ (fun x => D.kindOf x v) s1) fun k s2 => ?_
    refine forget_bind rfl fun b s2 => ?_
    cases b with
    | true => rfl
    | false =>
      refine forget_bind (forget_liftTok _ _) fun r s3 => ?_
      cases r <;> rfl

/-- all outcomes on record are `Ok` -/
def AllOk {β : Type} (l : List (Option β)) : Prop := ∀ x ∈ l, x = none

theorem traced_cb : CbSpec (traced D) (fun s => AllOk s.2) (fun x s => ∃ l, AllOk l ∧ s.2 = l ++ [some x]) (fun _ => True) := by
  have key : ∀ {α : Type} (m : M D.σ D.Err α), Cb (fun (s : D.σ × List (Option D.Err)) => AllOk s.2)
      (fun x s => ∃ l, AllOk l ∧ s.2 = l ++ [some x]) (fun _ => True) (recorded m) := by
    intro α m d hd
    unfold recorded
    cases m d.1 with
    | ok a s =>
      intro x hx
      simp at hx
      rcases hx with hx | hx
      · exact hd x hx
      · exact hx
    | err e s => exact ⟨d.2, hd, rfl⟩
    | panic p => exact True.intro
  constructor
  all_goals first
    | exact key _
    | (intros; exact key _)
    | (intros; exact True.intro)

/-! ## The recorder -/

theorem recorder_fold :
    (∀ v : Value, ∀ d, foldValue recorder v d = .ok v.kind (d ++ events v))
    ∧ (∀ es : Object, ∀ n d, foldEntries recorder es n d = .ok (n + es.length) (d ++ entryEvents es))
    ∧ ∀ vs : List Value, ∀ n d, foldElems recorder vs n d = .ok (n + vs.length) (d ++ elemEvents vs) := by
  apply Value.induct
  · intro d; rfl
  · intro b d; rfl
  · intro b d; rfl
  · intro b d; rfl
  · intro es ih d
    rw [foldValue]
    have h1 : recorder.beginObject d = .ok (0 : Nat) (d ++ [.beginObject]) := rfl
    rw [M.bind_ok h1]
    have h2 := ih 0 (d ++ [.beginObject])
    rw [M.bind_ok h2]
    show Out.ok JsonKind.object _ = _
    rw [events]
    simp [Value.kind]
  · intro es ih d
    rw [foldValue]
    have h1 : recorder.beginArray d = .ok (0 : Nat) (d ++ [.beginArray]) := rfl
    rw [M.bind_ok h1]
    have h2 := ih 0 (d ++ [.beginArray])
    rw [M.bind_ok h2]
    show Out.ok JsonKind.array _ = _
    rw [events]
    simp [Value.kind]
  · intro n d; rw [entryEvents]; simp; rfl
  · intro k v es hv hes n d
    rw [foldEntries]
    have h1 : recorder.objectKey n k d = .ok (n, ()) (d ++ [.objectKey k]) := rfl
    rw [M.bind_ok h1]
    simp only []
    rw [M.bind_ok (hv _)]
    have h2 : ∀ d, recorder.objectValue n () v.kind d = .ok (n + 1 : Nat) (d ++ [.objectValue]) := fun _ => rfl
    rw [M.bind_ok (h2 _), hes, entryEvents]
    congr 1
    · simp; omega
    · simp
  · intro n d; rw [elemEvents]; simp; rfl
  · intro v es hv hes n d
    rw [foldElems, M.bind_ok (hv _)]
    have h2 : ∀ d, recorder.arrayValue n v.kind d = .ok (n + 1 : Nat) (d ++ [.arrayValue]) := fun _ => rfl
    rw [M.bind_ok (h2 _), hes, elemEvents]
    congr 1
    · simp; omega
    · simp

theorem recorder_truthful : Truthful recorder := by
  constructor
  · intro es d0 o0 d1 o d2 h1 h2
    have h1 : Out.ok (0 : Nat) (d0 ++ [Event.beginObject]) = .ok o0 d1 := h1
    rw [recorder_fold.2.1] at h2
    cases h1
    cases h2
    cases es <;> simp
  · intro es d0 o0 d1 o d2 h1 h2
    have h1 : Out.ok (0 : Nat) (d0 ++ [Event.beginArray]) = .ok o0 d1 := h1
    rw [recorder_fold.2.2] at h2
    cases h1
    cases h2
    cases es <;> simp

theorem recorder_kind : KindTruthful recorder := by
  intro v d a d' h
  rw [recorder_fold.1] at h
  cases h
  rfl

end
end JustJson
