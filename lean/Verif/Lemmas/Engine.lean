import Verif.Spec.Engine
import Verif.Lemmas.Machine
import Verif.Lemmas.Tokens
import Verif.Lemmas.Parse
/-! # The recursive parser and the engine -/

namespace JustJson
open Spec

set_option linter.unusedSectionVars false

section
variable {src : List UInt8} [Arch] {g : Bool} {cfg : ParseConfig} {D : Delegate}

variable (src g cfg) in
/-- the engine from an offset on -/
def engineAt (off : Nat) (m : Mode D) : M D.σ (Error D.Err) D.Value := engine cfg D src.length (itemsAt g src off) m

/-- the end of input named after the innermost container -/
def named : List (Pending D) → Error D.Err → Error D.Err
  | [], e => e
  | .array _ _ :: _, e => eofTo .unclosedArray e
  | _ :: _, e => eofTo .unclosedObject e

theorem blame_eq {w : Task} {st : List (Pending D)} {e : Error Empty} (hw : w ≠ .colon) : blame D w st e = named st e.intoFallable := by
  obtain ⟨off, k⟩ := e
  cases w with
  | colon => exact absurd rfl hw
  | _ =>
    cases st with
    | nil => cases k <;> first | rfl | (rename_i x; exact x.elim)
    | cons p st => cases p <;> cases k <;> first | rfl | (rename_i x; exact x.elim)

theorem named_named {k : ErrorKind D.Err} {st : List (Pending D)} {e : Error D.Err} (hk : k ≠ .unexpectedEof) :
    named st (eofTo k e) = eofTo k e := by
  obtain ⟨off, k'⟩ := e
  have : ∀ k2 k3 : ErrorKind D.Err, k3 ≠ .unexpectedEof → eofTo k2 ⟨off, k3⟩ = ⟨off, k3⟩ := by
    intro k2 k3 h
    cases k3 <;> first | rfl | exact absurd rfl h
  cases k' with
  | unexpectedEof =>
    show named st ⟨off, k⟩ = ⟨off, k⟩
    cases st with
    | nil => rfl
    | cons p st => cases p <;> exact this _ _ hk
  | _ =>
    cases st with
    | nil => rfl
    | cons p st => cases p <;> rfl

theorem en_err {off o : Nat} {e : Error Empty} {w : Task} {st : List (Pending D)} {d : D.σ} (h : nextOrEof src g off = .err e o) :
    engineAt src g cfg off (.take w st) d = .err (blame D w st e) d := by
  unfold engineAt
  rw [items_err h, engine]
  rfl

theorem en_ok {off o : Nat} {t : Token} {w : Task} {st : List (Pending D)} (h : nextOrEof src g off = .ok t o) :
    engineAt src g cfg off (.take w st)
      = (engineStep cfg D ⟨off, off + runLen isWs (src.drop off), .ok t, o⟩ w st t >>= engineAt src g cfg o) := by
  unfold engineAt
  rw [items_ok h, engine]

/-- what is known after a part of the parser has run, and what the engine does from there -/
def Drives {α : Type} (len : Nat) (res : Out (PState D.σ) (Error D.Err) α) (lo rem : Nat)
    (k : α → Nat → M D.σ (Error D.Err) D.Value) (f : Error D.Err → Error D.Err) (R : Out D.σ (Error D.Err) D.Value) : Prop :=
  match res with
  | .ok a s => lo ≤ s.offset ∧ s.offset ≤ len ∧ s.remainingDepth = rem ∧ R = k a s.offset s.delegate
  | .err e s => R = .err (f e) s.delegate
  | .panic p => R = .panic p

theorem Drives.bind {α β : Type} {len lo lo' rem rem' : Nat} {m : PM D α} {c : α → PM D β} {s : PState D.σ} {f : Error D.Err → Error D.Err}
    {R : Out D.σ (Error D.Err) D.Value} {k' : α → Nat → M D.σ (Error D.Err) D.Value} {k : β → Nat → M D.σ (Error D.Err) D.Value}
    (h1 : Drives len (m s) lo rem k' f R)
    (h2 : ∀ a o d, lo ≤ o → o ≤ len → Drives len (c a ⟨o, d, rem⟩) lo' rem' k f (k' a o d)) :
    Drives len ((m >>= c) s) lo' rem' k f R := by
  rw [M.bind_eq]
  unfold Drives at h1
  cases hm : m s with
  | ok a s' =>
    rw [hm] at h1
    obtain ⟨o, d, r⟩ := s'
    obtain ⟨h3, h4, h5, h6⟩ := h1
    have h5 : r = rem := h5
    subst h5
    have h6 : R = k' a o d := h6
    rw [h6]
    exact h2 a o d h3 h4
  | err e s' => rw [hm] at h1; exact h1
  | panic p => rw [hm] at h1; exact h1

theorem Drives.call {α : Type} {len off o r : Nat} {d : D.σ} {m : M D.σ D.Err α} {f : Error D.Err → Error D.Err}
    {k : α → Nat → M D.σ (Error D.Err) D.Value} (ho : o ≤ len) (hf : ∀ x, f ⟨off, .errorFromDelegate x⟩ = ⟨off, .errorFromDelegate x⟩) :
    Drives len (liftD D off m ⟨o, d, r⟩) o r k f ((attempt D off m >>= fun a => k a o) d) := by
  rw [M.bind_eq]
  unfold liftD attempt
  simp only []
  cases m d with
  | ok a d' => exact ⟨Nat.le_refl _, ho, rfl, rfl⟩
  | err x d' => show Out.err _ _ = Out.err _ _; rw [hf]
  | panic p => exact rfl

theorem Drives.query {α : Type} {len o r : Nat} {d : D.σ} {q : D.σ → Res α} {f : Error D.Err → Error D.Err}
    {k : α → Nat → M D.σ (Error D.Err) D.Value} (ho : o ≤ len) :
    Drives len (liftQ D q ⟨o, d, r⟩) o r k f ((ask D q >>= fun a => k a o) d) := by
  rw [M.bind_eq]
  unfold liftQ ask
  simp only []
  cases q d with
  | ok a => exact ⟨Nat.le_refl _, ho, rfl, rfl⟩
  | panic p => exact rfl

theorem Drives.ret {α : Type} {len lo o r : Nat} {d : D.σ} {a : α} {f : Error D.Err → Error D.Err}
    {k : α → Nat → M D.σ (Error D.Err) D.Value} (ho : o ≤ len) (hl : lo ≤ o) :
    Drives len (.ok a ⟨o, d, r⟩) lo r k f (k a o d) := ⟨hl, ho, rfl, rfl⟩

theorem Drives.map {α : Type} {len lo rem : Nat} {m : PM D α} {s : PState D.σ} {k : ErrorKind D.Err} {st : List (Pending D)}
    {R : Out D.σ (Error D.Err) D.Value} {k' : α → Nat → M D.σ (Error D.Err) D.Value} (hk : k ≠ .unexpectedEof)
    (h : Drives len (m s) lo rem k' (eofTo k) R) : Drives len (M.mapErr (eofTo k) m s) lo rem k' (named st) R := by
  unfold M.mapErr
  unfold Drives at h
  cases hm : m s with
  | ok a s' => rw [hm] at h; exact h
  | err e s' => rw [hm] at h; exact h.trans (by rw [named_named hk])
  | panic p => rw [hm] at h; exact h

theorem Drives.mono {α : Type} {len lo lo' rem : Nat} {res : Out (PState D.σ) (Error D.Err) α}
    {k : α → Nat → M D.σ (Error D.Err) D.Value} {f : Error D.Err → Error D.Err} {R : Out D.σ (Error D.Err) D.Value}
    (h : Drives len res lo rem k f R) (hl : lo' ≤ lo) : Drives len res lo' rem k f R := by
  unfold Drives at h ⊢
  cases res with
  | ok a s => exact ⟨Nat.le_trans hl h.1, h.2⟩
  | err e s => exact h
  | panic p => exact h

theorem m_assoc {σ ε α β γ : Type} (m : M σ ε α) (f : α → M σ ε β) (h : β → M σ ε γ) :
    ((m >>= f) >>= h) = (m >>= fun a => f a >>= h) := by
  funext s
  simp only [M.bind_eq]
  cases m s <;> rfl

variable (cfg) in
/-- as many containers are open as the remaining depth says -/
def Deep (rem : Nat) (n : Nat) : Prop := ∀ l, cfg.recursionLimit = some l → rem + n = l

/-- no call of the tokenizer panics -/
theorem next_cases (hi : Input g src) {off : Nat} (hl : off ≤ src.length) :
    (∃ t o, nextOrEof src g off = .ok t o ∧ off < o ∧ o ≤ src.length) ∨ ∃ e o, nextOrEof src g off = .err e o := by
  cases tok_cases hi hl with
  | eof hw hn he hp => exact .inr ⟨_, _, he⟩
  | tok w b t l off' hw hd hb hv ha hs hlt hle hn he hp => exact .inl ⟨_, _, he, by omega, hle⟩
  | err w b t e off' hw hd hb hlt hle heo hrp hn he hp => exact .inr ⟨_, _, he⟩

theorem en_element {off b : Nat} {a : D.Array} {st : List (Pending D)} {d : D.σ} (hi : Input g src) (hl : off ≤ src.length)
    (hn : ∀ o, nextOrEof src g off ≠ .ok .arrayEnd o) :
    engineAt src g cfg off (.take .element (.array b a :: st)) d
      = engineAt src g cfg (off + runLen isWs (src.drop off)) (.take .value (.array b a :: st)) d := by
  have hs := next_skip (g := g) (src := src) (off := off)
  rcases next_cases hi hl with ⟨t, o, h, _, _⟩ | ⟨e, o, h⟩
  · rw [en_ok h, en_ok (hs.trans h)]
    cases t with
    | arrayEnd => exact absurd h (hn o)
    | _ => rfl
  · rw [en_err h, en_err (hs.trans h), blame_eq (w := .element) nofun, blame_eq (w := .value) nofun]

variable (cfg) in
/-- the remaining depth after a container is left -/
def upDepth (rem : Nat) : Nat := if cfg.recursionLimit.isSome then rem + 1 else rem

/-- the errors of delegates keep their kind -/
theorem eofTo_delegate {k : ErrorKind D.Err} {off : Nat} {x : D.Err} :
    eofTo k ⟨off, .errorFromDelegate x⟩ = ⟨off, .errorFromDelegate x⟩ := rfl

theorem named_delegate {st : List (Pending D)} {off : Nat} {x : D.Err} :
    named st ⟨off, .errorFromDelegate x⟩ = ⟨off, .errorFromDelegate x⟩ := by
  cases st with
  | nil => rfl
  | cons p st => cases p <;> rfl

theorem named_other {st : List (Pending D)} {off : Nat} {k : ErrorKind D.Err} (hk : k ≠ .unexpectedEof) :
    named st ⟨off, k⟩ = ⟨off, k⟩ := by
  cases st with
  | nil => rfl
  | cons p st => cases p <;> cases k <;> first | rfl | exact absurd rfl hk

theorem full_up {rem : Nat} {st : List (Pending D)} (hd : Deep cfg rem st.length) :
    fullUp cfg D st = (cfg.recursionLimit.isSome && rem == 0) := by
  unfold fullUp Deep at *
  cases hc : cfg.recursionLimit with
  | none => rfl
  | some n =>
    have := hd n hc
    simp only [Option.isSome_some, Bool.true_and]
    by_cases hr : rem = 0
    · simp only [hr, beq_self_eq_true, decide_eq_true_eq]; omega
    · simp only [beq_eq_false_iff_ne.mpr hr, decide_eq_false_iff_not]; omega

theorem readTokens_err {fuel off o rem : Nat} {d : D.σ} {e : Error Empty} (h : nextOrEof src g off = .err e o) :
    readTokens g src cfg D (fuel + 1) ⟨off, d, rem⟩ = .err e.intoFallable ⟨o, d, rem⟩ := by
  rw [readTokens]
  simp only [M.bind_eq, tokOffset, liftTok, h]


variable (src g cfg D) in
/-- `read_tokens` -/
def DrivesT (fuel : Nat) : Prop := ∀ off d rem (st : List (Pending D)), 3 * (src.length - off) + 1 ≤ fuel → off ≤ src.length →
  Deep cfg rem st.length →
  Drives src.length (readTokens g src cfg D fuel ⟨off, d, rem⟩) (off + 1) rem
    (fun a o => handOver cfg D o a st >>= engineAt src g cfg o) (named st) (engineAt src g cfg off (.take .value st) d)

variable (src g cfg D) in
/-- `read_object` -/
def DrivesO (fuel : Nat) : Prop := ∀ off d rem (st : List (Pending D)), 3 * (src.length - off) + 3 ≤ fuel → off ≤ src.length →
  Deep cfg rem (st.length + 1) →
  Drives src.length (readObject g src cfg D fuel ⟨off, d, rem⟩) off (upDepth cfg rem)
    (fun a o => handOver cfg D o a st >>= engineAt src g cfg o) (eofTo .unclosedObject)
    ((attempt D off D.beginObject >>= fun o => engineAt src g cfg off (.take .key (.object o :: st))) d)

variable (src g cfg D) in
/-- the loop of `read_object` -/
def DrivesOL (fuel : Nat) : Prop := ∀ off d rem (st : List (Pending D)) (object : D.Object), 3 * (src.length - off) + 2 ≤ fuel →
  off ≤ src.length → Deep cfg rem (st.length + 1) →
  Drives src.length (readObjectLoop g src cfg D fuel object ⟨off, d, rem⟩) off rem
    (fun o' after => leaveObject cfg D after o' st >>= engineAt src g cfg after) (eofTo .unclosedObject)
    (engineAt src g cfg off (.take .key (.object object :: st)) d)

variable (src g cfg D) in
/-- `read_array` -/
def DrivesA (fuel : Nat) : Prop := ∀ off d rem (st : List (Pending D)), 3 * (src.length - off) + 3 ≤ fuel → off ≤ src.length →
  Deep cfg rem (st.length + 1) →
  Drives src.length (readArray g src cfg D fuel ⟨off, d, rem⟩) off (upDepth cfg rem)
    (fun a o => handOver cfg D o a st >>= engineAt src g cfg o) (eofTo .unclosedArray)
    ((attempt D off D.beginArray >>= fun a => engineAt src g cfg off (.take .element (.array off a :: st))) d)

variable (src g cfg D) in
/-- the loop of `read_array` -/
def DrivesAL (fuel : Nat) : Prop := ∀ off d rem (st : List (Pending D)) b (array : D.Array), 3 * (src.length - off) + 2 ≤ fuel →
  off ≤ src.length → Deep cfg rem (st.length + 1) →
  Drives src.length (readArrayLoop g src cfg D fuel array ⟨off, d, rem⟩) off rem
    (fun a' after => leaveArray cfg D b after a' st >>= engineAt src g cfg after) (eofTo .unclosedArray)
    (engineAt src g cfg off (.take .element (.array b array :: st)) d)

theorem drives_leaf {off o rem : Nat} {d : D.σ} {st : List (Pending D)} {m : M D.σ D.Err D.Value} (hl : off < o) (ho : o ≤ src.length) :
    Drives src.length (liftD D off m ⟨o, d, rem⟩) (off + 1) rem
      (fun a o => handOver cfg D o a st >>= engineAt src g cfg o) (named st)
      ((takeLeaf cfg D st off o m >>= engineAt src g cfg o) d) := by
  unfold takeLeaf
  rw [m_assoc]
  exact (Drives.call (k := fun a o => handOver cfg D o a st >>= engineAt src g cfg o) ho fun _ => named_delegate).mono hl

theorem drives_refuse {α : Type} {len lo rem off o r : Nat} {d : D.σ} {kind : ErrorKind D.Err} {f : Error D.Err → Error D.Err}
    {k : α → Nat → M D.σ (Error D.Err) D.Value}
    (hf : f ⟨off, kind⟩ = ⟨off, kind⟩) :
    Drives len (perr D off kind ⟨o, d, r⟩) lo rem k f (.err ⟨off, kind⟩ d) := by
  show Out.err _ _ = Out.err _ _
  rw [hf]

theorem Drives.of_eq {α : Type} {len lo rem : Nat} {res : Out (PState D.σ) (Error D.Err) α}
    {k : α → Nat → M D.σ (Error D.Err) D.Value} {f : Error D.Err → Error D.Err} {R R' : Out D.σ (Error D.Err) D.Value}
    (he : R = R') (h : Drives len res lo rem k f R') : Drives len res lo rem k f R := he ▸ h

theorem start_object {off o : Nat} {st : List (Pending D)} {K : Mode D → M D.σ (Error D.Err) D.Value} (hu : fullUp cfg D st = false) (d : D.σ) :
    (takeStart cfg D st off o .object >>= K) d = (attempt D o D.beginObject >>= fun ob => K (.take .key (.object ob :: st))) d := by
  rw [takeStart, hu]
  simp only [Bool.false_eq_true, if_false]
  rw [m_assoc]
  rfl

theorem start_array {off o : Nat} {st : List (Pending D)} {K : Mode D → M D.σ (Error D.Err) D.Value} (hu : fullUp cfg D st = false) (d : D.σ) :
    (takeStart cfg D st off o .array >>= K) d = (attempt D o D.beginArray >>= fun a => K (.take .element (.array o a :: st))) d := by
  rw [takeStart, hu]
  simp only [Bool.false_eq_true, if_false]
  rw [m_assoc]
  rfl

theorem start_full {off o : Nat} {st : List (Pending D)} {K : Mode D → M D.σ (Error D.Err) D.Value} (hu : fullUp cfg D st = true) (d : D.σ) :
    (takeStart cfg D st off o .object >>= K) d = .err ⟨off, .recursionLimitReached⟩ d
    ∧ (takeStart cfg D st off o .array >>= K) d = .err ⟨off, .recursionLimitReached⟩ d := by
  rw [takeStart, takeStart, hu]
  exact ⟨rfl, rfl⟩

theorem drivesT_succ (hi : Input g src) {fuel : Nat} (hO : DrivesO src g cfg D fuel) (hA : DrivesA src g cfg D fuel) :
    DrivesT src g cfg D (fuel + 1) := by
  intro off d rem st hf hl hd
  rcases next_cases hi hl with ⟨t, o, h, h1, h2⟩ | ⟨e, o, h⟩
  · rw [en_ok h, readTokens]
    simp only [M.bind_eq, tokOffset, liftTok, h]
    have hu := full_up hd
    cases t with
    | null => exact drives_leaf h1 h2
    | bool b => exact drives_leaf h1 h2
    | string s => exact drives_leaf h1 h2
    | number n => exact drives_leaf h1 h2
    | objectEnd => exact drives_refuse (named_other nofun)
    | arrayEnd => exact drives_refuse (named_other nofun)
    | colon => exact drives_refuse (named_other nofun)
    | comma => exact drives_refuse (named_other nofun)
    | object =>
      cases hc : cfg.recursionLimit with
      | none =>
        have hb : beginNest cfg D off ⟨o, d, rem⟩ = .ok () ⟨o, d, rem⟩ := by simp [beginNest, hc]
        have hw : upDepth cfg rem = rem := by simp [upDepth, hc]
        have := hO o d rem st (by omega) h2 (fun l hl => by rw [hc] at hl; cases hl)
        rw [hw] at this
        refine Drives.of_eq (start_object (by rw [hu, hc]; rfl) d) ?_
        simp only [M.bind_eq, hb]
        exact ((this.map (st := st) (k := .unclosedObject) nofun).mono h1)
      | some n =>
        have hn := hd n hc
        cases rem with
        | zero =>
          have hb : beginNest cfg D off ⟨o, d, 0⟩ = .err ⟨off, .recursionLimitReached⟩ ⟨o, d, 0⟩ := by simp [beginNest, hc]
          refine Drives.of_eq (start_full (by rw [hu, hc]; rfl) d).1 ?_
          simp only [M.bind_eq, hb]
          exact drives_refuse (o := o) (r := 0) (kind := .recursionLimitReached) (named_other nofun)
        | succ rem =>
          have hb : beginNest cfg D off ⟨o, d, rem + 1⟩ = .ok () ⟨o, d, rem⟩ := by simp [beginNest, hc]
          have hw : upDepth cfg rem = rem + 1 := by simp [upDepth, hc]
          have := hO o d rem st (by omega) h2 (fun l hl => by have := hd l hl; omega)
          rw [hw] at this
          refine Drives.of_eq (start_object (by rw [hu, hc]; rfl) d) ?_
          simp only [M.bind_eq, hb]
          exact ((this.map (st := st) (k := .unclosedObject) nofun).mono h1)
    | array =>
      cases hc : cfg.recursionLimit with
      | none =>
        have hb : beginNest cfg D off ⟨o, d, rem⟩ = .ok () ⟨o, d, rem⟩ := by simp [beginNest, hc]
        have hw : upDepth cfg rem = rem := by simp [upDepth, hc]
        have := hA o d rem st (by omega) h2 (fun l hl => by rw [hc] at hl; cases hl)
        rw [hw] at this
        refine Drives.of_eq (start_array (by rw [hu, hc]; rfl) d) ?_
        simp only [M.bind_eq, hb]
        exact ((this.map (st := st) (k := .unclosedArray) nofun).mono h1)
      | some n =>
        have hn := hd n hc
        cases rem with
        | zero =>
          have hb : beginNest cfg D off ⟨o, d, 0⟩ = .err ⟨off, .recursionLimitReached⟩ ⟨o, d, 0⟩ := by simp [beginNest, hc]
          refine Drives.of_eq (start_full (by rw [hu, hc]; rfl) d).2 ?_
          simp only [M.bind_eq, hb]
          exact drives_refuse (o := o) (r := 0) (kind := .recursionLimitReached) (named_other nofun)
        | succ rem =>
          have hb : beginNest cfg D off ⟨o, d, rem + 1⟩ = .ok () ⟨o, d, rem⟩ := by simp [beginNest, hc]
          have hw : upDepth cfg rem = rem + 1 := by simp [upDepth, hc]
          have := hA o d rem st (by omega) h2 (fun l hl => by have := hd l hl; omega)
          rw [hw] at this
          refine Drives.of_eq (start_array (by rw [hu, hc]; rfl) d) ?_
          simp only [M.bind_eq, hb]
          exact ((this.map (st := st) (k := .unclosedArray) nofun).mono h1)
  · rw [readTokens_err h, en_err h, blame_eq (w := .value) nofun]
    exact rfl

theorem Drives.bind_call {α β : Type} {len lo off o r rem : Nat} {d : D.σ} {m : M D.σ D.Err α} {c : α → PM D β}
    {f : Error D.Err → Error D.Err} {k : α → M D.σ (Error D.Err) D.Value} {k' : β → Nat → M D.σ (Error D.Err) D.Value}
    (hf : ∀ x, f ⟨off, .errorFromDelegate x⟩ = ⟨off, .errorFromDelegate x⟩)
    (h : ∀ a d, Drives len (c a ⟨o, d, r⟩) lo rem k' f (k a d)) :
    Drives len ((liftD D off m >>= c) ⟨o, d, r⟩) lo rem k' f ((attempt D off m >>= k) d) := by
  rw [M.bind_eq, M.bind_eq]
  unfold liftD attempt
  simp only []
  cases m d with
  | ok a d' => exact h a d'
  | err x d' => show Out.err _ _ = Out.err _ _; rw [hf]
  | panic p => exact rfl

theorem Drives.bind_query {α β : Type} {len lo o r rem : Nat} {d : D.σ} {q : D.σ → Res α} {c : α → PM D β}
    {f : Error D.Err → Error D.Err} {k : α → M D.σ (Error D.Err) D.Value} {k' : β → Nat → M D.σ (Error D.Err) D.Value}
    (h : ∀ a, Drives len (c a ⟨o, d, r⟩) lo rem k' f (k a d)) :
    Drives len ((liftQ D q >>= c) ⟨o, d, r⟩) lo rem k' f ((ask D q >>= k) d) := by
  rw [M.bind_eq, M.bind_eq]
  unfold liftQ ask
  simp only []
  cases q d with
  | ok a => exact h a
  | panic p => exact rfl

theorem drives_leave {off o lo rem : Nat} {d : D.σ} {st : List (Pending D)} {m : M D.σ D.Err D.Value} {f : Error D.Err → Error D.Err}
    (ho : o ≤ src.length) (hlo : lo ≤ o) (hf : ∀ x, f ⟨off, .errorFromDelegate x⟩ = ⟨off, .errorFromDelegate x⟩) :
    Drives src.length ((do let v ← liftD D off m; endNest cfg D; return v : PM D D.Value) ⟨o, d, rem⟩) lo (upDepth cfg rem)
      (fun a o => handOver cfg D o a st >>= engineAt src g cfg o) f
      (((do let v ← attempt D off m; handOver cfg D o v st) >>= engineAt src g cfg o) d) := by
  rw [m_assoc]
  refine Drives.bind_call hf fun v d => ?_
  rw [M.bind_eq]
  unfold endNest upDepth
  cases cfg.recursionLimit with
  | none => exact ⟨hlo, ho, rfl, rfl⟩
  | some n => exact ⟨hlo, ho, rfl, rfl⟩

theorem drivesO_succ {fuel : Nat} (hOL : DrivesOL src g cfg D fuel) : DrivesO src g cfg D (fuel + 1) := by
  intro off d rem st hf hl hd
  rw [readObject]
  refine Drives.bind_call (m := D.beginObject) (off := off) (o := off) (d := d) (r := rem) (fun _ => rfl) fun ob d => ?_
  refine Drives.bind (hOL off d rem st ob (by omega) hl hd) fun ob o d h1 h2 => ?_
  exact drives_leave h2 h1 fun _ => rfl

theorem drivesA_succ {fuel : Nat} (hAL : DrivesAL src g cfg D fuel) : DrivesA src g cfg D (fuel + 1) := by
  intro off d rem st hf hl hd
  rw [readArray]
  refine Drives.bind_call (m := D.beginArray) (off := off) (o := off) (d := d) (r := rem) (fun _ => rfl) fun a d => ?_
  refine Drives.bind (hAL off d rem st off a (by omega) hl hd) fun ob o d h1 h2 => ?_
  exact drives_leave h2 h1 fun _ => rfl

/-- the tokenizer is called and its error is passed on -/
theorem Drives.tok_err {α : Type} {len lo off o r rem : Nat} {d : D.σ} {e : Error Empty} {c : Token → PM D α} {w : Task}
    {p : Pending D} {st : List (Pending D)} {f : Error D.Err → Error D.Err} {k' : α → Nat → M D.σ (Error D.Err) D.Value}
    (hf : ∀ e, f e = named (p :: st) e) (hw : w ≠ .colon) (h : nextOrEof src g off = .err e o) :
    Drives len ((liftTok D (nextOrEof src g) >>= c) ⟨off, d, r⟩) lo rem k' f (engineAt src g cfg off (.take w (p :: st)) d) := by
  rw [M.bind_eq, en_err h, blame_eq hw, ← hf]
  simp only [liftTok, h]
  exact rfl

theorem Drives.tok_ok {α : Type} {len lo off o r rem : Nat} {d : D.σ} {t : Token} {c : Token → PM D α} {w : Task}
    {st : List (Pending D)} {f : Error D.Err → Error D.Err} {k' : α → Nat → M D.σ (Error D.Err) D.Value}
    (h : nextOrEof src g off = .ok t o)
    (h' : Drives len (c t ⟨o, d, r⟩) lo rem k' f
      ((engineStep cfg D ⟨off, off + runLen isWs (src.drop off), .ok t, o⟩ w st t >>= engineAt src g cfg o) d)) :
    Drives len ((liftTok D (nextOrEof src g) >>= c) ⟨off, d, r⟩) lo rem k' f (engineAt src g cfg off (.take w st) d) := by
  rw [M.bind_eq, en_ok h]
  simp only [liftTok, h]
  exact h'

/-- the end of a container after a comma or an opening bracket -/
theorem drives_end {α : Type} {len lo off o r : Nat} {d : D.σ} {q : D.σ → Res Bool} {a : α} {f : Error D.Err → Error D.Err}
    {leave : M D.σ (Error D.Err) (Mode D)} {K : Mode D → M D.σ (Error D.Err) D.Value} {k' : α → Nat → M D.σ (Error D.Err) D.Value}
    (ho : o ≤ len) (hlo : lo ≤ o) (hk : k' a o d = (leave >>= K) d) (hf : f ⟨off, .illegalTrailingComma⟩ = ⟨off, .illegalTrailingComma⟩) :
    Drives len ((do if cfg.allowTrailingCommas then return a else if ← liftQ D q then return a else perr D off .illegalTrailingComma
        : PM D α) ⟨o, d, r⟩) lo r k' f
      (((do if cfg.allowTrailingCommas then leave else if ← ask D q then leave else refuse D off .illegalTrailingComma) >>= K) d) := by
  cases cfg.allowTrailingCommas with
  | true => exact ⟨hlo, ho, rfl, hk.symm⟩
  | false =>
    simp only [Bool.false_eq_true, if_false]
    rw [m_assoc]
    refine Drives.bind_query fun b => ?_
    cases b with
    | true => exact ⟨hlo, ho, rfl, hk.symm⟩
    | false => exact drives_refuse hf

theorem drivesOL_succ (hi : Input g src) {fuel : Nat} (hT : DrivesT src g cfg D fuel) (hOL : DrivesOL src g cfg D fuel) :
    DrivesOL src g cfg D (fuel + 1) := by
  intro off d rem st object hf hl hd
  rw [readObjectLoop]
  rcases next_cases hi hl with ⟨t, o, h, h1, h2⟩ | ⟨e, o, h⟩
  · refine Drives.tok_ok (off := off) (r := rem) (d := d) h ?_
    cases t with
    | objectEnd => exact drives_end h2 (Nat.le_of_lt h1) rfl rfl
    | string key =>
      refine Drives.of_eq (congrFun (m_assoc _ _ _) d) ?_
      refine Drives.bind_call (fun _ => rfl) fun ok d => ?_
      obtain ⟨object, key⟩ := ok
      show Drives _ ((nextColon g src D >>= _) ⟨o, d, rem⟩) _ _ _ _ (engineAt src g cfg o (.take .colon (.entry 0 object key :: st)) d)
      rcases next_cases hi h2 with ⟨t, o2, h, h3, h4⟩ | ⟨e, o2, h⟩
      · rw [M.bind_eq, en_ok h]
        simp only [nextColon, h]
        by_cases ht : t = .colon
        · subst ht
          simp only [ne_eq, not_true_eq_false, if_false]
          show Drives _ ((readTokens g src cfg D fuel >>= _) ⟨o2, d, rem⟩) _ _ _ _
            (engineAt src g cfg o2 (.take .value (.entry o2 object key :: st)) d)
          refine Drives.bind (f := eofTo .unclosedObject) (hT o2 d rem (.entry o2 object key :: st) (by omega) h4 hd)
            fun value o3 d h5 h6 => ?_
          refine Drives.of_eq (congrFun (m_assoc _ _ _) d) ?_
          refine Drives.bind_call (off := o2) (fun _ => rfl) fun object d => ?_
          show Drives _ ((liftTok D (nextOrEof src g) >>= _) ⟨o3, d, rem⟩) _ _ _ _
            (engineAt src g cfg o3 (.take .separator (.object object :: st)) d)
          rcases next_cases hi h6 with ⟨t, o4, h, h7, h8⟩ | ⟨e, o4, h⟩
          · refine Drives.tok_ok (off := o3) (r := rem) (d := d) h ?_
            have hx := (hOL o4 d rem st object (by omega) h8 hd).mono (show off ≤ o4 by omega)
            cases t with
            | objectEnd => exact ⟨by show off ≤ o4; omega, h8, rfl, rfl⟩
            | comma => exact hx
            | _ => exact drives_refuse rfl
          · exact Drives.tok_err (off := o3) (r := rem) (fun _ => rfl) nofun h
        · simp only [ne_eq, ht, not_false_eq_true, if_true]
          cases t with
          | colon => exact absurd rfl ht
          | _ => exact drives_refuse rfl
      · rw [M.bind_eq, en_err h]
        simp only [nextColon, h]
        exact rfl
    | array => exact drives_refuse rfl
    | bool _ => exact drives_refuse rfl
    | null => exact drives_refuse rfl
    | number _ => exact drives_refuse rfl
    | object => exact drives_refuse rfl
    | arrayEnd => exact drives_refuse rfl
    | colon => exact drives_refuse rfl
    | comma => exact drives_refuse rfl
  · exact Drives.tok_err (off := off) (r := rem) (fun _ => rfl) nofun h

theorem drivesAL_succ (hi : Input g src) {fuel : Nat} (hT : DrivesT src g cfg D fuel) (hAL : DrivesAL src g cfg D fuel) :
    DrivesAL src g cfg D (fuel + 1) := by
  intro off d rem st b array hf hl hd
  rw [readArrayLoop]
  obtain ⟨k, o1, hp⟩ : ∃ k o1, tokPeek src off = .ok k o1 := ⟨_, _, tokPeek_eq off⟩
  simp only [M.bind_eq, tokOffset, liftTok, hp]
  by_cases hk : k = some .arrayEnd
  · obtain ⟨h1, h2⟩ := peek_close (g := g) (hk ▸ hp)
    have h3 : o1 < src.length := h1 ▸ next_inside h2
    rw [if_pos hk, en_ok h2]
    exact drives_end (lo := off) (o := o1 + 1) h3 (by omega) rfl rfl
  · obtain ⟨h1, h2⟩ := peek_other (g := g) hp hk
    have hl1 : o1 ≤ src.length := by
      have := runLen_le isWs (src.drop off)
      rw [List.length_drop] at this
      omega
    rw [en_element hi hl h2, ← h1, if_neg hk]
    refine Drives.bind (s := ⟨o1, d, rem⟩) (f := eofTo .unclosedArray) (hT o1 d rem (.array b array :: st) (by omega) hl1 hd)
      fun value o3 d h5 h6 => ?_
    refine Drives.of_eq (congrFun (m_assoc _ _ _) d) ?_
    refine Drives.bind_call (off := o3) (fun _ => rfl) fun array d => ?_
    show Drives _ ((liftTok D (nextOrEof src g) >>= _) ⟨o3, d, rem⟩) _ _ _ _
      (engineAt src g cfg o3 (.take .separator (.array b array :: st)) d)
    rcases next_cases hi h6 with ⟨t, o4, h, h7, h8⟩ | ⟨e, o4, h⟩
    · refine Drives.tok_ok (off := o3) (r := rem) (d := d) h ?_
      have hx := (hAL o4 d rem st b array (by omega) h8 hd).mono (show off ≤ o4 by omega)
      cases t with
      | arrayEnd => exact ⟨by show off ≤ o4; omega, h8, rfl, rfl⟩
      | comma => exact hx
      | _ => exact drives_refuse rfl
    · exact Drives.tok_err (off := o3) (r := rem) (fun _ => rfl) nofun h

theorem drives_all (hi : Input g src) (fuel : Nat) : DrivesT src g cfg D fuel ∧ DrivesO src g cfg D fuel ∧ DrivesOL src g cfg D fuel
    ∧ DrivesA src g cfg D fuel ∧ DrivesAL src g cfg D fuel := by
  induction fuel with
  | zero =>
    refine ⟨?_, ?_, ?_, ?_, ?_⟩
    · intro off d rem st h; omega
    · intro off d rem st h; omega
    · intro off d rem st o h; omega
    · intro off d rem st h; omega
    · intro off d rem st b a h; omega
  | succ fuel ih =>
    obtain ⟨hT, hO, hOL, hA, hAL⟩ := ih
    exact ⟨drivesT_succ hi hO hA, drivesO_succ hOL, drivesOL_succ hi hT hOL, drivesA_succ hAL, drivesAL_succ hi hT hAL⟩

theorem nextNonWs_start {off : Nat} (hl : off ≤ src.length) :
    (off + runLen isWs (src.drop off) = src.length ∧ nextNonWs src off = .ok none src.length)
    ∨ (off + runLen isWs (src.drop off) ≠ src.length
      ∧ ∃ b, nextNonWs src off = .ok (some (off + runLen isWs (src.drop off), b)) (off + runLen isWs (src.drop off) + 1)) := by
  have hr : off + runLen isWs (src.drop off) ≤ src.length := by
    have hr := runLen_le isWs (src.drop off)
    rw [List.length_drop] at hr
    omega
  unfold nextNonWs
  rw [M.bind_ok (skipWs_eq off)]
  generalize off + runLen isWs (src.drop off) = n at *
  cases hd : src.drop n with
  | nil =>
    have := congrArg List.length hd
    rw [List.length_drop] at this
    have hn : n = src.length := by simp only [List.length_nil] at this; omega
    subst hn
    exact .inl ⟨rfl, nextByte_nil hd⟩
  | cons b t =>
    have := congrArg List.length hd
    rw [List.length_drop] at this
    exact .inr ⟨by simp only [List.length_cons] at this; omega, b, nextByte_cons hd⟩

theorem en_root {off : Nat} {v : D.Value} {d : D.σ} (hi : Input g src) (hl : off ≤ src.length) :
    engineAt src g cfg off (.root v) d = if off + runLen isWs (src.drop off) = src.length then .ok v d
      else .err ⟨off + runLen isWs (src.drop off), .trailingNonWhitespace⟩ d := by
  unfold engineAt
  rcases next_cases hi hl with ⟨t, o, h, _, _⟩ | ⟨e, o, h⟩
  · rw [items_ok h, engine]
    split <;> rfl
  · rw [items_err h, engine]
    split <;> rfl

theorem engine_parse (hi : Input g src) (d : D.σ) :
    onlyDelegate (parseBytes g src cfg D d) = engineParse cfg D g src d := by
  have hT := (drives_all (cfg := cfg) (D := D) hi (parseFuel src)).1 0 d (cfg.recursionLimit.getD USIZE_MAX) []
    (by unfold parseFuel; omega) (Nat.zero_le _) (by intro l h; rw [h]; rfl)
  unfold engineParse parseBytes parseM
  rw [scans_eq]
  show _ = engineAt src g cfg 0 (.take .value []) d
  rw [M.bind_eq]
  unfold Drives at hT
  cases hr : readTokens g src cfg D (parseFuel src) ⟨0, d, cfg.recursionLimit.getD USIZE_MAX⟩ with
  | panic p => rw [hr] at hT; exact hT.symm
  | err e s => rw [hr] at hT; exact hT.symm
  | ok a s =>
    rw [hr] at hT
    obtain ⟨_, h2, _, h4⟩ := hT
    obtain ⟨o, d', r⟩ := s
    have h4 : _ = (handOver cfg D o a [] >>= engineAt src g cfg o) d' := h4
    rw [h4, handOver]
    have root : ∀ d', onlyDelegate ((liftTok D (nextNonWs src) >>= fun x => match x with
        | none => pure a
        | some (offset, _) => perr D offset .trailingNonWhitespace : PM D D.Value) ⟨o, d', r⟩) = engineAt src g cfg o (.root a) d' := by
      intro d'
      rw [en_root hi h2, M.bind_eq]
      rcases nextNonWs_start (src := src) h2 with ⟨h, hn⟩ | ⟨h, b, hn⟩
      · simp only [liftTok, hn]
        rw [if_pos h]
        rfl
      · simp only [liftTok, hn]
        rw [if_neg h]
        rfl
    cases hc : cfg.allowAllTypesAtRoot with
    | true => exact root d'
    | false =>
      simp only [M.bind_eq, liftQ, ask, Bool.false_eq_true, if_false]
      cases hk : D.kindOf d' a with
      | panic p => rfl
      | ok k =>
        cases k with
        | object => exact root d'
        | array => exact root d'
        | _ => rfl

end
end JustJson
