import Verif.Lemmas.Tok
import Verif.Model.Doc
import Verif.Model.Write
/-! # What holds of a parser run with an arbitrary delegate -/

namespace JustJson
open Spec

set_option linter.unusedSectionVars false

section
variable {src : List UInt8} [Arch]

/-! ## Tokens for both values of `GUARANTEED_UTF8` -/

/-- The input is fit for the tokenizer at `off`: when UTF-8 is guaranteed, it is valid from here. -/
def Fit (g : Bool) (src : List UInt8) (off : Nat) : Prop := g = true → Boundary src off

theorem wp_next {g : Bool} {off : Nat} (hl : off ≤ src.length) (hlim : src.length < LIM)
    (hf : Fit g src off) :
    Wp src off (nextOrEof src g off) fun tok off' =>
      ∃ (w : List UInt8) (l : Lex), Ws w ∧ l.Valid ∧ Adv src off (w ++ l.bytes) off' ∧ tok = l.token
        ∧ l.Stop (src.drop off') ∧ off < off' ∧ off' ≤ src.length ∧ Fit g src off' := by
  have h : nextOrEof src g off = nextOrEof src false off := by
    cases g
    · rfl
    · exact nextOrEof_agree hl hlim (hf rfl)
  rw [h]
  refine (wp_nextOrEof hl hlim).mono (Nat.le_refl _) ?_
  rintro tok off' ⟨w, l, hw, hv, ha, ht, hs⟩
  have := Lex.bytes_pos hv
  have h1 := ha.1
  rw [List.length_append] at h1
  exact ⟨w, l, hw, hv, ha, ht, hs, by omega, ha.le hl, fun hg => (hf hg).lex hw hv ha⟩

theorem peekKind_arrayEnd {b : UInt8} (h : peekKind b = .arrayEnd) : b = 0x5D := by
  revert h
  revert b
  apply forall_u8 (P := fun b => peekKind b = .arrayEnd → b = 0x5D)
  decide +kernel

/-- What `peek` returns and where it leaves the offset. -/
theorem tokPeek_eq (off : Nat) : tokPeek src off
    = .ok ((src.drop (off + runLen isWs (src.drop off))).head?.map peekKind)
        (off + runLen isWs (src.drop off)) := by
  unfold tokPeek
  rw [M.bind_ok (skipWs_eq off), M.bind_ok (peekByte_eq _)]
  rfl

theorem wp_peek {g : Bool} {off : Nat} (hl : off ≤ src.length) (hf : Fit g src off) :
    Wp src off (tokPeek src off) fun k off' =>
      ∃ w, Ws w ∧ Adv src off w off' ∧ off' ≤ src.length ∧ Fit g src off'
        ∧ (∀ b, (src.drop off').head? = some b → isWs b = false)
        ∧ (k = some .arrayEnd → Adv src off' [0x5D] (off' + 1))
        ∧ (k ≠ some .arrayEnd → (src.drop off').head? ≠ some 0x5D) := by
  rw [tokPeek_eq]
  obtain ⟨w, hw, ha, hle, hr⟩ := ws_split hl
  refine ⟨w, hw, ha, hle, fun hg => (hf hg).ws hw ha, hr, ?_, ?_⟩
  · intro hk
    cases h : src.drop (off + runLen isWs (src.drop off)) with
    | nil => rw [h] at hk; simp at hk
    | cons b t =>
      rw [h] at hk
      simp at hk
      rw [peekKind_arrayEnd hk] at h
      exact Adv.cons h
  · intro hk hd
    rw [hd] at hk
    exact hk rfl

/-! ## Triples for the parser monad -/

/-- Partial-correctness triple over the three outcomes. -/
def PWp {σ ε α : Type} (out : Out σ ε α) (P : α → σ → Prop) (Q : ε → σ → Prop) (N : Panic → Prop) : Prop :=
  match out with
  | .ok a s => P a s
  | .err e s => Q e s
  | .panic p => N p

theorem PWp.bind {σ ε α β : Type} {m : M σ ε α} {f : α → M σ ε β} {s : σ} {P : α → σ → Prop}
    {P' : β → σ → Prop} {Q : ε → σ → Prop} {N : Panic → Prop} (h : PWp (m s) P Q N)
    (hf : ∀ a s, P a s → PWp (f a s) P' Q N) : PWp ((m >>= f) s) P' Q N := by
  rw [M.bind_eq]
  cases hm : m s with
  | ok a s => rw [hm] at h; exact hf a s h
  | err e s => rw [hm] at h; exact h
  | panic p => rw [hm] at h; exact h

theorem PWp.mono {σ ε α : Type} {out : Out σ ε α} {P P' : α → σ → Prop}
    {Q Q' : ε → σ → Prop} {N N' : Panic → Prop} (h : PWp out P Q N)
    (hp : ∀ a s, P a s → P' a s) (hq : ∀ e s, Q e s → Q' e s) (hn : ∀ p, N p → N' p) :
    PWp out P' Q' N' := by
  cases out with
  | ok a s => exact hp a s h
  | err e s => exact hq e s h
  | panic p => exact hn p h

/-- A delegate callback keeps `I`, fails only with `E`, panics only with `N`. -/
def Cb {σ ε α : Type} (I : σ → Prop) (E : ε → σ → Prop) (N : Panic → Prop) (m : M σ ε α) : Prop :=
  ∀ d, I d → PWp (m d) (fun _ d' => I d') E N

/-- All callbacks do. -/
structure CbSpec (D : Delegate) (I : D.σ → Prop) (E : D.Err → D.σ → Prop) (N : Panic → Prop) : Prop where
  null : Cb I E N D.null
  boolean : ∀ b, Cb I E N (D.boolean b)
  number : ∀ n, Cb I E N (D.number n)
  string : ∀ s, Cb I E N (D.string s)
  beginObject : Cb I E N D.beginObject
  objectKey : ∀ o k, Cb I E N (D.objectKey o k)
  objectValue : ∀ o k v, Cb I E N (D.objectValue o k v)
  endObject : ∀ o, Cb I E N (D.endObject o)
  beginArray : Cb I E N D.beginArray
  arrayValue : ∀ a v, Cb I E N (D.arrayValue a v)
  endArray : ∀ a, Cb I E N (D.endArray a)
  objectIsEmpty : ∀ d o p, I d → D.objectIsEmpty d o = .panic p → N p
  arrayIsEmpty : ∀ d o p, I d → D.arrayIsEmpty d o = .panic p → N p
  kindOf : ∀ d o p, I d → D.kindOf d o = .panic p → N p

/-- What an error of a run looks like. -/
def ErrOk {D : Delegate} (src : List UInt8) (I : D.σ → Prop) (E : D.Err → D.σ → Prop)
    (e : Error D.Err) (s : PState D.σ) : Prop :=
  e.offset ≤ src.length ∧ s.offset ≤ src.length ∧
    match e.kind with
    | .errorFromDelegate x => E x s.delegate
    | _ => I s.delegate

theorem intoFallable_kind {δ : Type} (k : ErrorKind Empty) (x : δ) :
    (k.intoFallable : ErrorKind δ) ≠ .errorFromDelegate x := by
  cases k <;> simp [ErrorKind.intoFallable]
  all_goals (rename_i e; exact e.elim)

variable {g : Bool} {cfg : ParseConfig} {D : Delegate} {I : D.σ → Prop} {E : D.Err → D.σ → Prop}
  {N : Panic → Prop}

theorem ErrOk.syntax {off : Nat} {s : PState D.σ} {k : ErrorKind D.Err} (h1 : off ≤ src.length)
    (h2 : s.offset ≤ src.length) (hI : I s.delegate) (hk : ∀ x, k ≠ .errorFromDelegate x) :
    ErrOk src I E ⟨off, k⟩ s := by
  refine ⟨h1, h2, ?_⟩
  cases k <;> first | exact hI | exact absurd rfl (hk _)

theorem pwp_perr {α : Type} {off : Nat} {s : PState D.σ} {k : ErrorKind D.Err} {P : α → PState D.σ → Prop}
    (h1 : off ≤ src.length)
    (h2 : s.offset ≤ src.length) (hI : I s.delegate) (hk : ∀ x, k ≠ .errorFromDelegate x) :
    PWp (perr D off k s : Out _ _ α) P (ErrOk src I E) N := ErrOk.syntax h1 h2 hI hk

/-- a callback -/
theorem pwp_liftD {α : Type} {off : Nat} {m : M D.σ D.Err α} (hm : Cb I E N m) {s : PState D.σ}
    (hI : I s.delegate) (ho : off ≤ src.length) (hs : s.offset ≤ src.length) :
    PWp (liftD D off m s) (fun _ s' => s'.offset = s.offset ∧ I s'.delegate) (ErrOk src I E) N := by
  have := hm s.delegate hI
  unfold liftD
  cases h : m s.delegate with
  | ok a d => rw [h] at this; exact ⟨rfl, this⟩
  | err e d => rw [h] at this; exact ⟨ho, hs, this⟩
  | panic p => rw [h] at this; exact this

theorem pwp_liftTok {α : Type} {lo : Nat} {m : TokM α} {P : α → Nat → Prop} {s : PState D.σ}
    (h : Wp src lo (m s.offset) P) (hI : I s.delegate) :
    PWp (liftTok D m s) (fun a s' => P a s'.offset ∧ I s'.delegate) (ErrOk src I E) N := by
  unfold liftTok
  cases hm : m s.offset with
  | ok a off => rw [hm] at h; exact ⟨h, hI⟩
  | err e off =>
    rw [hm] at h
    exact ErrOk.syntax h.2.2 h.2.1 hI (intoFallable_kind _)
  | panic p => rw [hm] at h; exact h.elim

theorem pwp_nextColon {s : PState D.σ} (hl : s.offset ≤ src.length) (hlim : src.length < LIM)
    (hf : Fit g src s.offset) (hI : I s.delegate) :
    PWp (nextColon g src D s) (fun _ s' => s.offset < s'.offset ∧ s'.offset ≤ src.length
      ∧ Fit g src s'.offset ∧ I s'.delegate) (ErrOk src I E) N := by
  have h := wp_next hl hlim hf
  unfold nextColon
  cases hm : nextOrEof src g s.offset with
  | ok a off =>
    rw [hm] at h
    obtain ⟨w, l, _, _, _, _, _, h1, h2, h3⟩ := h
    exact ⟨h1, h2, h3, hI⟩
  | err e off =>
    rw [hm] at h
    exact ErrOk.syntax (E := E) h.2.2 h.2.1 hI (by simp)
  | panic p => rw [hm] at h; exact h.elim

theorem pwp_liftQ {α : Type} {q : D.σ → Res α} {s : PState D.σ}
    (h : ∀ p, q s.delegate = .panic p → N p) :
    PWp (liftQ D q s) (fun a s' => s' = s ∧ q s.delegate = .ok a) (ErrOk src I E) N := by
  unfold liftQ
  cases hq : q s.delegate with
  | ok a => exact ⟨rfl, rfl⟩
  | panic p => exact h p hq

theorem pwp_beginNest {off : Nat} {s : PState D.σ} (ho : off ≤ src.length) (hs : s.offset ≤ src.length)
    (hI : I s.delegate) :
    PWp (beginNest cfg D off s) (fun _ s' => s'.offset = s.offset ∧ s'.delegate = s.delegate)
      (ErrOk src I E) N := by
  unfold beginNest
  split
  · split
    · exact ⟨rfl, rfl⟩
    · exact ErrOk.syntax (E := E) ho hs hI (by simp)
  · exact ⟨rfl, rfl⟩

theorem pwp_endNest {s : PState D.σ} :
    PWp (endNest cfg D s) (fun _ s' => s'.offset = s.offset ∧ s'.delegate = s.delegate)
      (ErrOk src I E) N := by
  unfold endNest
  split <;> exact ⟨rfl, rfl⟩

theorem ErrOk.eofTo {k : ErrorKind D.Err} (hk : ∀ x, k ≠ .errorFromDelegate x) {e : Error D.Err}
    {s : PState D.σ} (h : ErrOk src I E e s) : ErrOk src I E (JustJson.eofTo k e) s := by
  obtain ⟨off, kd⟩ := e
  unfold JustJson.eofTo
  cases kd <;> first | exact h | skip
  exact ErrOk.syntax h.1 h.2.1 h.2.2 hk

theorem PWp.mapErr {σ ε α : Type} {m : M σ ε α} {f : ε → ε} {s : σ} {P : α → σ → Prop} {Q : ε → σ → Prop}
    (h : PWp (m s) P Q N) (hf : ∀ e s, Q e s → Q (f e) s) : PWp (M.mapErr f m s) P Q N := by
  unfold M.mapErr
  cases hm : m s with
  | ok a s => rw [hm] at h; exact h
  | err e s => rw [hm] at h; exact hf e s h
  | panic p => rw [hm] at h; exact h

theorem tokOffset_eq (s : PState D.σ) : tokOffset D s = .ok s.offset s := rfl

/-- Result of the generic analysis. -/
def Good {α : Type} (g : Bool) (src : List UInt8) (off : Nat) (I : D.σ → Prop) (E : D.Err → D.σ → Prop)
    (N : Panic → Prop) (out : Out (PState D.σ) (Error D.Err) α) : Prop :=
  PWp out (fun _ s' => off < s'.offset ∧ s'.offset ≤ src.length ∧ Fit g src s'.offset ∧ I s'.delegate)
    (ErrOk src I E) N

/-- For any delegate: bounds on offsets, progress, termination, and every invariant of the callbacks. -/
theorem run_generic (hD : CbSpec D I E N) (hlim : src.length < LIM) : ∀ fuel : Nat,
    (∀ s : PState D.σ, s.offset ≤ src.length → Fit g src s.offset → I s.delegate →
      3 * (src.length - s.offset) + 1 ≤ fuel →
      Good g src s.offset I E N (readTokens g src cfg D fuel s))
    ∧ (∀ s : PState D.σ, s.offset ≤ src.length → Fit g src s.offset → I s.delegate →
      3 * (src.length - s.offset) + 3 ≤ fuel →
      Good g src s.offset I E N (readObject g src cfg D fuel s))
    ∧ (∀ (s : PState D.σ) (o : D.Object), s.offset ≤ src.length → Fit g src s.offset → I s.delegate →
      3 * (src.length - s.offset) + 2 ≤ fuel →
      Good g src s.offset I E N (readObjectLoop g src cfg D fuel o s))
    ∧ (∀ s : PState D.σ, s.offset ≤ src.length → Fit g src s.offset → I s.delegate →
      3 * (src.length - s.offset) + 3 ≤ fuel →
      Good g src s.offset I E N (readArray g src cfg D fuel s))
    ∧ (∀ (s : PState D.σ) (a : D.Array), s.offset ≤ src.length → Fit g src s.offset → I s.delegate →
      3 * (src.length - s.offset) + 2 ≤ fuel →
      Good g src s.offset I E N (readArrayLoop g src cfg D fuel a s)) := by
  intro fuel
  induction fuel with
  | zero =>
    refine ⟨?_, ?_, ?_, ?_, ?_⟩ <;> (intros; omega)
  | succ fuel ih =>
    obtain ⟨ihT, ihO, ihOL, ihA, ihAL⟩ := ih
    refine ⟨?_, ?_, ?_, ?_, ?_⟩
    · -- readTokens
      intro s hl hf hI hfuel
      unfold Good
      rw [readTokens, M.bind_ok (tokOffset_eq s)]
      refine PWp.bind (pwp_liftTok (wp_next hl hlim hf) hI) ?_
      rintro tok s1 ⟨⟨w, l, hw, hv, ha, rfl, hs, h1, h2, h3⟩, hI1⟩
      have hcb : ∀ {m : M D.σ D.Err D.Value}, Cb I E N m → PWp (liftD D s.offset m s1)
          (fun _ s' => s.offset < s'.offset ∧ s'.offset ≤ src.length ∧ Fit g src s'.offset ∧ I s'.delegate)
          (ErrOk src I E) N := by
        intro m hm
        refine (pwp_liftD hm hI1 hl h2).mono ?_ (fun _ _ h => h) (fun _ h => h)
        rintro _ s2 ⟨e1, e2⟩
        rw [e1]
        exact ⟨h1, h2, h3, e2⟩
      cases l with
      | null => exact hcb hD.null
      | bool b => exact hcb (hD.boolean b)
      | num n => exact hcb (hD.number _)
      | str is => exact hcb (hD.string _)
      | objC => exact pwp_perr hl h2 hI1 (by simp)
      | arrC => exact pwp_perr hl h2 hI1 (by simp)
      | comma => exact pwp_perr hl h2 hI1 (by simp)
      | colon => exact pwp_perr hl h2 hI1 (by simp)
      | objO =>
        refine PWp.bind (pwp_beginNest hl h2 hI1) ?_
        rintro _ s2 ⟨e1, e2⟩
        refine PWp.mapErr ?_ (fun e s h => h.eofTo (by simp))
        refine PWp.mono (ihO s2 (by omega) (by rw [e1]; exact h3) (by rw [e2]; exact hI1) (by omega)) ?_
          (fun _ _ h => h) (fun _ h => h)
        rintro _ s3 ⟨e3, e4, e5, e6⟩
        exact ⟨by omega, e4, e5, e6⟩
      | arrO =>
        refine PWp.bind (pwp_beginNest hl h2 hI1) ?_
        rintro _ s2 ⟨e1, e2⟩
        refine PWp.mapErr ?_ (fun e s h => h.eofTo (by simp))
        refine PWp.mono (ihA s2 (by omega) (by rw [e1]; exact h3) (by rw [e2]; exact hI1) (by omega)) ?_
          (fun _ _ h => h) (fun _ h => h)
        rintro _ s3 ⟨e3, e4, e5, e6⟩
        exact ⟨by omega, e4, e5, e6⟩
    · -- readObject
      intro s hl hf hI hfuel
      unfold Good
      rw [readObject, M.bind_ok (tokOffset_eq s)]
      refine PWp.bind (pwp_liftD hD.beginObject hI hl hl) ?_
      rintro o s1 ⟨e1, hI1⟩
      refine PWp.bind (ihOL s1 o (by omega) (by rw [e1]; exact hf) hI1 (by omega)) ?_
      rintro o s2 ⟨e2, e3, e4, hI2⟩
      rw [M.bind_ok (tokOffset_eq s2)]
      refine PWp.bind (pwp_liftD (hD.endObject o) hI2 e3 e3) ?_
      rintro v s3 ⟨e5, hI3⟩
      refine PWp.bind pwp_endNest ?_
      rintro _ s4 ⟨e6, e7⟩
      refine ⟨by omega, by omega, ?_, by rw [e7]; exact hI3⟩
      rw [e6, e5]; exact e4
    · -- readObjectLoop
      intro s o hl hf hI hfuel
      unfold Good
      rw [readObjectLoop, M.bind_ok (tokOffset_eq s)]
      refine PWp.bind (pwp_liftTok (wp_next hl hlim hf) hI) ?_
      rintro tok s1 ⟨⟨w, l, hw, hv, ha, rfl, hs, h1, h2, h3⟩, hI1⟩
      cases l with
      | null => exact pwp_perr hl h2 hI1 (by simp)
      | bool b => exact pwp_perr hl h2 hI1 (by simp)
      | num n => exact pwp_perr hl h2 hI1 (by simp)
      | arrC => exact pwp_perr hl h2 hI1 (by simp)
      | comma => exact pwp_perr hl h2 hI1 (by simp)
      | colon => exact pwp_perr hl h2 hI1 (by simp)
      | objO => exact pwp_perr hl h2 hI1 (by simp)
      | arrO => exact pwp_perr hl h2 hI1 (by simp)
      | objC =>
        simp only [Lex.token]
        split
        · exact ⟨h1, h2, h3, hI1⟩
        · refine PWp.bind (pwp_liftQ (fun p hp => hD.objectIsEmpty _ _ p hI1 hp)) ?_
          rintro b _ ⟨rfl, _⟩
          split
          · exact ⟨h1, h2, h3, hI1⟩
          · exact pwp_perr hl h2 hI1 (by simp)
      | str is =>
        simp only [Lex.token]
        refine PWp.bind (pwp_liftD (hD.objectKey o _) hI1 hl h2) ?_
        rintro ⟨o, k⟩ s2 ⟨e2, hI2⟩
        simp only
        rw [M.bind_ok (tokOffset_eq s2)]
        refine PWp.bind (pwp_nextColon (by omega) hlim (by rw [e2]; exact h3) hI2) ?_
        rintro tok s3 ⟨e3, e4, e5, hI3⟩
        split
        · exact pwp_perr (by omega) e4 hI3 (by simp)
        · rw [M.bind_ok (tokOffset_eq s3)]
          refine PWp.bind (ihT s3 e4 e5 hI3 (by omega)) ?_
          rintro v s4 ⟨e6, e7, e8, hI4⟩
          refine PWp.bind (pwp_liftD (hD.objectValue o k v) hI4 e4 e7) ?_
          rintro o s5 ⟨e9, hI5⟩
          rw [M.bind_ok (tokOffset_eq s5)]
          refine PWp.bind (pwp_liftTok (wp_next (by omega) hlim (by rw [e9]; exact e8)) hI5) ?_
          rintro tok s6 ⟨⟨w', l', hw', hv', ha', rfl, hs', h1', h2', h3'⟩, hI6⟩
          split
          · exact ⟨by omega, h2', h3', hI6⟩
          split
          · exact pwp_perr (by omega) h2' hI6 (by simp)
          · refine PWp.mono (ihOL s6 o h2' h3' hI6 (by omega)) ?_ (fun _ _ h => h) (fun _ h => h)
            rintro _ s7 ⟨e10, e11, e12, hI7⟩
            exact ⟨by omega, e11, e12, hI7⟩
    · -- readArray
      intro s hl hf hI hfuel
      unfold Good
      rw [readArray, M.bind_ok (tokOffset_eq s)]
      refine PWp.bind (pwp_liftD hD.beginArray hI hl hl) ?_
      rintro o s1 ⟨e1, hI1⟩
      refine PWp.bind (ihAL s1 o (by omega) (by rw [e1]; exact hf) hI1 (by omega)) ?_
      rintro o s2 ⟨e2, e3, e4, hI2⟩
      refine PWp.bind (pwp_liftD (hD.endArray o) hI2 hl e3) ?_
      rintro v s3 ⟨e5, hI3⟩
      refine PWp.bind pwp_endNest ?_
      rintro _ s4 ⟨e6, e7⟩
      refine ⟨by omega, by omega, ?_, by rw [e7]; exact hI3⟩
      rw [e6, e5]; exact e4
    · -- readArrayLoop
      intro s a hl hf hI hfuel
      unfold Good
      rw [readArrayLoop, M.bind_ok (tokOffset_eq s)]
      refine PWp.bind (pwp_liftTok (wp_peek hl hf) hI) ?_
      rintro k s1 ⟨⟨w, hw, ha, h1, h2, h3, h4, h5⟩, hI1⟩
      have hmono := ha.mono
      split
      · rename_i hk
        have ha1 := h4 hk
        have hl1 := ha1.le h1
        have hf1 : Fit g src (s1.offset + 1) := fun hg => (h2 hg).adv_ascii ha1 (by decide)
        rw [M.bind_ok (M.modify_eq _ _)]
        split
        · exact ⟨by show s.offset < s1.offset + 1; omega, hl1, hf1, hI1⟩
        · refine PWp.bind (pwp_liftQ (fun p hp => hD.arrayIsEmpty _ _ p hI1 hp)) ?_
          rintro b _ ⟨rfl, _⟩
          split
          · exact ⟨by show s.offset < s1.offset + 1; omega, hl1, hf1, hI1⟩
          · exact pwp_perr hl hl1 hI1 (by simp)
      · refine PWp.bind (ihT s1 h1 h2 hI1 (by omega)) ?_
        rintro v s4 ⟨e6, e7, e8, hI4⟩
        rw [M.bind_ok (tokOffset_eq s4)]
        refine PWp.bind (pwp_liftD (hD.arrayValue a v) hI4 e7 e7) ?_
        rintro a s5 ⟨e9, hI5⟩
        rw [M.bind_ok (tokOffset_eq s5)]
        refine PWp.bind (pwp_liftTok (wp_next (by omega) hlim (by rw [e9]; exact e8)) hI5) ?_
        rintro tok s6 ⟨⟨w', l', hw', hv', ha', rfl, hs', h1', h2', h3'⟩, hI6⟩
        split
        · exact ⟨by omega, h2', h3', hI6⟩
        split
        · exact pwp_perr (by omega) h2' hI6 (by simp)
        · refine PWp.mono (ihAL s6 a h2' h3' hI6 (by omega)) ?_ (fun _ _ h => h) (fun _ h => h)
          rintro _ s7 ⟨e10, e11, e12, hI7⟩
          exact ⟨by omega, e11, e12, hI7⟩

end
end JustJson
