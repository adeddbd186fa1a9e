import Verif.Lemmas.Basic
import Verif.Model.Cost
/-! # The model with the counter: forgetting the counter gives the model without, and how much it counts -/

namespace JustJson

set_option linter.unusedSectionVars false

/-- `mc` started in `t` does what `m` does on the state without counter, and ends as `Q` and `E` say -/
def Mirror {τ σ ε α : Type} (π : τ → σ) (Q : α → τ → Prop) (E : τ → Prop) (mc : M τ ε α) (m : M σ ε α) (t : τ) : Prop :=
  match mc t with
  | .ok a t' => m (π t) = .ok a (π t') ∧ Q a t'
  | .err x t' => m (π t) = .err x (π t') ∧ E t'
  | .panic p => m (π t) = .panic p

section
variable {τ σ ε α β : Type} {π : τ → σ} {Q : α → τ → Prop} {E E' : τ → Prop} {mc : M τ ε α} {m : M σ ε α} {t : τ}

theorem Mirror.mono {Q' : α → τ → Prop} (h : Mirror π Q E mc m t) (hQ : ∀ a t', Q a t' → Q' a t') (hE : ∀ t', E t' → E' t') :
    Mirror π Q' E' mc m t := by
  unfold Mirror at h ⊢
  cases hm : mc t with
  | ok a t' => rw [hm] at h; exact ⟨h.1, hQ _ _ h.2⟩
  | err x t' => rw [hm] at h; exact ⟨h.1, hE _ h.2⟩
  | panic p => rw [hm] at h; exact h

theorem Mirror.bind {Q' : β → τ → Prop} {fc : α → M τ ε β} {f : α → M σ ε β} (h : Mirror π Q E mc m t)
    (hf : ∀ a t', Q a t' → Mirror π Q' E (fc a) (f a) t') : Mirror π Q' E (mc >>= fc) (m >>= f) t := by
  unfold Mirror at h ⊢
  cases hm : mc t with
  | ok a t' =>
    rw [hm] at h
    rw [M.bind_ok hm, M.bind_ok h.1]
    exact hf a t' h.2
  | err x t' =>
    rw [hm] at h
    rw [M.bind_err hm, M.bind_err h.1]
    exact ⟨rfl, h.2⟩
  | panic p =>
    rw [hm] at h
    rw [M.bind_eq, hm, M.bind_eq, h]

theorem Mirror.pure {a : α} (h : Q a t) : Mirror π Q E (M.pure a : M τ ε α) (M.pure a) t := ⟨rfl, h⟩
theorem Mirror.pure' {a : α} (h : Q a t) : Mirror π Q E (Pure.pure a : M τ ε α) (Pure.pure a) t := ⟨rfl, h⟩
theorem Mirror.throw {x : ε} (h : E t) : Mirror π Q E (M.throw x) (M.throw x) t := ⟨rfl, h⟩
theorem Mirror.panic {p : Panic} : Mirror π Q E (M.panic p : M τ ε α) (M.panic p) t := rfl

theorem Mirror.orPanic {p : Panic} {o : Option α} (h : ∀ a, o = some a → Q a t) : Mirror π Q E (M.orPanic p o : M τ ε α) (M.orPanic p o) t := by
  cases o with
  | none => exact Mirror.panic
  | some a => exact Mirror.pure (h a rfl)

theorem Mirror.ofRes {r : Res α} (h : ∀ a, r = .ok a → Q a t) : Mirror π Q E (M.ofRes r : M τ ε α) (M.ofRes r) t := by
  cases r with
  | panic p => rfl
  | ok a => exact Mirror.pure (h a rfl)

theorem Mirror.of_ok {a : α} {t' : τ} (h1 : mc t = .ok a t') (h2 : m (π t) = .ok a (π t')) (h3 : Q a t') : Mirror π Q E mc m t := by
  unfold Mirror; rw [h1]; exact ⟨h2, h3⟩
theorem Mirror.of_err {x : ε} {t' : τ} (h1 : mc t = .err x t') (h2 : m (π t) = .err x (π t')) (h3 : E t') : Mirror π Q E mc m t := by
  unfold Mirror; rw [h1]; exact ⟨h2, h3⟩

end

/-! ## The tokenizer -/

section
variable {src : List UInt8} {t : Meter}

/-- simulation for tokenizer functions -/
abbrev TMirror {α : Type} (Q : α → Meter → Prop) (E : Meter → Prop) (mc : TokC α) (m : TokM α) (t : Meter) : Prop :=
  Mirror Meter.offset Q E mc m t

/-- from `t` to `t'`, at most `A` accesses for each byte passed over, and `k` more -/
def Ran (src : List UInt8) (A k : Nat) (t t' : Meter) : Prop :=
  t.offset ≤ t'.offset ∧ t'.offset ≤ src.length ∧ t'.reads + A * t.offset ≤ t.reads + A * t'.offset + k

theorem peekC_eq (t : Meter) : peekByteC src t = .ok src[t.offset]? ⟨t.offset, t.reads + 1⟩ := rfl

theorem nextC_none (h : src[t.offset]? = none) : nextByteC src t = .ok none ⟨t.offset, t.reads + 1⟩ := by
  unfold nextByteC
  rw [M.bind_ok (peekC_eq t), h]
  rfl

theorem nextC_some {b : UInt8} (h : src[t.offset]? = some b) :
    nextByteC src t = .ok (some (t.offset, b)) ⟨t.offset + 1, t.reads + 1⟩ := by
  unfold nextByteC
  rw [M.bind_ok (peekC_eq t), h]
  rfl

theorem next_none {off : Nat} (h : src[off]? = none) : nextByte src off = .ok none off := by
  unfold nextByte; rw [h]
theorem next_some {off : Nat} {b : UInt8} (h : src[off]? = some b) : nextByte src off = .ok (some (off, b)) (off + 1) := by
  unfold nextByte; rw [h]

theorem drop_get_some {off : Nat} {b : UInt8} (h : src[off]? = some b) :
    off < src.length ∧ src.drop off = b :: src.drop (off + 1) := by
  obtain ⟨h1, h2⟩ := List.getElem?_eq_some_iff.mp h
  exact ⟨h1, by rw [List.drop_eq_getElem_cons h1, h2]⟩

theorem drop_get_none {off : Nat} (h : src[off]? = none) : src.length ≤ off ∧ src.drop off = [] := by
  have h1 := List.getElem?_eq_none_iff.mp h
  exact ⟨h1, List.drop_eq_nil_of_le h1⟩

theorem runLen_drop_le (p : UInt8 → Bool) (off : Nat) (h : off ≤ src.length) : off + runLen p (src.drop off) ≤ src.length := by
  have key : ∀ l : List UInt8, runLen p l ≤ l.length := by
    intro l
    induction l with
    | nil => exact Nat.le_refl _
    | cons b bs ih =>
      unfold runLen
      split
      · simp only [List.length_cons]; omega
      · exact Nat.zero_le _
  have := key (src.drop off)
  rw [List.length_drop] at this
  omega

/-- a loop that looks at a byte, and goes on past it or stops -/
theorem skipWsLoopC_eq : ∀ (fuel : Nat) (t : Meter), src.length - t.offset < fuel →
    skipWsLoopC src fuel t
      = .ok () ⟨t.offset + runLen isWs (src.drop t.offset), t.reads + runLen isWs (src.drop t.offset) + 1⟩ := by
  intro fuel
  induction fuel with
  | zero => intro t h; omega
  | succ fuel ih =>
    intro t h
    rw [skipWsLoopC, M.bind_ok (peekC_eq t)]
    cases hb : src[t.offset]? with
    | none =>
      rw [(drop_get_none hb).2]
      rfl
    | some b =>
      obtain ⟨h1, h2⟩ := drop_get_some hb
      rw [h2]
      simp only [runLen]
      by_cases hw : isWs b = true
      · rw [if_pos hw, if_pos hw]
        refine (ih ⟨t.offset + 1, t.reads + 1⟩ (by show src.length - (t.offset + 1) < fuel; omega)).trans ?_
        dsimp only
        congr 2 <;> omega
      · rw [if_neg hw, if_neg hw]
        rfl

theorem highLoopC_eq : ∀ (fuel : Nat) (t : Meter), src.length - t.offset < fuel →
    highLoopC src fuel t
      = .ok () ⟨t.offset + runLen (fun b => 128 ≤ b) (src.drop t.offset),
          t.reads + 2 * runLen (fun b => 128 ≤ b) (src.drop t.offset) + 1⟩ := by
  intro fuel
  induction fuel with
  | zero => intro t h; omega
  | succ fuel ih =>
    intro t h
    rw [highLoopC, M.bind_ok (peekC_eq t)]
    cases hb : src[t.offset]? with
    | none =>
      rw [(drop_get_none hb).2]
      rfl
    | some b =>
      obtain ⟨h1, h2⟩ := drop_get_some hb
      rw [h2]
      simp only [runLen]
      by_cases hw : b < 128
      · have hw' : ¬ (128 ≤ b) := by rw [UInt8.le_iff_toNat_le]; rw [UInt8.lt_iff_toNat_lt] at hw; omega
        rw [if_pos hw, if_neg (by simpa using hw')]
        rfl
      · have hw' : 128 ≤ b := by rw [UInt8.le_iff_toNat_le]; rw [UInt8.lt_iff_toNat_lt] at hw; omega
        rw [if_neg hw, if_pos (by simpa using hw')]
        rw [M.bind_ok (nextC_some (t := ⟨t.offset, t.reads + 1⟩) hb)]
        refine (ih ⟨t.offset + 1, t.reads + 1 + 1⟩ (by show src.length - (t.offset + 1) < fuel; omega)).trans ?_
        dsimp only
        congr 2 <;> omega

theorem digitLoopC_eq : ∀ (fuel : Nat) (rd : Bool) (t : Meter), src.length - t.offset < fuel →
    digitLoopC src fuel rd t
      = .ok (rd || decide (0 < runLen isDigit (src.drop t.offset)))
          ⟨t.offset + runLen isDigit (src.drop t.offset), t.reads + 2 * runLen isDigit (src.drop t.offset) + 1⟩ := by
  intro fuel
  induction fuel with
  | zero => intro rd t h; omega
  | succ fuel ih =>
    intro rd t h
    rw [digitLoopC, M.bind_ok (peekC_eq t)]
    cases hb : src[t.offset]? with
    | none =>
      rw [(drop_get_none hb).2]
      cases rd <;> rfl
    | some b =>
      obtain ⟨h1, h2⟩ := drop_get_some hb
      rw [h2]
      by_cases hw : isDigit b = true
      · have hr : runLen isDigit (b :: src.drop (t.offset + 1)) = runLen isDigit (src.drop (t.offset + 1)) + 1 := by
          rw [runLen, if_pos hw]
        rw [hr]
        dsimp only
        rw [if_pos hw]
        rw [M.bind_ok (nextC_some (t := ⟨t.offset, t.reads + 1⟩) hb)]
        refine (ih true ⟨t.offset + 1, t.reads + 1 + 1⟩ (by show src.length - (t.offset + 1) < fuel; omega)).trans ?_
        dsimp only
        congr 1
        · simp
        · congr 1 <;> omega
      · have hr : runLen isDigit (b :: src.drop (t.offset + 1)) = 0 := by rw [runLen, if_neg hw]
        rw [hr]
        dsimp only
        rw [if_neg hw]
        cases rd <;> rfl

theorem readC_some {k : ErrorKind Empty} {b : UInt8} (h : src[t.offset]? = some b) :
    readOrC src k t = .ok (t.offset, b) ⟨t.offset + 1, t.reads + 1⟩ := by
  unfold readOrC
  rw [M.bind_ok (nextC_some h)]
  rfl

theorem readC_none {k : ErrorKind Empty} (h : src[t.offset]? = none) :
    readOrC src k t = .err ⟨t.offset, k⟩ ⟨t.offset, t.reads + 1⟩ := by
  unfold readOrC
  rw [M.bind_ok (nextC_none h)]
  rfl

theorem read_some {off : Nat} {k : ErrorKind Empty} {b : UInt8} (h : src[off]? = some b) :
    readOr src k off = .ok (off, b) (off + 1) := by
  unfold readOr
  rw [M.bind_ok (next_some h)]
  rfl

theorem read_none {off : Nat} {k : ErrorKind Empty} (h : src[off]? = none) :
    readOr src k off = .err ⟨off, k⟩ off := by
  unfold readOr
  rw [M.bind_ok (next_none h)]
  rfl

theorem intLoopC_eq : ∀ (fuel : Nat) (rd : Bool) (t : Meter), src.length - t.offset < fuel →
    ∃ n, n ≤ t.reads + 2 * (intLoop (src.drop t.offset) rd).2 + 1 ∧
    intLoopC src fuel rd t
      = .ok (intLoop (src.drop t.offset) rd).1 ⟨t.offset + (intLoop (src.drop t.offset) rd).2, n⟩ := by
  intro fuel
  induction fuel with
  | zero => intro rd t h; omega
  | succ fuel ih =>
    intro rd t h
    rw [intLoopC, M.bind_ok (peekC_eq t)]
    cases hb : src[t.offset]? with
    | none =>
      rw [(drop_get_none hb).2]
      exact ⟨t.reads + 1, by simp [intLoop], rfl⟩
    | some b =>
      obtain ⟨h1, h2⟩ := drop_get_some hb
      rw [h2]
      simp only [intLoop]
      by_cases hz : b = 0x30 ∧ rd = false
      · rw [if_pos hz, if_pos hz]
        refine ⟨t.reads + 2, by simp, ?_⟩
        unfold readC
        rw [M.bind_ok (readC_some (t := ⟨t.offset, t.reads + 1⟩) hb)]
        rfl
      · rw [if_neg hz, if_neg hz]
        by_cases hw : isDigit b = true
        · rw [if_pos hw, if_pos hw]
          unfold readC
          rw [M.bind_ok (readC_some (t := ⟨t.offset, t.reads + 1⟩) hb)]
          obtain ⟨n, h3, h4⟩ := ih true ⟨t.offset + 1, t.reads + 1 + 1⟩ (by show src.length - (t.offset + 1) < fuel; omega)
          refine ⟨n, ?_, ?_⟩
          · simp only at h3 ⊢; omega
          · rw [h4]
            congr 2
            simp only; omega
        · rw [if_neg hw, if_neg hw]
          exact ⟨t.reads + 1, by simp, rfl⟩

theorem intLoop_le : ∀ (l : List UInt8) (rd : Bool), (intLoop l rd).2 ≤ l.length := by
  intro l
  induction l with
  | nil => intro rd; exact Nat.le_refl _
  | cons b bs ih =>
    intro rd
    unfold intLoop
    split
    · simp
    · split
      · have := ih true; simp only [List.length_cons]; omega
      · simp

/-! ### One access for each byte -/

theorem sim_read {k : ErrorKind Empty} :
    TMirror (fun r t' => r.1 = t.offset ∧ src[t.offset]? = some r.2 ∧ t' = ⟨t.offset + 1, t.reads + 1⟩ ∧ t.offset < src.length)
      (fun t' => t' = ⟨t.offset, t.reads + 1⟩) (readOrC src k) (readOr src k) t := by
  cases hb : src[t.offset]? with
  | none => exact Mirror.of_err (readC_none hb) (read_none hb) rfl
  | some b => exact Mirror.of_ok (readC_some hb) (read_some hb) ⟨rfl, rfl, rfl, (drop_get_some hb).1⟩

theorem sim_skipWs (hl : t.offset ≤ src.length) :
    TMirror (fun _ t' => Ran src 1 1 t t') (fun _ => False) (skipWsC src) (skipWs src) t := by
  refine Mirror.of_ok (skipWsLoopC_eq _ t (by omega)) rfl ⟨Nat.le_add_right _ _, runLen_drop_le _ _ hl, ?_⟩
  simp only; omega

theorem sim_hex : ∀ (n d : Nat) (t : Meter), t.offset ≤ src.length →
    TMirror (fun _ t' => Ran src 1 0 t t') (fun t' => Ran src 1 1 t t') (readHexC src n d) (readHex src n d) t := by
  intro n
  induction n with
  | zero => intro d t hl; exact Mirror.pure ⟨Nat.le_refl _, hl, by omega⟩
  | succ n ih =>
    intro d t hl
    rw [readHexC, readHex]
    refine Mirror.bind (sim_read.mono (fun _ _ h => h) fun t' h => ?_) ?_
    · subst h; exact ⟨Nat.le_refl _, hl, by simp only; omega⟩
    · rintro ⟨off, b⟩ t' ⟨h1, h2, h3, h4⟩
      subst h3
      dsimp only
      split
      · exact Mirror.throw ⟨Nat.le_succ _, h4, by simp only; omega⟩
      · refine (ih _ ⟨t.offset + 1, t.reads + 1⟩ h4).mono (fun _ t' h => ?_) fun t' h => ?_
        · obtain ⟨h5, h6, h7⟩ := h; simp only at h5 h7; exact ⟨by omega, h6, by omega⟩
        · obtain ⟨h5, h6, h7⟩ := h; simp only at h5 h7; exact ⟨by omega, h6, by omega⟩

theorem sim_low (d : Nat) (hl : t.offset ≤ src.length) :
    TMirror (fun _ t' => Ran src 1 0 t t') (fun t' => Ran src 1 1 t t') (readLowSurrogateC src d) (readLowSurrogate src d) t := by
  unfold readLowSurrogateC readLowSurrogate
  split
  · refine Mirror.bind (sim_read.mono (fun _ _ h => h) fun t' h => ?_) ?_
    · subst h; exact ⟨Nat.le_refl _, hl, by simp only; omega⟩
    · rintro ⟨off, b⟩ t' ⟨h1, h2, h3, h4⟩
      subst h3
      dsimp only
      split
      · refine Mirror.bind ((sim_read (t := ⟨t.offset + 1, t.reads + 1⟩)).mono (fun _ _ h => h) fun t' h => ?_) ?_
        · subst h; exact ⟨Nat.le_succ _, h4, by simp only; omega⟩
        · rintro ⟨off, b⟩ t' ⟨-, -, h3, h5⟩
          subst h3
          simp only at h5
          dsimp only
          split
          · refine Mirror.bind ((sim_hex 4 0 ⟨t.offset + 1 + 1, t.reads + 1 + 1⟩ h5).mono (Q' := fun _ t' => Ran src 1 0 t t') (fun _ t' h => ?_) fun t' h => ?_) ?_
            · obtain ⟨h5, h6, h7⟩ := h; simp only at h5 h7; exact ⟨by omega, h6, by omega⟩
            · obtain ⟨h5, h6, h7⟩ := h; simp only at h5 h7; exact ⟨by omega, h6, by omega⟩
            · intro second t' h
              split
              · exact Mirror.bind (Mirror.orPanic (Q := fun _ t' => Ran src 1 0 t t') fun _ _ => h) fun a t' h => Mirror.pure' h
              · exact Mirror.pure' h
          · exact Mirror.pure' ⟨by simp only; omega, h5, by simp only; omega⟩
      · exact Mirror.pure' ⟨by simp only; omega, h4, by simp only; omega⟩
  · exact Mirror.pure' ⟨Nat.le_refl _, hl, by omega⟩

section
variable [Arch]

theorem sim_escape (info : JsonStringInfo) (hl : t.offset ≤ src.length) :
    TMirror (fun _ t' => Ran src 1 0 t t') (fun t' => Ran src 1 1 t t') (readStringEscapeC src info) (readStringEscape src info) t := by
  unfold readStringEscapeC readStringEscape
  refine Mirror.bind (sim_read.mono (fun _ _ h => h) fun t' h => ?_) ?_
  · subst h; exact ⟨Nat.le_refl _, hl, by simp only; omega⟩
  · rintro ⟨off, b⟩ t' ⟨h1, h2, h3, h4⟩
    subst h3
    dsimp only
    have here : Ran src 1 0 t ⟨t.offset + 1, t.reads + 1⟩ := ⟨Nat.le_succ _, h4, by simp only; omega⟩
    split
    · exact Mirror.orPanic fun _ _ => here
    · split
      · refine Mirror.bind ((sim_hex 4 0 ⟨t.offset + 1, t.reads + 1⟩ h4).mono (Q' := fun _ t' => Ran src 1 0 t t') (fun _ t' h => ?_) fun t' h => ?_) ?_
        · obtain ⟨h5, h6, h7⟩ := h; simp only at h5 h7; exact ⟨by omega, h6, by omega⟩
        · obtain ⟨h5, h6, h7⟩ := h; simp only at h5 h7; exact ⟨by omega, h6, by omega⟩
        · intro decoded t2 h5
          cases charFromU32 decoded with
          | some ch => exact Mirror.orPanic fun _ _ => h5
          | none =>
            refine Mirror.bind ((sim_low decoded h5.2.1).mono (Q' := fun _ t' => Ran src 1 0 t t') (fun _ t' h => ?_) fun t' h => ?_) ?_
            · obtain ⟨h6, h7, h8⟩ := h; obtain ⟨h9, h10, h11⟩ := h5; exact ⟨by omega, h7, by omega⟩
            · obtain ⟨h6, h7, h8⟩ := h; obtain ⟨h9, h10, h11⟩ := h5; exact ⟨by omega, h7, by omega⟩
            · intro o t3 h6
              cases o with
              | some merged =>
                exact Mirror.bind (Mirror.ofRes (Q := fun _ t' => Ran src 1 0 t t') fun _ _ => h6) fun a t' h => Mirror.orPanic fun _ _ => h
              | none =>
                obtain ⟨h9, h10, h11⟩ := h6
                exact Mirror.throw ⟨h9, h10, by omega⟩
      · obtain ⟨h9, h10, h11⟩ := here
        exact Mirror.throw ⟨h9, h10, by omega⟩


theorem sliceBytes_len {a b : Nat} {l : List UInt8} (h : sliceBytes src a b = some l) : l.length = b - a := by
  unfold sliceBytes at h
  split at h
  · rename_i hab
    injection h with h
    rw [← h, List.length_take, List.length_drop]
    omega
  · cases h

/-- strings: up to three accesses for each byte, since runs of non-ASCII bytes are peeked at, passed over and checked -/
theorem sim_string (g : Bool) (start : Nat) : ∀ (fuel : Nat) (info : JsonStringInfo) (t : Meter), t.offset ≤ src.length →
    TMirror (fun _ t' => Ran src 3 0 t t') (fun t' => Ran src 3 1 t t') (readStringLoopC src g start fuel info)
      (readStringLoop src g start fuel info) t := by
  intro fuel
  induction fuel with
  | zero => intro info t hl; exact Mirror.panic
  | succ fuel ih =>
    intro info t hl
    rw [readStringLoopC, readStringLoop]
    refine Mirror.bind (sim_read.mono (fun _ _ h => h) fun t' h => ?_) ?_
    · subst h; exact ⟨Nat.le_refl _, hl, by simp only; omega⟩
    · rintro ⟨off, b⟩ t' ⟨h1, h2, h3, h4⟩
      subst h3
      dsimp only at h1 ⊢
      subst h1
      have here : Ran src 3 0 t ⟨t.offset + 1, t.reads + 1⟩ := ⟨Nat.le_succ _, h4, by simp only; omega⟩
      have go : ∀ info (t1 : Meter), Ran src 3 0 t t1 → TMirror (fun _ t' => Ran src 3 0 t t') (fun t' => Ran src 3 1 t t')
          (readStringLoopC src g start fuel info) (readStringLoop src g start fuel info) t1 := by
        rintro info t1 ⟨h5, h6, h7⟩
        refine (ih info t1 h6).mono (fun _ t' h => ?_) fun t' h => ?_
        · obtain ⟨h8, h9, h10⟩ := h; exact ⟨by omega, h9, by omega⟩
        · obtain ⟨h8, h9, h10⟩ := h; exact ⟨by omega, h9, by omega⟩
      have stop : ∀ {x : Error Empty} {α : Type} {Q : α → Meter → Prop} (t1 : Meter), Ran src 3 0 t t1 →
          TMirror Q (fun t' => Ran src 3 1 t t') (M.throw x) (M.throw x) t1 := by
        rintro x α Q t1 ⟨h5, h6, h7⟩
        exact Mirror.throw ⟨h5, h6, by omega⟩
      generalize safeLookup (if g = true then SAFE_STRING_BYTES else SAFE_STRING_BYTES_VERIFY_UTF8) b = sf
      split
      · exact Mirror.bind (Mirror.orPanic (Q := fun _ t' => Ran src 3 0 t t') fun _ _ => here) fun info t1 h => go info t1 h
      · split
        · refine Mirror.bind (Mirror.orPanic (Q := fun _ t' => Ran src 3 0 t t') fun _ _ => here) fun body t1 h => ?_
          exact Mirror.bind (Mirror.orPanic (Q := fun _ t' => Ran src 3 0 t t') fun _ _ => h) fun s t1 h => Mirror.pure' h
        · split
          · refine Mirror.bind ((sim_escape info (t := ⟨t.offset + 1, t.reads + 1⟩) h4).mono (Q' := fun _ t' => Ran src 3 0 t t') (fun _ t' h => ?_) fun t' h => ?_)
              fun info t1 h => go info t1 h
            · obtain ⟨h5, h6, h7⟩ := h; simp only at h5 h7; exact ⟨by omega, h6, by omega⟩
            · obtain ⟨h5, h6, h7⟩ := h; simp only at h5 h7; exact ⟨by omega, h6, by omega⟩
          · split
            · -- a run of non-ASCII bytes
              have hh := highLoopC_eq (src := src) (src.length + 1) ⟨t.offset + 1, t.reads + 1⟩ (by simp only; omega)
              have hle := runLen_drop_le (fun b => decide (128 ≤ b)) (t.offset + 1) h4
              dsimp only at hh
              generalize hk : runLen (fun b => decide (128 ≤ b)) (src.drop (t.offset + 1)) = k at hh hle
              refine Mirror.bind (Q := fun _ t' => t' = ⟨t.offset + 1 + k, t.reads + 1 + 2 * k + 1⟩)
                (Mirror.of_ok hh (by show Out.ok () _ = _; dsimp only; rw [hk]) rfl) ?_
              rintro - t1 rfl
              refine Mirror.bind (Q := fun a t' => a = t.offset + 1 + k ∧ t' = ⟨t.offset + 1 + k, t.reads + 1 + 2 * k + 1⟩)
                (Mirror.of_ok (mc := offsetC) rfl rfl ⟨rfl, rfl⟩) ?_
              rintro _ _ ⟨rfl, rfl⟩
              refine Mirror.bind (Mirror.orPanic (Q := fun _ t' => t' = ⟨t.offset + 1 + k, t.reads + 1 + 2 * k + 1⟩) fun _ _ => rfl) ?_
              rintro info _ rfl
              refine Mirror.bind (Mirror.orPanic (Q := fun run t' => run.length = k + 1 ∧ t' = ⟨t.offset + 1 + k, t.reads + 1 + 2 * k + 1⟩) fun run h => ⟨?_, rfl⟩) ?_
              · rw [sliceBytes_len h]; omega
              · rintro run _ ⟨hr, rfl⟩
                -- the check of the run has no counterpart in the model without counter
                have hb : ∀ {β : Type} (f : TokC β), (chargeC run.length >>= fun _ => f) ⟨t.offset + 1 + k, t.reads + 1 + 2 * k + 1⟩
                    = f ⟨t.offset + 1 + k, t.reads + 1 + 2 * k + 1 + run.length⟩ := fun f => rfl
                have hend : Ran src 3 0 t ⟨t.offset + 1 + k, t.reads + 1 + 2 * k + 1 + run.length⟩ :=
                  ⟨by simp only; omega, hle, by simp only; omega⟩
                unfold Mirror
                rw [hb]
                cases hd : utf8Decode run with
                | none => exact stop (Q := fun _ t' => Ran src 3 0 t t') _ hend
                | some x => exact go info _ hend
            · split
              · exact stop _ here
              · exact Mirror.panic

/-! ### Numbers -/

theorem sim_digits (k : ErrorKind Empty) (hl : t.offset ≤ src.length) :
    TMirror (fun _ t' => Ran src 2 1 t t' ∧ t.offset < t'.offset) (fun t' => Ran src 2 1 t t') (readDigits1C src k) (readDigits1 src k) t := by
  have hh := digitLoopC_eq (src := src) (src.length + 1) false t (by omega)
  have hle := runLen_drop_le isDigit t.offset hl
  unfold readDigits1C readDigits1
  generalize hk : runLen isDigit (src.drop t.offset) = n at hh hle
  have he : Ran src 2 1 t ⟨t.offset + n, t.reads + 2 * n + 1⟩ := ⟨by simp only; omega, hle, by simp only; omega⟩
  unfold TMirror Mirror
  rw [M.bind_ok hh]
  have h2 : (do
      let n := runLen isDigit (src.drop (← M.get))
      M.modify (· + n)
      if n = 0 then tokErr (← M.get) k else return () : TokM Unit) t.offset
      = (if n = 0 then (tokErr (t.offset + n) k : TokM Unit) else M.pure ()) (t.offset + n) := by
    rw [← hk]
    show (if _ then _ else _ : TokM Unit) _ = _
    split <;> rfl
  rw [h2]
  by_cases h0 : n = 0
  · subst h0
    exact ⟨rfl, he⟩
  · rw [if_neg h0]
    have : decide (0 < n) = true := by simpa using Nat.pos_of_ne_zero h0
    simp only [this, Bool.or_true, if_true]
    exact ⟨rfl, he, by show t.offset < t.offset + n; omega⟩

theorem sim_int (st : InitialNumberState) (hl : t.offset ≤ src.length) :
    TMirror (fun _ t' => Ran src 2 1 t t') (fun t' => Ran src 2 1 t t') (readIntC src st) (readInt src st) t := by
  unfold readIntC readInt
  split
  · exact Mirror.pure ⟨Nat.le_refl _, hl, by omega⟩
  · obtain ⟨n, hn, hh⟩ := intLoopC_eq (src := src) (src.length + 1) (st == .digit) t (by omega)
    have hle := intLoop_le (src.drop t.offset) (st == .digit)
    rw [List.length_drop] at hle
    have he : Ran src 2 1 t ⟨t.offset + (intLoop (src.drop t.offset) (st == .digit)).2, n⟩ :=
      ⟨by simp only; omega, by simp only; omega, by simp only; omega⟩
    unfold TMirror Mirror
    rw [M.bind_ok hh]
    have h2 : (do
        let r := intLoop (src.drop (← M.get)) (st == .digit)
        M.modify (· + r.2)
        if r.1 then return () else tokErr (← M.get) .expectedDigit : TokM Unit) t.offset
        = (if (intLoop (src.drop t.offset) (st == .digit)).1 = true then (M.pure () : TokM Unit)
            else tokErr (t.offset + (intLoop (src.drop t.offset) (st == .digit)).2) .expectedDigit)
          (t.offset + (intLoop (src.drop t.offset) (st == .digit)).2) := by
      show (if _ then _ else _ : TokM Unit) _ = _
      split <;> rfl
    rw [h2]
    cases hr : (intLoop (src.drop t.offset) (st == .digit)).1 with
    | true => exact ⟨rfl, he⟩
    | false => exact ⟨rfl, he⟩

theorem sim_frac (hl : t.offset ≤ src.length) :
    TMirror (fun _ t' => Ran src 5 1 t t') (fun t' => Ran src 5 1 t t') (readFracC src) (readFrac src) t := by
  unfold readFracC readFrac
  refine Mirror.bind (Q := fun a t' => a = src[t.offset]? ∧ t' = ⟨t.offset, t.reads + 1⟩) (Mirror.of_ok (peekC_eq t) rfl ⟨rfl, rfl⟩) ?_
  rintro _ _ ⟨rfl, rfl⟩
  split
  · rename_i hb
    have h4 := (drop_get_some hb).1
    refine Mirror.bind (Q := fun _ t' => t' = ⟨t.offset + 1, t.reads + 1 + 1⟩)
      (Mirror.of_ok (nextC_some (t := ⟨t.offset, t.reads + 1⟩) hb) (next_some hb) rfl) ?_
    rintro _ _ rfl
    refine (sim_digits _ (t := ⟨t.offset + 1, t.reads + 1 + 1⟩) h4).mono (fun _ t' h => ?_) fun t' h => ?_
    · obtain ⟨⟨h5, h6, h7⟩, h8⟩ := h; simp only at h5 h7 h8; exact ⟨by omega, h6, by omega⟩
    · obtain ⟨h5, h6, h7⟩ := h; simp only at h5 h7; exact ⟨by omega, h6, by omega⟩
  · exact Mirror.pure' ⟨Nat.le_refl _, hl, by simp only; omega⟩

theorem sim_exp (hl : t.offset ≤ src.length) :
    TMirror (fun _ t' => Ran src 5 1 t t') (fun t' => Ran src 5 1 t t') (readExpC src) (readExp src) t := by
  unfold readExpC readExp
  refine Mirror.bind (Q := fun a t' => a = src[t.offset]? ∧ t' = ⟨t.offset, t.reads + 1⟩) (Mirror.of_ok (peekC_eq t) rfl ⟨rfl, rfl⟩) ?_
  rintro _ _ ⟨rfl, rfl⟩
  have fin : ∀ t1 : Meter, t.offset < t1.offset → t1.offset ≤ src.length → t1.reads + 5 * t.offset + 1 ≤ t.reads + 5 * t1.offset →
      TMirror (fun _ t' => Ran src 5 1 t t') (fun t' => Ran src 5 1 t t') (readDigits1C src .expectedExponent) (readDigits1 src .expectedExponent) t1 := by
    intro t1 h1 h2 h3
    refine (sim_digits _ h2).mono (fun _ t' h => ?_) fun t' h => ?_
    · obtain ⟨⟨h5, h6, h7⟩, h8⟩ := h; exact ⟨by omega, h6, by omega⟩
    · obtain ⟨h5, h6, h7⟩ := h; exact ⟨by omega, h6, by omega⟩
  split
  · rename_i hb
    obtain ⟨b, hb⟩ : ∃ b, src[t.offset]? = some b := by
      rcases hb with hb | hb <;> exact ⟨_, hb⟩
    have h4 := (drop_get_some hb).1
    refine Mirror.bind (Q := fun _ t' => t' = ⟨t.offset + 1, t.reads + 1 + 1⟩)
      (Mirror.of_ok (nextC_some (t := ⟨t.offset, t.reads + 1⟩) hb) (next_some hb) rfl) ?_
    rintro _ _ rfl
    refine Mirror.bind (Q := fun a t' => a = src[t.offset + 1]? ∧ t' = ⟨t.offset + 1, t.reads + 1 + 1 + 1⟩)
      (Mirror.of_ok (peekC_eq _) rfl ⟨rfl, rfl⟩) ?_
    rintro _ _ ⟨rfl, rfl⟩
    dsimp only
    split
    · rename_i hb
      obtain ⟨b, hb⟩ : ∃ b, src[t.offset + 1]? = some b := by
        rcases hb with hb | hb <;> exact ⟨_, hb⟩
      have h5 := (drop_get_some hb).1
      refine Mirror.bind (Q := fun _ t' => t' = ⟨t.offset + 1 + 1, t.reads + 1 + 1 + 1 + 1⟩)
        (Mirror.of_ok (nextC_some (t := ⟨t.offset + 1, t.reads + 1 + 1 + 1⟩) hb) (next_some hb) rfl) ?_
      rintro _ _ rfl
      exact fin _ (by simp only; omega) h5 (by simp only; omega)
    · exact fin _ (by simp only; omega) h4 (by simp only; omega)
  · exact Mirror.pure' ⟨Nat.le_refl _, hl, by simp only; omega⟩

theorem Ran.trans {A k k' : Nat} {t1 t2 t3 : Meter} (h : Ran src A k t1 t2) (h' : Ran src A k' t2 t3) : Ran src A (k + k') t1 t3 := by
  obtain ⟨h1, h2, h3⟩ := h
  obtain ⟨h4, h5, h6⟩ := h'
  exact ⟨Nat.le_trans h1 h4, h5, by omega⟩

theorem Ran.weaken {A A' k k' : Nat} {t1 t2 : Meter} (h : Ran src A k t1 t2) (hA : A ≤ A') (hk : k ≤ k') : Ran src A' k' t1 t2 := by
  obtain ⟨h1, h2, h3⟩ := h
  refine ⟨h1, h2, ?_⟩
  obtain ⟨d, rfl⟩ := Nat.exists_eq_add_of_le hA
  have := Nat.mul_le_mul_left d h1
  rw [Nat.add_mul, Nat.add_mul]
  omega

theorem sim_number (st : InitialNumberState) (start : Nat) (hl : t.offset ≤ src.length) :
    TMirror (fun _ t' => Ran src 5 3 t t') (fun t' => Ran src 5 3 t t') (readNumberC src st start) (readNumber src st start) t := by
  unfold readNumberC readNumber
  refine Mirror.bind ((sim_int st hl).mono (Q' := fun _ t' => Ran src 5 1 t t') (fun _ t' h => h.weaken (by omega) (by omega))
    fun t' h => h.weaken (by omega) (by omega)) fun _ t1 h1 => ?_
  refine Mirror.bind ((sim_frac h1.2.1).mono (Q' := fun _ t' => Ran src 5 2 t t') (fun _ t' h => h1.trans h)
    fun t' h => (h1.trans h).weaken (by omega) (by omega)) fun _ t2 h2 => ?_
  refine Mirror.bind ((sim_exp h2.2.1).mono (Q' := fun _ t' => Ran src 5 3 t t') (fun _ t' h => h2.trans h)
    fun t' h => h2.trans h) fun _ t3 h3 => ?_
  refine Mirror.bind (Q := fun a t' => a = t3.offset ∧ t' = t3) (Mirror.of_ok (mc := offsetC) rfl rfl ⟨rfl, rfl⟩) ?_
  rintro _ _ ⟨rfl, rfl⟩
  refine Mirror.bind (Mirror.orPanic (Q := fun _ t' => Ran src 5 3 t t') fun _ _ => h3) fun lit t4 h4 => ?_
  exact Mirror.bind (Mirror.orPanic (Q := fun _ t' => Ran src 5 3 t t') fun _ _ => h4) fun s t5 h5 => Mirror.pure' h5

theorem sim_literal : ∀ (l : List UInt8) (t : Meter), t.offset ≤ src.length →
    TMirror (fun _ t' => Ran src 1 0 t t') (fun t' => Ran src 1 1 t t') (readLiteralC src l) (readLiteral src l) t := by
  intro l
  induction l with
  | nil => intro t hl; exact Mirror.pure ⟨Nat.le_refl _, hl, by omega⟩
  | cons b bs ih =>
    intro t hl
    rw [readLiteralC, readLiteral]
    refine Mirror.bind (sim_read.mono (fun _ _ h => h) fun t' h => ?_) ?_
    · subst h; exact ⟨Nat.le_refl _, hl, by simp only; omega⟩
    · rintro ⟨off, b⟩ t' ⟨h1, h2, h3, h4⟩
      subst h3
      dsimp only
      have here : Ran src 1 0 t ⟨t.offset + 1, t.reads + 1⟩ := ⟨Nat.le_succ _, h4, by simp only; omega⟩
      split
      · exact Mirror.throw (here.weaken (by omega) (by omega))
      · exact (ih ⟨t.offset + 1, t.reads + 1⟩ h4).mono (fun _ t' h => here.trans h) fun t' h => (here.trans h).weaken (by omega) (by omega)

/-- the accesses that find out where a number ends -/
def numExtra : Token → Nat
  | .number _ => 3
  | _ => 0

theorem numExtra_le (tok : Token) : numExtra tok ≤ 3 := by cases tok <;> simp [numExtra]

/-- from the first byte of a token on -/
theorem sim_readPeek (g : Bool) (off : Nat) (b : UInt8) (hl : t.offset ≤ src.length) :
    TMirror (fun tok t' => Ran src 5 (numExtra tok) t t')
      (fun t' => Ran src 5 3 t t') (readPeekC src g off b) (readPeek src g off b) t := by
  have here : Ran src 5 0 t t := ⟨Nat.le_refl _, hl, by omega⟩
  have plain : ∀ tok : Token, TMirror (fun tok t' => Ran src 5 (numExtra tok) t t')
      (fun t' => Ran src 5 3 t t') (M.pure tok) (M.pure tok) t := fun tok => Mirror.pure (here.weaken (Nat.le_refl _) (Nat.zero_le _))
  have lit : ∀ (l : List UInt8) (tok : Token), TMirror (fun tok t' => Ran src 5 (numExtra tok) t t')
      (fun t' => Ran src 5 3 t t') (do readLiteralC src l; return tok) (do readLiteral src l; return tok) t := by
    intro l tok
    refine Mirror.bind ((sim_literal l t hl).mono (Q' := fun _ t' => Ran src 5 0 t t') (fun _ t' h => h.weaken (by omega) (by omega))
      fun t' h => h.weaken (by omega) (by omega)) fun _ t1 h1 => Mirror.pure' (h1.weaken (Nat.le_refl _) (Nat.zero_le _))
  have num : ∀ st, TMirror (fun tok t' => Ran src 5 (numExtra tok) t t')
      (fun t' => Ran src 5 3 t t') (do return .number (← readNumberC src st off)) (do return .number (← readNumber src st off)) t := by
    intro st
    refine Mirror.bind (sim_number st off hl) fun n t1 h1 => Mirror.pure' ?_
    exact h1
  have str : TMirror (fun tok t' => Ran src 5 (numExtra tok) t t') (fun t' => Ran src 5 3 t t')
      (do return .string (← readStringC src g off)) (do return .string (← readString src g off)) t := by
    refine Mirror.bind ((sim_string g off _ _ t hl).mono (Q' := fun _ t' => Ran src 5 0 t t') (E' := fun t' => Ran src 5 3 t t')
      (fun _ t' (h : Ran src 3 0 t t') => h.weaken (by omega) (by omega))
      fun t' (h : Ran src 3 1 t t') => h.weaken (by omega) (by omega)) fun _ t1 h1 => Mirror.pure' (h1.weaken (Nat.le_refl _) (Nat.zero_le _))
  unfold readPeekC readPeek
  by_cases h : b = 0x7B
  · rw [if_pos h, if_pos h]; exact plain _
  rw [if_neg h, if_neg h]; clear h
  by_cases h : b = 0x7D
  · rw [if_pos h, if_pos h]; exact plain _
  rw [if_neg h, if_neg h]; clear h
  by_cases h : b = 0x5B
  · rw [if_pos h, if_pos h]; exact plain _
  rw [if_neg h, if_neg h]; clear h
  by_cases h : b = 0x5D
  · rw [if_pos h, if_pos h]; exact plain _
  rw [if_neg h, if_neg h]; clear h
  by_cases h : b = 0x2C
  · rw [if_pos h, if_pos h]; exact plain _
  rw [if_neg h, if_neg h]; clear h
  by_cases h : b = 0x3A
  · rw [if_pos h, if_pos h]; exact plain _
  rw [if_neg h, if_neg h]; clear h
  by_cases h : b = 0x22
  · rw [if_pos h, if_pos h]; exact str
  rw [if_neg h, if_neg h]; clear h
  by_cases h : b = 0x2D
  · rw [if_pos h, if_pos h]; exact num _
  rw [if_neg h, if_neg h]; clear h
  by_cases h : b = 0x30
  · rw [if_pos h, if_pos h]; exact num _
  rw [if_neg h, if_neg h]; clear h
  by_cases h : 0x31 ≤ b ∧ b ≤ 0x39
  · rw [if_pos h, if_pos h]; exact num _
  rw [if_neg h, if_neg h]; clear h
  by_cases h : b = 0x74
  · rw [if_pos h, if_pos h]; exact lit _ _
  rw [if_neg h, if_neg h]; clear h
  by_cases h : b = 0x66
  · rw [if_pos h, if_pos h]; exact lit _ _
  rw [if_neg h, if_neg h]; clear h
  by_cases h : b = 0x6E
  · rw [if_pos h, if_pos h]; exact lit _ _
  rw [if_neg h, if_neg h]; clear h
  exact Mirror.throw (here.weaken (by omega) (by omega))

/-- **A token.** At most five accesses for each byte passed over; three fewer if the token is not a number; on an error
at most two more. -/
theorem sim_next (g : Bool) (hl : t.offset ≤ src.length) :
    TMirror (fun tok t' => t.offset < t'.offset ∧ t'.offset ≤ src.length
        ∧ t'.reads + 5 * t.offset + 3 ≤ t.reads + 5 * t'.offset + numExtra tok)
      (fun t' => Ran src 5 2 t t') (nextOrEofC src g) (nextOrEof src g) t := by
  unfold nextOrEofC nextOrEof
  refine Mirror.bind (Q := fun _ t' => t.offset < t'.offset ∧ t'.offset ≤ src.length ∧ t'.reads + t.offset ≤ t.reads + t'.offset + 1) ?_ ?_
  · unfold readNonWsC readNonWs
    refine Mirror.bind ((sim_skipWs hl).mono (fun _ _ h => h) fun _ h => h.elim) fun _ t1 h1 => ?_
    obtain ⟨h2, h3, h4⟩ := h1
    refine sim_read.mono (fun r t' h => ?_) fun t' h => ?_
    · obtain ⟨-, -, rfl, h5⟩ := h
      exact ⟨by simp only; omega, h5, by simp only; omega⟩
    · subst h
      exact ⟨h2, h3, by simp only; omega⟩
  · rintro ⟨off, b⟩ t1 ⟨h2, h3, h4⟩
    refine (sim_readPeek g off b h3).mono (fun tok t' h => ?_) fun t' h => ?_
    · obtain ⟨h5, h6, h7⟩ := h
      exact ⟨by omega, h6, by omega⟩
    · obtain ⟨h5, h6, h7⟩ := h
      exact ⟨by omega, h6, by omega⟩

theorem sim_nextNonWs (hl : t.offset ≤ src.length) :
    TMirror (fun o t' => Ran src 1 (if o = none then 2 else 1) t t') (fun _ => False) (nextNonWsC src) (nextNonWs src) t := by
  unfold nextNonWsC nextNonWs
  refine Mirror.bind (sim_skipWs hl) fun _ t1 h1 => ?_
  obtain ⟨h2, h3, h4⟩ := h1
  cases hb : src[t1.offset]? with
  | none => exact Mirror.of_ok (nextC_none hb) (next_none hb) ⟨h2, h3, by simp; omega⟩
  | some b => exact Mirror.of_ok (nextC_some hb) (next_some hb) ⟨by simp only; omega, (drop_get_some hb).1, by simp; omega⟩

/-- `next()` -/
theorem sim_tokNext (g : Bool) (hl : t.offset ≤ src.length) :
    TMirror (fun o t' => Ran src 5 (if o = none then 2 else 0) t t') (fun t' => Ran src 5 0 t t') (tokNextC src g) (tokNext src g) t := by
  unfold tokNextC tokNext
  refine Mirror.bind (Q := fun o t' => Ran src 1 (if o = none then 2 else 1) t t' ∧ (o ≠ none → t.offset < t'.offset)) ?_ ?_
  · unfold nextNonWsC nextNonWs
    refine Mirror.bind ((sim_skipWs hl).mono (fun _ _ h => h) fun _ h => h.elim) fun _ t1 h1 => ?_
    obtain ⟨h2, h3, h4⟩ := h1
    cases hb : src[t1.offset]? with
    | none => exact Mirror.of_ok (nextC_none hb) (next_none hb) ⟨⟨h2, h3, by simp; omega⟩, fun h => absurd rfl h⟩
    | some b =>
      exact Mirror.of_ok (nextC_some hb) (next_some hb) ⟨⟨by simp only; omega, (drop_get_some hb).1, by simp; omega⟩,
        fun _ => by simp only; omega⟩
  · intro o t1 h
    cases o with
    | none =>
      obtain ⟨⟨h2, h3, h4⟩, -⟩ := h
      refine Mirror.pure' ⟨h2, h3, ?_⟩
      simp only [if_true] at h4 ⊢; omega
    | some r =>
      obtain ⟨off, b⟩ := r
      obtain ⟨⟨h2, h3, h4⟩, h5⟩ := h
      have h5 := h5 (by simp)
      rw [if_neg (by simp)] at h4
      refine Mirror.bind ((sim_readPeek g off b h3).mono (Q' := fun _ t' => Ran src 5 0 t t') (fun tok t' h => ?_) fun t' h => ?_) ?_
      · have h := h.weaken (Nat.le_refl _) (numExtra_le tok)
        obtain ⟨h6, h7, h8⟩ := h
        exact ⟨by omega, h7, by omega⟩
      · obtain ⟨h6, h7, h8⟩ := h
        exact ⟨by omega, h7, by omega⟩
      · intro tok t2 h
        exact Mirror.pure' h

/-- `peek()` -/
theorem sim_tokPeek (hl : t.offset ≤ src.length) :
    TMirror (fun o t' => Ran src 1 2 t t' ∧ (o ≠ none → t'.offset < src.length)) (fun _ => False) (tokPeekC src) (tokPeek src) t := by
  unfold tokPeekC tokPeek
  refine Mirror.bind (sim_skipWs hl) fun _ t1 h1 => ?_
  obtain ⟨h2, h3, h4⟩ := h1
  refine Mirror.bind (Q := fun a t' => a = src[t1.offset]? ∧ t' = ⟨t1.offset, t1.reads + 1⟩) (Mirror.of_ok (peekC_eq t1) rfl ⟨rfl, rfl⟩) ?_
  rintro _ _ ⟨rfl, rfl⟩
  refine Mirror.pure' ⟨⟨h2, h3, by simp only; omega⟩, fun h => ?_⟩
  cases hb : src[t1.offset]? with
  | none => rw [hb] at h; exact absurd rfl h
  | some b => exact (drop_get_some hb).1

end
end

/-! ## The parser -/

section
variable [Arch] {g : Bool} {src : List UInt8} {cfg : ParseConfig} {D : Delegate}

/-- forget the counter -/
def PStateC.erase {σ : Type} (s : PStateC σ) : PState σ := ⟨s.meter.offset, s.delegate, s.remainingDepth⟩

/-- simulation for parser functions -/
abbrev PMirror {α : Type} (Q : α → PStateC D.σ → Prop) (E : PStateC D.σ → Prop) (mc : PC D α) (m : PM D α) (s : PStateC D.σ) : Prop :=
  Mirror PStateC.erase Q E mc m s

/-- the counter is at most five times the offset plus `K`, with `c` to spare -/
def Low (src : List UInt8) (K c : Nat) (t : Meter) : Prop := t.offset ≤ src.length ∧ t.reads + c ≤ 5 * t.offset + K

theorem Low.weaken {K K' c c' : Nat} {t : Meter} (h : Low src K c t) (h' : K + c' ≤ K' + c) : Low src K' c' t := ⟨h.1, by have := h.2; omega⟩

theorem Low.ran {K c A k : Nat} {t t' : Meter} (h : Low src K c t) (h' : Ran src A k t t') (hA : A ≤ 5) : Low src (K + k) c t' := by
  obtain ⟨h1, h2, h3⟩ := h'.weaken hA (Nat.le_refl k)
  exact ⟨h2, by have := h.2; omega⟩

theorem sim_liftTok {α : Type} {Q : α → Meter → Prop} {E : Meter → Prop} {mc : TokC α} {m : TokM α} {s : PStateC D.σ}
    (h : TMirror Q E mc m s.meter) :
    PMirror (fun a s' => Q a s'.meter) (fun s' => E s'.meter) (liftTokC D mc) (liftTok D m) s := by
  unfold TMirror Mirror at h
  unfold PMirror Mirror
  unfold liftTokC liftTok
  cases hm : mc s.meter with
  | ok a t => rw [hm] at h; simp only; exact ⟨by show (match m s.meter.offset with | .ok a off => _ | .err e off => _ | .panic p => _) = _; rw [h.1]; rfl, h.2⟩
  | err x t => rw [hm] at h; simp only; exact ⟨by show (match m s.meter.offset with | .ok a off => _ | .err e off => _ | .panic p => _) = _; rw [h.1]; rfl, h.2⟩
  | panic p => rw [hm] at h; simp only; show (match m s.meter.offset with | .ok a off => _ | .err e off => _ | .panic p => _) = _; rw [h]

theorem sim_nextColon {K : Nat} {s : PStateC D.σ} (hs : Low src K 0 s.meter) :
    PMirror (fun _ s' => Low src K 0 s'.meter) (fun s' => Low src (K + 2) 0 s'.meter) (nextColonC g src D) (nextColon g src D) s := by
  have h := sim_next g hs.1
  unfold TMirror Mirror at h
  unfold PMirror Mirror
  unfold nextColonC nextColon
  cases hm : nextOrEofC src g s.meter with
  | ok a t =>
    rw [hm] at h
    obtain ⟨h1, h2, h3, h4⟩ := h
    refine ⟨by show (match nextOrEof src g s.meter.offset with | .ok a off => _ | .err e off => _ | .panic p => _) = _; rw [h1]; rfl, h3, ?_⟩
    have := hs.2; have := numExtra_le a; simp only; omega
  | err x t =>
    rw [hm] at h
    exact ⟨by show (match nextOrEof src g s.meter.offset with | .ok a off => _ | .err e off => _ | .panic p => _) = _; rw [h.1]; rfl, hs.ran h.2 (Nat.le_refl _)⟩
  | panic p =>
    rw [hm] at h
    show (match nextOrEof src g s.meter.offset with | .ok a off => _ | .err e off => _ | .panic p => _) = _; rw [h]

theorem sim_liftD {α : Type} {R : Meter → Prop} {E : PStateC D.σ → Prop} {off : Nat} {m : M D.σ D.Err α} {s : PStateC D.σ}
    (h : R s.meter) (hE : ∀ s' : PStateC D.σ, R s'.meter → E s') :
    PMirror (fun _ s' => R s'.meter) E (liftDC D off m) (liftD D off m) s := by
  unfold PMirror Mirror liftDC liftD
  cases hm : m s.delegate with
  | ok a d => simp only [PStateC.erase, hm]; exact ⟨trivial, h⟩
  | err e d => simp only [PStateC.erase, hm]; exact ⟨trivial, hE ⟨s.meter, d, s.remainingDepth⟩ h⟩
  | panic p => simp only [PStateC.erase, hm]

theorem sim_liftQ {α : Type} {R : Meter → Prop} {E : PStateC D.σ → Prop} {q : D.σ → Res α} {s : PStateC D.σ}
    (h : R s.meter) : PMirror (fun _ s' => R s'.meter) E (liftQC D q) (liftQ D q) s := by
  unfold PMirror Mirror liftQC liftQ
  cases hm : q s.delegate with
  | ok a => simp only [PStateC.erase, hm]; exact ⟨trivial, h⟩
  | panic p => simp only [PStateC.erase, hm]

theorem sim_tokOffset {R : Meter → Prop} {E : PStateC D.σ → Prop} {s : PStateC D.σ} (h : R s.meter) :
    PMirror (fun _ s' => R s'.meter) E (tokOffsetC D) (tokOffset D) s := ⟨rfl, h⟩

theorem sim_beginNest {R : Meter → Prop} {E : PStateC D.σ → Prop} {off : Nat} {s : PStateC D.σ}
    (h : R s.meter) (hE : ∀ s' : PStateC D.σ, R s'.meter → E s') :
    PMirror (fun _ s' => R s'.meter) E (beginNestC cfg D off) (beginNest cfg D off) s := by
  unfold PMirror Mirror beginNestC beginNest
  by_cases h1 : cfg.recursionLimit.isSome = true
  · by_cases h2 : s.remainingDepth > 0
    · simp only [PStateC.erase, h1, h2, if_true]; exact ⟨trivial, h⟩
    · simp only [PStateC.erase, h1, h2, if_true, if_false]; exact ⟨trivial, hE _ h⟩
  · simp only [h1]; exact ⟨rfl, h⟩

theorem sim_endNest {R : Meter → Prop} {E : PStateC D.σ → Prop} {s : PStateC D.σ}
    (h : R s.meter) : PMirror (fun _ s' => R s'.meter) E (endNestC cfg D) (endNest cfg D) s := by
  unfold PMirror Mirror endNestC endNest
  by_cases h1 : cfg.recursionLimit.isSome = true
  · simp only [h1, if_true]; exact ⟨rfl, h⟩
  · simp only [h1]; exact ⟨rfl, h⟩

theorem sim_mapErr {α : Type} {Q : α → PStateC D.σ → Prop} {E : PStateC D.σ → Prop} {mc : PC D α} {m : PM D α} {s : PStateC D.σ}
    {f : Error D.Err → Error D.Err} (h : PMirror Q E mc m s) : PMirror Q E (M.mapErr f mc) (M.mapErr f m) s := by
  unfold PMirror Mirror at h ⊢
  unfold M.mapErr
  cases hm : mc s with
  | ok a t => rw [hm] at h; simp only; rw [h.1]; exact ⟨rfl, h.2⟩
  | err x t => rw [hm] at h; simp only; rw [h.1]; exact ⟨rfl, h.2⟩
  | panic p => rw [hm] at h; simp only; rw [h]

/-- the next token, inside the parser -/
theorem sim_pnext {K c : Nat} {s : PStateC D.σ} (hs : Low src K c s.meter) :
    PMirror (fun tok s' => Low src (K + numExtra tok) (c + 3) s'.meter) (fun s' => Low src (K + 2) c s'.meter)
      (liftTokC D (nextOrEofC src g)) (liftTok D (nextOrEof src g)) s := by
  refine (sim_liftTok (sim_next g hs.1)).mono (fun tok s' h => ?_) fun s' h => hs.ran h (Nat.le_refl _)
  obtain ⟨h1, h2, h3⟩ := h
  exact ⟨h2, by have := hs.2; omega⟩

/-- what the five functions of the parser do to the counter, with `K` for the budget at the start -/
def CostOK (g : Bool) (src : List UInt8) (cfg : ParseConfig) (D : Delegate) (fuel : Nat) : Prop :=
  ∀ (K : Nat) (s : PStateC D.σ),
    (Low src K 0 s.meter → PMirror (fun _ s' => Low src K 0 s'.meter) (fun s' => Low src (K + 2) 0 s'.meter)
        (readTokensC g src cfg D fuel) (readTokens g src cfg D fuel) s)
    ∧ (Low src K 0 s.meter → PMirror (fun _ s' => Low src K 0 s'.meter) (fun s' => Low src (K + 2) 0 s'.meter)
        (readObjectC g src cfg D fuel) (readObject g src cfg D fuel) s)
    ∧ (∀ o, Low src K 0 s.meter → PMirror (fun _ s' => Low src K 0 s'.meter) (fun s' => Low src (K + 2) 0 s'.meter)
        (readObjectLoopC g src cfg D fuel o) (readObjectLoop g src cfg D fuel o) s)
    ∧ (Low src K 2 s.meter → PMirror (fun _ s' => Low src K 0 s'.meter) (fun s' => Low src (K + 2) 0 s'.meter)
        (readArrayC g src cfg D fuel) (readArray g src cfg D fuel) s)
    ∧ (∀ a, Low src K 2 s.meter → PMirror (fun _ s' => Low src K 0 s'.meter) (fun s' => Low src (K + 2) 0 s'.meter)
        (readArrayLoopC g src cfg D fuel a) (readArrayLoop g src cfg D fuel a) s)

theorem costOK : ∀ fuel, CostOK g src cfg D fuel := by
  intro fuel
  induction fuel with
  | zero =>
    intro K s
    refine ⟨fun _ => ?_, fun _ => ?_, fun _ _ => ?_, fun _ => ?_, fun _ _ => ?_⟩
    · rw [readTokensC, readTokens]; exact Mirror.panic
    · rw [readObjectC, readObject]; exact Mirror.panic
    · rw [readObjectLoopC, readObjectLoop]; exact Mirror.panic
    · rw [readArrayC, readArray]; exact Mirror.panic
    · rw [readArrayLoopC, readArrayLoop]; exact Mirror.panic
  | succ fuel ih =>
    intro K s
    have up : ∀ {c : Nat} (s' : PStateC D.σ), Low src K c s'.meter → Low src (K + 2) 0 s'.meter := fun s' h => h.weaken (by omega)
    refine ⟨fun hs => ?_, fun hs => ?_, fun o hs => ?_, fun hs => ?_, fun a hs => ?_⟩
    · rw [readTokensC, readTokens]
      refine Mirror.bind (sim_tokOffset hs) fun offset s1 hs => ?_
      refine Mirror.bind ((sim_pnext hs).mono (fun _ _ h => h) fun s' h => h.weaken (by omega)) fun tok s2 hs => ?_
      have h0 : Low src K 0 s2.meter := hs.weaken (by have := numExtra_le tok; omega)
      cases tok with
      | null => exact sim_liftD h0 up
      | bool b => exact sim_liftD h0 up
      | string b => exact sim_liftD h0 up
      | number b => exact sim_liftD h0 up
      | objectEnd => exact Mirror.throw (up _ h0)
      | arrayEnd => exact Mirror.throw (up _ h0)
      | colon => exact Mirror.throw (up _ h0)
      | comma => exact Mirror.throw (up _ h0)
      | object =>
        refine Mirror.bind (sim_beginNest h0 up) fun _ s3 h3 => ?_
        exact sim_mapErr ((ih K s3).2.1 h3)
      | array =>
        have h0 : Low src K 2 s2.meter := hs.weaken (by simp [numExtra])
        refine Mirror.bind (sim_beginNest h0 up) fun _ s3 h3 => ?_
        exact sim_mapErr ((ih K s3).2.2.2.1 h3)
    · rw [readObjectC, readObject]
      refine Mirror.bind (sim_tokOffset hs) fun offset s1 hs => ?_
      refine Mirror.bind (sim_liftD hs up) fun o s2 hs => ?_
      refine Mirror.bind ((ih K s2).2.2.1 o hs) fun o s3 hs => ?_
      refine Mirror.bind (sim_tokOffset hs) fun offset s4 hs => ?_
      refine Mirror.bind (sim_liftD hs up) fun v s5 hs => ?_
      refine Mirror.bind (sim_endNest hs) fun _ s6 hs => ?_
      exact Mirror.pure' hs
    · rw [readObjectLoopC, readObjectLoop]
      refine Mirror.bind (sim_tokOffset hs) fun offset s1 hs => ?_
      refine Mirror.bind ((sim_pnext hs).mono (fun _ _ h => h) fun s' h => h.weaken (by omega)) fun tok s2 hs => ?_
      have h0 : Low src K 0 s2.meter := hs.weaken (by have := numExtra_le tok; omega)
      cases tok with
      | null => exact Mirror.throw (up _ h0)
      | bool b => exact Mirror.throw (up _ h0)
      | number b => exact Mirror.throw (up _ h0)
      | object => exact Mirror.throw (up _ h0)
      | array => exact Mirror.throw (up _ h0)
      | arrayEnd => exact Mirror.throw (up _ h0)
      | colon => exact Mirror.throw (up _ h0)
      | comma => exact Mirror.throw (up _ h0)
      | objectEnd =>
        dsimp only
        by_cases hc : cfg.allowTrailingCommas = true
        · rw [if_pos hc, if_pos hc]; exact Mirror.pure' h0
        · rw [if_neg hc, if_neg hc]
          refine Mirror.bind (sim_liftQ h0) fun b s3 h3 => ?_
          cases b
          · exact Mirror.throw (up _ h3)
          · exact Mirror.pure' h3
      | string key =>
        dsimp only
        refine Mirror.bind (sim_liftD h0 up) fun r s3 hs => ?_
        obtain ⟨o', key'⟩ := r
        refine Mirror.bind (sim_tokOffset hs) fun offset s4 hs => ?_
        refine Mirror.bind (sim_nextColon hs) fun tok s5 hs => ?_
        by_cases hc : tok ≠ .colon
        · rw [if_pos hc, if_pos hc]; exact Mirror.throw (up _ hs)
        rw [if_neg hc, if_neg hc]
        refine Mirror.bind (sim_tokOffset hs) fun offset s6 hs => ?_
        refine Mirror.bind ((ih K s6).1 hs) fun v s7 hs => ?_
        refine Mirror.bind (sim_liftD hs up) fun o s8 hs => ?_
        refine Mirror.bind (sim_tokOffset hs) fun offset s9 hs => ?_
        refine Mirror.bind ((sim_pnext hs).mono (fun _ _ h => h) fun s' h => h.weaken (by omega)) fun tok s10 hs => ?_
        have h0 : Low src K 0 s10.meter := hs.weaken (by have := numExtra_le tok; omega)
        by_cases h1 : tok = .objectEnd
        · rw [if_pos h1, if_pos h1]; exact Mirror.pure' h0
        rw [if_neg h1, if_neg h1]
        by_cases h2 : tok ≠ .comma
        · rw [if_pos h2, if_pos h2]; exact Mirror.throw (up _ h0)
        rw [if_neg h2, if_neg h2]
        exact (ih K s10).2.2.1 o h0
    · rw [readArrayC, readArray]
      refine Mirror.bind (sim_tokOffset hs) fun offset s1 hs => ?_
      refine Mirror.bind (sim_liftD hs up) fun o s2 hs => ?_
      refine Mirror.bind ((ih K s2).2.2.2.2 o hs) fun o s3 hs => ?_
      refine Mirror.bind (sim_liftD hs up) fun v s5 hs => ?_
      refine Mirror.bind (sim_endNest hs) fun _ s6 hs => ?_
      exact Mirror.pure' hs
    · rw [readArrayLoopC, readArrayLoop]
      refine Mirror.bind (sim_tokOffset hs) fun offset s1 hs => ?_
      refine Mirror.bind (Q := fun o s' => Low src K 0 s'.meter ∧ (o ≠ none → s'.meter.offset < src.length))
        ((sim_liftTok (sim_tokPeek hs.1)).mono (fun o s' h => ⟨(hs.ran h.1 (by omega)).weaken (by omega), h.2⟩) fun _ h => h.elim)
        fun o s2 hs => ?_
      by_cases hc : o = some .arrayEnd
      · rw [if_pos hc, if_pos hc]
        refine Mirror.bind (Q := fun _ s' => Low src K 0 s'.meter)
          (Mirror.of_ok (mc := liftTokC D bumpC) (t' := ⟨⟨s2.meter.offset + 1, s2.meter.reads⟩, s2.delegate, s2.remainingDepth⟩) rfl rfl
            ⟨hs.2 (by rw [hc]; simp), by have := hs.1.2; simp only; omega⟩) fun _ s3 h3 => ?_
        by_cases hc : cfg.allowTrailingCommas = true
        · rw [if_pos hc, if_pos hc]; exact Mirror.pure' h3
        · rw [if_neg hc, if_neg hc]
          refine Mirror.bind (sim_liftQ h3) fun b s3 h3 => ?_
          cases b
          · exact Mirror.throw (up _ h3)
          · exact Mirror.pure' h3
      · rw [if_neg hc, if_neg hc]
        refine Mirror.bind ((ih K s2).1 hs.1) fun v s7 hs => ?_
        refine Mirror.bind (sim_tokOffset hs) fun offset s9 hs => ?_
        refine Mirror.bind (sim_liftD hs up) fun o s8 hs => ?_
        refine Mirror.bind (sim_tokOffset hs) fun offset s9 hs => ?_
        refine Mirror.bind ((sim_pnext hs).mono (fun _ _ h => h) fun s' h => h.weaken (by omega)) fun tok s10 hs => ?_
        have h0 : Low src K 0 s10.meter := hs.weaken (by have := numExtra_le tok; omega)
        by_cases h1 : tok = .arrayEnd
        · rw [if_pos h1, if_pos h1]; exact Mirror.pure' h0
        rw [if_neg h1, if_neg h1]
        by_cases h2 : tok ≠ .comma
        · rw [if_pos h2, if_pos h2]; exact Mirror.throw (up _ h0)
        rw [if_neg h2, if_neg h2]
        have h2 : tok = .comma := Decidable.byContradiction h2
        subst h2
        exact (ih K s10).2.2.2.2 o (hs.weaken (by simp [numExtra]))

theorem sim_parse {s : PStateC D.σ} (hs : Low src 0 0 s.meter) :
    PMirror (fun _ s' => Low src 2 0 s'.meter) (fun s' => Low src 2 0 s'.meter) (parseMC g src cfg D) (parseM g src cfg D) s := by
  unfold parseMC parseM
  refine Mirror.bind ((costOK (parseFuel src) 0 s).1 hs) fun v s1 h1 => ?_
  have fin : ∀ (reject : Bool) (s2 : PStateC D.σ), Low src 0 0 s2.meter →
      PMirror (fun _ s' => Low src 2 0 s'.meter) (fun s' => Low src 2 0 s'.meter)
        (if reject then perrC D 0 .payloadsShouldBeObjectOrArray else do
          match ← liftTokC D (nextNonWsC src) with
          | none => return v
          | some (offset, _) => perrC D offset .trailingNonWhitespace)
        (if reject then perr D 0 .payloadsShouldBeObjectOrArray else do
          match ← liftTok D (nextNonWs src) with
          | none => return v
          | some (offset, _) => perr D offset .trailingNonWhitespace) s2 := by
    intro reject s2 h2
    cases reject
    · rw [if_neg (by simp), if_neg (by simp)]
      refine Mirror.bind (Q := fun _ s' => Low src 2 0 s'.meter)
        ((sim_liftTok (sim_nextNonWs h2.1)).mono (fun o s' h => (h2.ran h (by omega)).weaken (by split <;> omega)) fun _ h => h.elim)
        fun o s3 h3 => ?_
      cases o with
      | none => exact Mirror.pure' h3
      | some r => exact Mirror.throw h3
    · rw [if_pos rfl, if_pos rfl]
      exact Mirror.throw (h2.weaken (by omega))
  by_cases hc : cfg.allowAllTypesAtRoot = true
  · simp only [if_pos hc]
    exact Mirror.bind (Mirror.pure (Q := fun _ (s' : PStateC D.σ) => Low src 0 0 s'.meter) h1) fin
  · simp only [if_neg hc]
    refine Mirror.bind (sim_liftQ h1) fun k s2 h2 => ?_
    exact Mirror.bind (Mirror.pure (Q := fun _ (s' : PStateC D.σ) => Low src 0 0 s'.meter) h2) fin

end
end JustJson
