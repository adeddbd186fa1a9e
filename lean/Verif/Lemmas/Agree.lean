import Verif.Lemmas.Generic
/-! # The two values of `GUARANTEED_UTF8` give the same runs, for every delegate -/

namespace JustJson
open Spec

set_option linter.unusedSectionVars false

section
variable {src : List UInt8} [Arch] {cfg : ParseConfig} {D : Delegate}

theorem CbSpec.trivial : CbSpec D (fun _ => True) (fun _ _ => True) (fun _ => True) := by
  have h : ∀ {α : Type} (m : M D.σ D.Err α),
      Cb (fun _ => True) (fun _ _ => True) (fun _ => True) m := by
    intro α m d _
    unfold PWp
    split <;> exact True.intro
  constructor <;> (intros; first | exact h _ | exact True.intro)

theorem bind_congr' {σ ε α β : Type} {m m' : M σ ε α} {f f' : α → M σ ε β} {s : σ} (h : m s = m' s)
    (hf : ∀ a s', m s = .ok a s' → f a s' = f' a s') : (m >>= f) s = (m' >>= f') s := by
  rw [M.bind_eq, M.bind_eq, ← h]
  cases hm : m s with
  | ok a s' => exact hf a s' hm
  | err e s' => rfl
  | panic p => rfl

theorem PWp.of_ok {σ ε α : Type} {out : Out σ ε α} {P : α → σ → Prop} {Q : ε → σ → Prop}
    {N : Panic → Prop} (h : PWp out P Q N) {a : α} {s : σ} (he : out = .ok a s) : P a s := by
  rw [he] at h; exact h

theorem liftTok_agree {s : PState D.σ} (hl : s.offset ≤ src.length) (hlim : src.length < LIM)
    (hb : Boundary src s.offset) :
    liftTok D (nextOrEof src true) s = liftTok D (nextOrEof src false) s := by
  unfold liftTok
  rw [nextOrEof_agree hl hlim hb]

theorem nextColon_agree {s : PState D.σ} (hl : s.offset ≤ src.length) (hlim : src.length < LIM)
    (hb : Boundary src s.offset) : nextColon true src D s = nextColon false src D s := by
  unfold nextColon
  rw [nextOrEof_agree hl hlim hb]

theorem liftTok_next_ok {s s' : PState D.σ} {t : Token} (hl : s.offset ≤ src.length) (hlim : src.length < LIM)
    (hb : Boundary src s.offset) (h : liftTok D (nextOrEof src true) s = .ok t s') :
    s.offset < s'.offset ∧ s'.offset ≤ src.length ∧ Boundary src s'.offset := by
  have h1 := (pwp_liftTok (D := D) (I := fun _ => True) (E := fun _ _ => True) (N := fun _ => True)
    (wp_next (g := true) hl hlim (fun _ => hb)) True.intro).of_ok h
  obtain ⟨⟨w, l, _, _, _, _, _, h2, h3, h4⟩, _⟩ := h1
  exact ⟨h2, h3, h4 rfl⟩

theorem liftD_ok {α : Type} {off : Nat} {m : M D.σ D.Err α} {s s' : PState D.σ} {a : α}
    (h : liftD D off m s = .ok a s') : s'.offset = s.offset := by
  unfold liftD at h
  split at h <;> simp at h
  rw [← h.2]

theorem run_agree (hlim : src.length < LIM) : ∀ fuel : Nat,
    (∀ s : PState D.σ, s.offset ≤ src.length → Boundary src s.offset →
      3 * (src.length - s.offset) + 1 ≤ fuel →
      readTokens true src cfg D fuel s = readTokens false src cfg D fuel s)
    ∧ (∀ s : PState D.σ, s.offset ≤ src.length → Boundary src s.offset →
      3 * (src.length - s.offset) + 3 ≤ fuel →
      readObject true src cfg D fuel s = readObject false src cfg D fuel s)
    ∧ (∀ (s : PState D.σ) (o : D.Object), s.offset ≤ src.length → Boundary src s.offset →
      3 * (src.length - s.offset) + 2 ≤ fuel →
      readObjectLoop true src cfg D fuel o s = readObjectLoop false src cfg D fuel o s)
    ∧ (∀ s : PState D.σ, s.offset ≤ src.length → Boundary src s.offset →
      3 * (src.length - s.offset) + 3 ≤ fuel →
      readArray true src cfg D fuel s = readArray false src cfg D fuel s)
    ∧ (∀ (s : PState D.σ) (a : D.Array), s.offset ≤ src.length → Boundary src s.offset →
      3 * (src.length - s.offset) + 2 ≤ fuel →
      readArrayLoop true src cfg D fuel a s = readArrayLoop false src cfg D fuel a s) := by
  intro fuel
  induction fuel with
  | zero => refine ⟨?_, ?_, ?_, ?_, ?_⟩ <;> (intros; omega)
  | succ fuel ih =>
    obtain ⟨ihT, ihO, ihOL, ihA, ihAL⟩ := ih
    obtain ⟨gT, -, -, -, -⟩ := run_generic (g := true) (cfg := cfg) (CbSpec.trivial (D := D)) hlim fuel
    have nest : ∀ {off : Nat} {s s' : PState D.σ} {u : Unit}, beginNest cfg D off s = .ok u s' →
        s'.offset = s.offset := by
      intro off s s' u h
      unfold beginNest at h
      split at h
      · split at h <;> simp at h; rw [← h]
      · simp at h; rw [← h]
    refine ⟨?_, ?_, ?_, ?_, ?_⟩
    · intro s hl hb hfuel
      rw [readTokens, readTokens, M.bind_ok (tokOffset_eq s), M.bind_ok (tokOffset_eq s)]
      refine bind_congr' (liftTok_agree hl hlim hb) ?_
      intro t s1 h1
      obtain ⟨a1, a2, a3⟩ := liftTok_next_ok hl hlim hb h1
      cases t <;> try rfl
      · refine bind_congr' rfl ?_
        intro u s2 h2
        have := nest h2
        unfold M.mapErr
        rw [ihO s2 (by omega) (by rw [this]; exact a3) (by omega)]
      · refine bind_congr' rfl ?_
        intro u s2 h2
        have := nest h2
        unfold M.mapErr
        rw [ihA s2 (by omega) (by rw [this]; exact a3) (by omega)]
    · intro s hl hb hfuel
      rw [readObject, readObject, M.bind_ok (tokOffset_eq s), M.bind_ok (tokOffset_eq s)]
      refine bind_congr' rfl ?_
      intro o s1 h1
      have := liftD_ok h1
      refine bind_congr' (ihOL s1 o (by omega) (by rw [this]; exact hb) (by omega)) ?_
      intro o s2 h2
      rfl
    · intro s o hl hb hfuel
      rw [readObjectLoop, readObjectLoop, M.bind_ok (tokOffset_eq s), M.bind_ok (tokOffset_eq s)]
      refine bind_congr' (liftTok_agree hl hlim hb) ?_
      intro t s1 h1
      obtain ⟨a1, a2, a3⟩ := liftTok_next_ok hl hlim hb h1
      cases t <;> try rfl
      refine bind_congr' rfl ?_
      rintro ⟨o, k⟩ s2 h2
      have e2 := liftD_ok h2
      refine bind_congr' rfl ?_
      rintro _ _ h3
      cases h3
      have hb2 : Boundary src s2.offset := by rw [e2]; exact a3
      refine bind_congr' (nextColon_agree (by omega) hlim hb2) ?_
      intro t s3 h3
      obtain ⟨e3, e4, e5, _⟩ := (pwp_nextColon (D := D) (I := fun _ => True) (E := fun _ _ => True)
        (N := fun _ => True) (g := true) (by omega) hlim (fun _ => hb2) True.intro).of_ok h3
      by_cases ht : t ≠ .colon
      · rw [if_pos ht, if_pos ht]
      · rw [if_neg ht, if_neg ht]
        rw [M.bind_ok (tokOffset_eq s3), M.bind_ok (tokOffset_eq s3)]
        refine bind_congr' (ihT s3 e4 (e5 rfl) (by omega)) ?_
        intro v s4 h4
        obtain ⟨e6, e7, e8, _⟩ := PWp.of_ok (gT s3 e4 (fun _ => e5 rfl) True.intro (by omega)) h4
        refine bind_congr' rfl ?_
        intro o s5 h5
        have e9 := liftD_ok h5
        rw [M.bind_ok (tokOffset_eq s5), M.bind_ok (tokOffset_eq s5)]
        have hb5 : Boundary src s5.offset := by rw [e9]; exact e8 rfl
        refine bind_congr' (liftTok_agree (by omega) hlim hb5) ?_
        intro t s6 h6
        obtain ⟨a4, a5, a6⟩ := liftTok_next_ok (by omega) hlim hb5 h6
        by_cases ht : t = .objectEnd
        · rw [if_pos ht, if_pos ht]
        rw [if_neg ht, if_neg ht]
        by_cases ht : t ≠ .comma
        · rw [if_pos ht, if_pos ht]
        rw [if_neg ht, if_neg ht]
        exact ihOL s6 o a5 a6 (by omega)
    · intro s hl hb hfuel
      rw [readArray, readArray, M.bind_ok (tokOffset_eq s), M.bind_ok (tokOffset_eq s)]
      refine bind_congr' rfl ?_
      intro o s1 h1
      have := liftD_ok h1
      refine bind_congr' (ihAL s1 o (by omega) (by rw [this]; exact hb) (by omega)) ?_
      intro o s2 h2
      rfl
    · intro s a hl hb hfuel
      rw [readArrayLoop, readArrayLoop, M.bind_ok (tokOffset_eq s), M.bind_ok (tokOffset_eq s)]
      refine bind_congr' rfl ?_
      intro k s1 h1
      obtain ⟨⟨w, hw, ha, b1, b2, -⟩, _⟩ := (pwp_liftTok (D := D) (I := fun _ => True) (E := fun _ _ => True)
        (N := fun _ => True) (wp_peek (g := true) hl (fun _ => hb)) True.intro).of_ok h1
      have hmono := ha.mono
      by_cases hk : k = some .arrayEnd
      · rw [if_pos hk, if_pos hk]
      · rw [if_neg hk, if_neg hk]
        refine bind_congr' (ihT s1 b1 (b2 rfl) (by omega)) ?_
        intro v s4 h4
        obtain ⟨e6, e7, e8, _⟩ := PWp.of_ok (gT s1 b1 (fun _ => b2 rfl) True.intro (by omega)) h4
        rw [M.bind_ok (tokOffset_eq s4), M.bind_ok (tokOffset_eq s4)]
        refine bind_congr' rfl ?_
        intro o s5 h5
        have e9 := liftD_ok h5
        rw [M.bind_ok (tokOffset_eq s5), M.bind_ok (tokOffset_eq s5)]
        have hb5 : Boundary src s5.offset := by rw [e9]; exact e8 rfl
        refine bind_congr' (liftTok_agree (by omega) hlim hb5) ?_
        intro t s6 h6
        obtain ⟨a4, a5, a6⟩ := liftTok_next_ok (by omega) hlim hb5 h6
        by_cases ht : t = .arrayEnd
        · rw [if_pos ht, if_pos ht]
        rw [if_neg ht, if_neg ht]
        by_cases ht : t ≠ .comma
        · rw [if_pos ht, if_pos ht]
        rw [if_neg ht, if_neg ht]
        exact ihAL s6 o a5 a6 (by omega)

theorem parseM_agree (hlim : src.length < LIM) (hb : Boundary src 0) (s : PState D.σ) (hs : s.offset = 0) :
    parseM true src cfg D s = parseM false src cfg D s := by
  unfold parseM
  refine bind_congr' ((run_agree hlim _).1 s (by omega) (by rw [hs]; exact hb) (by unfold parseFuel; omega)) ?_
  intro v s1 h1
  rfl

theorem parseBytes_agree (hlim : src.length < LIM) (hb : Boundary src 0) (d : D.σ) :
    parseBytes true src cfg D d = parseBytes false src cfg D d := parseM_agree hlim hb _ rfl

end
end JustJson
