import Verif.Lemmas.Fold
import Verif.Spec.Accept
/-! # Whole-input parsing of a `Value` -/

namespace JustJson
open Spec

set_option linter.unusedSectionVars false

section
variable {src : List UInt8} [Arch] {g : Bool} {cfg : ParseConfig}

theorem kind_container (j : Json) :
    ((ofJson j).kind == .object || (ofJson j).kind == .array) = true ↔ j.IsContainer := by
  cases j <;> simp [ofJson, Value.kind, Json.IsContainer]

theorem nextNonWs_nil {off : Nat} {w : List UInt8} (hw : Ws w) (h : src.drop off = w) (hl : off ≤ src.length) :
    nextNonWs src off = .ok none src.length := by
  have hlen : off + w.length = src.length := by
    have := congrArg List.length h
    simp at this; omega
  unfold nextNonWs
  rw [M.bind_ok (skipWs_eq off), skipWs_of (r := []) hw (by simpa using h) (by simp), hlen]
  exact nextByte_nil (by simp)

theorem nextNonWs_cons {off : Nat} {w t : List UInt8} {b : UInt8} (hw : Ws w)
    (h : src.drop off = w ++ b :: t) (hb : isWs b = false) :
    nextNonWs src off = .ok (some (off + w.length, b)) (off + w.length + 1) := by
  unfold nextNonWs
  rw [M.bind_ok (skipWs_eq off), skipWs_of hw h (by simpa using hb)]
  exact nextByte_cons (by rw [drop_step h])

/-- `parseM` after the root value has been read. -/
theorem parseM_after {s' : PState Unit} {v : Value}
    (h : readTokens g src cfg valueParser (parseFuel src) ⟨0, (), cfg.recursionLimit.getD USIZE_MAX⟩ = .ok v s') :
    parseBytes g src cfg valueParser () =
      if cfg.allowAllTypesAtRoot = false ∧ (v.kind == .object || v.kind == .array) = false then
        .err ⟨0, .payloadsShouldBeObjectOrArray⟩ s'
      else (liftTok valueParser (nextNonWs src) >>= fun r => match r with
          | none => (return v : PM valueParser Value)
          | some (offset, _) => perr valueParser offset .trailingNonWhitespace) s' := by
  unfold parseBytes parseM
  refine (M.bind_ok h).trans ?_
  have h1 : liftQ valueParser (fun x => valueParser.kindOf x v) s' = .ok v.kind s' := by cases v <;> rfl
  by_cases ha : cfg.allowAllTypesAtRoot = true
  · rw [if_pos ha, if_neg (by simp [ha])]
    rfl
  · rw [if_neg ha, M.bind_ok h1]
    have ha' : cfg.allowAllTypesAtRoot = false := by simpa using ha
    cases hb : (v.kind == .object || v.kind == .array)
    · rw [if_pos ⟨ha', rfl⟩]
      simp only [Bool.not_false]
      rfl
    · rw [if_neg (by simp)]
      rfl

/-- Soundness and exactness of acceptance. -/
theorem value_ok (hlim : src.length < LIM) (hf : Fit g src 0) {v : Value} {s : PState Unit}
    (h : parseBytes g src cfg valueParser () = .ok v s) :
    ∃ j, Text cfg.allowTrailingCommas src j ∧ v = ofJson j ∧ DepthOk cfg j ∧ RootOk cfg j := by
  have hr := (vp_sound (g := g) (cfg := cfg) hlim (parseFuel src)).1 ⟨0, (), cfg.recursionLimit.getD USIZE_MAX⟩
    (Nat.zero_le _) hf
  cases hm : readTokens g src cfg valueParser (parseFuel src) ⟨0, (), cfg.recursionLimit.getD USIZE_MAX⟩ with
  | ok v' s' =>
    rw [hm] at hr
    obtain ⟨w, b, j, hw, hb, ha, rfl, _, hd, hl, _⟩ := hr
    rw [parseM_after hm] at h
    by_cases hc : cfg.allowAllTypesAtRoot = false ∧ ((ofJson j).kind == .object || (ofJson j).kind == .array) = false
    · rw [if_pos hc] at h; simp at h
    · rw [if_neg hc] at h
      obtain ⟨w', hw', h' | ⟨b', t, h', hb', ha', hd'⟩⟩ := ws_cases (src := src) (off := s'.offset) hl
      · have hn := nextNonWs_nil hw' h'.1 hl
        rw [M.bind_ok (liftTok_ok hn)] at h
        simp at h
        refine ⟨j, ⟨w, b, w', hw, hb, hw', ?_⟩, h.1.symm, ?_, ?_⟩
        · have := ha.2
          rw [h'.1] at this
          simpa using this
        · intro n hn
          have := hd (by rw [hn]; rfl)
          rw [hn] at this
          exact this
        · by_cases ha : cfg.allowAllTypesAtRoot = true
          · exact .inl ha
          · refine .inr ((kind_container j).mp ?_)
            simp only [Bool.not_eq_true] at ha
            cases hcc : ((ofJson j).kind == .object || (ofJson j).kind == .array)
            · exact absurd ⟨ha, hcc⟩ hc
            · rfl
      · have hn := nextNonWs_cons hw' h' hb'
        rw [M.bind_ok (liftTok_ok hn)] at h
        simp [perr] at h
  | err e s' =>
    unfold parseBytes parseM at h
    rw [M.bind_err hm] at h
    simp at h
  | panic p =>
    unfold parseBytes parseM at h
    rw [M.bind_eq, hm] at h
    simp at h

theorem stopAfter_ws {w : List UInt8} (hw : Ws w) (j : Json) : StopAfter j w := by
  apply stopAfter_of
  intro b hb
  cases w with
  | nil => simp at hb
  | cons x t =>
    simp at hb
    rw [← hb]
    rcases hw x (by simp) with h | h | h | h <;> simp [Sep, h]

/-- What reading the root does on `w ++ b ++ r`. -/
theorem value_root (hlim : src.length < LIM) {w b r : List UInt8} {j : Json} (hw : Ws w)
    (hb : GValue cfg.allowTrailingCommas b j) (hr : StopAfter j r) (hs : src = w ++ b ++ r) :
    Cmp cfg.recursionLimit.isSome (cfg.recursionLimit.getD USIZE_MAX) j.depth
      (readTokens g src cfg valueParser (parseFuel src) ⟨0, (), cfg.recursionLimit.getD USIZE_MAX⟩) (ofJson j)
      ⟨w.length + b.length, (), cfg.recursionLimit.getD USIZE_MAX⟩ := by
  have := vp_complete (g := g) hlim hb (parseFuel src) 0 (cfg.recursionLimit.getD USIZE_MAX) w r hw
    (by rw [hs]; simp) hr (by unfold parseFuel; omega)
  rw [Nat.zero_add] at this
  exact this

theorem depthOk_iff {j : Json} :
    ¬ (cfg.recursionLimit.isSome = true ∧ cfg.recursionLimit.getD USIZE_MAX < j.depth) ↔ DepthOk cfg j := by
  unfold DepthOk
  cases cfg.recursionLimit <;> simp

/-- Completeness. -/
theorem value_complete (hlim : src.length < LIM) {j : Json} (ht : Text cfg.allowTrailingCommas src j)
    (hd : DepthOk cfg j) (hr : RootOk cfg j) :
    ∃ s, parseBytes g src cfg valueParser () = .ok (ofJson j) s := by
  obtain ⟨w, b, w', hw, hb, hw', hs⟩ := ht
  have h := value_root (g := g) (cfg := cfg) hlim hw hb (stopAfter_ws hw' j) hs
  unfold Cmp at h
  rw [if_neg (depthOk_iff.mpr hd)] at h
  rw [parseM_after h, if_neg]
  · have hl : w.length + b.length ≤ src.length := by rw [hs]; simp
    have hdrop : src.drop (w.length + b.length) = w' := by
      rw [hs, ← List.length_append]; simp
    have hn := nextNonWs_nil hw' hdrop hl
    refine ⟨_, (M.bind_ok (liftTok_ok hn)).trans rfl⟩
  · rintro ⟨h1, h2⟩
    rcases hr with hr | hr
    · rw [h1] at hr; simp at hr
    · rw [(kind_container j).mpr hr] at h2; simp at h2

/-- Too deep. -/
theorem value_deep (hlim : src.length < LIM) {w b r : List UInt8} {j : Json} (hw : Ws w)
    (hb : GValue cfg.allowTrailingCommas b j) (hr : StopAfter j r) (hs : src = w ++ b ++ r)
    (hd : ¬ DepthOk cfg j) :
    ∃ e s, parseBytes g src cfg valueParser () = .err e s ∧ e.kind = .recursionLimitReached := by
  have h := value_root (g := g) (cfg := cfg) hlim hw hb hr hs
  unfold Cmp at h
  rw [if_pos (by rw [← depthOk_iff] at hd; exact Classical.not_not.mp hd)] at h
  obtain ⟨e, s, h, hk⟩ := h
  refine ⟨e, s, ?_, hk⟩
  unfold parseBytes parseM
  exact M.bind_err h

/-- A scalar root when containers are demanded, whatever follows. -/
theorem value_scalar (hlim : src.length < LIM) {w b r : List UInt8} {j : Json} (hw : Ws w)
    (hb : GValue cfg.allowTrailingCommas b j) (hr : StopAfter j r) (hs : src = w ++ b ++ r)
    (hd : DepthOk cfg j) (ha : cfg.allowAllTypesAtRoot = false) (hc : ¬ j.IsContainer) :
    ∃ s, parseBytes g src cfg valueParser () = .err ⟨0, .payloadsShouldBeObjectOrArray⟩ s := by
  have h := value_root (g := g) (cfg := cfg) hlim hw hb hr hs
  unfold Cmp at h
  rw [if_neg (depthOk_iff.mpr hd)] at h
  rw [parseM_after h, if_pos ⟨ha, by
    rw [← Bool.not_eq_true]; intro h; exact hc ((kind_container j).mp h)⟩]
  exact ⟨_, rfl⟩

/-- No panic, for a delegate whose callbacks never panic; errors are in bounds and keep invariants. -/
theorem parse_generic {D : Delegate} {I : D.σ → Prop} {E : D.Err → D.σ → Prop} {N : Panic → Prop}
    (hD : CbSpec D I E N) (hlim : src.length < LIM) (hf : Fit g src 0) {d : D.σ} (hI : I d) :
    PWp (parseBytes g src cfg D d) (fun _ s => I s.delegate) (ErrOk src I E) N := by
  unfold parseBytes parseM
  refine PWp.bind (P := fun _ s => s.offset ≤ src.length ∧ I s.delegate) ?_ ?_
  · refine PWp.mono ((run_generic hD hlim (parseFuel src)).1 ⟨0, d, _⟩ (Nat.zero_le _) hf hI
      (by unfold parseFuel; show 3 * (src.length - 0) + 1 ≤ _; omega)) ?_ (fun _ _ h => h) (fun _ h => h)
    rintro _ s ⟨_, h2, _, h4⟩
    exact ⟨h2, h4⟩
  · rintro v s ⟨hl, hI⟩
    have hend : ∀ (b : Bool) (s1 : PState D.σ), s1.offset ≤ src.length → I s1.delegate →
        PWp ((if b = true then perr D 0 .payloadsShouldBeObjectOrArray
        else (liftTok D (nextNonWs src) >>= fun r => match r with
          | none => (return v : PM D D.Value)
          | some (offset, _) => perr D offset .trailingNonWhitespace) : PM D D.Value) s1)
        (fun _ s => I s.delegate) (ErrOk src I E) N := by
      intro b s1 hl1 hI1
      split
      · exact pwp_perr (Nat.zero_le _) hl1 hI1 (by simp)
      · obtain ⟨w', hw', h' | ⟨b', t, h', hb', ha', hd'⟩⟩ := ws_cases (src := src) (off := s1.offset) hl1
        · have hn := nextNonWs_nil hw' h'.1 hl1
          rw [M.bind_ok (liftTok_ok hn)]
          exact hI1
        · have hn := nextNonWs_cons hw' h' hb'
          have := lt_of_drop_cons hd'
          rw [M.bind_ok (liftTok_ok hn)]
          exact pwp_perr (by omega) (by show s1.offset + w'.length + 1 ≤ _; omega) hI1 (by simp)
    by_cases ha : cfg.allowAllTypesAtRoot = true
    · rw [if_pos ha]
      exact hend false s hl hI
    · rw [if_neg ha]
      refine PWp.bind (pwp_liftQ (fun p hp => hD.kindOf _ _ p hI hp)) ?_
      rintro k _ ⟨rfl, _⟩
      exact hend _ _ hl hI

end
end JustJson
