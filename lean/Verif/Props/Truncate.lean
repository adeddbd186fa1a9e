import Verif.Props.Ex
import Verif.Props.Entry
/-! # C34: truncated texts -/

namespace JustJson
open Spec

set_option linter.unusedSectionVars false

section
variable [Arch]

theorem value_prefix {tc : Bool} {src w b r w1 b1 r1 : List UInt8} {j j1 : Json} (hlim : src.length < LIM) (hw : Ws w) (hw1 : Ws w1)
    (h : GValue tc b j) (h1 : GValue tc b1 j1) (hs : src = w ++ (b ++ r)) (hs1 : src = w1 ++ (b1 ++ r1)) (hst : StopAfter j r)
    (hst1 : StopAfter j1 r1) : w.length + b.length = w1.length + b1.length := by
  have e := vp_complete (g := false) (cfg := ⟨tc, none, true⟩) hlim h (3 * src.length + 1) 0 0 w r hw (by simpa using hs) hst (by omega)
  have e1 := vp_complete (g := false) (cfg := ⟨tc, none, true⟩) hlim h1 (3 * src.length + 1) 0 0 w1 r1 hw1 (by simpa using hs1) hst1 (by omega)
  unfold Cmp at e e1
  rw [if_neg (by simp)] at e e1
  rw [e] at e1
  injection e1 with _ e1
  injection e1 with e1
  omega

theorem num_first {n : NumLit} (hn : n.Valid) : ∃ c t, n.bytes = c :: t ∧ (c = 0x2D ∨ IsDigit c) := by
  obtain ⟨⟨⟨h0, h1⟩, _⟩, _⟩ := hn
  unfold NumLit.bytes
  cases n.minus
  · cases hi : n.int with
    | nil => exact absurd hi h0
    | cons d ds => exact ⟨d, _, by simp; rfl, .inr (h1 d (by simp [hi]))⟩
  · exact ⟨0x2D, _, by simp; rfl, .inl rfl⟩

/-- the first byte tells numbers from the rest -/
theorem head_num {tc : Bool} {c : UInt8} {t : List UInt8} {j : Json} (h : GValue tc (c :: t) j) :
    (c = 0x2D ∨ IsDigit c) → ∃ n, j = .num n := by
  intro hc
  generalize hb : c :: t = b at h
  cases h with
  | num n _ => exact ⟨n, rfl⟩
  | _ =>
    injection hb with hb _
    subst hb
    exfalso
    rcases hc with hc | ⟨h1, h2⟩
    · revert hc; decide
    · revert h1 h2; decide

theorem text_cut {tc : Bool} {src p r : List UInt8} {j j1 : Json} (hlim : src.length < LIM) (h : Text tc src j) (hn : ∀ n, j ≠ .num n)
    (h1 : Text tc p j1) (hs : src = p ++ r) : Ws r := by
  obtain ⟨w, b, w', hw, hb, hw', e⟩ := h
  obtain ⟨w1, b1, w1', hw1, hb1, hw1', e1⟩ := h1
  have hst : StopAfter j w' := by
    cases j with
    | num n => exact absurd rfl (hn n)
    | _ => exact True.intro
  have e2 : src = w ++ (b ++ w') := by rw [e, List.append_assoc]
  have e3 : src = w1 ++ (b1 ++ (w1' ++ r)) := by rw [hs, e1]; simp only [List.append_assoc]
  have hst1 : StopAfter j1 (w1' ++ r) := by
    cases j1 with
    | num n =>
      exfalso
      obtain ⟨c, t, hct, hws, _⟩ := gvalue_head hb
      cases hb1 with
      | num n hv =>
        obtain ⟨c1, t1, hct1, hd⟩ := num_first hv
        have hws1 : isWs c1 = false := by
          rw [← Bool.not_eq_true, isWs_iff]
          rcases hd with rfl | hd
          · decide
          · rintro (rfl | rfl | rfl | rfl) <;> revert hd <;> unfold IsDigit <;> decide
        have := ws_cancel hw hw1 (t := t ++ w') (t' := t1 ++ (w1' ++ r)) hws hws1 (by
          rw [hct] at e2; rw [hct1] at e3
          exact e2.symm.trans e3)
        injection this with this _
        subst this
        rw [hct] at hb
        obtain ⟨n', h'⟩ := head_num hb hd
        exact hn n' h'
    | _ => exact True.intro
  have hl := value_prefix hlim hw hw1 hb hb1 e2 e3 hst hst1
  have hr : w1' ++ r = w' := by
    have e4 := e2.symm.trans e3
    rw [← List.append_assoc, ← List.append_assoc] at e4
    exact ((List.append_inj e4 (by simpa using hl)).2).symm
  intro x hx
  exact hw' x (by rw [← hr]; exact List.mem_append.mpr (.inr hx))

/-- **C34.** If a text is accepted and its root is not a number, then each prefix that lacks a byte of the root value is
rejected — under any configuration, not only the one the text was accepted with. (The bytes of the text after the root
value are whitespace, so such a prefix is one for which what is cut off is not all whitespace.) -/
theorem C34_truncation (g g' : Bool) (src : List UInt8) (cfg cfg' : ParseConfig) (v : Value) (hi : Input g src)
    (hp : Value.parseWithConfig g src cfg = .ok v) (hv : ∀ x, v ≠ .number x) (n : Nat) (hcut : ¬ Ws (src.drop n))
    (hi' : Input g' (src.take n)) :
    ∃ e, Value.parseWithConfig g' (src.take n) cfg' = .err e ∧ e.offset ≤ n := by
  obtain ⟨j, ⟨ht, _, _⟩, rfl⟩ := (value_ok_iff hi).mp hp
  rcases value_cases (cfg := cfg') hi' with ⟨j1, ⟨ht1, _, _⟩, _⟩ | ⟨e, _, he, ho⟩
  · exfalso
    refine hcut (text_cut (tc := true) (j := j) (j1 := j1) (p := src.take n) hi.lim (text_mono (fun _ => rfl) ht) ?_
      (text_mono (fun _ => rfl) ht1) (List.take_append_drop n src).symm)
    rintro n rfl
    exact hv _ rfl
  · exact ⟨e, he, Nat.le_trans ho (by rw [List.length_take]; omega)⟩

/-- **C34.** Equivalently by the number of bytes: if the text without the last `k` bytes of its root value and what follows
it were accepted, `k` would be 0. -/
theorem C34_root_end (g : Bool) (src : List UInt8) (cfg cfg' : ParseConfig) (v : Value) (w b w' : List UInt8)
    (hb : ∃ x t, b = t ++ [x] ∧ ¬ Ws [x]) (hs : src = w ++ b ++ w') (hi : Input g src) (hp : Value.parseWithConfig g src cfg = .ok v)
    (hv : ∀ x, v ≠ .number x) (n : Nat) (hn : n < w.length + b.length) :
    ∃ e, Value.parseWithConfig false (src.take n) cfg' = .err e ∧ e.offset ≤ n := by
  refine C34_truncation g false src cfg cfg' v hi hp hv n ?_ (input_bytes ?_)
  · intro h
    obtain ⟨x, t, rfl, hx⟩ := hb
    apply hx
    intro y hy
    rw [List.mem_singleton] at hy
    subst hy
    apply h
    have e : src = (w ++ t) ++ ([y] ++ w') := by rw [hs]; simp
    simp only [List.length_append, List.length_singleton] at hn
    rw [e, List.drop_append_of_le_length (by rw [List.length_append]; omega)]
    simp
  · have := hi.1
    unfold SliceFits at this ⊢
    rw [List.length_take]
    omega

/-- **C34.** The same for validation: an accepted text whose root is not a number is rejected when it is cut short, with the
error `Value` parsing reports. -/
theorem C34_truncation_validate (g g' : Bool) (src : List UInt8) (cfg cfg' : ParseConfig) (k : JsonKind) (hi : Input g src)
    (hp : validateWithConfig g src cfg = .ok k) (hk : k ≠ .number) (n : Nat) (hcut : ¬ Ws (src.drop n))
    (hi' : Input g' (src.take n)) :
    ∃ e, validateWithConfig g' (src.take n) cfg' = .err e ∧ e.offset ≤ n := by
  rw [C07_validate_agrees g src hi cfg] at hp
  cases hv : Value.parseWithConfig g src cfg with
  | err e => rw [hv] at hp; cases hp
  | panic p => rw [hv] at hp; cases hp
  | ok v =>
    rw [hv] at hp
    injection hp with hp
    obtain ⟨e, h3, h4⟩ := C34_truncation g g' src cfg cfg' v hi hv (by rintro x rfl; exact hk hp.symm) n hcut hi'
    exact ⟨e, by rw [C07_validate_agrees g' _ hi' cfg', h3]; rfl, h4⟩

/-- **C34.** The same for documents. -/
theorem C34_truncation_document (cap : Option Nat) (g g' : Bool) (src : List UInt8) (cfg cfg' : ParseConfig) (ns : List Node) (hi : Input g src)
    (hp : docFromJsonWithConfig none g src cfg = .ok ns) (hv : ∀ x, ns ≠ [.number x]) (n : Nat) (hcut : ¬ Ws (src.drop n))
    (hi' : Input g' (src.take n)) :
    ∃ e, docFromJsonWithConfig cap g' (src.take n) cfg' = .err e := by
  rcases doc_cases (cap := none) (cfg := cfg) hi with ⟨v, h1, ⟨_, h2⟩ | ⟨h2, _⟩⟩ | ⟨e, _, h2 | ⟨h2, _⟩⟩
  · rw [h2] at hp
    injection hp with hp
    obtain ⟨e, h3, _⟩ := C34_truncation g g' src cfg cfg' v hi h1 (by rintro x rfl; exact hv x hp.symm) n hcut hi'
    rcases doc_cases (cap := cap) (cfg := cfg') hi' with ⟨v', h4, _⟩ | ⟨e', _, h5 | ⟨_, off, h5⟩⟩
    · rw [h3] at h4; cases h4
    · exact ⟨_, h5⟩
    · exact ⟨_, h5⟩
  · exact absurd (fun m hm => by cases hm) h2
  · rw [h2] at hp; cases hp
  · exact absurd rfl h2

end

/-! ## Concrete cases -/

section
attribute [local instance] arch64

/-- a text -/
def cutEx : List UInt8 := b8 " {\"a\":[\"\\n\", 1]} "
theorem cutEx_ok : ∃ v, Value.parseWithConfig false cutEx .new = .ok v := Outcome.exists_ok (by decide +kernel)
-- the hypotheses are met, and the outcome, for some cuts of this text
example : cutEx.length = 17 ∧ ¬ Ws (cutEx.drop 15) ∧ Ws (cutEx.drop 16) := by
  refine ⟨by decide +kernel, fun h => ?_, fun b hb => ?_⟩
  · exact absurd (h 0x7D (by decide +kernel)) (by decide)
  · exact .inl (by have : cutEx.drop 16 = [0x20] := by decide +kernel
                   rw [this] at hb; simpa using hb)
example : validateWithConfig false cutEx .new = .ok .object := by decide +kernel
example : (Value.parseWithConfig false (cutEx.take 16) .new).isOk = true := by decide +kernel
example : (Value.parseWithConfig false (cutEx.take 15) .new).isOk = false := by decide +kernel
example : (Value.parseWithConfig false (cutEx.take 9) .new).isOk = false := by decide +kernel
-- numbers are different
example : (Value.parseWithConfig false ((b8 "123").take 2) .new).isOk = true := by decide +kernel

end

/-! ## Instances: each theorem above applied to a concrete case that meets its hypotheses -/
section Instances
attribute [local instance] arch64

theorem exSrc_cut : ¬ Ws (exSrc.drop 10) := fun h => by
  have := h 0x2D (by decide +kernel)
  revert this
  decide
example := C34_truncation true false exSrc .new .strict exVal (exSrc_input _) (exSrc_parses _) (fun x h => by cases h) 10 exSrc_cut (by lit)
example := C34_root_end true exSrc .new .strict exVal [] exSrc [] ⟨0x7D, exSrc.dropLast, by decide +kernel, fun h => by
    have := h 0x7D (by simp); revert this; decide⟩ (by simp) (exSrc_input _) (exSrc_parses _) (fun x h => by cases h) 10 (by decide +kernel)
example := C34_truncation_validate true false exSrc .new .strict .object (exSrc_input _) (by decide +kernel) (by decide) 10 exSrc_cut (by lit)
example := C34_truncation_document none true false exSrc .new .strict _ (exSrc_input _)
  (Outcome.exists_ok (o := docFromJsonWithConfig none true exSrc .new) (by decide +kernel)).choose_spec

end Instances
end JustJson
