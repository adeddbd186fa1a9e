import Verif.Lemmas.Local
import Verif.Props.Place
import Verif.Props.Steady
import Verif.Props.Machine
import Verif.Props.Errors
/-! # C83: an error in a part of a text is the error of the text -/

namespace JustJson
open Spec

set_option linter.unusedSectionVars false

section
variable [Arch]

theorem parse_input {g : Bool} {src : List UInt8} {cfg : ParseConfig} (h : Input g src) :
    Value.parseWithConfig g src cfg = Value.parseWithConfig false src cfg := by
  unfold Value.parseWithConfig
  rw [parseBytes_input h]

theorem machine_err {g : Bool} {src : List UInt8} {cfg : ParseConfig} (h : Input g src) {e : Error Empty} :
    Value.parseWithConfig g src cfg = .err e ↔ (machineAt g src cfg .value [] 0).2 = some e := by
  have hm := C74_value g src h cfg
  have hp : plan g src cfg = machineAt g src cfg .value [] 0 := by
    unfold plan machineAt
    rw [scans_eq]
  rw [hp] at hm
  cases hx : (machineAt g src cfg .value [] 0).2 with
  | none =>
    rw [hx] at hm
    obtain ⟨v, h1, _⟩ := hm
    rw [h1]
    constructor <;> exact nofun
  | some e' =>
    rw [hx] at hm
    rw [hm.1]
    constructor
    · intro h; injection h with h; rw [h]
    · intro h; injection h with h; rw [h]

theorem sep_not_glued {b : List UInt8} {post : List UInt8} (h : ∀ x, post.head? = some x → Sep x) : ¬ Glued b post := by
  rintro ⟨_, c, r, rfl, hc⟩
  rcases h c rfl with rfl | rfl | rfl | rfl | rfl | rfl | rfl <;> rcases hc with ⟨h1, h2⟩ | h | h | h <;>
    first | (revert h; decide) | (revert h1 h2; decide)

/-- **C83.** Every value within an accepted text has a text of its own, at a place where any other text may be put. A text that is
accepted as a value makes the whole the same value but for that part. A text that is rejected by itself, before its end, makes the
whole rejected with the same kind of error, at the same byte of that text: what precedes and what follows the place does not matter.
By itself means with a recursion limit that counts from the place. Excepted are texts with something after a complete value, whose
first token is at the wrong place, or that end within a character. -/
theorem C83_error_in_place (g : Bool) (src : List UInt8) (h : Input g src) (cfg : ParseConfig) (v : Value)
    (hv : Value.parseWithConfig g src cfg = .ok v) (p : List Nat) (u : Value) (hu : partAt p v = some u) :
    ∃ pre b post, src = pre ++ b ++ post ∧ Tight b ∧ Value.parseWithConfig false b cfg.forPart = .ok u
      ∧ (∀ (g' : Bool) (b' : List UInt8) (u' : Value), Input g' (pre ++ b' ++ post) →
        Value.parseWithConfig false b' cfg.forPart = .ok u' →
        (∀ n, cfg.recursionLimit = some n → (replaceAt p u' v).depth ≤ n) →
        (cfg.allowAllTypesAtRoot = true ∨ (replaceAt p u' v).IsContainer) →
        Value.parseWithConfig g' (pre ++ b' ++ post) cfg = .ok (replaceAt p u' v))
      ∧ ∀ (g' : Bool) (b' : List UInt8) (e : Error Empty), Input g' (pre ++ b' ++ post) → ¬ EndsMidCharacter b' →
        Value.parseWithConfig false b' (cfg.below p.length) = .err e → e.offset < b'.length →
        e.kind ≠ .trailingNonWhitespace → (0 < e.offset ∨ e.kind ∉ misplaced) →
        Value.parseWithConfig g' (pre ++ b' ++ post) cfg = .err ⟨e.offset + pre.length, e.kind⟩ := by
  obtain ⟨j, ⟨⟨w, s, w', hw, hs, hw', rfl⟩, hdep, -⟩, rfl⟩ := (value_ok_iff h).mp hv
  obtain ⟨pre, b, post, jb, rfl, hb, rfl, hsep, -, hrep, har⟩ := value_place p hs hu
  refine ⟨w ++ pre, b, post ++ w', by simp, tight_value hb,
    (part_ok (part_input h.1 (by simp; omega))).mpr ⟨jb, tight_part hb, rfl⟩, ?_, ?_⟩
  · intro g' b' u' hin hp hd hr
    obtain ⟨jb', ht', rfl⟩ := (part_ok (part_input hin.1 (by simp; omega))).mp hp
    obtain ⟨j', ⟨x, y, x', hx, hy, hx', exy⟩, ej⟩ := hrep b' jb' ht'
    rw [← ej] at hd hr ⊢
    refine accepted_ok hin ⟨⟨w ++ x, y, x' ++ w', ws_append hw hx, hy, ws_append hx' hw', ?_⟩, fun n hn => ?_, hr.imp_right (container_ofJson j').mp⟩
    · have : w ++ (pre ++ b' ++ post) ++ w' = w ++ (x ++ y ++ x') ++ w' := by rw [exy]
      simpa using this
    · rw [← depth_ofJson.1]
      exact hd n hn
  · intro g' b' e hin hmid he hlt hk hk3
    have hq : Input false (b' ++ (post ++ w')) := part_input hin.1 (by simp; omega)
    have hwhole : Input false (w ++ pre ++ (b' ++ (post ++ w'))) := part_input hin.1 (by simp)
    have hglue : ¬ Glued b' (post ++ w') := by
      refine sep_not_glued (hsep w' ?_)
      intro x hx
      cases w' with
      | nil => cases hx
      | cons y w' =>
        injection hx with hx
        subst hx
        rcases hw' y (List.mem_cons_self) with rfl | rfl | rfl | rfl <;> (unfold Sep; decide)
    have he2 := value_stands (part_input hin.1 (by simp; omega)) hq hglue hmid he hlt
    have hk2 : e.kind ≠ .unexpectedEof := by
      intro hk
      have := C53_error_describes_source false _ hq _ e he2
      rw [hk] at this
      unfold ErrSpec at this
      simp at this
      omega
    have hm := (machine_err hq).mp he2
    have hlim := fits_lim.mp hwhole.1
    obtain ⟨w1, st1, off1, ws1, a1, a2, a3, a4, a5, a6⟩ := har false (w ++ pre ++ (b' ++ (post ++ w'))) cfg .value [] 0 w b' (post ++ w')
      rfl hlim (.inl rfl) hw (by simp) (fun n hn => by simpa using hdep n hn)
    simp only [List.length_nil, Nat.zero_add] at a3 a6
    rw [← a3] at hm
    have := machine_over (p := w ++ pre) a2 a4 a5 (by simpa using a6) hm hk hk2 hk3
    rw [← a1] at this
    have hfin := (machine_err hwhole).mpr this
    rw [List.append_assoc, parse_input (by rw [← List.append_assoc]; exact hin)]
    exact hfin

/-- **C83.** The same for a key of an object within an accepted text, and texts that begin with a quote. -/
theorem C83_error_in_key (g : Bool) (src : List UInt8) (h : Input g src) (cfg : ParseConfig) (v : Value)
    (hv : Value.parseWithConfig g src cfg = .ok v) (p : List Nat) (es : Object) (ho : partAt p v = some (.object es))
    (i : Nat) (k : JsonString) (u : Value) (hi : es[i]? = some (k, u)) :
    ∃ pre b post, src = pre ++ b ++ post ∧ Tight b ∧ Value.parseWithConfig false b cfg.forPart = .ok (.string k)
      ∧ (∀ (g' : Bool) (b' : List UInt8) (k' : JsonString), Input g' (pre ++ b' ++ post) →
        Value.parseWithConfig false b' cfg.forPart = .ok (.string k') →
        (∀ n, cfg.recursionLimit = some n → (replaceAt p (.object (es.set i (k', u))) v).depth ≤ n) →
        (cfg.allowAllTypesAtRoot = true ∨ (replaceAt p (.object (es.set i (k', u))) v).IsContainer) →
        Value.parseWithConfig g' (pre ++ b' ++ post) cfg = .ok (replaceAt p (.object (es.set i (k', u))) v))
      ∧ ∀ (g' : Bool) (b' : List UInt8) (e : Error Empty), Input g' (pre ++ b' ++ post) → ¬ EndsMidCharacter b' →
        b'.head? = some 0x22 → Value.parseWithConfig false b' cfg.forPart = .err e → e.offset < b'.length →
        e.kind ≠ .trailingNonWhitespace →
        Value.parseWithConfig g' (pre ++ b' ++ post) cfg = .err ⟨e.offset + pre.length, e.kind⟩ := by
  obtain ⟨j, ⟨⟨w, s, w', hw, hs, hw', rfl⟩, hdep, hroot⟩, rfl⟩ := (value_ok_iff h).mp hv
  obtain ⟨pre, b, post, jb, rfl, hb, ho', hsep, hdp, hrep, har⟩ := value_place p hs ho
  obtain ⟨pre', kb, post', kc, rfl, hkb, rfl, ⟨x, y, hx, rfl⟩, hrep', har'⟩ := entry_step hb ho'.symm hi
  refine ⟨w ++ pre ++ pre', kb, x ++ 0x3A :: y ++ post ++ w', by simp, tight_value hkb,
    (part_ok (part_input h.1 (by simp; omega))).mpr ⟨_, tight_part hkb, rfl⟩, ?_, ?_⟩
  · intro g' b' k' hin hp hd hr
    obtain ⟨jb', ht', ek⟩ := (part_ok (part_input hin.1 (by simp; omega))).mp hp
    cases jb' with
    | str kc' =>
      injection ek with ek
      subst ek
      obtain ⟨j1, hg1, e1⟩ := hrep' b' kc' ht'
      obtain ⟨j2, ⟨a, c, a', ha, hc, ha', exy⟩, e2⟩ := hrep _ j1 (tight_part hg1)
      rw [e1] at e2
      rw [← e2] at hd hr ⊢
      refine accepted_ok hin ⟨⟨w ++ a, c, a' ++ w', ws_append hw ha, hc, ws_append ha' hw', ?_⟩, fun n hn => ?_, hr.imp_right (container_ofJson j2).mp⟩
      · have : w ++ (pre ++ (pre' ++ b' ++ (x ++ 0x3A :: y)) ++ post) ++ w' = w ++ (a ++ c ++ a') ++ w' := by rw [exy]
        simpa using this
      · rw [← depth_ofJson.1]
        exact hd n hn
    | _ => cases ek
  · intro g' b' e hin hmid hhead he hlt hk
    have hq : Input false (b' ++ (x ++ 0x3A :: y ++ post ++ w')) := part_input hin.1 (by simp; omega)
    have hwhole : Input false (w ++ pre ++ pre' ++ (b' ++ (x ++ 0x3A :: y ++ post ++ w'))) := part_input hin.1 (by simp)
    have hglue : ¬ Glued b' (x ++ 0x3A :: y ++ post ++ w') := by
      rintro ⟨_, c, r, hc, hc'⟩
      cases x with
      | nil =>
        injection hc with hc _
        subst hc
        rcases hc' with ⟨h1, h2⟩ | h | h | h <;> first | (revert h; decide) | (revert h1 h2; decide)
      | cons z x =>
        injection hc with hc _
        subst hc
        rcases hx z (List.mem_cons_self) with rfl | rfl | rfl | rfl <;> rcases hc' with ⟨h1, h2⟩ | h | h | h <;>
          first | (revert h; decide) | (revert h1 h2; decide)
    have he2 := value_stands (part_input hin.1 (by simp; omega)) hq hglue hmid he hlt
    have hk2 : e.kind ≠ .unexpectedEof := by
      intro hk
      have := C53_error_describes_source false _ hq _ e he2
      rw [hk] at this
      unfold ErrSpec at this
      simp at this
      omega
    have hm := (machine_err hq).mp he2
    have hlim := fits_lim.mp hwhole.1
    obtain ⟨w1, st1, off1, ws1, a1, a2, a3, a4, a5, a6⟩ := har false (w ++ pre ++ pre' ++ (b' ++ (x ++ 0x3A :: y ++ post ++ w'))) cfg .value [] 0 w
      (pre' ++ b') (x ++ 0x3A :: y ++ post ++ w') rfl hlim (.inl rfl) hw (by simp) (fun n hn => by simpa using hdep n hn)
    obtain ⟨f2, st2, off2, ws2, b1, b4, b5, b6⟩ := har' false (w ++ pre ++ pre' ++ (b' ++ (x ++ 0x3A :: y ++ post ++ w'))) cfg w1 st1 off1 ws1
      b' (x ++ 0x3A :: y ++ post ++ w') rfl hlim a2 a5 (by rw [a4]; simp) (fun n hn => by
        have := hdep n hn
        simp only [List.length_nil, Nat.zero_add] at a3
        omega)
    cases b' with
    | nil => cases hhead
    | cons z b' =>
      injection hhead with hz
      subst hz
      have := machine_key (cfg := cfg) (f := f2) (st := st2) (p := w ++ pre ++ pre') rfl rfl b4 b5
        (by rw [b6, a6]; simp; omega) hm hk hk2
      have hfin := (machine_err hwhole).mpr (a1.trans (b1.trans this))
      rw [List.append_assoc (w ++ pre ++ pre'), parse_input (by rw [← List.append_assoc (w ++ pre ++ pre')]; exact hin)]
      exact hfin

end

section
attribute [local instance] arch64

theorem outcome_err {α : Type} {o : Outcome (Error Empty) α} {e : Error Empty}
    (h : (match o with | .err e' => decide (e' = e) | _ => false) = true) : o = .err e := by
  cases o with
  | err e' => rw [of_decide_eq_true h]
  | _ => cases h

/-- C83: the `null` of `[7, null ]` replaced by a text that fails at its byte 4. -/
example : Value.parseWithConfig true (b8 "[7, null ]") .new = .ok (.array [.number ⟨.borrowed ['7']⟩, .null]) := value_same (by decide +kernel)
example : Value.parseWithConfig false (b8 "[tru]") (ParseConfig.new.below 1) = .err ⟨4, .unexpected 0x5D⟩ := outcome_err (by decide +kernel)
example : Value.parseWithConfig true (b8 "[7, [tru] ]") .new = .err ⟨4 + 4, .unexpected 0x5D⟩ := outcome_err (by decide +kernel)
/-- C83: the limit counts from the place: `[[]]` is one level too deep for one level down with a limit of two. -/
example : Value.parseWithConfig false (b8 "[[]]") (ParseConfig.below ⟨false, some 2, true⟩ 1) = .err ⟨1, .recursionLimitReached⟩ :=
  outcome_err (by decide +kernel)
example : Value.parseWithConfig true (b8 "[7, [[]] ]") ⟨false, some 2, true⟩ = .err ⟨1 + 4, .recursionLimitReached⟩ :=
  outcome_err (by decide +kernel)
/-- C83: the exceptions are needed: `]` and `1,2` by themselves, and in an array. -/
example : Value.parseWithConfig false (b8 "]") (ParseConfig.new.below 1) = .err ⟨0, .unexpected 0x5D⟩ := outcome_err (by decide +kernel)
example : Value.parseWithConfig true (b8 "[ ]]") .new = .err ⟨3, .trailingNonWhitespace⟩ := outcome_err (by decide +kernel)
example : Value.parseWithConfig false (b8 "1,2") (ParseConfig.new.below 1) = .err ⟨1, .trailingNonWhitespace⟩ := outcome_err (by decide +kernel)
example : (match Value.parseWithConfig true (b8 "[1,2]") .new with | .ok _ => true | _ => false) = true := by decide +kernel
/-- C83: a key. -/
example : Value.parseWithConfig false (b8 "\"\\x\"") ParseConfig.new.forPart = .err ⟨2, .invalidEscape⟩ := outcome_err (by decide +kernel)
example : Value.parseWithConfig true (b8 "{ \"\\x\": 1}") .new = .err ⟨2 + 2, .invalidEscape⟩ := outcome_err (by decide +kernel)

end

/-! ## Instances: each theorem above applied to a concrete case that meets its hypotheses -/
section Instances
attribute [local instance] arch64

example := C83_error_in_place true exSrc (exSrc_input _) .new exVal (exSrc_parses _) [0, 1] (.number ⟨.borrowed "-2.5e3".toList⟩) rfl
example := C83_error_in_key true exSrc (exSrc_input _) .new exVal (exSrc_parses _) [1] [(⟨.json (.borrowed ['b']), .new false 1⟩, .null)] rfl 0
  ⟨.json (.borrowed ['b']), .new false 1⟩ .null rfl

end Instances
end JustJson
