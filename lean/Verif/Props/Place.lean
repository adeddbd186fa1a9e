import Verif.Lemmas.Place
/-! # The text of each value within a text: C78 -/

namespace JustJson
open Spec

set_option linter.unusedSectionVars false

section
variable [Arch]

theorem tight_part {tc : Bool} {b : List UInt8} {j : Json} (h : GValue tc b j) : Text tc b j :=
  ⟨[], b, [], by simp [Ws], h, by simp [Ws], by simp⟩

/-- **C78.** Every value within an accepted text has a text of its own, a part of the source without surrounding
whitespace which is accepted by itself as that value; and any text accepted as a value may be put there instead: what
is then read is the same value but for that part, provided the limit permits the depth and the root the kind. -/
theorem C78_part (g : Bool) (src : List UInt8) (h : Input g src) (cfg : ParseConfig) (v : Value)
    (hv : Value.parseWithConfig g src cfg = .ok v) (p : List Nat) (u : Value) (hu : partAt p v = some u) :
    ∃ pre b post, src = pre ++ b ++ post ∧ Tight b ∧ Value.parseWithConfig false b cfg.forPart = .ok u
      ∧ ∀ (g' : Bool) (b' : List UInt8) (u' : Value), Input g' (pre ++ b' ++ post) →
        Value.parseWithConfig false b' cfg.forPart = .ok u' →
        (∀ n, cfg.recursionLimit = some n → (replaceAt p u' v).depth ≤ n) →
        (cfg.allowAllTypesAtRoot = true ∨ (replaceAt p u' v).IsContainer) →
        Value.parseWithConfig g' (pre ++ b' ++ post) cfg = .ok (replaceAt p u' v) := by
  obtain ⟨j, ⟨ht, -, -⟩, rfl⟩ := (value_ok_iff h).mp hv
  obtain ⟨pre, b, post, jb, e, hb, rfl, hs⟩ := text_place p ht hu
  refine ⟨pre, b, post, e, tight_value hb, (part_ok (part_input h.1 (by rw [e]; simp; omega))).mpr ⟨jb, tight_part hb, rfl⟩, ?_⟩
  intro g' b' u' hin hp hd hr
  obtain ⟨jb', ht', rfl⟩ := (part_ok (part_input hin.1 (by simp; omega))).mp hp
  obtain ⟨j', hj', ej⟩ := hs b' jb' ht'
  rw [← ej] at hd hr ⊢
  refine accepted_ok hin ⟨hj', fun n hn => ?_, hr.imp_right (container_ofJson j').mp⟩
  rw [← depth_ofJson.1]
  exact hd n hn

/-- **C78.** Of an object within an accepted text each entry has a text for its key and one for its value, in this
order, and both may be replaced. -/
theorem C78_entry (g : Bool) (src : List UInt8) (h : Input g src) (cfg : ParseConfig) (v : Value)
    (hv : Value.parseWithConfig g src cfg = .ok v) (p : List Nat) (es : Object) (ho : partAt p v = some (.object es))
    (i : Nat) (k : JsonString) (u : Value) (hi : es[i]? = some (k, u)) :
    ∃ pre kb mid b post, src = pre ++ kb ++ mid ++ b ++ post ∧ Tight kb ∧ Tight b
      ∧ Value.parseWithConfig false kb cfg.forPart = .ok (.string k)
      ∧ Value.parseWithConfig false b cfg.forPart = .ok u
      ∧ ∀ (g' : Bool) (kb' b' : List UInt8) (k' : JsonString) (u' : Value), Input g' (pre ++ kb' ++ mid ++ b' ++ post) →
        Value.parseWithConfig false kb' cfg.forPart = .ok (.string k') →
        Value.parseWithConfig false b' cfg.forPart = .ok u' →
        (∀ n, cfg.recursionLimit = some n → (replaceAt p (.object (es.set i (k', u'))) v).depth ≤ n) →
        (cfg.allowAllTypesAtRoot = true ∨ (replaceAt p (.object (es.set i (k', u'))) v).IsContainer) →
        Value.parseWithConfig g' (pre ++ kb' ++ mid ++ b' ++ post) cfg
          = .ok (replaceAt p (.object (es.set i (k', u'))) v) := by
  obtain ⟨j, ⟨ht, -, -⟩, rfl⟩ := (value_ok_iff h).mp hv
  obtain ⟨pre, b, post, jb, e, hb, ho', hs⟩ := text_place p ht ho
  obtain ⟨pre', kb, mid, c, post', kc, jc, e', hkb, rfl, hc, rfl, hs'⟩ := value_entry hb ho'.symm hi
  refine ⟨pre ++ pre', kb, mid, c, post' ++ post, by rw [e, e']; simp, tight_value hkb, tight_value hc,
    (part_ok (part_input h.1 (by rw [e, e']; simp; omega))).mpr ⟨_, tight_part hkb, rfl⟩,
    (part_ok (part_input h.1 (by rw [e, e']; simp; omega))).mpr ⟨_, tight_part hc, rfl⟩, ?_⟩
  intro g' kb' b' k' u' hin hpk hp hd hr
  obtain ⟨jk', htk', ek⟩ := (part_ok (part_input hin.1 (by simp; omega))).mp hpk
  obtain ⟨jb', ht', rfl⟩ := (part_ok (part_input hin.1 (by simp; omega))).mp hp
  cases jk' with
  | str kc' =>
    injection ek with ek
    subst ek
    obtain ⟨j1, hg1, e1⟩ := hs' kb' kc' b' jb' htk' ht'
    obtain ⟨j2, ht2, e2⟩ := hs _ j1 (tight_part hg1)
    rw [e1] at e2
    rw [← e2] at hd hr ⊢
    refine accepted_ok hin ⟨by simpa using ht2, fun n hn => ?_, hr.imp_right (container_ofJson j2).mp⟩
    rw [← depth_ofJson.1]
    exact hd n hn
  | _ => cases ek

/-- **C78.** The texts of two values of one array or object stand in the order of the values, without overlap, and may
both be replaced. -/
theorem C78_order (g : Bool) (src : List UInt8) (h : Input g src) (cfg : ParseConfig) (v : Value)
    (hv : Value.parseWithConfig g src cfg = .ok v) (p : List Nat) (x : Value) (hx : partAt p v = some x)
    (i k : Nat) (hik : i < k) (u w : Value) (hu : nth i x = some u) (hw : nth k x = some w) :
    ∃ pre b mid c post, src = pre ++ b ++ mid ++ c ++ post ∧ Tight b ∧ Tight c
      ∧ Value.parseWithConfig false b cfg.forPart = .ok u
      ∧ Value.parseWithConfig false c cfg.forPart = .ok w
      ∧ ∀ (g' : Bool) (b' c' : List UInt8) (u' w' : Value), Input g' (pre ++ b' ++ mid ++ c' ++ post) →
        Value.parseWithConfig false b' cfg.forPart = .ok u' →
        Value.parseWithConfig false c' cfg.forPart = .ok w' →
        (∀ n, cfg.recursionLimit = some n → (replaceAt p (setNth k w' (setNth i u' x)) v).depth ≤ n) →
        (cfg.allowAllTypesAtRoot = true ∨ (replaceAt p (setNth k w' (setNth i u' x)) v).IsContainer) →
        Value.parseWithConfig g' (pre ++ b' ++ mid ++ c' ++ post) cfg
          = .ok (replaceAt p (setNth k w' (setNth i u' x)) v) := by
  obtain ⟨j, ⟨ht, -, -⟩, rfl⟩ := (value_ok_iff h).mp hv
  obtain ⟨pre, b, post, jb, e, hb, rfl, hs⟩ := text_place p ht hx
  obtain ⟨pre', c, mid, d, post', jc, jd, e', hc, rfl, hd, rfl, hs'⟩ := value_two hb hik hu hw
  refine ⟨pre ++ pre', c, mid, d, post' ++ post, by rw [e, e']; simp, tight_value hc, tight_value hd,
    (part_ok (part_input h.1 (by rw [e, e']; simp; omega))).mpr ⟨_, tight_part hc, rfl⟩,
    (part_ok (part_input h.1 (by rw [e, e']; simp; omega))).mpr ⟨_, tight_part hd, rfl⟩, ?_⟩
  intro g' b' c' u' w' hin hpb hpc hdep hr
  obtain ⟨j1, ht1, rfl⟩ := (part_ok (part_input hin.1 (by simp; omega))).mp hpb
  obtain ⟨j2, ht2, rfl⟩ := (part_ok (part_input hin.1 (by simp; omega))).mp hpc
  obtain ⟨j3, hg3, e3⟩ := hs' b' j1 c' j2 ht1 ht2
  obtain ⟨j4, ht4, e4⟩ := hs _ j3 (tight_part hg3)
  rw [e3] at e4
  rw [← e4] at hdep hr ⊢
  refine accepted_ok hin ⟨by simpa using ht4, fun n hn => ?_, hr.imp_right (container_ofJson j4).mp⟩
  rw [← depth_ofJson.1]
  exact hdep n hn

end

/-! ## Concrete cases -/
section
attribute [local instance] arch64

/-- the value of `{"k": [1, {"k": null}] }` -/
def placeValue : Value :=
  .object [(⟨.json (.borrowed ['k']), .new false 1⟩, .array [.number ⟨.borrowed ['1']⟩,
    .object [(⟨.json (.borrowed ['k']), .new false 1⟩, .null)]])]

example : Value.parseWithConfig true (b8 "{\"k\": [1, {\"k\": null}] }") .new = .ok placeValue :=
  value_same (by decide +kernel)
/-- C78: the place of `null`, and `[ ]` put there. -/
example : partAt [0, 1, 0] placeValue = some .null := rfl
example : Value.parseWithConfig true (b8 "{\"k\": [1, {\"k\":  [ ] }] }") .new = .ok (replaceAt [0, 1, 0] (.array []) placeValue) :=
  value_same (by decide +kernel)
/-- C78: both elements of the array replaced. -/
example : nth 0 placeValue = partAt [0] placeValue := rfl
example : Value.parseWithConfig true (b8 "{\"k\": [true, false] }") .new
    = .ok (replaceAt [0] (.array [.boolean true, .boolean false]) placeValue) :=
  value_same (by decide +kernel)

end

/-! ## Instances: each theorem above applied to a concrete case that meets its hypotheses -/
section Instances
attribute [local instance] arch64

theorem placeEx_parses : Value.parseWithConfig true (b8 "{\"k\": [1, {\"k\": null}] }") .new = .ok placeValue := value_same (by decide +kernel)
example := C78_part true _ (by lit) .new placeValue placeEx_parses [0, 1, 0] .null rfl
example := C78_entry true _ (by lit) .new placeValue placeEx_parses [0, 1] [(⟨.json (.borrowed ['k']), .new false 1⟩, .null)] rfl 0
  ⟨.json (.borrowed ['k']), .new false 1⟩ .null rfl
example := C78_order true _ (by lit) .new placeValue placeEx_parses [0] _ rfl 0 1 (by decide) (.number ⟨.borrowed ['1']⟩)
  (.object [(⟨.json (.borrowed ['k']), .new false 1⟩, .null)]) rfl rfl

end Instances
end JustJson
