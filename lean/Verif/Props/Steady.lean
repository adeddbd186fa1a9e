import Verif.Props.DeadPrefix
import Verif.Props.Callbacks
import Verif.Spec.Steady
import Verif.Lemmas.Steady
/-! # Errors and callbacks stand, whatever text follows: C69 -/

namespace JustJson
open Spec

set_option linter.unusedSectionVars false

section
variable [Arch] {src t : List UInt8} {cfg : ParseConfig}

theorem NumLit.last_digit {n : NumLit} (hv : n.Valid) : ∃ i b, n.bytes = i ++ [b] ∧ IsDigit b := by
  have key : ∀ {p ds : List UInt8}, Digits ds → ∃ i b, p ++ ds = i ++ [b] ∧ IsDigit b := by
    intro p ds h
    refine ⟨p ++ ds.dropLast, ds.getLast h.1, ?_, h.2 _ (List.getLast_mem _)⟩
    rw [List.append_assoc, List.dropLast_concat_getLast]
  unfold NumLit.bytes
  cases he : n.exp with
  | some x =>
    obtain ⟨e, s, ds⟩ := x
    have := (hv.2.2 e s ds he).2.2
    obtain ⟨i, b, h1, h2⟩ := key (p := (if n.minus then [0x2D] else []) ++ n.int ++ fracBytes n.frac ++ (e :: s.toList)) this
    exact ⟨i, b, by rw [← h1]; simp [expBytes], h2⟩
  | none =>
    cases hf : n.frac with
    | some ds =>
      obtain ⟨i, b, h1, h2⟩ := key (p := (if n.minus then [0x2D] else []) ++ n.int ++ [0x2E]) (hv.2.1 ds hf)
      exact ⟨i, b, by rw [← h1]; simp [fracBytes, expBytes], h2⟩
    | none =>
      obtain ⟨i, b, h1, h2⟩ := key (p := if n.minus then [0x2D] else []) hv.1.1
      exact ⟨i, b, by rw [← h1]; simp [fracBytes, expBytes], h2⟩

theorem steady_of (hlim : src.length < LIM) (h1 : ¬ Glued src t) (h2 : ¬ EndsMidCharacter src) :
    Steady src t (· ≤ src.length) := by
  constructor
  · intro off h; exact h
  · intro off tok off' h hm
    have hk := krel_next (t := t) h
    rw [hm] at hk
    obtain ⟨h3, h4 | ⟨h4, ⟨n, rfl⟩, -, hc⟩⟩ := hk
    · exact ⟨h3, h4⟩
    · exfalso
      refine h1 ⟨?_, hc⟩
      have hw := wp_next (g := false) h hlim (fun h => by cases h)
      rw [hm] at hw
      obtain ⟨w, l, hw, hv, ha, ht, -⟩ := hw
      cases l with
      | num n =>
        obtain ⟨i, b, h5, h6⟩ := NumLit.last_digit hv
        have h7 : src.drop off = (w ++ n.bytes) ++ src.drop off' := ha.2
        rw [h4, List.drop_length, List.append_nil, h5] at h7
        refine ⟨src.take off ++ (w ++ i), b, ?_, h6⟩
        rw [List.append_assoc, List.append_assoc, ← h7, List.take_append_drop]
      | _ => cases ht
  · intro off e off' h hm
    have hk := krel_next (t := t) h
    rw [hm] at hk
    rcases hk with h3 | h3 | ⟨⟨hk, hall⟩, -⟩
    · exact .inr h3
    · exact .inl h3
    · exfalso
      have he := (err_next' (cfg := .new) h hlim hm).1
      rw [hk] at he
      rcases he with he | he
      · obtain ⟨-, x, r, -, hd, -⟩ := he
        have := hall 0x75 (by rw [hd]; simp)
        revert this
        decide
      · exact h2 ⟨_, he, hall⟩
  · intro off w off' h hw ha
    exact ha.le h
  · intro off r h hd
    exact lt_of_drop_cons hd

theorem growing_true (D : Delegate) : Growing D (fun _ _ => True) := by
  refine ⟨fun _ => True.intro, fun _ _ => True.intro, fun d0 => ?_⟩
  exact CbSpec.trivial

theorem growing_log (D : Delegate) : Growing (logged D) (fun a b => a.2 <+: b.2) := by
  refine ⟨fun d => List.prefix_refl _, fun h h' => h.trans h', fun d0 => ?_⟩
  have key : ∀ {α : Type} (ev : Event) (m : M D.σ D.Err α),
      Cb (fun d : (logged D).σ => d0.2 <+: d.2) (fun (_ : D.Err) d => d0.2 <+: d.2) (fun _ => True) (listed ev m) := by
    intro α ev m d hd
    unfold listed
    cases m d.1 with
    | ok a d' => exact hd.trans (List.prefix_append _ _)
    | err e d' => exact hd.trans (List.prefix_append _ _)
    | panic p => exact True.intro
  constructor <;> first | (intros; exact key _ _) | (intros; exact True.intro)

theorem parseBytes_input {g : Bool} {D : Delegate} (h : Input g src) (d : D.σ) :
    parseBytes g src cfg D d = parseBytes false src cfg D d := by
  cases g with
  | false => rfl
  | true => exact parseBytes_agree h.lim (h.fit rfl) d

/-- **C69.** A parse, with any delegate, that fails before the end of its source fails on every continuation of that
source with the same error (the same kind and offset), and leaves the delegate in the same state. Excepted are sources
whose last token the continuation changes: that end with a digit followed by a byte that goes on with the number, or
within a character. -/
theorem C69_any_delegate (g : Bool) (src t : List UInt8) (h : Input g src) (ht : Input g (src ++ t)) (cfg : ParseConfig)
    (hglue : ¬ Glued src t) (hmid : ¬ EndsMidCharacter src) (D : Delegate) (d d' : D.σ) (e : Error D.Err)
    (he : Stopped (parseBytes g src cfg D d) e d') (hlt : e.offset < src.length) :
    Stopped (parseBytes g (src ++ t) cfg D d) e d' := by
  obtain ⟨s, he, rfl⟩ := he
  rw [parseBytes_input h] at he
  rw [parseBytes_input ht]
  rcases parse_steady (steady_of h.lim hglue hmid) (Nat.zero_le _) (growing_true D) he with ⟨off, h1⟩ | ⟨h1, -⟩
  · exact ⟨_, h1, rfl⟩
  · omega

theorem str_not_mid {s : Str} : ¬ EndsMidCharacter (utf8 s) := fun ⟨_, h, _⟩ => str_not_bad h

/-- the same for `Value` -/
theorem value_stands {g : Bool} (h : Input g src) (ht : Input g (src ++ t))
    (hglue : ¬ Glued src t) (hmid : ¬ EndsMidCharacter src) {e : Error Empty}
    (he : Value.parseWithConfig g src cfg = .err e) (hlt : e.offset < src.length) :
    Value.parseWithConfig g (src ++ t) cfg = .err e := by
  unfold Value.parseWithConfig at he ⊢
  have h1 : ∃ d, Stopped (parseBytes g src cfg valueParser ()) e d := by
    cases hp : parseBytes g src cfg valueParser () with
    | ok v s => rw [hp] at he; cases he
    | panic p => rw [hp] at he; cases he
    | err e' s => rw [hp] at he; injection he with he; rw [← he]; exact ⟨_, s, rfl, rfl⟩
  obtain ⟨d, h1⟩ := h1
  obtain ⟨s, h2, -⟩ := C69_any_delegate g src t h ht cfg hglue hmid _ _ _ _ h1 hlt
  rw [h2]; rfl

/-- **C69** for `Value::from_json` of a `&str`: an error before the end is the error of every continuation, unless the
text ends with a digit and the continuation begins with a digit, `.`, `e` or `E`. -/
theorem C69_error_stands (s t : Str) (ht : SliceFits (utf8 (s ++ t))) (cfg : ParseConfig) (e : Error Empty)
    (he : Value.fromJsonWithConfig s cfg = .err e) (hlt : e.offset < (utf8 s).length) (hglue : ¬ Glued (utf8 s) (utf8 t)) :
    Value.fromJsonWithConfig (s ++ t) cfg = .err e := by
  have h : SliceFits (utf8 s) := by
    unfold SliceFits at ht ⊢
    rw [utf8_append, List.length_append] at ht
    omega
  have := value_stands (t := utf8 t) (input_str h) (by rw [← utf8_append]; exact input_str ht) hglue str_not_mid he hlt
  rw [← utf8_append] at this
  exact this

/-- **C69** for bytes. -/
theorem C69_error_stands_bytes (src t : List UInt8) (ht : SliceFits (src ++ t)) (cfg : ParseConfig) (e : Error Empty)
    (he : Value.fromJsonBytesWithConfig src cfg = .err e) (hlt : e.offset < src.length)
    (hglue : ¬ Glued src t) (hmid : ¬ EndsMidCharacter src) :
    Value.fromJsonBytesWithConfig (src ++ t) cfg = .err e := by
  have h : SliceFits src := by
    unfold SliceFits at ht ⊢
    rw [List.length_append] at ht
    omega
  exact value_stands (input_bytes h) (input_bytes ht) hglue hmid he hlt

/-- **C69** for documents, growing or of bounded capacity. -/
theorem C69_document (cap : Option Nat) (g : Bool) (src t : List UInt8) (h : Input g src) (ht : Input g (src ++ t)) (cfg : ParseConfig)
    (hglue : ¬ Glued src t) (hmid : ¬ EndsMidCharacter src) (e : Error Empty)
    (he : docFromJsonWithConfig cap g src cfg = .err e) (hlt : e.offset < src.length) :
    docFromJsonWithConfig cap g (src ++ t) cfg = .err e := by
  unfold docFromJsonWithConfig at he ⊢
  cases hp : parseBytes g src cfg (nodesDelegate cap) [] with
  | ok v s => rw [hp] at he; cases he
  | panic p => rw [hp] at he; cases he
  | err e' s =>
    rw [hp] at he
    injection he with he
    have ho : e'.offset = e.offset := by rw [← he]; rfl
    obtain ⟨s2, h2, -⟩ := C69_any_delegate g src t h ht cfg hglue hmid (nodesDelegate cap) [] s.delegate e' ⟨s, hp, rfl⟩ (by omega)
    rw [h2, ← he]

/-- **C69.** The calls a delegate receives for a source, whether it parses, fails or is stopped by the delegate, are the
first calls it receives for every continuation of the source (under the same exceptions): what a delegate has been told
is not taken back by the text that follows. -/
theorem C69_calls_stand (g : Bool) (src t : List UInt8) (h : Input g src) (ht : Input g (src ++ t)) (cfg : ParseConfig)
    (hglue : ¬ Glued src t) (hmid : ¬ EndsMidCharacter src) (D : Delegate) (d : D.σ) (l l' : List Event)
    (hl : heard (parseBytes g src cfg (logged D) (d, [])) = some l)
    (hl' : heard (parseBytes g (src ++ t) cfg (logged D) (d, [])) = some l') : l <+: l' := by
  rw [parseBytes_input h] at hl
  rw [parseBytes_input ht] at hl'
  have hp := parse_later (cfg := cfg) (steady_of h.lim hglue hmid) (Nat.zero_le _) (growing_log D) (d := (d, []))
  have fin : ∀ d', After (D := logged D) (fun a b => a.2 <+: b.2) d' (parseBytes false (src ++ t) cfg (logged D) (d, [])) → d'.2 <+: l' := by
    intro d' ha
    cases hm : parseBytes false (src ++ t) cfg (logged D) (d, []) with
    | panic p => rw [hm] at hl'; cases hl'
    | ok a s => rw [hm] at hl' ha; injection hl' with hl'; rw [← hl']; exact ha
    | err e s => rw [hm] at hl' ha; injection hl' with hl'; rw [← hl']; exact ha
  cases hm : parseBytes false src cfg (logged D) (d, []) with
  | panic p => rw [hm] at hl; cases hl
  | ok a s => rw [hm] at hl hp; injection hl with hl; rw [← hl]; exact fin _ hp
  | err e s => rw [hm] at hl hp; injection hl with hl; rw [← hl]; exact fin _ hp

end

/-! ## Concrete cases -/

section
local instance : Arch := arch64

theorem not_glued_of_last {src t : List UInt8} (h : ∀ b ∈ src.getLast?, ¬ IsDigit b) : ¬ Glued src t := by
  rintro ⟨⟨i, b, rfl, hb⟩, -⟩
  exact h b (by simp) hb

/-- a malformed text: the same error whatever follows -/
example (t : Str) (ht : SliceFits (utf8 ("[1, 2 \"é\"".toList ++ t))) :
    Value.fromJsonWithConfig ("[1, 2 \"é\"".toList ++ t) .new = .err ⟨5, .expectedCommaOrEndOfArray⟩ :=
  C69_error_stands _ t ht .new _ (Outcome.error_eq (by decide +kernel)) (by decide +kernel)
    (not_glued_of_last (by decide +kernel))

/-- a digit at the end does no harm if no number goes on -/
example : ¬ Glued (b8 "{\"a\" 1") (b8 "x") := by
  rintro ⟨-, c, r, h, hc⟩
  injection h with h _
  subst h
  revert hc
  unfold IsDigit
  decide

/-- the calls for an incomplete text and for a continuation -/
example :
    heard (parseBytes false (b8 "[1, {\"k\": ") .new (logged unitDelegate) ((), []))
      = some [.beginArray, .number ⟨.borrowed "1".toList⟩, .arrayValue, .beginObject, .objectKey ⟨.json (.borrowed "k".toList), .new false 1⟩]
    ∧ heard (parseBytes false (b8 "[1, {\"k\": " ++ b8 "null, 7") .new (logged unitDelegate) ((), []))
      = some [.beginArray, .number ⟨.borrowed "1".toList⟩, .arrayValue, .beginObject, .objectKey ⟨.json (.borrowed "k".toList), .new false 1⟩,
          .null, .objectValue] := by
  decide +kernel

/-- Numbers are the exception: the error of `[1 2` is not that of `[1 2.x`, since the number is read first. -/
theorem glued_changes :
    errOf "[1 2" = some ⟨2, .expectedCommaOrEndOfArray⟩ ∧ errOf "[1 2.x" = some ⟨5, .expectedDecimalDigit⟩ := by decide +kernel

end

/-! ## Instances: each theorem above applied to a concrete case that meets its hypotheses -/
section Instances
attribute [local instance] arch64

theorem steadyEx_mid : ¬ EndsMidCharacter exBad := str_not_mid
theorem steadyEx_stopped : ∃ e d, Stopped (parseBytes true exBad .new unitDelegate ()) e d ∧ e.offset < exBad.length := by
  have key : ∀ o : Out (PState Unit) (Error Empty) JsonKind, (match o with | .err e _ => decide (e.offset < exBad.length) | _ => false) = true →
      ∃ e d, Stopped o e d ∧ e.offset < exBad.length := by
    intro o h
    cases o with
    | err e s => exact ⟨e, _, ⟨s, rfl, rfl⟩, of_decide_eq_true h⟩
    | ok a s => cases h
    | panic p => cases h
  exact key _ (by decide +kernel)
example := C69_any_delegate true exBad (b8 ",7") (exBad_input _) ⟨by lit, fun _ => ⟨"[1, {\"k\": tru}],7".toList, by decide +kernel⟩⟩ .new
  (not_glued_of_last (by decide +kernel)) steadyEx_mid unitDelegate () _ _ steadyEx_stopped.choose_spec.choose_spec.1
  steadyEx_stopped.choose_spec.choose_spec.2
example := C69_error_stands "[1, 2 \"é\"".toList "é]".toList (by lit) .new ⟨5, .expectedCommaOrEndOfArray⟩ (Outcome.error_eq (by decide +kernel))
  (by decide +kernel) (not_glued_of_last (by decide +kernel))
example := C69_error_stands_bytes exBad [0xFF] (by lit) .new ⟨13, .unexpected 0x7D⟩ (Outcome.error_eq (by decide +kernel)) (by decide +kernel)
  (not_glued_of_last (by decide +kernel)) steadyEx_mid
example := C69_document (some 9) false exBad [0xFF] (exBad_input _) (by lit) .new (not_glued_of_last (by decide +kernel)) steadyEx_mid
  ⟨13, .unexpected 0x7D⟩ (Outcome.error_eq (by decide +kernel)) (by decide +kernel)
example := C69_calls_stand false exBad [0xFF] (exBad_input _) (by lit) .new (not_glued_of_last (by decide +kernel)) steadyEx_mid unitDelegate () _ _
  (Option.isSome_iff_exists.mp (by decide +kernel : (heard (parseBytes false exBad .new (logged unitDelegate) ((), []))).isSome = true)).choose_spec
  (Option.isSome_iff_exists.mp (by decide +kernel : (heard (parseBytes false (exBad ++ [0xFF]) .new (logged unitDelegate) ((), []))).isSome = true)).choose_spec

end Instances
end JustJson
