import Verif.Lemmas.Unwind
import Verif.Lemmas.Replay
import Verif.Props.Opaque
import Verif.Props.Accept
import Verif.Props.Delegate
import Verif.Props.Callbacks
/-! # C87: callbacks that panic -/

namespace JustJson
set_option linter.unusedSectionVars false
section
variable [Arch]

theorem thrown_fell {σ ε δ α : Type} (f : δ → ε ⊕ Panic) (m : M σ δ α) (d : σ) :
    Fell Eq (fun x y => f x = .inl y) (fun x p => f x = .inr p) Eq (m d) (thrown f m d) := by
  unfold thrown
  cases m d with
  | ok a s => exact ⟨rfl, rfl⟩
  | panic p => exact rfl
  | err x s =>
    show Fell _ _ _ _ (.err x s) (match f x with | .inl y => .err y s | .inr p => .panic p)
    cases h : f x with
    | inl y => exact ⟨h, rfl⟩
    | inr p => exact h

/-- A delegate and the one that panics. -/
def fallOf (cfg : ParseConfig) (D : Delegate) {ε : Type} (f : D.Err → ε ⊕ Panic) : Fall cfg D (panicking D f) where
  state := Eq
  value := Eq
  object := Eq
  array := Eq
  key := Eq
  error x y := f x = .inl y
  lost x p := f x = .inr p
  null := by rintro d _ rfl; exact thrown_fell f _ d
  boolean := by rintro b d _ rfl; exact thrown_fell f _ d
  number := by rintro b d _ rfl; exact thrown_fell f _ d
  string := by rintro b d _ rfl; exact thrown_fell f _ d
  beginObject := by rintro d _ rfl; exact thrown_fell f _ d
  objectKey := by
    rintro o _ k d _ rfl rfl
    have := thrown_fell f (D.objectKey o k) d
    revert this
    show Fell _ _ _ _ _ (thrown f (D.objectKey o k) d) → Fell _ _ _ _ _ (thrown f (D.objectKey o k) d)
    cases D.objectKey o k d <;> cases thrown f (D.objectKey o k) d <;> simp [Fell]
    all_goals grind
  objectValue := by rintro o _ k _ v _ d _ rfl rfl rfl rfl; exact thrown_fell f _ d
  objectIsEmpty := by rintro - o _ d _ rfl rfl; rfl
  endObject := by rintro o _ d _ rfl rfl; exact thrown_fell f _ d
  beginArray := by rintro d _ rfl; exact thrown_fell f _ d
  arrayValue := by rintro a _ v _ d _ rfl rfl rfl; exact thrown_fell f _ d
  arrayIsEmpty := by rintro - a _ d _ rfl rfl; rfl
  endArray := by rintro a _ d _ rfl rfl; exact thrown_fell f _ d
  kindOf := by rintro - v _ d _ rfl rfl; rfl

/-- **C87.** Take a delegate `D`, and let some of its errors be panics instead, as `f` says. A parse with the delegate that
panics panics if and only if the parse with `D` returns one of these errors, and its panic is that one. So it comes out of
the parse where the error would have, after the same callbacks, and those have left behind the state `s` that the error
leaves. In all other cases the two parses end alike. -/
theorem C87_panics_unwind (g : Bool) (src : List UInt8) (h : Input g src) (cfg : ParseConfig) (D : Delegate) {ε : Type}
    (f : D.Err → ε ⊕ Panic) (d : D.σ) : ∀ r, onlyDelegate (parseBytes g src cfg D d) = r →
    match r with
    | .ok a s => onlyDelegate (parseBytes g src cfg (panicking D f) d) = .ok a s
    | .panic p => onlyDelegate (parseBytes g src cfg (panicking D f) d) = .panic p
    | .err e s =>
      (∃ z : Error Empty, e = sameError z ∧ onlyDelegate (parseBytes g src cfg (panicking D f) d) = .err (sameError z) s)
      ∨ ∃ off x, e = ⟨off, .errorFromDelegate x⟩ ∧ onlyDelegate (parseBytes g src cfg (panicking D f) d) =
          match f x with
          | .inl y => .err ⟨off, .errorFromDelegate y⟩ s
          | .inr p => .panic p := by
  rintro _ rfl
  have hp := parse_fell (fallOf cfg D f) h (d := d) (e := d) rfl
  cases h1 : onlyDelegate (parseBytes g src cfg D d) <;> cases h2 : onlyDelegate (parseBytes g src cfg (panicking D f) d) <;>
    rw [h1, h2] at hp <;> first | exact hp.elim | skip
  · obtain ⟨rfl, rfl⟩ := hp
    rfl
  · obtain ⟨hp, rfl⟩ := hp
    rcases hp with ⟨z, rfl, rfl⟩ | ⟨off, a, b, rfl, rfl, hf⟩
    · exact .inl ⟨z, rfl, rfl⟩
    · exact .inr ⟨off, a, rfl, by rw [show f a = .inl b from hf]⟩
  · obtain ⟨off, a, rfl, hf⟩ := hp
    exact .inr ⟨off, a, rfl, by rw [show f a = .inr _ from hf]⟩
  · cases hp
    rfl

theorem caught_fell {σ ε α : Type} (m : M σ ε α) (d : σ) :
    Fell Eq (fun x y => x = .inl y) (fun x p => x = .inr p) Eq (caughtCall m d) (m d) := by
  unfold caughtCall
  cases m d with
  | ok a s => exact ⟨rfl, rfl⟩
  | panic p => exact rfl
  | err x s => exact ⟨rfl, rfl⟩

/-- A delegate and the one that catches its panics. -/
def fallCaught (cfg : ParseConfig) (D : Delegate) : Fall cfg (caught D) D where
  state := Eq
  value := Eq
  object := Eq
  array := Eq
  key := Eq
  error x y := x = .inl y
  lost x p := x = .inr p
  null := by rintro d _ rfl; exact caught_fell _ d
  boolean := by rintro b d _ rfl; exact caught_fell _ d
  number := by rintro b d _ rfl; exact caught_fell _ d
  string := by rintro b d _ rfl; exact caught_fell _ d
  beginObject := by rintro d _ rfl; exact caught_fell _ d
  objectKey := by
    rintro o _ k d _ rfl rfl
    have := caught_fell (D.objectKey o k) d
    revert this
    show Fell _ _ _ _ (caughtCall (D.objectKey o k) d) _ → Fell _ _ _ _ (caughtCall (D.objectKey o k) d) _
    cases caughtCall (D.objectKey o k) d <;> cases D.objectKey o k d <;> simp [Fell]
    all_goals grind
  objectValue := by rintro o _ k _ v _ d _ rfl rfl rfl rfl; exact caught_fell _ d
  objectIsEmpty := by rintro - o _ d _ rfl rfl; rfl
  endObject := by rintro o _ d _ rfl rfl; exact caught_fell _ d
  beginArray := by rintro d _ rfl; exact caught_fell _ d
  arrayValue := by rintro a _ v _ d _ rfl rfl rfl; exact caught_fell _ d
  arrayIsEmpty := by rintro - a _ d _ rfl rfl; rfl
  endArray := by rintro a _ d _ rfl rfl; exact caught_fell _ d
  kindOf := by rintro - v _ d _ rfl rfl; rfl

theorem caught_ok {σ ε α : Type} {m : M σ ε α} {d d' : σ} {a : α} (h : caughtCall m d = .ok a d') : m d = .ok a d' := by
  unfold caughtCall at h
  cases hm : m d with
  | ok b s => rw [hm] at h; cases h; rfl
  | err x s => rw [hm] at h; cases h
  | panic p => rw [hm] at h; cases h

theorem caught_fold {D : Delegate} : (∀ v : Value, ∀ d a d', foldValue (caught D) v d = .ok a d' → foldValue D v d = .ok a d')
    ∧ (∀ es : Object, ∀ o d a d', foldEntries (caught D) es o d = .ok a d' → foldEntries D es o d = .ok a d')
    ∧ ∀ vs : List Value, ∀ o d a d', foldElems (caught D) vs o d = .ok a d' → foldElems D vs o d = .ok a d' := by
  apply Value.induct
  · intro d a d' h; exact caught_ok h
  · intro b d a d' h; exact caught_ok h
  · intro b d a d' h; exact caught_ok h
  · intro b d a d' h; exact caught_ok h
  · intro es ih d a d' h
    rw [foldValue] at h
    obtain ⟨o, d1, h1, h⟩ := bind_ok_inv h
    obtain ⟨o2, d2, h2, h⟩ := bind_ok_inv h
    rw [foldValue, M.bind_ok (caught_ok h1), M.bind_ok (ih _ _ _ _ h2)]
    exact caught_ok h
  · intro es ih d a d' h
    rw [foldValue] at h
    obtain ⟨o, d1, h1, h⟩ := bind_ok_inv h
    obtain ⟨o2, d2, h2, h⟩ := bind_ok_inv h
    rw [foldValue, M.bind_ok (caught_ok h1), M.bind_ok (ih _ _ _ _ h2)]
    exact caught_ok h
  · intro o d a d' h; rw [foldEntries] at h ⊢; cases h; rfl
  · intro k v es h1 h2 o d a d' h
    rw [foldEntries] at h
    obtain ⟨⟨o1, kD⟩, d1, e1, h⟩ := bind_ok_inv h
    obtain ⟨x, d2, e2, h⟩ := bind_ok_inv h
    obtain ⟨o2, d3, e3, h⟩ := bind_ok_inv h
    rw [foldEntries, M.bind_ok (caught_ok e1)]
    simp only []
    rw [M.bind_ok (h1 _ _ _ e2), M.bind_ok (caught_ok e3)]
    exact h2 _ _ _ _ h
  · intro o d a d' h; rw [foldElems] at h ⊢; cases h; rfl
  · intro v es h1 h2 o d a d' h
    rw [foldElems] at h
    obtain ⟨x, d2, e2, h⟩ := bind_ok_inv h
    obtain ⟨o2, d3, e3, h⟩ := bind_ok_inv h
    rw [foldElems, M.bind_ok (h1 _ _ _ e2), M.bind_ok (caught_ok e3)]
    exact h2 _ _ _ _ h

theorem caught_truthful {D : Delegate} (h : Truthful D) : Truthful (caught D) :=
  ⟨fun es d0 o0 d1 o d2 h1 h2 => h.object es d0 o0 d1 o d2 (caught_ok h1) (caught_fold.2.1 es o0 d1 o d2 h2),
   fun es d0 o0 d1 o d2 h1 h2 => h.array es d0 o0 d1 o d2 (caught_ok h1) (caught_fold.2.2 es o0 d1 o d2 h2)⟩

theorem caughtCall_never {σ ε α : Type} {m : M σ ε α} {d : σ} {p : Panic} : caughtCall m d ≠ .panic p := by
  unfold caughtCall
  cases m d <;> nofun

theorem caught_never (g : Bool) (src : List UInt8) (h : Input g src) (cfg : ParseConfig) {D : Delegate} (hq : Answers D) (d : D.σ) (p : Panic) :
    parseBytes g src cfg (caught D) d ≠ .panic p := by
  intro hp
  cases C12_no_panic_any_delegate g src h cfg (caught D) d p hp with
  | objectIsEmpty o d h => exact hq.object d o p h
  | arrayIsEmpty o d h => exact hq.array d o p h
  | kindOf o d h => exact hq.kind d o p h
  | _ => rename_i h; exact caughtCall_never h

/-- **C87.** Every panic of a parse with a delegate that answers what it is asked is of one of its callbacks: the parse panics
if and only if, with the delegate that catches its panics and returns them as errors, the parse returns that error. -/
theorem C87_where_it_panics (g : Bool) (src : List UInt8) (h : Input g src) (cfg : ParseConfig) (D : Delegate) (hq : Answers D)
    (d : D.σ) (p : Panic) :
    parseBytes g src cfg D d = .panic p
      ↔ ∃ off s, onlyDelegate (parseBytes g src cfg (caught D) d) = .err ⟨off, .errorFromDelegate (.inr p)⟩ s := by
  have hp := parse_fell (fallCaught cfg D) h (d := d) (e := d) rfl
  have never := caught_never g src h cfg hq d
  have back : onlyDelegate (parseBytes g src cfg D d) = .panic p ↔ parseBytes g src cfg D d = .panic p := by
    cases parseBytes g src cfg D d <;> simp [onlyDelegate]
  rw [← back]
  have never' : ∀ q, onlyDelegate (parseBytes g src cfg (caught D) d) ≠ .panic q := by
    intro q
    cases hc : parseBytes g src cfg (caught D) d with
    | panic r => exact absurd hc (never r)
    | ok a s => nofun
    | err e s => nofun
  cases h1 : onlyDelegate (parseBytes g src cfg (caught D) d) <;> cases h2 : onlyDelegate (parseBytes g src cfg D d) <;>
    rw [h1, h2] at hp <;> first | exact hp.elim | exact absurd h1 (never' _) | skip
  · exact ⟨nofun, fun ⟨_, _, hs⟩ => by cases hs⟩
  · obtain ⟨hp, rfl⟩ := hp
    refine ⟨nofun, fun ⟨_, _, hs⟩ => ?_⟩
    rcases hp with ⟨z, rfl, rfl⟩ | ⟨off, a, b, rfl, rfl, hf⟩
    · obtain ⟨o, k⟩ := z
      cases k with
      | errorFromDelegate x => exact x.elim
      | _ => cases hs
    · cases hf
      cases hs
  · obtain ⟨off, a, rfl, hf⟩ := hp
    cases hf
    constructor
    · intro hq
      cases hq
      exact ⟨off, _, rfl⟩
    · rintro ⟨off, s', hs⟩
      cases hs
      rfl

/-- **C87.** If a parse panics, with a delegate that answers what it is asked, and truthfully if it matters, then the callbacks
made until then, with the one that panicked, are a beginning of those that a delegate that never fails is told (`()`, which is
what validation uses). All that came before the panic had succeeded. -/
theorem C87_told_before (g : Bool) (src : List UInt8) (h : Input g src) (cfg : ParseConfig) (D : Delegate) (hq : Answers D)
    (hD : cfg.allowTrailingCommas = true ∨ Truthful D) (d : D.σ) (p : Panic) (hp : parseBytes g src cfg D d = .panic p) :
    ∃ told all earlier e s,
      heard (parseBytes g src cfg (logged (caught D)) (d, [])) = some told
      ∧ heard (parseBytes g src cfg (logged unitDelegate) ((), [])) = some all ∧ told <+: all
      ∧ parseBytes g src cfg (traced (caught D)) (d, []) = .err e s
      ∧ s.delegate.2 = earlier ++ [some (.inr p)] ∧ ∀ r ∈ earlier, r = none := by
  obtain ⟨off, s, hs⟩ := (C87_where_it_panics g src h cfg D hq d p).mp hp
  cases hc : parseBytes g src cfg (caught D) d with
  | panic q => rw [hc] at hs; cases hs
  | ok a s => rw [hc] at hs; cases hs
  | err e s' =>
    rw [hc] at hs
    have he : e = ⟨off, .errorFromDelegate (.inr p)⟩ := by
      simp only [onlyDelegate] at hs
      injection hs
    subst he
    have strip := parse_strip (D := caught D) (g := g) (src := src) (cfg := cfg) d []
    rw [hc] at strip
    have htold : ∃ told, heard (parseBytes g src cfg (logged (caught D)) (d, [])) = some told := by
      cases hl : parseBytes g src cfg (logged (caught D)) (d, []) with
      | panic q => rw [hl] at strip; cases strip
      | ok a s => rw [hl] at strip; cases strip
      | err e s => exact ⟨_, rfl⟩
    obtain ⟨told, htold⟩ := htold
    obtain ⟨all, hall⟩ := unit_heard g src h cfg
    have hpre := (C58_trailing_commas g src h cfg (caught D) unitDelegate (hD.imp id caught_truthful) (.inr unit_truthful) unit_unfailing
      d () told all htold hall).1
    obtain ⟨t1, t2⟩ := C36_delegate_error_stops g src h cfg (caught D) d
    rw [hc] at t1
    cases ht : parseBytes g src cfg (traced (caught D)) (d, []) with
    | panic q => rw [ht] at t1; cases t1
    | ok a s => rw [ht] at t1; cases t1
    | err e2 s2 =>
      rw [ht] at t1 t2
      have he : e2 = ⟨off, .errorFromDelegate (.inr p)⟩ := by
        simp only [forget] at t1
        injection t1
      subst he
      obtain ⟨earlier, h1, h2⟩ := t2
      exact ⟨told, all, earlier, _, s2, htold, hall, hpre, rfl, h2, h1⟩

end

/-! ## Instances: each theorem above applied to a concrete case that meets its hypotheses -/
section Instances
attribute [local instance] arch64

/-- A delegate that counts the values it is given, and panics at a boolean. -/
@[reducible] def panicEx : Delegate where
  σ := Nat
  Value := Bool
  Object := Bool
  Array := Bool
  Key := Unit
  Err := Empty
  null := fun n => .ok true (n + 1)
  boolean _ := M.panic .expect
  number _ := fun n => .ok true (n + 1)
  string _ := fun n => .ok true (n + 1)
  beginObject := fun n => .ok true n
  objectKey o _ := fun n => .ok (o, ()) n
  objectValue _ _ _ := fun n => .ok false n
  objectIsEmpty _ o := .ok o
  endObject _ := fun n => .ok false (n + 1)
  beginArray := fun n => .ok true n
  arrayValue _ _ := fun n => .ok false n
  arrayIsEmpty _ a := .ok a
  endArray _ := fun n => .ok false (n + 1)
  kindOf _ _ := .ok .array

theorem panicEx_answers : Answers panicEx := ⟨nofun, nofun, nofun⟩

/-- the panic a run ends with -/
def panicOf {σ ε α : Type} : Out σ ε α → Option Panic
  | .panic p => some p
  | _ => none

/-- the number of values given, and of callbacks, at an error -/
def atError {ε α β : Type} : Out (PState (Nat × List β)) ε α → Option (Nat × Nat)
  | .err _ s => some (s.delegate.1, s.delegate.2.length)
  | _ => none

theorem panicSrc_input : Input false (b8 "[null,1,true]") := input_bytes (by unfold SliceFits; decide +kernel)

theorem panicEx_run : panicOf (parseBytes false (b8 "[null,1,true]") ⟨true, some 128, true⟩ panicEx 0) = some .expect := by decide +kernel

theorem panicEx_panics : parseBytes false (b8 "[null,1,true]") ⟨true, some 128, true⟩ panicEx 0 = .panic .expect := by
  have h := panicEx_run
  revert h
  generalize parseBytes false (b8 "[null,1,true]") ⟨true, some 128, true⟩ panicEx 0 = r
  intro h
  cases r <;> simp [panicOf] at h
  rw [h]

-- two values had been given when it panicked, in the sixth callback
example : atError (parseBytes false (b8 "[null,1,true]") ⟨true, some 128, true⟩ (logged (caught panicEx)) (0, [])) = some (2, 6) := by decide +kernel

example := C87_panics_unwind false _ panicSrc_input ⟨true, some 128, true⟩ (caught panicEx) (fun x => x) 0
example := (C87_where_it_panics false _ panicSrc_input ⟨true, some 128, true⟩ panicEx panicEx_answers 0 .expect).mp panicEx_panics
example := C87_told_before false _ panicSrc_input ⟨true, some 128, true⟩ panicEx panicEx_answers (.inl rfl) 0 .expect panicEx_panics

end Instances
end JustJson
