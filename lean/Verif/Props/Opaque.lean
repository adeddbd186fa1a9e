import Verif.Lemmas.Opaque
import Verif.Props.Machine
/-! # C76: what a delegate returns is opaque to the parser -/

namespace JustJson
open Spec

set_option linter.unusedSectionVars false

section
variable [Arch]

/-- **C76.** Two delegates are tied (`Tie`, `Spec/Opaque.lean`) if there are relations between their states, values, objects, arrays,
keys and errors such that every callback, called on related arguments in related states, has related results, and they give
the same answers to what is asked under the configuration (nothing at all if it allows trailing commas and all types at the root). Then whole parses of any
source, begun in related states, have related results: both return values that are related, or the same
error of the parser, or errors of the delegates that are related, at the same offset, and end in related states. The parser can
tell what the delegates return only by what it asks them. -/
theorem C76_opaque (g : Bool) (src : List UInt8) (h : Input g src) (cfg : ParseConfig) (D E : Delegate) (T : Tie cfg D E) (d : D.σ) (e : E.σ)
    (hs : T.state d e) :
    Akin T.state T.parseError T.value (onlyDelegate (parseBytes g src cfg D d)) (onlyDelegate (parseBytes g src cfg E e)) :=
  parse_akin T h hs

/-- **C76.** And tied delegates hear the same callbacks, with the same strings and numbers. -/
theorem C76_same_callbacks (g : Bool) (src : List UInt8) (h : Input g src) (cfg : ParseConfig) (D E : Delegate) (T : Tie cfg D E) (d : D.σ) (e : E.σ)
    (hs : T.state d e) :
    heard (parseBytes g src cfg (logged D) (d, [])) = heard (parseBytes g src cfg (logged E) (e, [])) :=
  (heard_akin T h hs []).1

theorem mapErr_akin {σ ε δ α : Type} (f : ε → δ) (m : M σ ε α) (d : σ) : Akin Eq (fun x y => f x = y) Eq (m d) (M.mapErr f m d) := by
  unfold M.mapErr
  cases m d <;> simp [Akin]

/-- The tie of a delegate and the one with converted errors. -/
def convertTie (cfg : ParseConfig) (D : Delegate) {ε : Type} (f : D.Err → ε) : Tie cfg D (convertErrors D f) where
  state := Eq
  value := Eq
  object := Eq
  array := Eq
  key := Eq
  error x y := f x = y
  null := by rintro d _ rfl; exact mapErr_akin f _ d
  boolean := by rintro b d _ rfl; exact mapErr_akin f _ d
  number := by rintro b d _ rfl; exact mapErr_akin f _ d
  string := by rintro b d _ rfl; exact mapErr_akin f _ d
  beginObject := by rintro d _ rfl; exact mapErr_akin f _ d
  objectKey := by
    rintro o _ k d _ rfl rfl
    have := mapErr_akin f (D.objectKey o k) d
    revert this
    show Akin _ _ _ _ (M.mapErr f (D.objectKey o k) d) → Akin _ _ _ _ (M.mapErr f (D.objectKey o k) d)
    cases D.objectKey o k d <;> cases M.mapErr f (D.objectKey o k) d <;> simp [Akin]
    all_goals grind
  objectValue := by rintro o _ k _ v _ d _ rfl rfl rfl rfl; exact mapErr_akin f _ d
  objectIsEmpty := by rintro - o _ d _ rfl rfl; rfl
  endObject := by rintro o _ d _ rfl rfl; exact mapErr_akin f _ d
  beginArray := by rintro d _ rfl; exact mapErr_akin f _ d
  arrayValue := by rintro a _ v _ d _ rfl rfl rfl; exact mapErr_akin f _ d
  arrayIsEmpty := by rintro - a _ d _ rfl rfl; rfl
  endArray := by rintro a _ d _ rfl rfl; exact mapErr_akin f _ d
  kindOf := by rintro - v _ d _ rfl rfl; rfl

/-- **C76.** A delegate that converts its errors gives the outcome of the original with the error converted, at the same offset. -/
theorem C76_errors_convert (g : Bool) (src : List UInt8) (h : Input g src) (cfg : ParseConfig) (D : Delegate) {ε : Type} (f : D.Err → ε) (d : D.σ) :
    onlyDelegate (parseBytes g src cfg (convertErrors D f) d) = convertOut f (onlyDelegate (parseBytes g src cfg D d)) := by
  have hp := C76_opaque g src h cfg D _ (convertTie cfg D f) d d rfl
  cases h1 : onlyDelegate (parseBytes g src cfg D d) <;> cases h2 : onlyDelegate (parseBytes g src cfg (convertErrors D f) d) <;>
    rw [h1, h2] at hp <;> first | exact hp.elim | skip
  · obtain ⟨rfl, rfl⟩ := hp
    rfl
  · obtain ⟨hp, rfl⟩ := hp
    rcases hp with ⟨z, rfl, rfl⟩ | ⟨off, a, b, rfl, rfl, rfl⟩
    · obtain ⟨off, k⟩ := z
      cases k <;> first | rfl | (rename_i x; exact x.elim)
    · rfl
  · cases hp
    rfl

theorem watched_akin {σ ω ε α : Type} (see : Bool → ω → ω) (m : M σ ε α) (s : σ × ω) :
    Akin (fun (d : σ) (s : σ × ω) => s.1 = d) Eq Eq (m s.1) (watched see m s) := by
  unfold watched
  cases m s.1 <;> simp [Akin]

/-- The tie of a delegate and the one that is observed. -/
def observeTie (cfg : ParseConfig) (D : Delegate) {ω : Type} (see : Event → Bool → ω → ω) : Tie cfg D (observed D see) where
  state d s := s.1 = d
  value := Eq
  object := Eq
  array := Eq
  key := Eq
  error := Eq
  null := by rintro _ d rfl; exact watched_akin _ _ d
  boolean := by rintro b _ d rfl; exact watched_akin _ _ d
  number := by rintro b _ d rfl; exact watched_akin _ _ d
  string := by rintro b _ d rfl; exact watched_akin _ _ d
  beginObject := by rintro _ d rfl; exact watched_akin _ _ d
  objectKey := by
    rintro o _ k _ d rfl rfl
    have := watched_akin (see (.objectKey k)) (D.objectKey o k) d
    revert this
    show Akin _ _ _ _ (watched (see (.objectKey k)) (D.objectKey o k) d) → Akin _ _ _ _ (watched (see (.objectKey k)) (D.objectKey o k) d)
    cases D.objectKey o k d.1 <;> cases watched (see (.objectKey k)) (D.objectKey o k) d <;> simp [Akin]
    all_goals grind
  objectValue := by rintro o _ k _ v _ _ d rfl rfl rfl rfl; exact watched_akin _ _ d
  objectIsEmpty := by rintro - o _ _ d rfl rfl; rfl
  endObject := by rintro o _ _ d rfl rfl; exact watched_akin _ _ d
  beginArray := by rintro _ d rfl; exact watched_akin _ _ d
  arrayValue := by rintro a _ v _ _ d rfl rfl rfl; exact watched_akin _ _ d
  arrayIsEmpty := by rintro - a _ _ d rfl rfl; rfl
  endArray := by rintro a _ _ d rfl rfl; exact watched_akin _ _ d
  kindOf := by rintro - v _ _ d rfl rfl; rfl

/-- **C76.** An observer that sees every callback and whether it succeeded, and keeps a state of its own, changes nothing in the
outcome of the parse or in the delegate. -/
theorem C76_observer (g : Bool) (src : List UInt8) (h : Input g src) (cfg : ParseConfig) (D : Delegate) {ω : Type} (see : Event → Bool → ω → ω)
    (d : D.σ) (w : ω) :
    unwatched (onlyDelegate (parseBytes g src cfg (observed D see) (d, w))) = onlyDelegate (parseBytes g src cfg D d) := by
  have hp := C76_opaque g src h cfg D _ (observeTie cfg D see) d (d, w) rfl
  cases h1 : onlyDelegate (parseBytes g src cfg D d) <;> cases h2 : onlyDelegate (parseBytes g src cfg (observed D see) (d, w)) <;>
    rw [h1, h2] at hp <;> first | exact hp.elim | skip
  · obtain ⟨rfl, rfl⟩ := hp
    rfl
  · obtain ⟨hp, rfl⟩ := hp
    rcases hp with ⟨z, rfl, rfl⟩ | ⟨off, a, b, rfl, rfl, rfl⟩ <;> rfl
  · cases hp
    rfl

end

/-! ## Concrete cases -/

section Examples
attribute [local instance] arch64

/-- A delegate that only counts: values of arrays and objects. -/
@[reducible] def counter : Delegate where
  σ := Unit
  Value := JsonKind × Nat
  Object := Nat
  Array := Nat
  Key := Unit
  Err := Empty
  null := M.pure (.null, 0)
  boolean _ := M.pure (.boolean, 0)
  number _ := M.pure (.number, 0)
  string _ := M.pure (.string, 0)
  beginObject := M.pure 0
  objectKey o _ := M.pure (o, ())
  objectValue o _ v := M.pure (o + v.2 + 1)
  objectIsEmpty _ o := .ok (o == 0)
  endObject o := M.pure (.object, o)
  beginArray := M.pure 0
  arrayValue a v := M.pure (a + v.2 + 1)
  arrayIsEmpty _ a := .ok (a == 0)
  endArray a := M.pure (.array, a)
  kindOf _ v := .ok v.1

mutual
/-- How many values are in a value. -/
def within : Value → Nat
  | .array vs => withinAll vs
  | .object es => withinEntries es
  | _ => 0
def withinAll : List Value → Nat
  | [] => 0
  | v :: vs => within v + 1 + withinAll vs
def withinEntries : List (JsonString × Value) → Nat
  | [] => 0
  | (_, v) :: es => within v + 1 + withinEntries es
end

theorem withinAll_append (a b : List Value) : withinAll (a ++ b) = withinAll a + withinAll b := by
  induction a with
  | nil => simp [withinAll]
  | cons v a ih => simp [withinAll, ih]; omega

theorem withinEntries_append (a b : List (JsonString × Value)) : withinEntries (a ++ b) = withinEntries a + withinEntries b := by
  induction a with
  | nil => simp [withinEntries]
  | cons v a ih => simp [withinEntries, ih]; omega

/-- The parser of `Value`s and the counter are tied. -/
def counterTie (cfg : ParseConfig) : Tie cfg valueParser counter where
  state _ _ := True
  value v p := valueParser.kindOf () v = .ok p.1 ∧ p.2 = within v
  object es n := n = withinEntries es
  array vs n := n = withinAll vs
  key _ _ := True
  error x _ := x.elim
  null _ _ _ := ⟨⟨rfl, by simp [within]⟩, trivial⟩
  boolean _ _ _ _ := ⟨⟨rfl, by simp [within]⟩, trivial⟩
  number _ _ _ _ := ⟨⟨rfl, by simp [within]⟩, trivial⟩
  string _ _ _ _ := ⟨⟨rfl, by simp [within]⟩, trivial⟩
  beginObject _ _ _ := ⟨by simp [withinEntries], trivial⟩
  objectKey _ _ _ _ _ h _ := ⟨⟨h, trivial⟩, trivial⟩
  objectValue _ _ _ _ _ _ _ _ h _ hv _ := ⟨by simp [withinEntries_append, withinEntries, h, hv.2]; omega, trivial⟩
  objectIsEmpty _ o _ _ _ h _ := by
    cases o with
    | nil => subst h; simp [withinEntries]
    | cons p o => subst h; simp [withinEntries]
  endObject _ _ _ _ h _ := ⟨⟨rfl, by simp [within, h]⟩, trivial⟩
  beginArray _ _ _ := ⟨by simp [withinAll], trivial⟩
  arrayValue _ _ _ _ _ _ h hv _ := ⟨by simp [withinAll_append, withinAll, h, hv.2]; omega, trivial⟩
  arrayIsEmpty _ o _ _ _ h _ := by
    cases o with
    | nil => subst h; simp [withinAll]
    | cons p o => subst h; simp [withinAll]
  endArray _ _ _ _ h _ := ⟨⟨rfl, by simp [within, h]⟩, trivial⟩
  kindOf _ _ _ _ _ h _ := h.1

-- so the counter accepts what the parser of `Value`s accepts, and finds as many values as are in the tree; here three
example : Input false (b8 "[1,{\"a\":null}]") ∧ (counterTie .strict).state () ()
    ∧ valueOf (parseBytes false (b8 "[1,{\"a\":null}]") .strict counter ()) = some (.array, 3) :=
  ⟨input_bytes (by unfold SliceFits; decide +kernel), trivial, by decide +kernel⟩

-- a collection that refuses strings, with its errors converted
@[reducible] def pickySaid : Delegate := convertErrors (collDelegate pickyCollection) (fun _ => "no strings")

example : Input false (b8 "[1, \"a\"]")
    ∧ refusalOf (parseBytes false (b8 "[1, \"a\"]") .new pickySaid ([], 0)) = some ⟨4, .errorFromDelegate "no strings"⟩ :=
  ⟨input_bytes (by unfold SliceFits; decide +kernel), by decide +kernel⟩

-- an observer who counts the callbacks that succeed and those that fail
def tallied {σ ω ε α : Type} : Out (PState (σ × ω)) ε α → Option ω
  | .ok _ s => some s.delegate.2
  | .err _ s => some s.delegate.2
  | .panic _ => none

example : Input false (b8 "[1, \"a\"]")
    ∧ tallied (parseBytes false (b8 "[1, \"a\"]") .new
        (observed (collDelegate pickyCollection) (fun _ ok (n : Nat × Nat) => if ok then (n.1 + 1, n.2) else (n.1, n.2 + 1))) (([], 0), (0, 0)))
      = some (3, 1) :=
  ⟨input_bytes (by unfold SliceFits; decide +kernel), by decide +kernel⟩

end Examples

/-! ## Instances: each theorem above applied to a concrete case that meets its hypotheses -/
section Instances
attribute [local instance] arch64

/-- C76 for the counter: it counts what is in the value. -/
theorem counter_counts (g : Bool) (src : List UInt8) (h : Input g src) (cfg : ParseConfig) (v : Value)
    (hv : Value.parseWithConfig g src cfg = .ok v) :
    ∃ k s, parseBytes g src cfg counter () = .ok (k, within v) s := by
  have key := C76_opaque g src h cfg valueParser counter (counterTie _) () () trivial
  unfold Value.parseWithConfig at hv
  cases hp : parseBytes g src cfg valueParser () with
  | err e s => rw [hp] at hv; cases hv
  | panic p => rw [hp] at hv; cases hv
  | ok a s =>
    rw [hp] at hv key
    cases hv
    cases hq : parseBytes g src cfg counter () with
    | err e s => rw [hq] at key; exact key.elim
    | panic p => rw [hq] at key; exact key.elim
    | ok b t =>
      rw [hq] at key
      obtain ⟨k, n⟩ := b
      have : n = within _ := key.1.2
      subst this
      exact ⟨k, t, rfl⟩
example := counter_counts true exSrc (exSrc_input _) .new exVal (exSrc_parses _)
example := C76_same_callbacks true exSrc (exSrc_input _) .strict valueParser counter (counterTie _) () () trivial
example := C76_errors_convert false (b8 "[1, \"a\"]") (by lit) .new (collDelegate pickyCollection) (fun _ => "no strings") ([], 0)
example := C76_observer false (b8 "[1, \"a\"]") (by lit) .new (collDelegate pickyCollection) (fun _ ok (n : Nat) => if ok then n + 1 else n) ([], 0) 0

end Instances
end JustJson
