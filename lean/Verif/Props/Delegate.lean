import Verif.Props.Ex
import Verif.Lemmas.Trace
import Verif.Lemmas.Flagged
import Verif.Lemmas.Tokens
import Verif.Spec.SameError
/-! # Delegates: C36, C37, C38 -/

namespace JustJson
open Spec

set_option linter.unusedSectionVars false

section
variable [Arch]

/-! ## C36 -/

/-- **C36.** Record the outcome of every callback made to an arbitrary delegate (`traced D`): the run is the
same as without the record, and if it ends with `ErrorFromDelegate(x)` the last callback of all is the one and
only that failed, with `x`; otherwise no callback failed. So a failing callback is never followed by another, is
always reported, and `ErrorFromDelegate` is reported only then. -/
theorem C36_delegate_error_stops (g : Bool) (src : List UInt8) (h : Input g src) (cfg : ParseConfig) (D : Delegate)
    (d : D.σ) :
    forget (parseBytes g src cfg (traced D) (d, [])) = parseBytes g src cfg D d
    ∧ match parseBytes g src cfg (traced D) (d, []) with
      | .ok _ s => ∀ r ∈ s.delegate.2, r = none
      | .err e s => match e.kind with
        | .errorFromDelegate x => ∃ earlier, (∀ r ∈ earlier, r = none) ∧ s.delegate.2 = earlier ++ [some x]
        | _ => ∀ r ∈ s.delegate.2, r = none
      | .panic _ => True := by
  refine ⟨parse_forget d [], ?_⟩
  have hg := parse_generic (g := g) (cfg := cfg) (traced_cb (D := D)) h.lim h.fit (d := (d, [])) (fun x hx => by cases hx)
  cases hp : parseBytes g src cfg (traced D) (d, []) with
  | ok a s => rw [hp] at hg; exact hg
  | err e s =>
    rw [hp] at hg
    have hg := hg.2.2
    obtain ⟨off, k⟩ := e
    cases k <;> exact hg
  | panic p => trivial

/-! ## C37 -/

theorem protocol_truthful (g : Bool) (src : List UInt8) (h : Input g src) (cfg : ParseConfig) (D : Delegate)
    (hT : Truthful D) (hK : cfg.allowAllTypesAtRoot = true ∨ KindTruthful D) (d : D.σ) (v : Value)
    (hv : Value.parseWithConfig g src cfg = .ok v) :
    match foldValue D v d with
    | .ok a d' => ∃ s, parseBytes g src cfg D d = .ok a s ∧ s.delegate = d'
    | .err x d' => ∃ off s, parseBytes g src cfg D d = .err ⟨off, .errorFromDelegate x⟩ s ∧ s.delegate = d'
    | .panic p => parseBytes g src cfg D d = .panic p := by
  rcases delegate_cases (cfg := cfg) h hT hK d with ⟨v', s', h1, h2⟩ | ⟨e, _, _, h1, _⟩ | ⟨e, h1, _⟩
  · rw [hv] at h1
    cases h1
    unfold Match at h2
    cases hf : foldValue D v d with
    | ok a d' => rw [hf] at h2; exact ⟨_, h2, rfl⟩
    | err x d' => rw [hf] at h2; exact h2
    | panic p => rw [hf] at h2; exact h2
  · rw [hv] at h1; cases h1
  · rw [hv] at h1; cases h1

theorem rejection_truthful (g : Bool) (src : List UInt8) (h : Input g src) (cfg : ParseConfig) (D : Delegate)
    (hT : Truthful D) (hK : cfg.allowAllTypesAtRoot = true ∨ KindTruthful D) (d : D.σ)
    (hok : ∀ v d, ∃ a d', foldValue D v d = .ok a d') (e : Error Empty)
    (hv : Value.parseWithConfig g src cfg = .err e) :
    (parseBytes g src cfg D d).outcome = .err e.intoFallable := by
  rcases delegate_cases (cfg := cfg) h hT hK d with ⟨v', s', h1, h2⟩ | ⟨e', _, _, h1, h2, _⟩ | ⟨e', h1, f, hf, v, h3⟩
  · rw [hv] at h1; cases h1
  · rw [hv] at h1; cases h1
    rw [h2]; rfl
  · obtain ⟨a, d', h4⟩ := hok v d
    rw [h3] at h4
    cases f <;> cases h4

/-- **C37.** For a text that `Value` parsing accepts as `v`, a delegate that answers `object_is_empty`,
`array_is_empty` and `kind_of` truthfully is driven exactly through the bracketed pre-order traversal of `v`
(`foldValue`): same result, same final state; if a callback of the traversal fails, that error is the outcome. What is in
an object or array need not be known where trailing commas are allowed, nor the kind of a value where every kind may be at the
root. -/
theorem C37_callback_protocol (g : Bool) (src : List UInt8) (h : Input g src) (cfg : ParseConfig) (D : Delegate)
    (hT : cfg.allowTrailingCommas = true ∨ Truthful D) (hK : cfg.allowAllTypesAtRoot = true ∨ KindTruthful D) (d : D.σ) (v : Value)
    (hv : Value.parseWithConfig g src cfg = .ok v) :
    match foldValue D v d with
    | .ok a d' => ∃ s, parseBytes g src cfg D d = .ok a s ∧ s.delegate = d'
    | .err x d' => ∃ off s, parseBytes g src cfg D d = .err ⟨off, .errorFromDelegate x⟩ s ∧ s.delegate = d'
    | .panic p => parseBytes g src cfg D d = .panic p := by
  rcases hT with hc | hT
  · have hp := protocol_truthful g src h cfg (flagged D) (flagged_truthful D) (hK.imp id flagged_kind) d v hv
    have he := parse_flagged (D := D) h hc d
    rw [flagged_value] at hp
    cases hf : foldValue D v d with
    | ok a d' =>
      rw [hf] at hp
      exact onlyDelegate_ok.mp (he ▸ onlyDelegate_ok.mpr hp)
    | err x d' =>
      rw [hf] at hp
      obtain ⟨off, hp⟩ := hp
      exact ⟨off, onlyDelegate_err.mp (he ▸ onlyDelegate_err.mpr hp)⟩
    | panic p =>
      rw [hf] at hp
      exact onlyDelegate_panic.mp (he ▸ onlyDelegate_panic.mpr hp)
  · exact protocol_truthful g src h cfg D hT hK d v hv

/-- **C37**, rejected texts: a delegate whose callbacks all succeed gets the very error `Value` parsing gets. -/
theorem C37_rejection_independent (g : Bool) (src : List UInt8) (h : Input g src) (cfg : ParseConfig) (D : Delegate)
    (hT : cfg.allowTrailingCommas = true ∨ Truthful D) (hK : cfg.allowAllTypesAtRoot = true ∨ KindTruthful D) (d : D.σ)
    (hok : ∀ v d, ∃ a d', foldValue D v d = .ok a d') (e : Error Empty)
    (hv : Value.parseWithConfig g src cfg = .err e) :
    (parseBytes g src cfg D d).outcome = .err (sameError e) := by
  rcases hT with hc | hT
  · have hp := rejection_truthful g src h cfg (flagged D) (flagged_truthful D) (hK.imp id flagged_kind) d
      (fun v d => by rw [flagged_value]; exact hok v d) e hv
    have he := parse_flagged (D := D) h hc d
    cases h1 : parseBytes g src cfg (flagged D) d with
    | ok a s => rw [h1] at hp; cases hp
    | panic p => rw [h1] at hp; cases hp
    | err x s =>
      rw [h1] at hp he
      cases hp
      obtain ⟨s', h2, _⟩ := onlyDelegate_err.mp he.symm
      rw [h2]
      rfl
  · exact rejection_truthful g src h cfg D hT hK d hok e hv

/-- **C37**, the callbacks spelled out: a delegate that only lists what it is told receives, for an accepted
text, the list `events v`, and for a rejected text it ends with the same error. -/
theorem C37_events (g : Bool) (src : List UInt8) (h : Input g src) (cfg : ParseConfig) :
    match Value.parseWithConfig g src cfg with
    | .ok v => ∃ s, parseBytes g src cfg recorder [] = .ok v.kind s ∧ s.delegate = events v
    | .err e => (parseBytes g src cfg recorder []).outcome = .err e
    | .panic _ => False := by
  rcases value_cases (cfg := cfg) h with ⟨j, _, hv⟩ | ⟨e, _, hv, _⟩
  · have hf := C37_callback_protocol g src h cfg recorder (.inr recorder_truthful) (.inr recorder_kind) [] _ hv
    rw [recorder_fold.1] at hf
    rw [hv]
    exact hf
  · have hf := C37_rejection_independent g src h cfg recorder (.inr recorder_truthful) (.inr recorder_kind) []
      (fun v d => ⟨_, _, recorder_fold.1 v d⟩) e hv
    rw [hv]
    rw [show sameError e = e from intoFallable_self e] at hf
    exact hf

/-! ## C38 -/

theorem stringParser_truthful : Truthful stringParser :=
  ⟨fun _ _ _ _ _ _ h => (by cases h), fun _ _ _ _ _ _ h => (by cases h)⟩
theorem numberParser_truthful : Truthful numberParser :=
  ⟨fun _ _ _ _ _ _ h => (by cases h), fun _ _ _ _ _ _ h => (by cases h)⟩

theorem stringParser_fold (v : Value) (d : Unit) :
    foldValue stringParser v d = match v with
      | .string s => .ok s d
      | _ => .err .expectedString d := by
  cases v <;> rfl

theorem numberParser_fold (v : Value) (d : Unit) :
    foldValue numberParser v d = match v with
      | .number s => .ok s d
      | _ => .err .expectedNumber d := by
  cases v <;> rfl

theorem infallable_fallable (e : Error Empty) : (e.intoFallable : Error (ErrorKind Empty)).intoInfallable = e := by
  obtain ⟨off, k⟩ := e
  cases k with
  | errorFromDelegate x => exact x.elim
  | _ => rfl

/-- **C38.** `JsonString::from_json` compared with `Value::from_json` on every text: a string root is returned as
is, any other root is `ExpectedString`, and a rejected text is rejected (with the same error unless some other
value begins before the error, which is then `ExpectedString`). In particular it never panics. -/
theorem C38_string_from_json (s : Str) (h : SliceFits (utf8 s)) :
    match Value.fromJson s with
    | .ok (.string js) => JsonString.fromJson s = .ok js
    | .ok _ => ∃ off, JsonString.fromJson s = .err ⟨off, .expectedString⟩
    | .err e => JsonString.fromJson s = .err e ∨ ∃ off, JsonString.fromJson s = .err ⟨off, .expectedString⟩
    | .panic _ => False := by
  have hi := input_str h
  unfold Value.fromJson Value.fromJsonWithConfig JsonString.fromJson
  rcases delegate_cases (cfg := .new) hi stringParser_truthful (.inl rfl) () with
    ⟨v, s', h1, h2⟩ | ⟨e, s', _, h1, h2, _⟩ | ⟨e, h1, f, hf, v, h3⟩
  · rw [h1]
    rw [stringParser_fold] at h2
    cases v with
    | string js =>
      have h2 : parseBytes true (utf8 s) .new stringParser () = .ok js _ := h2
      rw [h2]; rfl
    | _ =>
      obtain ⟨off, s', h2, _⟩ := h2
      rw [h2]; exact ⟨off, rfl⟩
  · rw [h1, h2]
    refine .inl ?_
    show Outcome.err _ = _
    rw [infallable_fallable]
  · rw [h1]
    refine .inr ?_
    rw [stringParser_fold] at h3
    cases f with
    | err x d =>
      have : x = .expectedString := by
        cases v <;> (simp only [Fl.out] at h3; cases h3 <;> rfl)
      obtain ⟨off, s', h2, _⟩ := hf
      rw [h2, this]; exact ⟨off, rfl⟩
    | panic p => exfalso; cases v <;> simp [Fl.out] at h3

/-- **C38**, the same for `JsonNumber::from_json`. -/
theorem C38_number_from_json (s : Str) (h : SliceFits (utf8 s)) :
    match Value.fromJson s with
    | .ok (.number n) => JsonNumber.fromJson s = .ok n
    | .ok _ => ∃ off, JsonNumber.fromJson s = .err ⟨off, .expectedNumber⟩
    | .err e => JsonNumber.fromJson s = .err e ∨ ∃ off, JsonNumber.fromJson s = .err ⟨off, .expectedNumber⟩
    | .panic _ => False := by
  have hi := input_str h
  unfold Value.fromJson Value.fromJsonWithConfig JsonNumber.fromJson
  rcases delegate_cases (cfg := .new) hi numberParser_truthful (.inl rfl) () with
    ⟨v, s', h1, h2⟩ | ⟨e, s', _, h1, h2, _⟩ | ⟨e, h1, f, hf, v, h3⟩
  · rw [h1]
    rw [numberParser_fold] at h2
    cases v with
    | number js =>
      have h2 : parseBytes true (utf8 s) .new numberParser () = .ok js _ := h2
      rw [h2]; rfl
    | _ =>
      obtain ⟨off, s', h2, _⟩ := h2
      rw [h2]; exact ⟨off, rfl⟩
  · rw [h1, h2]
    refine .inl ?_
    show Outcome.err _ = _
    rw [infallable_fallable]
  · rw [h1]
    refine .inr ?_
    rw [numberParser_fold] at h3
    cases f with
    | err x d =>
      have : x = .expectedNumber := by
        cases v <;> (simp only [Fl.out] at h3; cases h3 <;> rfl)
      obtain ⟨off, s', h2, _⟩ := hf
      rw [h2, this]; exact ⟨off, rfl⟩
    | panic p => exfalso; cases v <;> simp [Fl.out] at h3

/-- **C38.** `JsonString::from_json(s)` is `Ok` exactly when `s` is one JSON string with whitespace around it;
what is returned is that string. -/
theorem C38_string_ok_iff (s : Str) (h : SliceFits (utf8 s)) :
    (∀ js, JsonString.fromJson s = .ok js → ∃ is, Text false (utf8 s) (.str is) ∧ StrDenotes js is)
    ∧ ∀ is, Text false (utf8 s) (.str is) → ∃ js, JsonString.fromJson s = .ok js ∧ StrDenotes js is := by
  have hi := input_str h
  have key := C38_string_from_json s h
  constructor
  · intro js hjs
    rcases value_cases (cfg := .new) hi with ⟨j, h1, h2⟩ | ⟨e, h1, h2, _⟩
    · have hv : Value.fromJson s = .ok (ofJson j) := h2
      rw [hv] at key
      cases j with
      | str is =>
        have hd : Denotes (ofJson (.str is)) (.str is) := ofJson_denotes.1 _ (text_valid h1.1)
        refine ⟨is, h1.1, ?_⟩
        cases hd with
        | str a b hs =>
          have key : JsonString.fromJson s = .ok (canonStr is) := key
          rw [key] at hjs
          cases hjs
          exact hs
      | _ =>
        obtain ⟨off, key⟩ := key
        rw [key] at hjs
        cases hjs
    · have hv : Value.fromJson s = .err e := h2
      rw [hv] at key
      rcases key with key | ⟨off, key⟩ <;> (rw [key] at hjs; cases hjs)
  · intro is ht
    have ha : Accepted .new (utf8 s) (.str is) := ⟨ht, fun n hn => Nat.zero_le n, .inl rfl⟩
    have hv : Value.fromJson s = .ok (ofJson (.str is)) := accepted_ok hi ha
    rw [hv] at key
    exact ⟨canonStr is, key, by
      have hd : Denotes (ofJson (.str is)) (.str is) := ofJson_denotes.1 _ (text_valid ht)
      cases hd with
      | str a b hs => exact hs⟩

/-- **C38.** `JsonNumber::from_json(s)` is `Ok` exactly when `s` is one JSON number with whitespace around it;
what is returned is that number. -/
theorem C38_number_ok_iff (s : Str) (h : SliceFits (utf8 s)) :
    (∀ js, JsonNumber.fromJson s = .ok js → ∃ n, Text false (utf8 s) (.num n) ∧ NumDenotes js n)
    ∧ ∀ n, Text false (utf8 s) (.num n) → ∃ js, JsonNumber.fromJson s = .ok js ∧ NumDenotes js n := by
  have hi := input_str h
  have key := C38_number_from_json s h
  constructor
  · intro js hjs
    rcases value_cases (cfg := .new) hi with ⟨j, h1, h2⟩ | ⟨e, h1, h2, _⟩
    · have hv : Value.fromJson s = .ok (ofJson j) := h2
      rw [hv] at key
      cases j with
      | num n =>
        have hd : Denotes (ofJson (.num n)) (.num n) := ofJson_denotes.1 _ (text_valid h1.1)
        refine ⟨n, h1.1, ?_⟩
        cases hd with
        | num a b hs =>
          have key : JsonNumber.fromJson s = .ok (canonNum n) := key
          rw [key] at hjs
          cases hjs
          exact hs
      | _ =>
        obtain ⟨off, key⟩ := key
        rw [key] at hjs
        cases hjs
    · have hv : Value.fromJson s = .err e := h2
      rw [hv] at key
      rcases key with key | ⟨off, key⟩ <;> (rw [key] at hjs; cases hjs)
  · intro n ht
    have ha : Accepted .new (utf8 s) (.num n) := ⟨ht, fun m hm => Nat.zero_le m, .inl rfl⟩
    have hv : Value.fromJson s = .ok (ofJson (.num n)) := accepted_ok hi ha
    rw [hv] at key
    exact ⟨canonNum n, key, by
      have hd : Denotes (ofJson (.num n)) (.num n) := ofJson_denotes.1 _ (text_valid ht)
      cases hd with
      | num a b hs => exact hs⟩

/-- the delegate's callback for a token that is a whole value or opens one -/
theorem first_token {P : Delegate} {src : List UInt8} {t : Token} {off : Nat} {x : P.Err} {d : P.σ}
    (ht : nextOrEof src true 0 = .ok t off)
    (hx : match t with
      | .null => P.null d = .err x d
      | .bool b => P.boolean b d = .err x d
      | .number n => P.number n d = .err x d
      | .string s => P.string s d = .err x d
      | .object => P.beginObject d = .err x d
      | .array => P.beginArray d = .err x d
      | _ => False) :
    ∃ o, o ≤ off ∧ (parseBytes true src .new P d).outcome = .err ⟨o, .errorFromDelegate x⟩ := by
  have hr : ∃ o s, o ≤ off ∧ readTokens true src .new P (parseFuel src) ⟨0, d, 128⟩ = .err ⟨o, .errorFromDelegate x⟩ s := by
    unfold parseFuel
    rw [show 3 * src.length + 4 = (3 * src.length + 2) + 1 + 1 from rfl, readTokens]
    have h0 : tokOffset P ⟨0, d, 128⟩ = .ok 0 ⟨0, d, 128⟩ := rfl
    rw [M.bind_ok h0, M.bind_ok (liftTok_ok ht)]
    have hd : ∀ {α : Type} (o : Nat) (m : M P.σ P.Err α) (r : Nat) (q : Nat), m d = .err x d →
        liftD P o m ⟨q, d, r⟩ = .err ⟨o, .errorFromDelegate x⟩ ⟨q, d, r⟩ := by
      intro α o m r q hm
      unfold liftD
      rw [hm]
    have hn : beginNest .new P 0 ⟨off, d, 128⟩ = .ok () ⟨off, d, 127⟩ := rfl
    cases t with
    | null => exact ⟨0, _, Nat.zero_le _, hd 0 _ _ _ hx⟩
    | bool b => exact ⟨0, _, Nat.zero_le _, hd 0 _ _ _ hx⟩
    | number b => exact ⟨0, _, Nat.zero_le _, hd 0 _ _ _ hx⟩
    | string b => exact ⟨0, _, Nat.zero_le _, hd 0 _ _ _ hx⟩
    | object =>
      simp only []
      rw [M.bind_ok hn]
      unfold M.mapErr
      rw [readObject]
      have h1 : tokOffset P ⟨off, d, 127⟩ = .ok off ⟨off, d, 127⟩ := rfl
      rw [M.bind_ok h1, M.bind_err (hd off _ _ _ hx)]
      exact ⟨off, _, Nat.le_refl _, rfl⟩
    | array =>
      simp only []
      rw [M.bind_ok hn]
      unfold M.mapErr
      rw [readArray]
      have h1 : tokOffset P ⟨off, d, 127⟩ = .ok off ⟨off, d, 127⟩ := rfl
      rw [M.bind_ok h1, M.bind_err (hd off _ _ _ hx)]
      exact ⟨off, _, Nat.le_refl _, rfl⟩
    | _ => exact hx.elim
  obtain ⟨o, s, ho, hr⟩ := hr
  refine ⟨o, ho, ?_⟩
  unfold parseBytes parseM
  rw [M.bind_err (by exact hr)]
  rfl

/-- **C38.** If the first token of the text is (or opens) a value other than a string, whatever follows it,
`JsonString::from_json` reports `ExpectedString`, no later than the end of that token. -/
theorem C38_string_wrong_kind (s : Str) (t : Token) (off : Nat) (ht : nextOrEof (utf8 s) true 0 = .ok t off)
    (hk : match t with
      | .null | .bool _ | .number _ | .object | .array => True
      | _ => False) :
    ∃ o, o ≤ off ∧ JsonString.fromJson s = .err ⟨o, .expectedString⟩ := by
  have := first_token (P := stringParser) (x := .expectedString) (d := ()) ht
    (by cases t <;> first | rfl | exact hk.elim)
  obtain ⟨o, ho, h⟩ := this
  exact ⟨o, ho, by unfold JsonString.fromJson; rw [h]; rfl⟩

/-- **C38.** The same for `JsonNumber::from_json` and `ExpectedNumber`. -/
theorem C38_number_wrong_kind (s : Str) (t : Token) (off : Nat) (ht : nextOrEof (utf8 s) true 0 = .ok t off)
    (hk : match t with
      | .null | .bool _ | .string _ | .object | .array => True
      | _ => False) :
    ∃ o, o ≤ off ∧ JsonNumber.fromJson s = .err ⟨o, .expectedNumber⟩ := by
  have := first_token (P := numberParser) (x := .expectedNumber) (d := ()) ht
    (by cases t <;> first | rfl | exact hk.elim)
  obtain ⟨o, ho, h⟩ := this
  exact ⟨o, ho, by unfold JsonNumber.fromJson; rw [h]; rfl⟩

end

/-! ## Concrete cases -/

section Examples
attribute [local instance] arch64

/-- a delegate whose `array_value` fails at the third call -/
@[reducible] def fails3 : Delegate := { recorder with
  σ := List Event
  Err := Nat
  null := fun l => .ok .null (l ++ [.null])
  boolean := fun b l => .ok .boolean (l ++ [.boolean b])
  number := fun b l => .ok .number (l ++ [.number b])
  string := fun b l => .ok .string (l ++ [.string b])
  beginObject := fun l => .ok (0 : Nat) (l ++ [.beginObject])
  objectKey := fun o k l => .ok (o, ()) (l ++ [.objectKey k])
  objectValue := fun o _ _ l => .ok (o + 1 : Nat) (l ++ [.objectValue])
  objectIsEmpty := fun _ o => .ok (o == (0 : Nat))
  endObject := fun _ l => .ok .object (l ++ [.endObject])
  beginArray := fun l => .ok (0 : Nat) (l ++ [.beginArray])
  arrayValue := fun o _ l => if o = (2 : Nat) then .err 7 l else .ok (o + 1 : Nat) (l ++ [.arrayValue])
  arrayIsEmpty := fun _ o => .ok (o == (0 : Nat))
  endArray := fun _ l => .ok .array (l ++ [.endArray])
  kindOf := fun _ v => .ok v }

/-- what is on record at the end of a run -/
def endRecord {σ ε α β : Type} : Out (PState (σ × List β)) ε α → List β
  | .ok _ s => s.delegate.2
  | .err _ s => s.delegate.2
  | .panic _ => []

-- the third `array_value` fails: begin, (null, value) twice, null, failure; nothing after it
example : endRecord (parseBytes false (b8 "[null, null, null, null]") .new (traced fails3) ([], []))
    = [none, none, none, none, none, none, some 7]
    ∧ (parseBytes false (b8 "[null, null, null, null]") .new fails3 []).outcome.error?.map (·.kind)
      = some (.errorFromDelegate 7) := by decide +kernel

example : Input false (b8 "[null, null, null, null]") := input_bytes (by unfold SliceFits; decide +kernel)

-- the protocol on a nested text
/-- the list a recorder ends up with -/
def endLog {σ ε α : Type} : Out (PState (List σ)) ε α → List σ
  | .ok _ s => s.delegate
  | .err _ s => s.delegate
  | .panic _ => []

example : endLog (parseBytes false (b8 "[true, {}, [null]]") .new recorder [])
    = [.beginArray, .boolean true, .arrayValue, .beginObject, .endObject, .arrayValue,
      .beginArray, .null, .arrayValue, .endArray, .arrayValue, .endArray]
    ∧ events (.array [.boolean true, .object [], .array [.null]])
    = [.beginArray, .boolean true, .arrayValue, .beginObject, .endObject, .arrayValue,
      .beginArray, .null, .arrayValue, .endArray, .arrayValue, .endArray] := by decide +kernel

-- single-value parsers
example : (JsonString.fromJson " \"a\\u0062\" ".toList).isOk = true := by decide +kernel
example : JsonString.fromJson "{oops".toList = .err ⟨1, .expectedString⟩ := Outcome.error_eq (by decide +kernel)
example : JsonString.fromJson "12 34".toList = .err ⟨0, .expectedString⟩ := Outcome.error_eq (by decide +kernel)
example : JsonString.fromJson "\"a\" x".toList = .err ⟨4, .trailingNonWhitespace⟩ := Outcome.error_eq (by decide +kernel)
example : nextOrEof (b8 "{oops") true 0 = .ok .object 1 := by rfl
example : (JsonNumber.fromJson " -1.5e3 ".toList).isOk = true := by decide +kernel
example : JsonNumber.fromJson "[1]".toList = .err ⟨1, .expectedNumber⟩ := Outcome.error_eq (by decide +kernel)
example : JsonNumber.fromJson "null".toList = .err ⟨0, .expectedNumber⟩ := Outcome.error_eq (by decide +kernel)

end Examples

/-! ## Instances: each theorem above applied to a concrete case that meets its hypotheses -/
section Instances
attribute [local instance] arch64

example := C36_delegate_error_stops false (b8 "[null, null, null, null]") (by lit) .new fails3 []
example := C37_callback_protocol true exSrc (exSrc_input _) .new recorder (.inr recorder_truthful) (.inl rfl) [] exVal (exSrc_parses _)
example := C37_callback_protocol true exSrc (exSrc_input _) .strict recorder (.inr recorder_truthful) (.inr recorder_kind) [] exVal
  (value_same (by decide +kernel))
example := C37_rejection_independent true exBad (exBad_input _) .new unitDelegate (.inr unit_truthful) (.inl rfl) ()
  (fun v d => ⟨_, (), unit_fold.1 v d⟩) ⟨13, .unexpected 0x7D⟩ (Outcome.error_eq (by decide +kernel))
example : ∃ s, parseBytes true exSrc .new recorder [] = .ok .object s ∧ s.delegate = events exVal := by
  have key : ∀ src v, Input true src → Value.parseWithConfig true src .new = .ok v →
      ∃ s, parseBytes true src .new recorder [] = .ok v.kind s ∧ s.delegate = events v := fun src v h hv => by
    have := C37_events true src h .new
    rw [hv] at this
    exact this
  exact key _ _ (exSrc_input _) (exSrc_parses _)
-- C38_string_from_json, C38_number_from_json
example : SliceFits (utf8 " \"a\\u0062\" ".toList) ∧ SliceFits (utf8 " -1.5e3 ".toList) := ⟨by lit, by lit⟩
example := C38_string_ok_iff " \"a\\u0062\" ".toList (by lit)
example := C38_number_ok_iff " -1.5e3 ".toList (by lit)
example := C38_string_wrong_kind "{oops".toList .object 1 (by rfl) trivial
example := C38_number_wrong_kind "[1]".toList .array 1 (by rfl) trivial

end Instances
end JustJson
