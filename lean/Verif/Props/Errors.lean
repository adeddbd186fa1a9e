import Verif.Props.Tokenizer
import Verif.Lemmas.Errors
import Verif.Lemmas.Flagged
/-! # What an error says about the source: C53, C54 -/

namespace JustJson
open Spec

set_option linter.unusedSectionVars false

/-- an ASCII byte is a whole character -/
theorem utf8_split_ascii : ∀ (s : Str) (p : List UInt8) (c : UInt8) (r : List UInt8), utf8 s = p ++ c :: r → c.toNat < 0x80 →
    ∃ a b, s = a ++ b ∧ utf8 a = p ∧ utf8 b = c :: r
  | [], p, c, r, h, _ => by simp [utf8] at h
  | x :: s, [], c, r, h, _ => ⟨[], x :: s, rfl, rfl, h⟩
  | x :: s, q :: p, c, r, h, hc => by
    rw [utf8_cons] at h
    by_cases hx : x.toNat < 0x80
    · rw [encodeChar_ascii hx] at h
      simp only [List.cons_append, List.nil_append, List.cons.injEq] at h
      obtain ⟨a, b, h1, h2, h3⟩ := utf8_split_ascii s p c r h.2 hc
      exact ⟨x :: a, b, by rw [h1]; rfl, by rw [utf8_cons, encodeChar_ascii hx, h2, ← h.1]; rfl, h3⟩
    · rcases List.append_eq_append_iff.mp h with ⟨as, h1, h2⟩ | ⟨bs, h1, h2⟩
      · obtain ⟨a, b, h3, h4, h5⟩ := utf8_split_ascii s as c r h2 hc
        exact ⟨x :: a, b, by rw [h3]; rfl, by rw [utf8_cons, h4, h1], h5⟩
      · cases bs with
        | nil => exact ⟨[x], s, rfl, by rw [utf8_cons, h1]; simp [utf8], h2.symm⟩
        | cons y bs =>
          simp only [List.cons_append, List.cons.injEq] at h2
          have := encodeChar_high (Nat.le_of_not_lt hx) y (by rw [h1]; simp)
          rw [h2.1] at hc
          omega

theorem utf8_split_after {s : Str} {p r : List UInt8} {c : UInt8} (h : utf8 s = (p ++ [c]) ++ r) (hc : c.toNat < 0x80) :
    ∃ a b, s = a ++ b ∧ utf8 a = p ++ [c] ∧ utf8 b = r := by
  obtain ⟨a, b, h1, h2, h3⟩ := utf8_split_ascii s p c r (by simpa using h) hc
  cases b with
  | nil => simp [utf8] at h3
  | cons x b =>
    rw [utf8_cons] at h3
    by_cases hx : x.toNat < 0x80
    · rw [encodeChar_ascii hx] at h3
      simp only [List.cons_append, List.nil_append, List.cons.injEq] at h3
      exact ⟨a ++ [x], b, by rw [h1]; simp, by rw [utf8_append, h2, ← h3.1, utf8_cons, encodeChar_ascii hx]; simp [utf8], h3.2⟩
    · cases he : encodeChar x with
      | nil => exact absurd he (encodeChar_ne_nil x)
      | cons y t =>
        rw [he] at h3
        simp only [List.cons_append, List.cons.injEq] at h3
        have := encodeChar_high (Nat.le_of_not_lt hx) y (by rw [he]; simp)
        rw [h3.1] at this
        omega

theorem before_split {src : List UInt8} {o : Nat} {c : UInt8} (h : Before src o [c]) : ∃ p, src.take o = p ++ [c] := by
  obtain ⟨p, hp⟩ := h
  exact ⟨p, hp.symm⟩

theorem edge_split {s : Str} {o : Nat} (ho : o ≤ (utf8 s).length) (h : Edge (utf8 s) o) :
    ∃ a b, s = a ++ b ∧ o = (utf8 a).length := by
  rcases h with rfl | rfl | ⟨c, hc, h⟩ | ⟨c, hc, r, h⟩
  · exact ⟨[], s, rfl, rfl⟩
  · exact ⟨s, [], by simp, rfl⟩
  · obtain ⟨p, hp⟩ := before_split h
    obtain ⟨a, b, h1, h2, _⟩ := utf8_split_after (s := s) (p := p) (r := (utf8 s).drop o) (by rw [← hp, List.take_append_drop]) hc
    exact ⟨a, b, h1, by rw [h2, ← hp, List.length_take]; omega⟩
  · obtain ⟨a, b, h1, h2, _⟩ := utf8_split_ascii s ((utf8 s).take o) c r
      (by rw [show c :: r = [c] ++ r from rfl, h, List.take_append_drop]) hc
    exact ⟨a, b, h1, by rw [h2, List.length_take]; omega⟩

theorem str_not_bad {s : Str} {o : Nat} (h : BadUtf8 (utf8 s) o) : False := by
  obtain ⟨⟨c, hc, h⟩, run, r, hd, hne, hrun, hr, hno⟩ := h
  obtain ⟨p, hp⟩ := before_split h
  obtain ⟨a, b, _, _, hb⟩ := utf8_split_after (s := s) (p := p) (r := (utf8 s).drop o) (by rw [← hp, List.take_append_drop]) hc
  rw [hd] at hb
  cases r with
  | nil => exact hno ⟨b, by simpa using hb⟩
  | cons x r =>
    obtain ⟨a', b', _, h2, _⟩ := utf8_split_ascii b run x r hb (hr x rfl)
    exact hno ⟨a', h2⟩

section
variable [Arch]

theorem value_terr {g : Bool} {src : List UInt8} {cfg : ParseConfig} (h : Input g src) {e : Error Empty}
    (he : Value.parseWithConfig g src cfg = .err e) : TErr cfg src e := by
  have hv := validate_eq (cfg := cfg) h
  rw [he] at hv
  unfold validateWithConfig at hv
  have hp : ∃ s, parseBytes g src cfg unitDelegate () = .err e s := by
    cases hp : parseBytes g src cfg unitDelegate () with
    | ok v s => rw [hp] at hv; cases hv
    | panic p => rw [hp] at hv; cases hv
    | err e' s => rw [hp] at hv; injection hv with hv; exact ⟨s, by rw [hv]⟩
  obtain ⟨s, hp⟩ := hp
  cases g with
  | false => exact validate_errors h.lim hp
  | true => rw [parseBytes_agree h.lim (h.fit rfl)] at hp; exact validate_errors h.lim hp

theorem errSpec_fallable {δ : Type} {cfg : ParseConfig} {src : List UInt8} {o : Nat} {k : ErrorKind Empty}
    (h : ErrSpec cfg src o k) : ErrSpec cfg src o (k.intoFallable : ErrorKind δ) := by
  cases k with
  | errorFromDelegate x => exact x.elim
  | _ => exact h

/-! ## C53 -/

/-- **C53.** When a parse into a `Value` fails, the error's kind and offset describe the source: for each kind,
what stands at and before the offset (`ErrSpec`). -/
theorem C53_error_describes_source (g : Bool) (src : List UInt8) (h : Input g src) (cfg : ParseConfig) (e : Error Empty)
    (he : Value.parseWithConfig g src cfg = .err e) : ErrSpec cfg src e.offset e.kind := (value_terr h he).1

/-- **C53**, for `parse_json_with_config` with no delegate (`()`): validation. -/
theorem C53_validation (g : Bool) (src : List UInt8) (h : Input g src) (cfg : ParseConfig) (e : Error Empty)
    (he : validateWithConfig g src cfg = .err e) : ErrSpec cfg src e.offset e.kind := by
  rw [validate_eq h] at he
  cases hv : Value.parseWithConfig g src cfg with
  | ok v => rw [hv] at he; cases he
  | panic p => rw [hv] at he; cases he
  | err e' => rw [hv] at he; injection he with he; rw [← he]; exact (value_terr h hv).1

/-- **C53**, for documents of every capacity: the error describes the source, or is `PaylodTooLarge`, which a
growing document never gives. -/
theorem C53_document (cap : Option Nat) (g : Bool) (src : List UInt8) (h : Input g src) (cfg : ParseConfig) (e : Error Empty)
    (he : docFromJsonWithConfig cap g src cfg = .err e) :
    ErrSpec cfg src e.offset e.kind ∨ (cap ≠ none ∧ e.kind = .paylodTooLarge) := by
  rcases doc_cases (cap := cap) (cfg := cfg) h with ⟨v, h1, ⟨_, h2⟩ | ⟨h2, off, h3⟩⟩ | ⟨e', h1, h2 | ⟨h2, off, h3⟩⟩
  · rw [h2] at he; cases he
  · rw [h3] at he
    injection he with he
    refine .inr ⟨?_, by rw [← he]⟩
    rintro rfl
    exact h2 (fun N hN => by cases hN)
  · rw [h2] at he
    injection he with he
    rw [← he]; exact .inl (value_terr h h1).1
  · rw [h3] at he
    injection he with he
    exact .inr ⟨h2, by rw [← he]⟩

theorem errSpec_truthful (D : Delegate) (g : Bool) (src : List UInt8) (h : Input g src) (cfg : ParseConfig) (hT : Truthful D)
    (hK : cfg.allowAllTypesAtRoot = true ∨ KindTruthful D) (d : D.σ) (e : Error D.Err) (s : PState D.σ)
    (he : parseBytes g src cfg D d = .err e s) :
    ErrSpec cfg src e.offset e.kind ∨ ∃ x, e.kind = .errorFromDelegate x := by
  have on : ∀ {x dd}, Fl.On (.err x dd) (parseBytes g src cfg D d) → ∃ x, e.kind = .errorFromDelegate x := by
    intro x dd ⟨off, s, h, _⟩
    rw [he] at h
    injection h with h
    exact ⟨x, by rw [h]⟩
  rcases delegate_cases h hT hK d with ⟨v, s', h1, h2⟩ | ⟨e', s', d', h1, h2, _⟩ | ⟨e', h1, f, hf, v, h3⟩
  · unfold Match at h2
    cases hF : foldValue D v d with
    | ok b d' => rw [hF] at h2; simp only at h2; rw [he] at h2; cases h2
    | err x d' => rw [hF] at h2; exact .inr (on h2)
    | panic p => rw [hF] at h2; have h2 : parseBytes g src cfg D d = .panic p := h2; rw [he] at h2; cases h2
  · rw [he] at h2
    injection h2 with h2
    rw [h2]
    exact .inl (errSpec_fallable (value_terr h h1).1)
  · cases f with
    | err x dd => exact .inr (on hf)
    | panic p => have hf : parseBytes g src cfg D d = .panic p := hf; rw [he] at hf; cases hf

/-- **C53**, for every delegate that answers truthfully what the configuration makes the parser ask: the error comes from the
delegate or describes the source. -/
theorem C53_delegate (D : Delegate) (g : Bool) (src : List UInt8) (h : Input g src) (cfg : ParseConfig)
    (hT : cfg.allowTrailingCommas = true ∨ Truthful D)
    (hK : cfg.allowAllTypesAtRoot = true ∨ KindTruthful D) (d : D.σ) (e : Error D.Err) (s : PState D.σ)
    (he : parseBytes g src cfg D d = .err e s) :
    ErrSpec cfg src e.offset e.kind ∨ ∃ x, e.kind = .errorFromDelegate x := by
  rcases hT with hc | hT
  · have hp := parse_flagged (D := D) h hc d
    rw [he] at hp
    obtain ⟨s', h1, _⟩ := onlyDelegate_err.mp hp
    exact errSpec_truthful (flagged D) g src h cfg (flagged_truthful D) (hK.imp id flagged_kind) d e s' h1
  · exact errSpec_truthful D g src h cfg hT hK d e s he

/-- **C53**, for tokenizers: after any calls, errors included, an error describes the source. The configuration
plays no role. -/
theorem C53_tokenizer (g : Bool) (src : List UInt8) (h : Input g src) (cfg : ParseConfig) (cs : List Call) (c : Call) (e : Error Empty)
    (he : (c.run src g (offsetAfter src g cs)).1 = .error e) : ErrSpec cfg src e.offset e.kind := by
  have hl : offsetAfter src g cs ≤ src.length := (history_offset h cs (Nat.zero_le _)).2
  have hf : (c.run src false (offsetAfter src g cs)).1 = .error e := by
    cases g with
    | false => exact he
    | true =>
      obtain ⟨s, hs⟩ := h.2 rfl
      rw [← tok_agree hs h.1 hl]; exact he
  clear he
  revert hl hf
  generalize offsetAfter src g cs = off
  intro hl he
  cases tok_cases (input_bytes h.1) hl with
  | eof hw hn heo hp =>
    cases c <;> simp only [Call.run, hn, heo, hp] at he
    · cases he
    · injection he with he; rw [← he]; exact (err_next' hl h.lim heo).1
    · cases he
  | tok w b t l off' hw hd hb hv ha hs hlt hle hn heo hp =>
    cases c <;> simp only [Call.run, hn, heo, hp] at he <;> cases he
  | err w b t e' off' hw hd hb hlt hle heo hrp hn hne hp =>
    cases c <;> simp only [Call.run, hn, hne, hp] at he
    · injection he with he; rw [← he]; exact (err_next' hl h.lim hne).1
    · injection he with he; rw [← he]; exact (err_next' hl h.lim hne).1
    · cases he

/-- **C53.** A `&str` holds only UTF-8, so the one cause of a `Utf8` error is the escape of half a surrogate pair. -/
theorem C53_str_utf8 (s : Str) (h : SliceFits (utf8 s)) (cfg : ParseConfig) (o : Nat)
    (he : Value.fromJsonWithConfig s cfg = .err ⟨o, .utf8⟩) : LoneSurrogate (utf8 s) o := by
  rcases (value_terr (input_str h) he).1 with h | h
  · exact h
  · exact absurd h str_not_bad

/-! ## C54 -/

/-- **C54.** For `&str` sources the offset of a parse error is a character boundary, so that the source can be
split there. -/
theorem C54_error_at_boundary (s : Str) (h : SliceFits (utf8 s)) (cfg : ParseConfig) (e : Error Empty)
    (he : Value.fromJsonWithConfig s cfg = .err e) : ∃ a b, s = a ++ b ∧ e.offset = (utf8 a).length := by
  have hle : e.offset ≤ (utf8 s).length := by
    rcases value_cases (cfg := cfg) (input_str h) with ⟨j, _, h2⟩ | ⟨e', _, h2, h3⟩
    · unfold Value.fromJsonWithConfig at he; rw [h2] at he; cases he
    · unfold Value.fromJsonWithConfig at he; rw [h2] at he; injection he with he; rw [← he]; exact h3
  exact edge_split hle (value_terr (input_str h) he).2

/-- **C54**, for growing documents. -/
theorem C54_document (s : Str) (h : SliceFits (utf8 s)) (cfg : ParseConfig) (e : Error Empty)
    (he : docFromJsonWithConfig none true (utf8 s) cfg = .err e) : ∃ a b, s = a ++ b ∧ e.offset = (utf8 a).length := by
  rcases doc_cases (cap := none) (cfg := cfg) (input_str h) with ⟨v, h1, ⟨_, h2⟩ | ⟨h2, off, h3⟩⟩ | ⟨e', h1, h2 | ⟨h2, off, h3⟩⟩
  · rw [h2] at he; cases he
  · exact absurd (fun N hN => by cases hN) h2
  · rw [h2] at he
    injection he with he
    rw [← he]; exact C54_error_at_boundary s h cfg e' h1
  · exact absurd rfl h2

/-- no reply so far was an error -/
def Clean (src : List UInt8) (g : Bool) (cs : List Call) (off : Nat) : Prop :=
  ∀ c e, (c, Reply.error e) ∉ (history src g cs off).1

theorem clean_start {src : List UInt8} {g : Bool} (h : Input g src) : ∀ (cs : List Call) {off : Nat}, off ≤ src.length →
    Start src off → Clean src g cs off → Start src (history src g cs off).2
  | [], off, _, hs, _ => hs
  | c :: cs, off, hl, hs, hc => by
    simp only [history]
    have hl' := call_offset h hl c
    refine clean_start h cs hl'.2 ?_ (fun c' e hm => hc c' e (by simp only [history]; exact List.mem_cons_of_mem _ hm))
    have hne : ∀ e, (c.run src g off).1 ≠ .error e := fun e he => hc c e (by simp only [history]; rw [he]; exact List.mem_cons_self ..)
    have ws : ∀ {w r : List UInt8}, Ws w → src.drop off = w ++ r → off + w.length ≤ src.length → Start src (off + w.length) := by
      intro w r hw hd hle
      exact hs.ws hw (Adv.of_drop hd)
    cases tok_cases h hl with
    | eof hw hn heo hp =>
      have e : off + (src.drop off).length = src.length := by simp; omega
      have := ws (r := []) hw (by simp) (by omega)
      rw [e] at this
      cases c <;> simp only [Call.run, hn, heo, hp] <;> exact this
    | tok w b t l off' hw hd hb hv ha hs' hlt hle hn heo hp =>
      have h1 : Start src off' := by
        obtain ⟨i, a, hi, ha'⟩ := Lex.last_ascii hv
        rw [hi] at ha
        exact .inr ⟨a, ha', (Before.of_adv ha).sub⟩
      have h2 := ws hw hd (by omega)
      cases c <;> simp only [Call.run, hn, heo, hp]
      · exact h1
      · exact h1
      · exact h2
    | err w b t e' off' hw hd hb hlt hle heo hrp hn hne' hp =>
      have h2 := ws hw hd (by omega)
      cases c <;> simp only [Call.run, hn, hne', hp] at hne ⊢
      · exact absurd rfl (hne _)
      · exact absurd rfl (hne _)
      · exact h2

/-- **C54**, for tokenizers over a `&str`: the first error is at a character boundary. (A later one need not be:
the tokenizer may have stopped within a character.) -/
theorem C54_tokenizer (s : Str) (h : SliceFits (utf8 s)) (cs : List Call) (hcl : Clean (utf8 s) true cs 0) (c : Call) (e : Error Empty)
    (he : (c.run (utf8 s) true (offsetAfter (utf8 s) true cs)).1 = .error e) : ∃ a b, s = a ++ b ∧ e.offset = (utf8 a).length := by
  have hi := input_str h
  have hl : offsetAfter (utf8 s) true cs ≤ (utf8 s).length := (history_offset hi cs (Nat.zero_le _)).2
  have hst : Start (utf8 s) (offsetAfter (utf8 s) true cs) := clean_start hi cs (Nat.zero_le _) (.inl rfl) hcl
  rw [tok_agree rfl h hl] at he
  revert he hl hst
  generalize offsetAfter (utf8 s) true cs = off
  intro he hl hst
  let cfg : ParseConfig := ⟨false, none, true⟩
  cases tok_cases (input_bytes h) hl with
  | eof hw hn heo hp =>
    cases c <;> simp only [Call.run, hn, heo, hp] at he
    · cases he
    · injection he with he; rw [← he]; exact edge_split (Nat.le_refl _) ((err_next' (cfg := cfg) hl hi.lim heo).2 hst)
    · cases he
  | tok w b t l off' hw hd hb hv ha hs hlt hle hn heo hp =>
    cases c <;> simp only [Call.run, hn, heo, hp] at he <;> cases he
  | err w b t e' off' hw hd hb hlt hle heo hrp hn hne hp =>
    cases c <;> simp only [Call.run, hn, hne, hp] at he
    · injection he with he; rw [← he]; exact edge_split heo ((err_next' (cfg := cfg) hl hi.lim hne).2 hst)
    · injection he with he; rw [← he]; exact edge_split heo ((err_next' (cfg := cfg) hl hi.lim hne).2 hst)
    · cases he

end

/-! ## Concrete cases -/

section
local instance : Arch := arch64

/-- the error of parsing a text with the default configuration -/
def errOf (t : String) : Option (Error Empty) := (Value.fromJsonWithConfig t.toList ParseConfig.new).error?

/-- One text for every kind of error that parsing into a `Value` can give. -/
theorem errors_reached :
    errOf "[1, 2" = some ⟨5, .unclosedArray⟩
    ∧ errOf "{\"a\": 2" = some ⟨7, .unclosedObject⟩
    ∧ errOf "[\"abc" = some ⟨5, .unclosedString⟩
    ∧ errOf "" = some ⟨0, .unexpectedEof⟩
    ∧ errOf "[trXe]" = some ⟨3, .unexpected 0x58⟩
    ∧ errOf "[ é]" = some ⟨2, .unexpected 0xC3⟩
    ∧ errOf "{ ,}" = some ⟨1, .expectedObjectKey⟩
    ∧ errOf "{1:2}" = some ⟨1, .objectKeysMustBeStrings⟩
    ∧ errOf "{\"a\" 2}" = some ⟨4, .expectedColon⟩
    ∧ errOf "{\"a\":2 3}" = some ⟨6, .expectedCommaOrEndOfObject⟩
    ∧ errOf "[2 3]" = some ⟨2, .expectedCommaOrEndOfArray⟩
    ∧ errOf "[2, ]" = some ⟨3, .illegalTrailingComma⟩
    ∧ errOf "[-x]" = some ⟨2, .expectedDigit⟩
    ∧ errOf "[1.x]" = some ⟨3, .expectedDecimalDigit⟩
    ∧ errOf "[1e+x]" = some ⟨4, .expectedExponent⟩
    ∧ errOf "[\"\\q\"]" = some ⟨3, .invalidEscape⟩
    ∧ errOf "[\"\\u00G0\"]" = some ⟨6, .invalidHexadecimal⟩
    ∧ errOf "[\"é\\uD800x\"]" = some ⟨5, .utf8⟩
    ∧ errOf "[] x" = some ⟨3, .trailingNonWhitespace⟩ := by decide +kernel

/-- and the two that depend on the configuration -/
theorem errors_reached_config :
    (Value.fromJsonWithConfig "[[[ ]]]".toList ⟨false, some 2, true⟩).error? = some ⟨2, .recursionLimitReached⟩
    ∧ (Value.fromJsonWithConfig "  12".toList ⟨false, none, false⟩).error? = some ⟨0, .payloadsShouldBeObjectOrArray⟩ := by
  decide +kernel

/-- a run of bytes that is not UTF-8 -/
theorem error_bad_utf8 :
    (Value.fromJsonBytesWithConfig [0x5B, 0x22, 0x61, 0xFF, 0xC3, 0x22, 0x5D] ParseConfig.new).error? = some ⟨3, .utf8⟩ := by
  decide +kernel

/-- the hypotheses of the theorems hold of these -/
example : ErrSpec (δ := Empty) ParseConfig.new (utf8 "[1e+x]".toList) 4 .expectedExponent :=
  C53_error_describes_source true _ (input_str (by unfold SliceFits; decide +kernel)) _ ⟨4, .expectedExponent⟩
    (Outcome.error_eq (by decide +kernel))

example : LoneSurrogate (utf8 "[\"é\\uD800x\"]".toList) 5 :=
  C53_str_utf8 _ (by unfold SliceFits; decide +kernel) ParseConfig.new 5 (Outcome.error_eq (by decide +kernel))

/-- a tokenizer that has read some tokens, then an error within the text -/
example : (Call.next.run (b8 "[\"é\", é") true (offsetAfter (b8 "[\"é\", é") true [.next, .next, .peek, .next])).1
      = .error ⟨7, .unexpected 0xC3⟩
    ∧ (history (b8 "[\"é\", é") true [.next, .next, .peek, .next] 0).1.all (fun r => match r.2 with | .error _ => false | _ => true) = true := by
  decide +kernel
end

/-! ## Instances: each theorem above applied to a concrete case that meets its hypotheses -/
section Instances
attribute [local instance] arch64

theorem exBad_fails (g : Bool) : Value.parseWithConfig g exBad .new = .err ⟨13, .unexpected 0x7D⟩ := by
  cases g <;> exact Outcome.error_eq (by decide +kernel)

example := C53_error_describes_source true exBad (exBad_input _) .new _ (exBad_fails _)
example := C53_validation true exBad (exBad_input _) .new ⟨13, .unexpected 0x7D⟩ (Outcome.error_eq (by decide +kernel))
example := C53_document (some 9) true exBad (exBad_input _) .new ⟨13, .unexpected 0x7D⟩ (Outcome.error_eq (by decide +kernel))
example := C53_delegate unitDelegate true exBad (exBad_input _) .new (.inr unit_truthful) (.inl rfl) () _ _
  (Out.exists_err (o := parseBytes true exBad .new unitDelegate ()) (by decide +kernel)).choose_spec.choose_spec
example := C53_tokenizer true (b8 "[ nul]") (by lit) .new [.next] .next ⟨5, .unexpected 0x5D⟩ (by decide +kernel)
example := C53_str_utf8 "[\"\\ud800x\"]".toList (by lit) .new 3 (Outcome.error_eq (by decide +kernel))
example := C54_error_at_boundary "[\"é\" é]".toList (by lit) .new ⟨6, .unexpected 0xC3⟩ (Outcome.error_eq (by decide +kernel))
example := C54_document "[\"é\" é]".toList (by lit) .new ⟨6, .unexpected 0xC3⟩ (Outcome.error_eq (by decide +kernel))
example := C54_tokenizer "[\"é\" é]".toList (by lit) [.next, .next]
  (fun c e h => by
    have : (history (b8 "[\"é\" é]") true [.next, .next] 0).1 = [(.next, .token .array), (.next, .token (.string (canonStr [.plain 'é'])))] := by
      decide +kernel
    rw [this] at h; simp at h)
  .next ⟨6, .unexpected 0xC3⟩ (by decide +kernel)

end Instances
end JustJson
