import Verif.Props.Ex
import Verif.Lemmas.Tokens
/-! # Tokenizers: C06, C13, C14, C15, C31 -/

namespace JustJson
open Spec

set_option linter.unusedSectionVars false

section
variable [Arch]

/-! ## C06 -/

/-- **C06.** `Value::from_json_with_config(s, c)` and `Value::from_json_bytes_with_config(s.as_bytes(), c)` return
the same result: the same `Value`, metadata included, or the same error kind and offset. -/
theorem C06_str_bytes_agree (s : Str) (h : SliceFits (utf8 s)) (cfg : ParseConfig) :
    Value.fromJsonWithConfig s cfg = Value.fromJsonBytesWithConfig (utf8 s) cfg := by
  have hb := (input_str h).fit rfl
  unfold Value.fromJsonWithConfig Value.fromJsonBytesWithConfig Value.parseWithConfig
  rw [parseBytes_agree (fits_lim.mp h) hb]

/-- **C06**, for every delegate: result and final state of the delegate. -/
theorem C06_str_bytes_agree_delegate (s : Str) (h : SliceFits (utf8 s)) (cfg : ParseConfig) (D : Delegate) (d : D.σ) :
    parseBytes true (utf8 s) cfg D d = parseBytes false (utf8 s) cfg D d :=
  parseBytes_agree (fits_lim.mp h) ((input_str h).fit rfl) d

theorem tok_agree {src : List UInt8} {s : Str} (hs : src = utf8 s) (h : SliceFits src) {off : Nat} (hl : off ≤ src.length)
    (c : Call) : c.run src true off = c.run src false off := by
  have hlim := fits_lim.mp h
  obtain ⟨w, hw, h | ⟨b, t, h, hb, ha, hd⟩⟩ := ws_cases hl
  · cases c with
    | next =>
      unfold Call.run tokNext
      rw [M.bind_ok (nextNonWs_nil hw h.1 hl), M.bind_ok (nextNonWs_nil hw h.1 hl)]
    | nextOrEof =>
      unfold Call.run
      simp only [nextOrEof_eof hw h.1 hl]
    | peek => rfl
  · have hr := readPeek_agree_any hs hlim hd
    cases c with
    | next =>
      unfold Call.run tokNext
      simp only []
      rw [M.bind_ok (nextNonWs_cons hw h hb), M.bind_ok (nextNonWs_cons hw h hb)]
      simp only []
      rw [M.bind_eq, M.bind_eq, hr]
    | nextOrEof =>
      unfold Call.run nextOrEof
      simp only []
      rw [M.bind_ok (readNonWs_cons hw h hb), M.bind_ok (readNonWs_cons hw h hb), hr]
    | peek => rfl

/-- A call keeps `offset()` within the source and does not move it back. -/
theorem call_offset {src : List UInt8} {g : Bool} (hi : Input g src) {off : Nat} (hl : off ≤ src.length) (c : Call) :
    off ≤ (c.run src g off).2 ∧ (c.run src g off).2 ≤ src.length := by
  cases tok_cases hi hl with
  | eof hw hn he hp => cases c <;> simp only [Call.run, hn, he, hp] <;> exact ⟨hl, Nat.le_refl _⟩
  | tok w b t l off' hw hd hb hv ha hs hlt hle hn he hp =>
    cases c <;> simp only [Call.run, hn, he, hp] <;> omega
  | err w b t e off' hw hd hb hlt hle heo hrp hn he hp =>
    cases c <;> simp only [Call.run, hn, he, hp] <;> omega

theorem history_offset {src : List UInt8} {g : Bool} (hi : Input g src) : ∀ (cs : List Call) {off : Nat}, off ≤ src.length →
    off ≤ (history src g cs off).2 ∧ (history src g cs off).2 ≤ src.length
  | [], off, hl => ⟨Nat.le_refl _, hl⟩
  | c :: cs, off, hl => by
    have h1 := call_offset hi hl c
    have h2 := history_offset hi cs h1.2
    simp only [history]
    omega

/-- **C06**, for tokenizers: any series of calls sees the same replies and offsets, also after errors. -/
theorem C06_tokenizers_agree (s : Str) (h : SliceFits (utf8 s)) (cs : List Call) :
    history (utf8 s) true cs 0 = history (utf8 s) false cs 0 := by
  have key : ∀ (cs : List Call) (off : Nat), off ≤ (utf8 s).length →
      history (utf8 s) true cs off = history (utf8 s) false cs off := by
    intro cs
    induction cs with
    | nil => intro off _; rfl
    | cons c cs ih =>
      intro off hl
      simp only [history]
      rw [tok_agree rfl h hl c, ih _ (call_offset (input_bytes h) hl c).2]
  exact key cs 0 (Nat.zero_le _)

/-! ## C13 -/

/-- **C13.** After any series of calls `offset()` is within the source; a further `next` either yields an item
(token or error) and advances `offset()` by at least one, or returns `None`; no call panics. -/
theorem C13_progress (g : Bool) (src : List UInt8) (h : Input g src) (cs : List Call) :
    offsetAfter src g cs ≤ src.length
    ∧ ((Call.next.run src g (offsetAfter src g cs)).1 = .none
      ∨ (((∃ t, (Call.next.run src g (offsetAfter src g cs)).1 = .token t)
          ∨ (∃ e, (Call.next.run src g (offsetAfter src g cs)).1 = .error e ∧ e.offset ≤ src.length))
        ∧ offsetAfter src g cs + 1 ≤ (Call.next.run src g (offsetAfter src g cs)).2
        ∧ (Call.next.run src g (offsetAfter src g cs)).2 ≤ src.length)) := by
  have hl : offsetAfter src g cs ≤ src.length := (history_offset h cs (Nat.zero_le _)).2
  refine ⟨hl, ?_⟩
  cases tok_cases h hl with
  | eof hw hn he hp => left; simp only [Call.run, hn]
  | tok w b t l off' hw hd hb hv ha hs hlt hle hn he hp =>
    right
    simp only [Call.run, hn]
    exact ⟨.inl ⟨_, rfl⟩, by omega, hle⟩
  | err w b t e off' hw hd hb hlt hle heo hrp hn he hp =>
    right
    simp only [Call.run, hn]
    exact ⟨.inr ⟨_, rfl, heo⟩, by omega, hle⟩

/-- **C13.** No call panics, in any state. -/
theorem C13_no_panic (g : Bool) (src : List UInt8) (h : Input g src) (cs : List Call) (c : Call) (p : Panic) :
    (c.run src g (offsetAfter src g cs)).1 ≠ .panicked p := by
  have hl : offsetAfter src g cs ≤ src.length := (history_offset h cs (Nat.zero_le _)).2
  cases tok_cases h hl with
  | eof hw hn he hp => cases c <;> simp [Call.run, hn, he, hp]
  | tok w b t l off' hw hd hb hv ha hs hlt hle hn he hp => cases c <;> simp [Call.run, hn, he, hp]
  | err w b t e off' hw hd hb hlt hle heo hrp hn he hp => cases c <;> simp [Call.run, hn, he, hp]

theorem items_le {src : List UInt8} {g : Bool} (hi : Input g src) : ∀ (cs : List Call) {off : Nat}, off ≤ src.length →
    ((history src g cs off).1.countP isItem) ≤ (history src g cs off).2 - off
  | [], off, hl => by simp [history]
  | c :: cs, off, hl => by
    have h1 := call_offset hi hl c
    have h2 := items_le hi cs h1.2
    have h3 := history_offset hi cs h1.2
    simp only [history, List.countP_cons]
    split
    · rename_i hc
      have : off + 1 ≤ (c.run src g off).2 := by
        cases c with
        | next =>
          cases tok_cases hi hl with
          | eof hw hn he hp => simp [Call.run, hn, isItem] at hc
          | tok w b t l off' hw hd hb hv ha hs hlt hle hn he hp => simp only [Call.run, hn]; omega
          | err w b t e off' hw hd hb hlt hle heo hrp hn he hp => simp only [Call.run, hn]; omega
        | nextOrEof => revert hc; cases (Call.nextOrEof.run src g off).1 <;> simp [isItem]
        | peek => revert hc; cases (Call.peek.run src g off).1 <;> simp [isItem]
      omega
    · omega

/-- **C13.** Whatever calls are made, `next` yields at most as many items (tokens and errors) as there are
bytes. -/
theorem C13_finitely_many_items (g : Bool) (src : List UInt8) (h : Input g src) (cs : List Call) :
    (history src g cs 0).1.countP isItem ≤ src.length := by
  have h1 := items_le h cs (off := 0) (Nat.zero_le _)
  have h2 := (history_offset h cs (off := 0) (Nat.zero_le _)).2
  omega

/-- **C13.** Once `next` has returned `None` it keeps returning `None`, whatever is called in between. -/
theorem C13_fused (g : Bool) (src : List UInt8) (h : Input g src) (cs cs' : List Call)
    (hn : (Call.next.run src g (offsetAfter src g cs)).1 = .none) :
    (Call.next.run src g (offsetAfter src g (cs ++ .next :: cs'))).1 = .none := by
  have hl : offsetAfter src g cs ≤ src.length := (history_offset h cs (Nat.zero_le _)).2
  have happ : ∀ (a b : List Call) (off : Nat), (history src g (a ++ b) off).2 = (history src g b (history src g a off).2).2 := by
    intro a
    induction a with
    | nil => intro b off; rfl
    | cons c a ih => intro b off; simp only [List.cons_append, history]; exact ih b _
  have hend : (Call.next.run src g (offsetAfter src g cs)).2 = src.length := by
    cases tok_cases h hl with
    | eof hw hn he hp => simp only [Call.run, hn]
    | tok w b t l off' hw hd hb hv ha hs hlt hle hn' he hp => simp [Call.run, hn'] at hn
    | err w b t e off' hw hd hb hlt hle heo hrp hn' he hp => simp [Call.run, hn'] at hn
  have h2 : offsetAfter src g (cs ++ .next :: cs') = src.length := by
    unfold offsetAfter at hend ⊢
    rw [happ]
    simp only [history]
    rw [hend]
    have := history_offset h cs' (Nat.le_refl src.length)
    omega
  rw [h2]
  cases tok_cases h (Nat.le_refl src.length) with
  | eof hw hn he hp => simp only [Call.run, hn]
  | tok w b t l off' hw hd hb hv ha hs hlt hle hn' he hp => omega
  | err w b t e off' hw hd hb hlt hle heo hrp hn' he hp => omega

/-! ## C14 -/

/-- **C14.** In any state: `peek` returns `None` iff `next` would. -/
theorem C14_peek_none_iff (g : Bool) (src : List UInt8) (h : Input g src) (cs : List Call) :
    (Call.peek.run src g (offsetAfter src g cs)).1 = .peeked none
      ↔ (Call.next.run src g (offsetAfter src g cs)).1 = .none := by
  have hl : offsetAfter src g cs ≤ src.length := (history_offset h cs (Nat.zero_le _)).2
  cases tok_cases h hl with
  | eof hw hn he hp => simp [Call.run, hn, hp]
  | tok w b t l off' hw hd hb hv ha hs hlt hle hn he hp => simp [Call.run, hn, hp]
  | err w b t e off' hw hd hb hlt hle heo hrp hn he hp => simp [Call.run, hn, hp]

/-- **C14.** In any state: however often `peek` is called, `next` (and `next_or_eof`) afterwards give the reply
and the `offset()` they would have given at once, and `peek` keeps giving the same answer. -/
theorem C14_peek_does_not_consume (g : Bool) (src : List UInt8) (h : Input g src) (cs : List Call) (n : Nat) (c : Call) :
    c.run src g (offsetAfter src g (cs ++ List.replicate n .peek)) = c.run src g (offsetAfter src g cs) := by
  have happ : ∀ (a b : List Call) (off : Nat), (history src g (a ++ b) off).2 = (history src g b (history src g a off).2).2 := by
    intro a
    induction a with
    | nil => intro b off; rfl
    | cons c a ih => intro b off; simp only [List.cons_append, history]; exact ih b _
  have step : ∀ off, off ≤ src.length → ∀ c : Call, c.run src g (Call.peek.run src g off).2 = c.run src g off := by
    intro off hl c
    have idem : runLen isWs (src.drop (off + runLen isWs (src.drop off))) = 0 := by
      obtain ⟨w, hw, ha, hle, hr⟩ := ws_split (src := src) hl
      cases hd : src.drop (off + runLen isWs (src.drop off)) with
      | nil => rfl
      | cons b t =>
        have := hr b (by rw [hd]; rfl)
        simp [runLen, this]
    have hp : (Call.peek.run src g off).2 = off + runLen isWs (src.drop off) := by
      simp only [Call.run, tokPeek_eq]
    have hsk : skipWs src (off + runLen isWs (src.drop off)) = .ok () (off + runLen isWs (src.drop off)) := by
      rw [skipWs_eq, idem]; rfl
    rw [hp]
    cases c with
    | next =>
      have : tokNext src g (off + runLen isWs (src.drop off)) = tokNext src g off := by
        unfold tokNext nextNonWs
        rw [M.bind_eq, M.bind_ok hsk, M.bind_eq _ _ off, M.bind_ok (skipWs_eq off)]
      unfold Call.run
      rw [this]
      have hl1 : off + runLen isWs (src.drop off) ≤ src.length := by
        obtain ⟨w, hw, ha, hle, hr⟩ := ws_split (src := src) hl
        exact hle
      have hnp := tok_cases h hl
      cases hnp with
      | eof hw hn he hp => simp only [hn]
      | tok w b t l off' hw hd hb hv ha hs hlt hle hn he hp => simp only [hn]
      | err w b t e off' hw hd hb hlt hle heo hrp hn he hp => simp only [hn]
    | nextOrEof =>
      have : nextOrEof src g (off + runLen isWs (src.drop off)) = nextOrEof src g off := by
        unfold nextOrEof readNonWs
        rw [M.bind_eq, M.bind_ok hsk, M.bind_eq _ _ off, M.bind_ok (skipWs_eq off)]
      unfold Call.run
      rw [this]
      cases tok_cases h hl with
      | eof hw hn he hp => simp only [he]
      | tok w b t l off' hw hd hb hv ha hs hlt hle hn he hp => simp only [he]
      | err w b t e off' hw hd hb hlt hle heo hrp hn he hp => simp only [he]
    | peek =>
      simp only [Call.run, tokPeek_eq, idem]
      rfl
  have hl : offsetAfter src g cs ≤ src.length := (history_offset h cs (Nat.zero_le _)).2
  unfold offsetAfter at hl ⊢
  rw [happ]
  generalize (history src g cs 0).2 = off at hl
  induction n generalizing off with
  | zero => rfl
  | succ n ih =>
    simp only [List.replicate_succ, history]
    rw [ih _ (call_offset h hl .peek).2]
    exact step off hl c

/-- **C14.** In any state: if `next` yields a token, `peek` announces its kind. -/
theorem C14_peek_kind (g : Bool) (src : List UInt8) (h : Input g src) (cs : List Call) (t : Token)
    (ht : (Call.next.run src g (offsetAfter src g cs)).1 = .token t) :
    (Call.peek.run src g (offsetAfter src g cs)).1 = .peeked (some t.kind) := by
  have hl : offsetAfter src g cs ≤ src.length := (history_offset h cs (Nat.zero_le _)).2
  cases tok_cases h hl with
  | eof hw hn he hp => simp [Call.run, hn] at ht
  | tok w b t l off' hw hd hb hv ha hs hlt hle hn he hp =>
    simp only [Call.run, hn] at ht
    injection ht with ht
    simp only [Call.run, hp]
    rw [← ht, peekKind_token hv (drop_step hd) ha]
  | err w b t e off' hw hd hb hlt hle heo hrp hn he hp => simp [Call.run, hn] at ht

/-- **C14.** In any state: if `peek` says `Unrecognized`, `next` is the error `Unexpected(b)` at the offset of the
first byte `b` that is not whitespace. -/
theorem C14_peek_unrecognized (g : Bool) (src : List UInt8) (h : Input g src) (cs : List Call)
    (hu : (Call.peek.run src g (offsetAfter src g cs)).1 = .peeked (some .unrecognized)) :
    ∃ w b t, Ws w ∧ src.drop (offsetAfter src g cs) = w ++ b :: t
      ∧ ¬ (b = 0x20 ∨ b = 0x09 ∨ b = 0x0A ∨ b = 0x0D)
      ∧ (Call.next.run src g (offsetAfter src g cs)).1 = .error ⟨offsetAfter src g cs + w.length, .unexpected b⟩ := by
  have hl : offsetAfter src g cs ≤ src.length := (history_offset h cs (Nat.zero_le _)).2
  cases tok_cases h hl with
  | eof hw hn he hp => simp [Call.run, hp] at hu
  | tok w b t l off' hw hd hb hv ha hs hlt hle hn he hp =>
    simp only [Call.run, hp] at hu
    injection hu with hu
    injection hu with hu
    rw [peekKind_token hv (drop_step hd) ha] at hu
    exfalso
    cases l with
    | bool b => cases b <;> cases hu
    | _ => cases hu
  | err w b t e off' hw hd hb hlt hle heo hrp hn he hp =>
    simp only [Call.run, hp] at hu
    injection hu with hu
    injection hu with hu
    refine ⟨w, b, t, hw, hd, fun hc => ?_, ?_⟩
    · rw [isWs_iff.mpr hc] at hb; cases hb
    · have hu2 := unrecognized_err (src := src) (g := g) (o := offsetAfter src g cs + w.length) hu
      rw [hrp] at hu2
      injection hu2 with h1 _
      simp only [Call.run, hn, h1]

/-! ## C15 -/

/-- **C15.** In any state `next_or_eof` gives what `next` gives, with the same new `offset()`; where `next`
returns `None` it gives `UnexpectedEof` at the length of the source. -/
theorem C15_next_or_eof (g : Bool) (src : List UInt8) (h : Input g src) (cs : List Call) :
    ((Call.next.run src g (offsetAfter src g cs)).1 ≠ .none
        ∧ Call.nextOrEof.run src g (offsetAfter src g cs) = Call.next.run src g (offsetAfter src g cs))
    ∨ (Call.next.run src g (offsetAfter src g cs) = (.none, src.length)
        ∧ Call.nextOrEof.run src g (offsetAfter src g cs) = (.error ⟨src.length, .unexpectedEof⟩, src.length)) := by
  have hl : offsetAfter src g cs ≤ src.length := (history_offset h cs (Nat.zero_le _)).2
  cases tok_cases h hl with
  | eof hw hn he hp => right; simp [Call.run, hn, he]
  | tok w b t l off' hw hd hb hv ha hs hlt hle hn he hp => left; simp [Call.run, hn, he]
  | err w b t e off' hw hd hb hlt hle heo hrp hn he hp => left; simp [Call.run, hn, he]

/-! ## C31 -/

/-- **C31.** In any state, a number token holds the source slice from the first byte that is not whitespace up to
the new `offset()`; that slice is a JSON number, and no JSON number at that position is longer. -/
theorem C31_number_tokens_maximal (g : Bool) (src : List UInt8) (h : Input g src) (cs : List Call) (x : JsonNumber)
    (hx : (Call.next.run src g (offsetAfter src g cs)).1 = .token (.number x)) :
    ∃ (w : List UInt8) (n : NumLit) (r : List UInt8), Ws w ∧ n.Valid ∧ src.drop (offsetAfter src g cs) = w ++ (n.bytes ++ r)
      ∧ utf8 x.sourceStr = n.bytes
      ∧ (Call.next.run src g (offsetAfter src g cs)).2 = offsetAfter src g cs + w.length + n.bytes.length
      ∧ ∀ (n' : NumLit) (r' : List UInt8), n'.Valid → n.bytes ++ r = n'.bytes ++ r' → n'.bytes.length ≤ n.bytes.length := by
  have hl : offsetAfter src g cs ≤ src.length := (history_offset h cs (Nat.zero_le _)).2
  cases tok_cases h hl with
  | eof hw hn he hp => simp [Call.run, hn] at hx
  | tok w b t l off' hw hd hb hv ha hs hlt hle hn he hp =>
    simp only [Call.run, hn] at hx ⊢
    injection hx with hx
    cases l with
    | num n =>
      injection hx with hx
      subst hx
      have h2 := ha.2
      rw [drop_step hd] at h2
      refine ⟨w, n, src.drop off', hw, hv, by rw [hd, h2]; rfl, canonNum_denotes hv, ha.1, ?_⟩
      intro n' r' hv' hr
      exact num_longest hv hv' hs hr
    | _ => cases hx
  | err w b t e off' hw hd hb hlt hle heo hrp hn he hp => simp [Call.run, hn] at hx

end

/-! ## Concrete cases -/

section
attribute [local instance] arch64

/-- a tokenizer history with a token, an error in the middle of a character, and recovery -/
example : (history (b8 " 12 \"\\é\",") false [.peek, .next, .next, .next, .next, .next] 0).1
    = [(.peek, .peeked (some .number)), (.next, .token (.number ⟨.borrowed ['1', '2']⟩)),
       (.next, .error ⟨6, .invalidEscape⟩), (.next, .error ⟨7, .unexpected 0xA9⟩),
       (.next, .error ⟨10, .unclosedString⟩), (.next, .none)] := by decide +kernel
example : (Call.peek.run (b8 " ?") true 0).1 = .peeked (some .unrecognized) := by decide +kernel
example : (Call.next.run (b8 "-1.5e3]") true 0) = (.token (.number ⟨.borrowed "-1.5e3".toList⟩), 6) := by decide +kernel

/-- C06: the same calls on a text and on its bytes, over an error and past it -/
example : SliceFits (b8 "\"é\" nul [1") := by unfold SliceFits; decide +kernel
example : (history (b8 "\"é\" nul [1") true [.next, .peek, .next, .next] 0).1.map (fun r => decide (isItem r)) = [true, false, true, true] := by
  decide +kernel

/-- C13: `next` has returned `None`, and does so again after other calls -/
example : (Call.next.run (b8 "[1 ") false (offsetAfter (b8 "[1 ") false [.next, .next])).1 = .none
    ∧ (Call.next.run (b8 "[1 ") false (offsetAfter (b8 "[1 ") false ([.next, .next] ++ .next :: [.peek, .nextOrEof]))).1 = .none :=
  ⟨by decide +kernel, C13_fused false _ (input_bytes (by unfold SliceFits; decide +kernel)) _ _ (by decide +kernel)⟩

/-- C14: an unrecognized byte after a token and whitespace -/
example : ∃ w b t, Ws w ∧ (b8 "[ \t?").drop 1 = w ++ b :: t ∧ ¬ (b = 0x20 ∨ b = 0x09 ∨ b = 0x0A ∨ b = 0x0D)
    ∧ (Call.next.run (b8 "[ \t?") true 1).1 = .error ⟨1 + w.length, .unexpected b⟩ := by
  have := C14_peek_unrecognized true (b8 "[ \t?") (input_str (by unfold SliceFits; decide +kernel)) [.peek, .next] (by decide +kernel)
  rwa [show offsetAfter (b8 "[ \t?") true [.peek, .next] = 1 by decide +kernel] at this

/-- C14, C15: a token that `peek` announces, and the end of the source -/
example : (Call.next.run (b8 "[]") true (offsetAfter (b8 "[]") true [.next])).1 = .token .arrayEnd
    ∧ (Call.peek.run (b8 "[]") true (offsetAfter (b8 "[]") true [.next])).1 = .peeked (some .arrayEnd)
    ∧ Call.nextOrEof.run (b8 "[]") true (offsetAfter (b8 "[]") true [.next, .next]) = (.error ⟨2, .unexpectedEof⟩, 2) := by
  decide +kernel

/-- C31: the number ends where the longest number does, before a byte that cannot belong to it -/
example : (Call.next.run (b8 "[01.5e3.2]") false (offsetAfter (b8 "[01.5e3.2]") false [.next])) = (.token (.number ⟨.borrowed ['0']⟩), 2)
    ∧ (Call.next.run (b8 "[01.5e3.2]") false (offsetAfter (b8 "[01.5e3.2]") false [.next, .next]))
      = (.token (.number ⟨.borrowed "1.5e3".toList⟩), 7) := by decide +kernel

end

/-! ## Instances: each theorem above applied to a concrete case that meets its hypotheses -/
section Instances
attribute [local instance] arch64

example := C06_str_bytes_agree "[1, \"é\\n\" x".toList (by lit) .new
example := C06_str_bytes_agree_delegate "[1, \"é\\n\" x".toList (by lit) .new valueParser ()
example := C06_tokenizers_agree "[1, \"é\\n\" x".toList (by lit) [.next, .peek, .nextOrEof, .next, .next]
example := C13_progress false (b8 "\"é\" nul [1") (by lit) [.next, .peek, .next]
example := C13_no_panic true (b8 "\"é\" nul [1") (by lit) [.next, .peek, .next]
example := C13_finitely_many_items true (b8 "\"é\" nul [1") (by lit) [.next, .peek, .next]
example := C13_fused false (b8 "[1 ") (by lit) [.next, .next] [.peek, .nextOrEof] (by decide +kernel)
example := C14_peek_none_iff true (b8 "\"é\" nul [1") (by lit) [.next, .next]
example := C14_peek_does_not_consume true (b8 "\"é\" nul [1") (by lit) [.next, .next] 3 .next
example := C14_peek_kind true (b8 "[]") (by lit) [.next] .arrayEnd (by decide +kernel)
example := C14_peek_unrecognized true (b8 "[ \t?") (by lit) [.next] (by decide +kernel)
example := C15_next_or_eof true (b8 "\"é\" nul [1") (by lit) [.next, .next]
example := C31_number_tokens_maximal true (b8 "[ 01.5e3.2]") (by lit) [.next] ⟨.borrowed ['0']⟩ (by decide +kernel)

end Instances
end JustJson
