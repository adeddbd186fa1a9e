import Verif.Lemmas.Viable
import Verif.Props.Ex
import Verif.Props.Phrase
import Verif.Props.Truncate
/-! # C68: a parse gives up at the first token that is wrong -/

namespace JustJson
open Spec

set_option linter.unusedSectionVars false

section
variable [Arch]

theorem stream_no_error {src : List UInt8} {g : Bool} {ts ts1 : List Token} {p : Nat} {e : Error Empty}
    (h1 : TokYields src g 0 ts1 p) (he : (Call.next.run src g p).1 = .error e) : ¬ Stream g src ts := by
  intro hs
  have app : ∀ (ts1 : List Token) (off : Nat), TokYields src g off ts1 p →
      (history src g (List.replicate (ts1.length + 1) .next) off).1.map Prod.snd = ts1.map .token ++ [.error e] := by
    intro ts1
    induction ts1 with
    | nil =>
      intro off y
      injection y with _ y
      change off = p at y
      subst y
      simp [history, he]
    | cons t ts ih =>
      intro off y
      unfold TokYields at y
      simp only [List.length_cons, List.replicate_succ, history, List.map_cons, Prod.mk.injEq, List.cons.injEq] at y
      obtain ⟨⟨h3, h4⟩, h5⟩ := y
      have := ih (Call.next.run src g off).2 (by unfold TokYields; rw [← h4, ← h5])
      rw [List.length_cons, List.replicate_succ, history]
      simp only [List.map_cons, List.cons_append]
      rw [this, h3.2]
  have ha := app ts1 0 h1
  unfold Stream at hs
  rcases Nat.le_total ts1.length ts.length with hle | hle
  · rw [history_prefix _ _ _ (Nat.succ_le_succ hle), List.map_take, hs] at ha
    have : Reply.error e ∈ (ts.map Reply.token ++ [Reply.none]).take (ts1.length + 1) := by rw [ha]; simp
    have := List.mem_of_mem_take this
    simp at this
  · rw [history_prefix _ _ _ (Nat.succ_le_succ hle), List.map_take, ha] at hs
    have : Reply.none ∈ (ts1.map Reply.token ++ [Reply.error e]).take (ts.length + 1) := by rw [hs]; simp
    have := List.mem_of_mem_take this
    simp at this

/-- **C68.** Whenever a parse fails there is a point `p` such that a tokenizer yields tokens up to there without an error, the
text before `p` is not at fault (it can be completed to an admitted text, also with any whitespace after it), and what comes
at `p` explains the error. -/
theorem C68_gives_up_at_first_wrong_token (g : Bool) (src : List UInt8) (h : Input g src) (cfg : ParseConfig) (e : Error Empty)
    (he : Value.parseWithConfig g src cfg = .err e) :
    ∃ ts p, TokYields src g 0 ts p ∧ p ≤ src.length ∧ (∀ w, Ws w → Completable cfg (src.take p ++ w)) ∧ GaveUp g src cfg p e := by
  obtain ⟨p, ⟨ts, h1⟩, h2, h3, h4⟩ := parse_quit h he
  exact ⟨ts, p, h1, h2, h3, h4⟩

/-- **C68**, for validation. -/
theorem C68_validation (g : Bool) (src : List UInt8) (h : Input g src) (cfg : ParseConfig) (e : Error Empty)
    (he : validateWithConfig g src cfg = .err e) :
    ∃ ts p, TokYields src g 0 ts p ∧ p ≤ src.length ∧ (∀ w, Ws w → Completable cfg (src.take p ++ w)) ∧ GaveUp g src cfg p e := by
  rw [validate_eq h] at he
  cases hv : Value.parseWithConfig g src cfg with
  | ok v => rw [hv] at he; cases he
  | panic p => rw [hv] at he; cases he
  | err e' => rw [hv] at he; injection he with he; rw [← he]; exact C68_gives_up_at_first_wrong_token g src h cfg e' hv

/-- **C68.** An error inside a string or a number is the first error a tokenizer over the same source gives: same kind, same
offset. -/
theorem C68_lexical_errors_are_the_tokenizers (g : Bool) (src : List UInt8) (h : Input g src) (cfg : ParseConfig) (e : Error Empty)
    (he : Value.parseWithConfig g src cfg = .err e) (hk : e.kind.Lexical) :
    ∃ ts p, TokYields src g 0 ts p ∧ (Call.next.run src g p).1 = .error e := by
  obtain ⟨ts, p, h1, _, _, h4⟩ := C68_gives_up_at_first_wrong_token g src h cfg e he
  refine ⟨ts, p, h1, ?_⟩
  obtain ⟨o, k⟩ := e
  cases h4 with
  | ended _ _ q => rcases q with q | q | q | q <;> (cases q; exact hk.elim)
  | lexical e' q1 q2 q3 =>
    rcases q3 with q3 | ⟨_, q3 | q3⟩ | q3
    · rw [q1]
      obtain ⟨o', k'⟩ := e'
      cases q2
      cases q3
      rfl
    · cases q3; exact hk.elim
    · cases q3; exact hk.elim
    · cases q3; exact hk.elim
  | token t w _ q => cases k <;> first | exact hk.elim | exact q.elim
  | root j _ _ _ q => cases q; exact hk.elim
  | trailing j w b _ _ _ _ q => cases q; exact hk.elim

/-- **C68.** For an error about what stands at its offset, all before that offset is a beginning of an admitted text. -/
theorem C68_all_well_before_error (g : Bool) (src : List UInt8) (h : Input g src) (cfg : ParseConfig) (e : Error Empty)
    (he : Value.parseWithConfig g src cfg = .err e) (hk : e.kind.Misplaced) : Completable cfg (src.take e.offset) := by
  obtain ⟨ts, p, h1, h2, h3, h4⟩ := C68_gives_up_at_first_wrong_token g src h cfg e he
  have at_ws : ∀ w : List UInt8, Ws w → Here src p w → e.offset = p + w.length → Completable cfg (src.take e.offset) := by
    rintro w hw ⟨r, hr⟩ ho
    have : src.take e.offset = src.take p ++ w := by
      rw [ho, List.take_add, ← hr]
      simp
    rw [this]
    exact h3 w hw
  obtain ⟨o, k⟩ := e
  cases h4 with
  | ended _ _ q => rcases q with q | q | q | q <;> (cases q; exact hk.elim)
  | lexical e' q1 q2 q3 =>
    have hs := kinds_next h h2 q1
    rcases q3 with q3 | ⟨_, q3 | q3⟩ | q3
    · cases q3; revert hk hs; cases e'.kind <;> first | (intro _ h; exact h.elim) | (intro h; exact h.elim)
    · cases q3; exact hk.elim
    · cases q3; exact hk.elim
    · cases q3; exact hk.elim
  | token t w _ _ hw hh ho => exact at_ws w hw hh ho
  | root j _ _ _ q => cases q; exact hk.elim
  | trailing j w b _ hw _ hh q =>
    refine at_ws w hw ?_ (by rw [q])
    obtain ⟨r, hr⟩ := hh
    exact ⟨b :: r, by rw [← hr]; simp⟩

/-- **C68.** If a tokenizer finds no fault with the source and the parser wants more, then the source as a whole is only
unfinished: it is a beginning of an admitted text. -/
theorem C68_unfinished (g : Bool) (src : List UInt8) (h : Input g src) (cfg : ParseConfig) (ts : List Token)
    (hs : Stream g src ts) (e : Error Empty) (he : Value.parseWithConfig g src cfg = .err e)
    (hk : e.kind = .unexpectedEof ∨ e.kind = .unclosedObject ∨ e.kind = .unclosedArray) : Completable cfg src := by
  obtain ⟨ts1, p, h1, h2, h3, h4⟩ := C68_gives_up_at_first_wrong_token g src h cfg e he
  cases h4 with
  | ended q1 _ _ =>
    cases tok_cases h h2 with
    | eof hw hn he hp =>
      have := h3 _ hw
      rwa [List.take_append_drop] at this
    | tok w b t l off' hw hd hb hv ha hs hlt hle hn he hp => simp [Call.run, hn] at q1
    | err w b t e off' hw hd hb hlt hle heo hrp hn he hp => simp [Call.run, hn] at q1
  | lexical e' q1 _ _ => exact absurd hs (stream_no_error h1 q1)
  | token t w _ q => rcases hk with hk | hk | hk <;> (rw [hk] at q; exact q.elim)
  | root j _ _ _ q => rw [q] at hk; rcases hk with hk | hk | hk <;> cases hk
  | trailing j w b _ _ _ _ q => rw [q] at hk; rcases hk with hk | hk | hk <;> cases hk

/-- **C68.** With a `{` or `[` as its first byte, what can be completed at all can be completed to a text the configuration
admits. -/
theorem C68_root (cfg : ParseConfig) (p : List UInt8) (b : UInt8) (h : Completable cfg p) (hb : NextSig p 0 b)
    (hc : b = 0x7B ∨ b = 0x5B) : ∃ c j, Accepted cfg (p ++ c) j := by
  obtain ⟨c, j, ⟨w, v, w', hw, hv, hw', hs⟩, hd, _⟩ := h
  refine ⟨c, j, ⟨w, v, w', hw, hv, hw', hs⟩, hd, .inr ?_⟩
  obtain ⟨x, t, rfl, hx, _⟩ := gvalue_head hv
  have n1 : NextSig (p ++ c) 0 b := by
    obtain ⟨hb, w1, hw1, r, hr⟩ := hb
    exact ⟨hb, w1, hw1, r ++ c, by rw [List.drop_zero] at hr ⊢; rw [← hr]; simp⟩
  have n2 : NextSig (p ++ c) 0 x := by
    refine ⟨?_, w, hw, t ++ w', by rw [List.drop_zero, hs]; simp⟩
    intro h
    have := h x (by simp)
    rcases this with rfl | rfl | rfl | rfl <;> simp [isWs] at hx
  have := n1.unique n2
  subst this
  generalize hv' : b :: t = bs at hv
  cases hv with
  | num n hn =>
    obtain ⟨c, u, hu, hc'⟩ := num_first hn
    rw [hu] at hv'
    cases hv'
    exfalso
    revert hc'
    rcases hc with rfl | rfl <;> (unfold IsDigit; decide)
  | arr => exact True.intro
  | obj => exact True.intro
  | emptyArr => exact True.intro
  | emptyObj => exact True.intro
  | _ =>
    first
      | (simp only [List.cons.injEq] at hv'; rcases hc with rfl | rfl <;> simp at hv')
      | (simp only [strBytes, List.cons.injEq] at hv'; rcases hc with rfl | rfl <;> simp at hv')

/-- **C68.** Whatever calls a client makes on a tokenizer, its errors are of nine kinds. -/
theorem C68_tokenizer_kinds (g : Bool) (src : List UInt8) (h : Input g src) (cs : List Call) (c : Call) (e : Error Empty)
    (he : (c.run src g (offsetAfter src g cs)).1 = .error e) : e.kind.OfTokenizer := by
  have hl : offsetAfter src g cs ≤ src.length := (history_offset h cs (Nat.zero_le _)).2
  revert hl he
  generalize offsetAfter src g cs = off
  intro he hl
  cases tok_cases h hl with
  | eof hw hn heo hp =>
    cases c with
    | next => simp [Call.run, hn] at he
    | nextOrEof => simp [Call.run, heo] at he; subst he; exact True.intro
    | peek => simp [Call.run, hp] at he
  | tok w b t l off' hw hd hb hv ha hs hlt hle hn heo hp =>
    cases c with
    | next => simp [Call.run, hn] at he
    | nextOrEof => simp [Call.run, heo] at he
    | peek => simp [Call.run, hp] at he
  | err w b t e' off' hw hd hb hlt hle heo hrp hn he' hp =>
    have hk := kinds_peek _ _ _ _ _ hrp
    cases c with
    | next => simp [Call.run, hn] at he; subst he; exact hk
    | nextOrEof => simp [Call.run, he'] at he; subst he; exact hk
    | peek => simp [Call.run, hp] at he

end

/-! ## Concrete cases -/

section
attribute [local instance] arch64

/-- the error of a failed parse -/
def quitOf (s : String) (cfg : ParseConfig) : Option (Error Empty) :=
  match Value.parseWithConfig false (b8 s) cfg with
  | .err e => some e
  | _ => none

-- a misplaced token, a lexical error and an unfinished text
example : quitOf "[1, {\"a\": 2 3}]" .new = some ⟨11, .expectedCommaOrEndOfObject⟩
    ∧ ErrorKind.Misplaced (δ := Empty) .expectedCommaOrEndOfObject := ⟨by decide +kernel, True.intro⟩
example : quitOf "[1, \"a\\x\"]" .new = some ⟨7, .invalidEscape⟩ ∧ ErrorKind.Lexical (δ := Empty) .invalidEscape :=
  ⟨by decide +kernel, True.intro⟩
example : quitOf "[1, {\"a\":" .new = some ⟨9, .unclosedObject⟩ := by decide +kernel
-- where a colon is due, a malformed token is reported as the missing colon, at the offset of the fault in the token
example : quitOf "{\"a\" tru]" .new = some ⟨8, .expectedColon⟩
    ∧ (Call.next.run (b8 "{\"a\" tru]") false 4).1 = .error ⟨8, .unexpected 0x5D⟩ := by decide +kernel
-- a malformed token is reported before it is noticed to be out of place: this source is not merely unfinished
example : quitOf "{tru" .new = some ⟨4, .unclosedObject⟩ ∧ (Call.next.run (b8 "{tru") false 1).1 = .error ⟨4, .unexpectedEof⟩ := by
  decide +kernel

end

/-! ## Instances: each theorem above applied to a concrete case that meets its hypotheses -/
section Instances
attribute [local instance] arch64

theorem viable_stream : Stream true (b8 "[1, {\"a\":") [.array, .number ⟨.borrowed ['1']⟩, .comma, .object, .string ⟨.json (.borrowed ['a']), ⟨1⟩⟩, .colon] := by
  unfold Stream; decide +kernel
theorem viable_completable : Completable .new (b8 "[1, {\"a\":") :=
  C68_unfinished true (b8 "[1, {\"a\":") (by lit) .new _ viable_stream ⟨9, .unclosedObject⟩ (Outcome.error_eq (by decide +kernel)) (.inr (.inl rfl))
example := C68_gives_up_at_first_wrong_token true exBad (exBad_input _) .new ⟨13, .unexpected 0x7D⟩ (Outcome.error_eq (by decide +kernel))
example := C68_validation true exBad (exBad_input _) .new ⟨13, .unexpected 0x7D⟩ (Outcome.error_eq (by decide +kernel))
example := C68_lexical_errors_are_the_tokenizers true (b8 "[1, \"a\\x\"]") (by lit) .new ⟨7, .invalidEscape⟩ (Outcome.error_eq (by decide +kernel)) True.intro
example := C68_all_well_before_error true (b8 "[1, {\"a\": 2 3}]") (by lit) .new ⟨11, .expectedCommaOrEndOfObject⟩ (Outcome.error_eq (by decide +kernel)) True.intro
example := C68_root .new (b8 "[1, {\"a\":") 0x5B viable_completable
example := C68_tokenizer_kinds true exBad (exBad_input _) [.next, .next, .next, .next, .next, .next] .next ⟨13, .unexpected 0x7D⟩ (by decide +kernel)

end Instances
end JustJson
