import Verif.Props.Lexemes
import Verif.Lemmas.Window
/-! # Tokenizers on parts of a source: C80 -/

namespace JustJson
open Spec

set_option linter.unusedSectionVars false

section
variable [Arch]

theorem win_run {p q t : List UInt8} {g : Bool} (hi : Input g q) {off : Nat} (hl : off ≤ q.length) (c : Call)
    (hg : InPart q t (c.run q g off).2) :
    c.run (p ++ (q ++ t)) g (off + p.length) = ((c.run q g off).1.later p.length, (c.run q g off).2 + p.length) := by
  cases c with
  | next =>
    have hw := win_tokNext (p := p) (q := q) (t := t) rfl g off
    simp only [Call.run] at hg ⊢
    cases tok_cases hi hl with
    | eof hws hn he hp =>
      rw [hn] at hw hg ⊢
      rw [hw.2 hg]; rfl
    | tok w b t l off' hws hd hb hv ha hs hlt hle hn he hp =>
      rw [hn] at hw hg ⊢
      rw [hw.2 hg]; rfl
    | err w b t e off' hws hd hb hlt hle heo hrp hn he hp =>
      rw [hn] at hw hg ⊢
      rw [hw.2 hg]; rfl
  | nextOrEof =>
    have hw := win_nextOrEof (p := p) (q := q) (t := t) rfl g off
    simp only [Call.run] at hg ⊢
    cases tok_cases hi hl with
    | eof hws hn he hp =>
      rw [he] at hw hg ⊢
      rw [hw.2 hg]; rfl
    | tok w b t l off' hws hd hb hv ha hs hlt hle hn he hp =>
      rw [he] at hw hg ⊢
      rw [hw.2 hg]; rfl
    | err w b t e off' hws hd hb hlt hle heo hrp hn he hp =>
      rw [he] at hw hg ⊢
      rw [hw.2 hg]; rfl
  | peek =>
    have hw := win_tokPeek (p := p) (q := q) (t := t) rfl off
    simp only [Call.run] at hg ⊢
    cases tok_cases hi hl with
    | eof hws hn he hp =>
      rw [hp] at hw hg ⊢
      rw [hw.2 hg]; rfl
    | tok w b t l off' hws hd hb hv ha hs hlt hle hn he hp =>
      rw [hp] at hw hg ⊢
      rw [hw.2 hg]; rfl
    | err w b t e off' hws hd hb hlt hle heo hrp hn he hp =>
      rw [hp] at hw hg ⊢
      rw [hw.2 hg]; rfl

theorem win_history {p q t : List UInt8} {g : Bool} (hi : Input g q) : ∀ (cs : List Call) {off : Nat}, off ≤ q.length →
    InPart q t (history q g cs off).2 →
    history (p ++ (q ++ t)) g cs (off + p.length) = laterHistory p.length (history q g cs off)
  | [], off, _, _ => rfl
  | c :: cs, off, hl, hg => by
    have h1 := call_offset hi hl c
    have h2 := history_offset hi cs h1.2
    simp only [history] at hg ⊢
    rw [win_run hi hl c (hg.mono h2.1)]
    simp only []
    rw [win_history hi cs h1.2 hg]
    rfl

theorem history_append (src : List UInt8) (g : Bool) : ∀ (a b : List Call) (off : Nat),
    history src g (a ++ b) off = ((history src g a off).1 ++ (history src g b (history src g a off).2).1,
      (history src g b (history src g a off).2).2)
  | [], b, off => rfl
  | c :: a, b, off => by simp only [List.cons_append, history]; rw [history_append src g a b]

theorem later_zero (h : List (Call × Reply) × Nat) : laterHistory 0 h = h := by
  have : (fun x : Call × Reply => (x.1, x.2.later 0)) = id := by
    funext x
    obtain ⟨c, r⟩ := x
    cases r <;> rfl
  unfold laterHistory
  rw [this, List.map_id]
  rfl

theorem input_left {g : Bool} {a b : List UInt8} (h : Input g (a ++ b)) (hu : g = true → ∃ s : Str, a = utf8 s) : Input g a :=
  ⟨by have := h.1; unfold SliceFits at this ⊢; rw [List.length_append] at this; omega, hu⟩

/-- **C80.** Wherever a tokenizer stands, a fresh tokenizer on the rest of the source gives the same replies, with `offset()` and
the offsets of errors counted from there: nothing else is remembered. After any calls, errors included, and for any calls to
come. (A rest of a `&str` is given to the tokenizer for `&str`s if it is a `&str`.) -/
theorem C80_fresh_on_the_rest (g : Bool) (src : List UInt8) (h : Input g src) (cs cs' : List Call)
    (hr : Input g (src.drop (offsetAfter src g cs))) :
    history src g cs' (offsetAfter src g cs)
      = laterHistory (offsetAfter src g cs) (history (src.drop (offsetAfter src g cs)) g cs' 0) := by
  have hl : offsetAfter src g cs ≤ src.length := (history_offset h cs (Nat.zero_le _)).2
  generalize offsetAfter src g cs = o at *
  have hw := win_history (p := src.take o) (t := []) hr cs' (Nat.zero_le _) (.inr rfl)
  rw [List.append_nil, List.take_append_drop, List.length_take, Nat.min_eq_left hl, Nat.zero_add] at hw
  exact hw

/-- **C80.** As long as `offset()` is before the end of the source, every call so far would have got the same reply, and
`offset()` would be the same, if the source went on with any `t`. -/
theorem C80_replies_stand (g : Bool) (src t : List UInt8) (h : Input g src) (cs : List Call)
    (hb : offsetAfter src g cs < src.length) :
    history (src ++ t) g cs 0 = history src g cs 0 := by
  have hw := win_history (p := []) (t := t) h cs (Nat.zero_le _) (.inl hb)
  simp only [List.nil_append, List.length_nil] at hw
  rw [hw, later_zero]

theorem token_stands {g : Bool} {src t : List UInt8} (h : Input g src) (ht : Input g (src ++ t)) {off : Nat} (hl : off ≤ src.length)
    (c : Call) {x : Token} (hx : (c.run src g off).1 = .token x) (hn : x.kind = .number → ¬ GoesOn t) :
    off < src.length ∧ c.run (src ++ t) g off = c.run src g off := by
  cases tok_cases h hl with
  | eof hw hn he hp => cases c <;> simp [Call.run, hn, he, hp] at hx
  | err w b t e off' hw hd hb hlt hle heo hrp hn he hp => cases c <;> simp [Call.run, hn, he, hp] at hx
  | tok w b t' l off' hw hd hb hv ha hs hlt hle hn' he hp =>
    have hlen := ha.1
    have hxl : x = l.token := by
      cases c with
      | peek => simp [Call.run, hp] at hx
      | next => simp only [Call.run, hn'] at hx; injection hx with hx; exact hx.symm
      | nextOrEof => simp only [Call.run, he] at hx; injection hx with hx; exact hx.symm
    have hdrop : (src ++ t).drop off = w ++ (l.bytes ++ (src.drop off' ++ t)) := by
      have : src.drop off = w ++ (l.bytes ++ src.drop off') := by
        rw [hd]
        congr 1
        rw [← ha.2, ← List.drop_drop, hd]
        simp
      rw [List.drop_append_of_le_length hl, this, List.append_assoc, List.append_assoc]
    have hstop : l.Stop (src.drop off' ++ t) := by
      cases l with
      | num n =>
        cases hd' : src.drop off' with
        | cons y r =>
          rw [hd'] at hs
          intro z hz
          exact hs z hz
        | nil =>
          have hng : ¬ GoesOn t := hn (by rw [hxl]; rfl)
          intro z hz
          cases t with
          | nil => cases hz
          | cons y r =>
            injection hz with hz
            subst hz
            have hd : ¬ IsDigit y := fun h => hng ⟨y, r, rfl, .inl h⟩
            have h1 : y ≠ 0x2E := fun h => hng ⟨y, r, rfl, .inr (.inl h)⟩
            have h2 : y ≠ 0x65 := fun h => hng ⟨y, r, rfl, .inr (.inr (.inl h))⟩
            have h3 : y ≠ 0x45 := fun h => hng ⟨y, r, rfl, .inr (.inr (.inr h))⟩
            exact ⟨fun _ => hd, fun _ => ⟨h2, h3, fun _ => hd, fun _ => ⟨h1, fun _ => hd⟩⟩⟩
      | _ => exact True.intro
    have hl' : off ≤ (src ++ t).length := by simp; omega
    obtain ⟨h1, h2⟩ := next_lex ht hl' hw hv hdrop hstop
    refine ⟨by omega, ?_⟩
    cases c with
    | peek => simp [Call.run, hp] at hx
    | next => rw [h1]; simp only [Call.run, hn', hlen]
    | nextOrEof => rw [h2]; simp only [Call.run, he, hlen]

/-- **C80.** A token that has been given stands, and so does all that was replied before it, whatever `t` the source goes on with;
only a number must not be continued by `t`. -/
theorem C80_tokens_stand (g : Bool) (src t : List UInt8) (h : Input g src) (ht : Input g (src ++ t)) (cs : List Call) (c : Call)
    (x : Token) (hx : (c.run src g (offsetAfter src g cs)).1 = .token x) (hn : x.kind = .number → ¬ GoesOn t) :
    history (src ++ t) g (cs ++ [c]) 0 = history src g (cs ++ [c]) 0 := by
  have hl : offsetAfter src g cs ≤ src.length := (history_offset h cs (Nat.zero_le _)).2
  obtain ⟨h1, h2⟩ := token_stands h ht hl c hx hn
  have h3 := C80_replies_stand g src t h cs h1
  rw [history_append, history_append, h3]
  have : history (src ++ t) g [c] (history src g cs 0).2 = history src g [c] (history src g cs 0).2 := by
    simp only [history]
    change ((c, (c.run (src ++ t) g (offsetAfter src g cs)).1) :: [], (c.run (src ++ t) g (offsetAfter src g cs)).2) = _
    rw [h2]
    rfl
  rw [this]

theorem tokNext_ws {a b : List UInt8} {g : Bool} {off : Nat} (hl : off ≤ a.length) (hw : Ws (a.drop off)) :
    tokNext (a ++ b) g off = tokNext (a ++ b) g a.length := by
  have : skipWs (a ++ b) off = skipWs (a ++ b) a.length := by
    unfold skipWs
    rw [List.drop_append_of_le_length hl, List.drop_left]
    have : ∀ (w : List UInt8), Ws w → runLen isWs (w ++ b) = w.length + runLen isWs b := by
      intro w hw
      induction w with
      | nil => simp
      | cons y w ih =>
        have hy := ws_iff.mp hw y (by simp)
        have hw' : Ws w := ws_iff.mpr fun z hz => ws_iff.mp hw z (by simp [hz])
        simp only [List.cons_append, runLen, hy, if_true, ih hw', List.length_cons]
        omega
    rw [this _ hw, List.length_drop]
    congr 1
    omega
  unfold tokNext nextNonWs
  simp only [M.bind_eq, this]

/-- `next` on joined sources, from a state in the first one. -/
theorem stream_join_from {g : Bool} {a b : List UInt8} (ha : Input g a) (hab : Input g (a ++ b)) :
    ∀ (ts : List Token) {off : Nat}, off ≤ a.length →
      (history a g (List.replicate (ts.length + 1) .next) off).1.map Prod.snd = ts.map .token ++ [.none] →
      (∀ x, ts.getLast? = some x → x.kind = .number → ¬ GoesOn b) →
      ∃ off', off' ≤ a.length ∧ Ws (a.drop off')
        ∧ history (a ++ b) g (List.replicate ts.length .next) off = (ts.map fun x => (.next, .token x), off')
  | [], off, hl, hh, hn => by
    refine ⟨off, hl, ?_, rfl⟩
    simp only [List.length_nil, Nat.zero_add, List.replicate_one, history, List.map_cons, List.map_nil, List.nil_append] at hh
    cases tok_cases ha hl with
    | eof hw hn he hp => exact hw
    | tok w b t l off' hw hd hb hv ha hs hlt hle hn he hp => simp [Call.run, hn] at hh
    | err w b t e off' hw hd hb hlt hle heo hrp hn he hp => simp [Call.run, hn] at hh
  | x :: ts, off, hl, hh, hn => by
    rw [List.length_cons, List.replicate_succ] at hh
    simp only [history, List.map_cons, List.cons_append, List.cons.injEq] at hh
    obtain ⟨h1, h2⟩ := hh
    have hc := call_offset ha hl .next
    have hrun : Call.next.run (a ++ b) g off = Call.next.run a g off := by
      cases ts with
      | nil => exact (token_stands ha hab hl .next h1 (hn x rfl)).2
      | cons y ts =>
        have hb : (Call.next.run a g off).2 < a.length := by
          rw [List.length_cons, List.replicate_succ] at h2
          simp only [history, List.map_cons, List.cons_append, List.cons.injEq] at h2
          have hy := h2.1
          exact (token_stands (t := []) ha (by rw [List.append_nil]; exact ha) hc.2 .next hy
            (by rintro _ ⟨_, _, h, _⟩; cases h)).1
        have := win_run (p := []) (t := b) ha hl .next (.inl hb)
        simp only [List.nil_append, List.length_nil, Nat.add_zero] at this
        rw [this]
        exact Prod.ext (by rw [h1]; rfl) rfl
    obtain ⟨off', hl', hw', hh'⟩ := stream_join_from ha hab ts hc.2 h2 (by
      intro z hz
      exact hn z (by cases ts with | nil => cases hz | cons y ts => rw [List.getLast?_cons_cons]; exact hz))
    refine ⟨off', hl', hw', ?_⟩
    rw [List.length_cons, List.replicate_succ]
    simp only [history, hrun, h1, hh', List.map_cons]

theorem streams_map {src : List UInt8} {g : Bool} {n : Nat} {rs : List Reply} {off : Nat}
    (h : (history src g (List.replicate n .next) off).1.map Prod.snd = rs) :
    (history src g (List.replicate n .next) off).1 = rs.map fun r => (.next, r) := by
  subst h
  generalize hn : n = n'
  induction n' generalizing n off with
  | zero => rfl
  | succ m ih =>
    subst hn
    rw [List.replicate_succ]
    simp only [history, List.map_cons]
    rw [← ih (n := m) rfl]

/-- **C80.** The tokens of two sources joined are the tokens of the first and then those of the second, unless the second goes on
with a number at the end of the first. -/
theorem C80_streams_join (g : Bool) (a b : List UInt8) (ha : Input g a) (hb : Input g b) (hab : Input g (a ++ b))
    (ts us : List Token) (hts : Streams a g ts) (hus : Streams b g us)
    (hn : ∀ x, ts.getLast? = some x → x.kind = .number → ¬ GoesOn b) :
    Streams (a ++ b) g (ts ++ us) := by
  obtain ⟨off', hl', hw', hh'⟩ := stream_join_from ha hab ts (Nat.zero_le _) hts hn
  unfold Streams at *
  rw [List.length_append, Nat.add_assoc, ← List.replicate_append_replicate, history_append, hh']
  have hrun : Call.next.run (a ++ b) g off' = Call.next.run (a ++ b) g a.length := by
    simp only [Call.run, tokNext_ws hl' hw']
    cases hx : tokNext (a ++ b) g a.length with
    | panic p => 
      cases tok_cases hab (off := a.length) (by simp) with
      | eof hw hn he hp => rw [hn] at hx; cases hx
      | tok w b t l off' hw hd hb hv ha hs hlt hle hn he hp => rw [hn] at hx; cases hx
      | err w b t e off' hw hd hb hlt hle heo hrp hn he hp => rw [hn] at hx; cases hx
    | ok x s => cases x <;> rfl
    | err e s => rfl
  have hfrom : history (a ++ b) g (List.replicate (us.length + 1) .next) off' =
      history (a ++ b) g (List.replicate (us.length + 1) .next) a.length := by
    rw [List.replicate_succ]
    simp only [history, hrun]
  have hw := win_history (p := a) (t := []) hb (List.replicate (us.length + 1) .next) (Nat.zero_le _) (.inr rfl)
  rw [List.append_nil, Nat.zero_add] at hw
  simp only [List.map_append, List.map_map]
  rw [hfrom, hw]
  unfold laterHistory
  rw [streams_map hus]
  simp [Function.comp_def, Reply.later]

/-- **C80.** A tokenizer over accepted texts, each followed by a line feed, gives the tokens of the values, text after text. -/
theorem C80_lines (g : Bool) (cfg : ParseConfig) (hc : cfg.allowTrailingCommas = false) (ps : List (List UInt8 × Value))
    (h : Input g (linesText (ps.map Prod.fst))) (hp : ∀ p ∈ ps, Value.parseWithConfig false p.1 cfg = .ok p.2) :
    Streams (linesText (ps.map Prod.fst)) g (ps.flatMap fun p => p.2.tokens) := by
  have key : ∀ (ps : List (List UInt8 × Value)), SliceFits (linesText (ps.map Prod.fst)) →
      (∀ p ∈ ps, Value.parseWithConfig false p.1 cfg = .ok p.2) →
      Streams (linesText (ps.map Prod.fst)) false (ps.flatMap fun p => p.2.tokens) := by
    intro ps
    induction ps with
    | nil => intro _ _; rfl
    | cons p ps ih =>
      intro hf hp
      simp only [List.map_cons, linesText, List.flatMap_cons] at hf ⊢
      have hif : Input false (p.1 ++ (0x0A :: linesText (ps.map Prod.fst))) := ⟨hf, fun h => by cases h⟩
      have hfa : SliceFits p.1 := by unfold SliceFits at hf ⊢; simp only [List.length_append] at hf; omega
      have hfb : SliceFits (0x0A :: linesText (ps.map Prod.fst)) := by
        unfold SliceFits at hf ⊢; simp only [List.length_append] at hf; omega
      have hfc : SliceFits (linesText (ps.map Prod.fst)) := by
        unfold SliceFits at hfb ⊢; simp only [List.length_cons] at hfb; omega
      have h1 : Streams p.1 false p.2.tokens :=
        C50_tokens_of_text false p.1 ⟨hfa, fun h => by cases h⟩ cfg hc p.2 (hp p (by simp))
      have h2 := ih hfc fun x hx => hp x (by simp [hx])
      have hnl : Streams [0x0A] false [] := by rfl
      have h3 : Streams (0x0A :: linesText (ps.map Prod.fst)) false (ps.flatMap fun p => p.2.tokens) :=
        C80_streams_join false [0x0A] (linesText (ps.map Prod.fst))
          ⟨by unfold SliceFits at hfb ⊢; simp only [List.length_cons] at hfb ⊢; simp; omega, fun h => by cases h⟩
          ⟨hfc, fun h => by cases h⟩ ⟨hfb, fun h => by cases h⟩ [] _ hnl h2 (by intro x hx; cases hx)
      refine C80_streams_join false p.1 _ ⟨hfa, fun h => by cases h⟩ ⟨hfb, fun h => by cases h⟩ hif _ _ h1 h3 ?_
      rintro x _ _ ⟨y, r, hy, hg⟩
      injection hy with hy
      subst hy
      rcases hg with hg | hg | hg | hg
      · revert hg; unfold IsDigit; decide
      · revert hg; decide
      · revert hg; decide
      · revert hg; decide
  have h0 := key ps h.1 hp
  cases g with
  | false => exact h0
  | true =>
    obtain ⟨s, hs⟩ := h.2 rfl
    unfold Streams at h0 ⊢
    rw [hs] at h0 ⊢
    rw [C06_tokenizers_agree s (hs ▸ h.1)]
    exact h0

end

/-! ### Concrete cases -/

section
attribute [local instance] arch64

/-- after the error for `nul` at a comma, a fresh tokenizer on the rest -/
example : offsetAfter (b8 "[nul,tru 1]") false [.next, .next] = 5
    ∧ history (b8 "[nul,tru 1]") false [.peek, .next, .next, .next] 5
      = ([(.peek, .peeked (some .true)), (.next, .error ⟨8, .unexpected 0x20⟩), (.next, .token (.number ⟨.borrowed "1".toList⟩)),
          (.next, .token .arrayEnd)], 11)
    ∧ history (b8 "tru 1]") false [.peek, .next, .next, .next] 0
      = ([(.peek, .peeked (some .true)), (.next, .error ⟨3, .unexpected 0x20⟩), (.next, .token (.number ⟨.borrowed "1".toList⟩)),
          (.next, .token .arrayEnd)], 6) := by
  decide +kernel

/-- the hypothesis of `C80_replies_stand`: an error, and the end is not reached -/
example : offsetAfter (b8 "[fals,  ") false [.next, .next, .peek] = 8
    ∧ offsetAfter (b8 "[fals,  ") false [.next, .next] = 6 ∧ 6 < (b8 "[fals,  ").length := by
  decide +kernel

/-- a number at the end does not stand if it goes on, and stands if it does not -/
example : history (b8 "[1") false [.next, .next] 0 = ([(.next, .token .array), (.next, .token (.number ⟨.borrowed "1".toList⟩))], 2)
    ∧ history (b8 "[1" ++ b8 "2]") false [.next, .next] 0
      = ([(.next, .token .array), (.next, .token (.number ⟨.borrowed "12".toList⟩))], 3)
    ∧ history (b8 "[1" ++ b8 ",2]") false [.next, .next] 0
      = ([(.next, .token .array), (.next, .token (.number ⟨.borrowed "1".toList⟩))], 2)
    ∧ ¬ GoesOn (b8 ",2]") := by
  refine ⟨by decide +kernel, by decide +kernel, by decide +kernel, ?_⟩
  rintro ⟨y, r, hy, hg⟩
  have : b8 ",2]" = [0x2C, 0x32, 0x5D] := by decide +kernel
  rw [this] at hy
  injection hy with hy
  subst hy
  rcases hg with hg | hg | hg | hg
  · revert hg; unfold IsDigit; decide
  · revert hg; decide
  · revert hg; decide
  · revert hg; decide

/-- two streams and their join -/
example : Streams (b8 "[true ") false [.array, .bool true] ∧ Streams (b8 "\n2]") false [.number ⟨.borrowed "2".toList⟩, .arrayEnd]
    ∧ Streams (b8 "[true \n2]") false [.array, .bool true, .number ⟨.borrowed "2".toList⟩, .arrayEnd] := by
  unfold Streams
  decide +kernel

/-- two texts on two lines -/
example : linesText [b8 "[1]", b8 "null"] = b8 "[1]\nnull\n"
    ∧ Streams (b8 "[1]\nnull\n") false [.array, .number ⟨.borrowed "1".toList⟩, .arrayEnd, .null] := by
  unfold Streams
  decide +kernel

end

/-! ## Instances: each theorem above applied to a concrete case that meets its hypotheses -/
section Instances
attribute [local instance] arch64

example := C80_fresh_on_the_rest true (b8 "[nul,tru 1]") (by lit) [.next, .next] [.peek, .next]
  ⟨by unfold SliceFits; decide +kernel, fun _ => ⟨"tru 1]".toList, by decide +kernel⟩⟩
example := C80_replies_stand true (b8 "[fals,  ") (b8 "]") (by lit) [.next, .next] (by decide +kernel)
example := C80_tokens_stand false (b8 "[true") (b8 "]") (by lit) (by lit) [.next] .next (.bool true) (by decide +kernel) (fun h => by cases h)
example := C80_streams_join false (b8 "[true ") (b8 "\n2]") (by lit) (by lit) (by lit) [.array, .bool true] [.number ⟨.borrowed "2".toList⟩, .arrayEnd]
  (by unfold Streams; decide +kernel) (by unfold Streams; decide +kernel) (fun x hx hk => by cases hx; cases hk)
example := C80_lines false .new rfl [(exSrc, exVal), (b8 "null", .null)] (by lit) (fun p hp => by
  simp only [List.mem_cons, List.not_mem_nil, or_false] at hp
  rcases hp with rfl | rfl
  · exact exSrc_parses _
  · exact value_same (by decide +kernel))

end Instances
end JustJson
