import Verif.Spec.Borrow
import Verif.Props.Doc
import Verif.Props.Callbacks
import Verif.Props.Delegate
/-! # Parsing copies no text: C65 -/

namespace JustJson
open Spec

section
variable [Arch]

omit [Arch] in
theorem BorrowsFrom.before {src : List UInt8} {ls : List Literal} (h : BorrowsFrom src ls) (a : List UInt8) :
    BorrowsFrom (a ++ src) ls := by
  cases h with
  | nil => exact .nil _
  | cons a' p r l ls h1 h2 => rw [← List.append_assoc]; exact .cons _ _ _ _ _ h1 h2

omit [Arch] in
theorem BorrowsFrom.append {src src' : List UInt8} {ls ls' : List Literal} (h : BorrowsFrom src ls) (h' : BorrowsFrom src' ls') :
    BorrowsFrom (src ++ src') (ls ++ ls') := by
  induction h with
  | nil src => exact h'.before src
  | cons a p r l ls h1 h2 ih =>
    rw [List.append_assoc, List.append_assoc]
    exact .cons _ _ _ _ _ h1 ih

omit [Arch] in
theorem BorrowsFrom.after {src : List UInt8} {ls : List Literal} (h : BorrowsFrom src ls) (a : List UInt8) :
    BorrowsFrom (src ++ a) ls := by
  have := h.append (.nil a)
  rwa [List.append_nil] at this

omit [Arch] in
theorem BorrowsFrom.left {src : List UInt8} {ls ls' : List Literal} (h : BorrowsFrom src (ls ++ ls')) : BorrowsFrom src ls := by
  induction ls generalizing src with
  | nil => exact .nil _
  | cons l ls ih =>
    cases h with
    | cons a p r l ls h1 h2 => exact .cons _ _ _ _ _ h1 (ih h2)

omit [Arch] in
theorem BorrowsFrom.one {p : List UInt8} {l : Literal} (h : Borrows l p) : BorrowsFrom p [l] := by
  have := BorrowsFrom.cons [] p [] l [] h (.nil _)
  simpa using this

omit [Arch] in
theorem canonNum_borrows {n : NumLit} (h : n.Valid) : Borrows (.num (canonNum n)) n.bytes := by
  have := Borrows.num (canonNum n) _ rfl
  rwa [utf8_num h] at this

theorem canonStr_borrows {is : List Item} (h : ItemsValid is) : Borrows (.str (canonStr is)) (strBytes is) := by
  have := Borrows.str (canonStr is) _ rfl
  rwa [utf8_bodyChars h] at this

theorem gvalue_borrows {tc : Bool} {b : List UInt8} {j : Json} (h : GValue tc b j) : BorrowsFrom b (ofJson j).literals := by
  refine GValue.rec (motive_1 := fun b j _ => BorrowsFrom b (ofJson j).literals)
    (motive_2 := fun b js _ => BorrowsFrom b (Value.literalsElems (ofJsons js)))
    (motive_3 := fun b ms _ => BorrowsFrom b (Value.literalsEntries (ofMembers ms)))
    ?_ ?_ ?_ ?_ ?_ ?_ ?_ ?_ ?_ ?_ ?_ ?_ ?_ ?_ ?_ h
  · exact .nil _
  · exact .nil _
  · exact .nil _
  · exact fun n hn => .one (canonNum_borrows hn)
  · exact fun s hs => .one (canonStr_borrows hs)
  · exact fun w hw => .nil _
  · exact fun body js hg ih => (ih.after [0x5D]).before [0x5B]
  · exact fun w hw => .nil _
  · exact fun body js hg ih => (ih.after [0x7D]).before [0x7B]
  · intro w b w' j hw hg hw' ih
    have := (ih.before w).after w'
    simpa [ofJsons, Value.literalsElems] using this
  · intro w b w' w'' j htc hw hg hw' hw'' ih
    have := ((ih.before w).after w').after (0x2C :: w'')
    simpa [ofJsons, Value.literalsElems] using this
  · intro w b w' rest j js hw hg hw' hgs ih ih2
    rw [ofJsons, Value.literalsElems]
    exact ((ih.before w).after w').append (ih2.before [0x2C])
  · intro w w1 w2 b w' k j hw hk hw1 hw2 hg hw' ih
    have h1 := ((BorrowsFrom.one (canonStr_borrows hk)).before w).after w1
    have h2 := ((ih.before w2).after w').before [0x3A]
    have := h1.append h2
    simpa [ofMembers, Value.literalsEntries] using this
  · intro w w1 w2 b w' w'' k j htc hw hk hw1 hw2 hg hw' hw'' ih
    have h1 := ((BorrowsFrom.one (canonStr_borrows hk)).before w).after w1
    have h2 := (((ih.before w2).after w').after (0x2C :: w'')).before [0x3A]
    have := h1.append h2
    simpa [ofMembers, Value.literalsEntries] using this
  · intro w w1 w2 b w' rest k j ms hw hk hw1 hw2 hg hw' hgs ih ih2
    have h1 := ((BorrowsFrom.one (canonStr_borrows hk)).before w).after w1
    have h2 := (((ih.before w2).after w').append (ih2.before [0x2C])).before [0x3A]
    have := h1.append h2
    simpa [ofMembers, Value.literalsEntries] using this

theorem flatten_literals : (∀ v : Value, (flatten v).filterMap Node.literal? = v.literals)
    ∧ (∀ es : Object, (flattenEntries es).filterMap Node.literal? = Value.literalsEntries es)
    ∧ ∀ vs : List Value, (flattenElems vs).filterMap Node.literal? = Value.literalsElems vs := by
  apply Value.induct
  · rfl
  · intro b; rfl
  · intro n; rfl
  · intro s; rfl
  · intro es h; rw [flatten, Value.literals, ← h]; rfl
  · intro es h; rw [flatten, Value.literals, ← h]; rfl
  · rfl
  · intro k v es h1 h2
    rw [flattenEntries, Value.literalsEntries, ← h1, ← h2]
    simp [Node.literal?]
  · rfl
  · intro v es h1 h2
    rw [flattenElems, Value.literalsElems, ← h1, ← h2, List.filterMap_append]

theorem literal_lex {l : Lex} (hv : l.Valid) {src : List UInt8} {ls : List Literal} (h : BorrowsFrom src ls) (a : List UInt8) :
    BorrowsFrom (a ++ (l.bytes ++ src)) (l.token.literal?.toList ++ ls) := by
  cases l with
  | num n => exact .cons _ _ _ _ _ (canonNum_borrows hv) h
  | str is => exact .cons _ _ _ _ _ (canonStr_borrows hv) h
  | bool b => exact (h.before _).before _
  | _ => exact (h.before _).before _

/-- what a tokenizer returns from any position on -/
theorem history_borrows {g : Bool} {src : List UInt8} (hi : Input g src) : ∀ (cs : List Call) (off : Nat), off ≤ src.length →
    BorrowsFrom (src.drop off) ((history src g cs off).1.filterMap fun r => r.2.literal?)
  | [], _, _ => .nil _
  | c :: cs, off, hl => by
    have split : ∀ off', off ≤ off' → ∃ a, src.drop off = a ++ src.drop off' := fun off' h => by
      refine ⟨(src.drop off).take (off' - off), ?_⟩
      have : src.drop off' = (src.drop off).drop (off' - off) := by rw [List.drop_drop]; congr 1; omega
      rw [this, List.take_append_drop]
    have skip : ∀ off', off ≤ off' → off' ≤ src.length → ∀ r, r.literal? = none →
        c.run src g off = (r, off') →
        BorrowsFrom (src.drop off) ((history src g (c :: cs) off).1.filterMap fun r => r.2.literal?) := by
      intro off' h1 h2 r hr hc
      obtain ⟨a, ha⟩ := split off' h1
      rw [history, hc, ha]
      simp only [List.filterMap_cons, hr]
      exact (history_borrows hi cs off' h2).before a
    cases tok_cases hi hl with
    | eof hw hn he hp =>
      cases c <;> refine skip src.length hl (Nat.le_refl _) _ ?_ (by simp only [Call.run, hn, he, hp]; rfl) <;> rfl
    | tok w b t l off' hw hd hb hv ha hs hlt hle hn he hp =>
      have hdrop : src.drop off = w ++ (l.bytes ++ src.drop off') := by
        rw [hd]
        congr 1
        rw [← ha.2, ← List.drop_drop, hd]
        simp
      have tok : c.run src g off = (.token l.token, off') →
          BorrowsFrom (src.drop off) ((history src g (c :: cs) off).1.filterMap fun r => r.2.literal?) := by
        intro hc
        have := literal_lex hv (history_borrows hi cs off' hle) w
        rw [hdrop, history, hc]
        simp only [List.filterMap_cons, Reply.literal?]
        cases hl : l.token.literal? with
        | none => rw [hl] at this; exact this
        | some x => rw [hl] at this; exact this
      cases c with
      | peek => exact skip (off + w.length) (by omega) (by omega) (.peeked (some (peekKind b))) rfl (by simp only [Call.run, hp])
      | next => exact tok (by simp only [Call.run, hn])
      | nextOrEof => exact tok (by simp only [Call.run, he])
    | err w b t e off' hw hd hb hlt hle heo hrp hn he hp =>
      cases c with
      | peek => exact skip (off + w.length) (by omega) (by omega) (.peeked (some (peekKind b))) rfl (by simp only [Call.run, hp])
      | next => exact skip off' (by omega) hle (.error e) rfl (by simp only [Call.run, hn])
      | nextOrEof => exact skip off' (by omega) hle (.error e) rfl (by simp only [Call.run, he])

/-- **C65.** Every string, key and number of a parsed `Value` is a reference to its own part of the source: strings to the
bytes between their quotes, numbers to their literal, no two parts overlap, and they stand in the order of the value. -/
theorem C65_value (g : Bool) (src : List UInt8) (h : Input g src) (cfg : ParseConfig) (v : Value)
    (hv : Value.parseWithConfig g src cfg = .ok v) : BorrowsFrom src v.literals := by
  obtain ⟨j, ⟨⟨w, b, w', _, hb, _, rfl⟩, _⟩, rfl⟩ := (value_ok_iff h).mp hv
  exact ((gvalue_borrows hb).before w).after w'

/-- **C65**, documents of any capacity. -/
theorem C65_document (cap : Option Nat) (g : Bool) (src : List UInt8) (h : Input g src) (cfg : ParseConfig) (d : Document)
    (hd : docFromJsonWithConfig cap g src cfg = .ok d) : BorrowsFrom src (d.filterMap Node.literal?) := by
  obtain ⟨v, hv, rfl, _⟩ := doc_ok h hd
  rw [flatten_literals.1]
  exact C65_value g src h cfg v hv

/-- **C65**, a tokenizer used in any way, after errors too. -/
theorem C65_tokenizer (g : Bool) (src : List UInt8) (h : Input g src) (cs : List Call) :
    BorrowsFrom src ((history src g cs 0).1.filterMap fun r => r.2.literal?) :=
  history_borrows h cs 0 (Nat.zero_le _)

omit [Arch] in
theorem told_literals (l : List Event) : (told l).filterMap Token.literal? = l.filterMap Event.literal? := by
  unfold told
  rw [List.filterMap_filterMap]
  congr 1
  funext e
  cases e <;> rfl

omit [Arch] in
theorem notes_literals (ts : List Token) : (notes ts).filterMap Token.literal? = ts.filterMap Token.literal? := by
  unfold notes
  rw [List.filterMap_filter]
  congr 1
  funext t
  cases t <;> simp <;> rfl

theorem yields_literals {src : List UInt8} {g : Bool} {ts : List Token} {off : Nat} (h : TokYields src g 0 ts off) :
    (history src g (List.replicate ts.length .next) 0).1.filterMap (fun r => r.2.literal?) = ts.filterMap Token.literal? := by
  rw [h]
  simp only [List.filterMap_map]
  rfl

/-- **C65**, any delegate, whether the parse succeeds or fails: so do the strings, keys and numbers its callbacks are given. -/
theorem C65_delegate (g : Bool) (src : List UInt8) (h : Input g src) (cfg : ParseConfig) (D : Delegate) (d : D.σ)
    (l : List Event) (hl : heard (parseBytes g src cfg (logged D) (d, [])) = some l) :
    BorrowsFrom src (l.filterMap Event.literal?) := by
  have hg := parse_told (cfg := cfg) (D := D) h d
  cases hp : parseBytes g src cfg (logged D) (d, []) with
  | ok a s =>
    rw [hp] at hg hl
    cases hl
    obtain ⟨ts, h1, h2⟩ := hg
    rw [← told_literals, h2, notes_literals]
    have := C65_tokenizer g src h (List.replicate (ts.length + 1) .next)
    have e : (history src g (List.replicate (ts.length + 1) .next) 0).1.filterMap (fun r => r.2.literal?)
        = ((history src g (List.replicate (ts.length + 1) .next) 0).1.map Prod.snd).filterMap Reply.literal? := by
      rw [List.filterMap_map]; rfl
    rw [e, h1, List.filterMap_append, List.filterMap_map] at this
    exact this.left
  | err e s =>
    rw [hp] at hg hl
    cases hl
    obtain ⟨ts, off, h1, t, h2⟩ := hg
    have := C65_tokenizer g src h (List.replicate ts.length .next)
    rw [yields_literals h1, ← notes_literals, ← h2, List.filterMap_append, told_literals] at this
    exact this.left
  | panic p => rw [hp] at hl; cases hl

omit [Arch] in
/-- the literals together are not larger than the source -/
theorem borrows_size {src : List UInt8} {ls : List Literal} (h : BorrowsFrom src ls) :
    (ls.map Literal.size).sum ≤ src.length := by
  induction h with
  | nil src => simp
  | cons a p r l ls h1 h2 ih =>
    have : l.size ≤ p.length := by
      cases h1 with
      | num x t hx => simp [Literal.size, hx, AnyStr.asStr]
      | str s t hs => simp [Literal.size, hs, AnyStr.asStr]; omega
    simp only [List.map_cons, List.sum_cons, List.length_append]
    omega

/-- **C65**: so all text held by a parsed value together is not larger than the source. -/
theorem C65_total_size (g : Bool) (src : List UInt8) (h : Input g src) (cfg : ParseConfig) (v : Value)
    (hv : Value.parseWithConfig g src cfg = .ok v) : (v.literals.map Literal.size).sum ≤ src.length :=
  borrows_size (C65_value g src h cfg v hv)

/-- **C65**: the single-value parsers. -/
theorem C65_single (s : Str) (h : SliceFits (utf8 s)) :
    (∀ j, JsonString.fromJson s = .ok j → BorrowsFrom (utf8 s) [.str j])
    ∧ ∀ x, JsonNumber.fromJson s = .ok x → BorrowsFrom (utf8 s) [.num x] := by
  refine ⟨fun j hj => ?_, fun x hx => ?_⟩
  · have key := C38_string_from_json s h
    cases hv : Value.fromJson s with
    | panic p => rw [hv] at key; exact key.elim
    | err e => rw [hv, hj] at key; rcases key with h | ⟨_, h⟩ <;> cases h
    | ok v =>
      have hb := C65_value true (utf8 s) (input_str h) .new v hv
      rw [hv, hj] at key
      cases v with
      | string js => cases key; exact hb
      | _ => obtain ⟨_, h⟩ := key; cases h
  · have key := C38_number_from_json s h
    cases hv : Value.fromJson s with
    | panic p => rw [hv] at key; exact key.elim
    | err e => rw [hv, hx] at key; rcases key with h | ⟨_, h⟩ <;> cases h
    | ok v =>
      have hb := C65_value true (utf8 s) (input_str h) .new v hv
      rw [hv, hx] at key
      cases v with
      | number js => cases key; exact hb
      | _ => obtain ⟨_, h⟩ := key; cases h

end

section Examples
attribute [local instance] arch64

deriving instance DecidableEq for Literal

/-- something to read -/
def borrowEx : Str := "{\"k\" : [1, \"a\\u0062\", -2e3]}".toList

example : ∃ v, Value.fromJson borrowEx = .ok v ∧ v.literals.length = 4 ∧ (v.literals.map Literal.size).sum = 13 := by
  have : (match Value.fromJson borrowEx with
    | .ok v => some (v.literals.length, (v.literals.map Literal.size).sum)
    | _ => none) = some (4, 13) := by decide +kernel
  cases h : Value.fromJson borrowEx with
  | ok v => rw [h] at this; simp at this; exact ⟨v, rfl, this⟩
  | err e => rw [h] at this; cases this
  | panic p => rw [h] at this; cases this

/-- C65: the document of the same text, a tokenizer that meets an error on the way, and the single-value parsers -/
example : (docFromJson none borrowEx).isOk = true
    ∧ ((history (b8 "[\"a\", nul 12") false [.next, .next, .next, .next, .next, .next, .next] 0).1.filterMap fun r => r.2.literal?)
      = [.str ⟨.json (.borrowed ['a']), .new false 1⟩, .num ⟨.borrowed ['1', '2']⟩]
    ∧ (JsonString.fromJson " \"x\" ".toList).isOk = true ∧ (JsonNumber.fromJson " -1 ".toList).isOk = true := by decide +kernel
/-- the references of the tokenizer, by the theorem -/
example : BorrowsFrom (b8 "[\"a\", nul 12") [.str ⟨.json (.borrowed ['a']), .new false 1⟩, .num ⟨.borrowed ['1', '2']⟩] := by
  have := C65_tokenizer false (b8 "[\"a\", nul 12") (input_bytes (by unfold SliceFits; decide +kernel))
    [.next, .next, .next, .next, .next, .next, .next]
  rwa [show ((history (b8 "[\"a\", nul 12") false [.next, .next, .next, .next, .next, .next, .next] 0).1.filterMap fun r => r.2.literal?)
      = [.str ⟨.json (.borrowed ['a']), .new false 1⟩, .num ⟨.borrowed ['1', '2']⟩] by decide +kernel] at this

end Examples

/-! ## Instances: each theorem above applied to a concrete case that meets its hypotheses -/
section Instances
attribute [local instance] arch64

example := C65_value true exSrc (exSrc_input _) .new exVal (exSrc_parses _)
example := C65_document none true exSrc (exSrc_input _) .new _ (exSrc_nodes _)
example := C65_tokenizer true exBad (exBad_input _) [.next, .next, .peek, .next, .next, .next]
example := C65_delegate true exBad (exBad_input _) .new unitDelegate () _ (unitEvents _)
example := C65_total_size true exSrc (exSrc_input _) .new exVal (exSrc_parses _)
example := C65_single " \"x\\n\" ".toList (by lit)

end Instances
end JustJson
