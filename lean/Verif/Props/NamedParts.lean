import Verif.Props.Named
import Verif.Props.Ex
/-! # `Debug` of the parts of values, and of errors with a delegate's payload: C79 -/

namespace JustJson
open Spec

section
variable {plain : Char → Bool} {a : Bool}
section
variable [Arch]

theorem ok_object (es : List (JsonString × Value)) : (Shown.tuple "Object".toList [.list (Value.shownEntries plain es)]).Ok plain :=
  ok_one (isWord (by decide +kernel)) (by rw [Shown.Ok]; exact ok_entries es)

theorem ok_entry (e : JsonString × Value) :
    (Shown.struct "Entry".toList [("key".toList, e.1.shown plain), ("value".toList, e.2.shown plain)]).Ok plain :=
  ok_two (isWord (by decide +kernel)) (isWord (by decide +kernel)) (isWord (by decide +kernel)) (ok_string e.1) (ok_value e.2)

/-- **C79.** Two `AnyStr`, two objects or two entries print alike if and only if they are the same. -/
theorem C79_parts (plain : Char → Bool) (a : Bool) (s t : AnyStr) (es fs : List (JsonString × Value)) (e f : JsonString × Value)
    (hes : ∀ x ∈ Value.stringsEntries es, FitsUsize x) (hfs : ∀ x ∈ Value.stringsEntries fs, FitsUsize x)
    (he : ∀ x ∈ Value.stringsEntries [e], FitsUsize x) (hf : ∀ x ∈ Value.stringsEntries [f], FitsUsize x) :
    (s.debug plain a = t.debug plain a ↔ s = t) ∧ (Object.debug plain a es = Object.debug plain a fs ↔ es = fs)
    ∧ (Entry.debug plain a e = Entry.debug plain a f ↔ e = f) := by
  refine ⟨⟨fun h => anyStr_inj (render_inj (ok_anyStr s) (ok_anyStr t) h), fun h => by rw [h]⟩, ⟨fun h => ?_, fun h => by rw [h]⟩,
    ⟨fun h => ?_, fun h => by rw [h]⟩⟩
  · have h := (one_inj (render_inj (ok_object es) (ok_object fs) h)).2
    injection h with h
    exact entries_inj hes hfs h
  · have h := render_inj (ok_entry e) (ok_entry f) h
    have := entries_inj (plain := plain) he hf (by
      obtain ⟨k, v⟩ := e
      obtain ⟨k', v'⟩ := f
      simp only [Value.shownEntries] at h ⊢
      rw [h])
    injection this

/-- **C79.** What they print. -/
theorem C79_part_text (plain : Char → Bool) (a : Bool) (s : AnyStr) (es : List (JsonString × Value)) (e : JsonString × Value) :
    s.debug plain a = anyStrText plain a 0 s
    ∧ Object.debug plain a es = applied a 0 "Object" (fun l => bracketed a l (entryTexts plain a (l + 1) es))
    ∧ Entry.debug plain a e = record a 0 "Entry" [("key", fun l => stringText plain a l e.1), ("value", fun l => valueText plain a l e.2)] := by
  refine ⟨(render_at a (ok_anyStr s)).trans (at_anyStr 0 s), (render_at a (ok_object es)).trans ?_, (render_at a (ok_entry e)).trans ?_⟩
  · rw [at_tuple]
    simp only [at_list, at_entries]
  · refine at_struct 0 _ _ _ rfl ?_
    simp only [List.zip_cons_cons, List.zip_nil_left, List.mem_cons, List.not_mem_nil, or_false, forall_eq_or_imp, forall_eq, at_string,
      at_value, and_self]
end

/-- **C79.** Two kinds of error without a payload print alike if and only if they are equal. -/
theorem C79_error_kinds (a : Bool) (k j : ErrorKind Empty) : k.debug Empty.elim a = j.debug Empty.elim a ↔ k = j :=
  ⟨fun h => kind_inj (render_inj (ok_kind (plain := fun _ => false) k) (ok_kind j) h), fun h => by rw [h]⟩

/-! ## A delegate's payload -/

theorem shift_inj : ∀ {s t : Str}, shift s = shift t → s = t
  | [], [], _ => rfl
  | [], c :: t, h => by
    by_cases hc : c = '\n'
    · subst hc; exact absurd h (by simp [shift])
    · rw [shift_cons hc] at h; exact absurd h (by simp [shift])
  | c :: s, [], h => by
    by_cases hc : c = '\n'
    · subst hc; exact absurd h (by simp [shift])
    · rw [shift_cons hc] at h; exact absurd h (by simp [shift])
  | c :: s, d :: t, h => by
    have e : ∀ s : Str, shift ('\n' :: s) = '\n' :: ' ' :: ' ' :: ' ' :: ' ' :: shift s := fun _ => rfl
    by_cases hc : c = '\n'
    · by_cases hd : d = '\n'
      · subst hc; subst hd
        rw [e, e] at h
        simp only [List.cons.injEq, true_and] at h
        rw [shift_inj h]
      · subst hc
        rw [e, shift_cons hd] at h
        exact absurd (List.cons.inj h).1.symm hd
    · by_cases hd : d = '\n'
      · subst hd
        rw [e, shift_cons hc] at h
        exact absurd (List.cons.inj h).1 hc
      · rw [shift_cons hc, shift_cons hd] at h
        obtain ⟨h1, h2⟩ := List.cons.inj h
        rw [h1, shift_inj h2]

variable {δ : Type}

/-- The kind, if it has no payload. -/
def ErrorKind.bare : ErrorKind δ → Option (ErrorKind Empty)
  | .utf8 => some .utf8
  | .unexpectedEof => some .unexpectedEof
  | .expectedObjectKey => some .expectedObjectKey
  | .expectedColon => some .expectedColon
  | .expectedValue => some .expectedValue
  | .expectedCommaOrEndOfObject => some .expectedCommaOrEndOfObject
  | .expectedCommaOrEndOfArray => some .expectedCommaOrEndOfArray
  | .illegalTrailingComma => some .illegalTrailingComma
  | .unexpected b => some (.unexpected b)
  | .trailingNonWhitespace => some .trailingNonWhitespace
  | .objectKeysMustBeStrings => some .objectKeysMustBeStrings
  | .expectedExponent => some .expectedExponent
  | .expectedDecimalDigit => some .expectedDecimalDigit
  | .expectedDigit => some .expectedDigit
  | .invalidHexadecimal => some .invalidHexadecimal
  | .invalidEscape => some .invalidEscape
  | .unclosedObject => some .unclosedObject
  | .unclosedArray => some .unclosedArray
  | .unclosedString => some .unclosedString
  | .expectedString => some .expectedString
  | .expectedNumber => some .expectedNumber
  | .recursionLimitReached => some .recursionLimitReached
  | .payloadsShouldBeObjectOrArray => some .payloadsShouldBeObjectOrArray
  | .paylodTooLarge => some .paylodTooLarge
  | .errorFromDelegate _ => none

theorem bare_inj {k j : ErrorKind δ} {m : ErrorKind Empty} (hk : k.bare = some m) (hj : j.bare = some m) : k = j := by
  have : ∀ {k : ErrorKind δ}, k.bare = some m → k = m.intoFallable := by
    intro k hk
    cases k <;> simp only [ErrorKind.bare, Option.some.injEq, reduceCtorEq] at hk <;> subst hk <;> rfl
  rw [this hk, this hj]

theorem bare_shown {k : ErrorKind δ} {m : ErrorKind Empty} (hk : k.bare = some m) (s : δ → Shown) : k.shown s = m.shown Empty.elim := by
  cases k <;> simp only [ErrorKind.bare, Option.some.injEq, reduceCtorEq] at hk <;> subst hk <;> rfl

theorem bare_none {k : ErrorKind δ} (hk : k.bare = none) : ∃ d, k = .errorFromDelegate d := by
  cases k <;> simp only [ErrorKind.bare, reduceCtorEq] at hk
  exact ⟨_, rfl⟩

/-- the text of a payload -/
def payloadText (a : Bool) (p : Str) : Str := (Shown.tuple "ErrorFromDelegate".toList [.text p]).render a

theorem tuple_render (n p : Str) : (Shown.tuple n [.text p]).render a
    = n ++ '(' :: ((if a then '\n' :: ' ' :: ' ' :: ' ' :: ' ' :: (shift p ++ [',', '\n']) else p) ++ [')']) := by
  unfold Shown.render
  cases a with
  | false => simp [Shown.flat, Shown.flatItems]
  | true => simp [Shown.lines, Shown.linesItems, (padText_comma _).2]

theorem payloadText_inj {p q : Str} (h : payloadText a p = payloadText a q) : p = q := by
  rw [payloadText, payloadText, tuple_render, tuple_render, List.append_cancel_left_eq, List.cons.injEq, List.append_cancel_right_eq] at h
  have h := h.2
  cases a with
  | false => simpa using h
  | true => simp only [if_true, List.cons.injEq, true_and, List.append_cancel_right_eq] at h; exact shift_inj h

theorem payload_bare (k : ErrorKind Empty) (p : Str) : (k.shown Empty.elim).render a ≠ payloadText a p := by
  intro h
  have hx : ∀ w x : Str, IsWord w → w ++ x = payloadText a p → Stops x → w = "ErrorFromDelegate".toList := by
    intro w x hw h hs
    rw [payloadText, tuple_render] at h
    exact (shownWord_split hw (isWord (by decide +kernel)) hs (stops_paren _) h).1
  have hu : ∀ w : Str, IsWord w → (Shown.text w).render a = payloadText a p → w = "ErrorFromDelegate".toList := by
    intro w hw h
    refine hx w [] hw ?_ (by intro c hc; cases hc)
    rw [List.append_nil, ← h]
    cases a <;> rfl
  cases k with
  | errorFromDelegate d => exact d.elim
  | unexpected b =>
    rw [ErrorKind.shown, tuple_render] at h
    exact absurd (hx _ _ (isWord (by decide +kernel)) h (stops_paren _)) (by decide +kernel)
  | _ => exact absurd (hu _ (isWord (by decide +kernel)) h) (by decide +kernel)

/-- Two kinds are the same, or both hold payloads that print alike. -/
def SameKind (p : δ → Str) (k j : ErrorKind δ) : Prop :=
  k = j ∨ ∃ d d', k = .errorFromDelegate d ∧ j = .errorFromDelegate d' ∧ p d = p d'

theorem kind_render {p : δ → Str} {k j : ErrorKind δ} :
    (k.shown fun d => .text (p d)).render a = (j.shown fun d => .text (p d)).render a ↔ SameKind p k j := by
  constructor
  · intro h
    cases hk : k.bare with
    | some m =>
      rw [bare_shown hk] at h
      cases hj : j.bare with
      | some n =>
        rw [bare_shown hj] at h
        have := kind_inj (render_inj (ok_kind (plain := fun _ => false) m) (ok_kind n) h)
        subst this
        exact .inl (bare_inj hk hj)
      | none =>
        obtain ⟨d, rfl⟩ := bare_none hj
        exact absurd h (payload_bare m (p d))
    | none =>
      obtain ⟨d, rfl⟩ := bare_none hk
      cases hj : j.bare with
      | some n =>
        rw [bare_shown hj] at h
        exact absurd h.symm (payload_bare n (p d))
      | none =>
        obtain ⟨d', rfl⟩ := bare_none hj
        exact .inr ⟨d, d', rfl, rfl, payloadText_inj h⟩
  · rintro (rfl | ⟨d, d', rfl, rfl, h⟩)
    · rfl
    · show payloadText a (p d) = payloadText a (p d')
      rw [h]

theorem error_flat (n : Str) (k : Shown) : (Shown.struct "Error".toList [("offset".toList, .text n), ("kind".toList, k)]).flat
      = "Error { offset: ".toList ++ (n ++ ',' :: (" kind: ".toList ++ (k.flat ++ " }".toList))) := by
  rw [Shown.flat, Shown.flatFields, Shown.flatFields, Shown.flat]
  · simp
  · simp

theorem error_lines (n : Str) (k : Shown) (hn : '\n' ∉ n) :
    (Shown.struct "Error".toList [("offset".toList, .text n), ("kind".toList, k)]).lines
      = "Error {\n    offset: ".toList ++ (n ++ ',' :: ("\n    kind: ".toList ++ (shift k.lines ++ ",\n}".toList))) := by
  rw [Shown.lines, Shown.linesFields, Shown.linesFields, Shown.linesFields, Shown.lines, (padText_comma _).2, (padText_comma _).2,
    shift_append, shift_append, shift_append, shift_append, shift_self hn]
  simp [shift]

/-- **C79.** What is printed for a payload: its own text in brackets; with `{:#?}`, every line of it set in by eight spaces. -/
theorem C79_payload_text (p : δ → Str) (n : Nat) (d : δ) :
    Error.debug (fun d => .text (p d)) false ⟨n, .errorFromDelegate d⟩
      = "Error { offset: ".toList ++ natWord n ++ ", kind: ErrorFromDelegate(".toList ++ p d ++ ") }".toList
    ∧ Error.debug (fun d => .text (p d)) true ⟨n, .errorFromDelegate d⟩
      = "Error {\n    offset: ".toList ++ natWord n ++ ",\n    kind: ErrorFromDelegate(\n        ".toList
        ++ (p d).flatMap (fun c => if c = '\n' then "\n        ".toList else [c]) ++ ",\n    ),\n}".toList := by
  constructor
  · show Shown.flat _ = _
    rw [Error.shown, error_flat, ErrorKind.shown, ← show Shown.render false _ = Shown.flat _ from rfl, tuple_render]
    simp [natWord, showNat]
  · show Shown.lines _ = _
    rw [Error.shown, error_lines _ _ (word_no_newline (word_nat _)), ErrorKind.shown, ← show Shown.render true _ = Shown.lines _ from rfl,
      tuple_render]
    have h2 : ∀ s : Str, shift (shift s) = s.flatMap (fun c => if c = '\n' then "\n        ".toList else [c]) := by
      intro s
      induction s with
      | nil => rfl
      | cons c s ih =>
        by_cases hc : c = '\n'
        · subst hc
          have e : shift (shift ('\n' :: s)) = "\n        ".toList ++ shift (shift s) := by simp [shift]
          rw [e, ih]; rfl
        · rw [shift_cons hc, shift_cons hc, ih, List.flatMap_cons, if_neg hc]; rfl
    rw [← h2]
    have h3 : ∀ (n s : Str), IsWord n → shift (n ++ '(' :: ((if true = true then '\n' :: ' ' :: ' ' :: ' ' :: ' ' :: (s ++ [',', '\n'])
        else p d) ++ [')'])) = n ++ "(\n        ".toList ++ shift s ++ ",\n    )".toList := by
      intro n s hn
      rw [if_pos rfl, shift_append, shift_word hn]
      simp [shift]
    rw [h3 _ _ (isWord (by decide +kernel))]
    generalize shift (shift (p d)) = x
    generalize hw : showNat n = w
    rw [show natWord n = w from hw]
    simp

/-- **C79.** A delegate's errors: whatever text `p` its payloads print, with newlines, quotes or brackets in it, two errors
print alike if and only if they have the same offset and the same kind, or payloads that print alike. No payload can make an
error look like another kind, or like one at another offset. -/
theorem C79_delegate_errors (a : Bool) (p : δ → Str) (e f : Error δ) :
    e.debug (fun d => .text (p d)) a = f.debug (fun d => .text (p d)) a ↔
    e.offset = f.offset ∧ (e.kind = f.kind ∨ ∃ d d', e.kind = .errorFromDelegate d ∧ f.kind = .errorFromDelegate d' ∧ p d = p d') := by
  show (e.shown fun d => .text (p d)).render a = (f.shown fun d => .text (p d)).render a ↔ e.offset = f.offset ∧ SameKind p e.kind f.kind
  rw [← kind_render (a := a)]
  unfold Error.shown
  have hcomma : ∀ x : Str, Stops (',' :: x) := by intro x c hc; cases hc; decide
  cases a with
  | false =>
    unfold Shown.render
    simp only [Bool.false_eq_true, if_false, error_flat, List.append_cancel_left_eq]
    constructor
    · intro h
      obtain ⟨h1, h2⟩ := shownWord_split (word_nat _) (word_nat _) (hcomma _) (hcomma _) h
      simp only [List.cons.injEq, true_and, List.append_cancel_left_eq, List.append_cancel_right_eq] at h2
      exact ⟨nat_inj h1, h2⟩
    · rintro ⟨h1, h2⟩
      rw [h1, h2]
  | true =>
    unfold Shown.render
    simp only [if_true]
    rw [error_lines _ _ (word_no_newline (word_nat _)), error_lines _ _ (word_no_newline (word_nat _)), List.append_cancel_left_eq]
    constructor
    · intro h
      obtain ⟨h1, h2⟩ := shownWord_split (word_nat _) (word_nat _) (hcomma _) (hcomma _) h
      simp only [List.cons.injEq, true_and, List.append_cancel_left_eq, List.append_cancel_right_eq] at h2
      exact ⟨nat_inj h1, shift_inj h2⟩
    · rintro ⟨h1, h2⟩
      rw [h1, h2]
end

/-! ## Instances -/
section Instances
attribute [local instance] arch64

/-- A payload that tries to close the error and open another does not pass for one. -/
example : Error.debug (fun s : String => .text s.toList) false ⟨3, .errorFromDelegate "x) }"⟩
    = "Error { offset: 3, kind: ErrorFromDelegate(x) }) }".toList := by decide +kernel
example : Error.debug (fun s : String => .text s.toList) true ⟨3, .errorFromDelegate "x\ny"⟩
    = "Error {\n    offset: 3,\n    kind: ErrorFromDelegate(\n        x\n        y,\n    ),\n}".toList := by decide +kernel
example := C79_delegate_errors true String.toList ⟨3, .errorFromDelegate "x\ny"⟩ ⟨3, .unexpected 4⟩
example := C79_payload_text String.toList 3 "x\ny"
example := C79_error_kinds true (.unexpected 4) .utf8
example := C79_parts asciiPlain true (.owned ['a']) (.borrowed ['a']) [] [(⟨.json (.borrowed ['k']), .new false 1⟩, .null)]
  (⟨.json (.borrowed ['k']), .new false 1⟩, .null) (⟨.json (.borrowed ['k']), .new false 1⟩, .boolean true)
  (by unfold FitsUsize; decide +kernel) (by unfold FitsUsize; decide +kernel) (by unfold FitsUsize; decide +kernel)
  (by unfold FitsUsize; decide +kernel)
example := C79_part_text asciiPlain false (.owned ['a']) [(⟨.json (.borrowed ['k']), .new false 1⟩, .null)]
  (⟨.json (.borrowed ['k']), .new false 1⟩, .null)
end Instances
end JustJson
