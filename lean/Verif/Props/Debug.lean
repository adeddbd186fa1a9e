import Verif.Lemmas.Shown
import Verif.Props.Info
import Verif.Spec.Strings
/-! # What `Debug` tells: C79 -/

namespace JustJson
open Spec

set_option linter.unusedSectionVars false

section
variable {plain : Char → Bool}

theorem isWord {s : Str} (h : (s != [] && s.all wordChar) = true) : IsWord s := by
  rw [Bool.and_eq_true, bne_iff_ne, List.all_eq_true] at h
  exact h

theorem ok_word {s : Str} (h : IsWord s) : (Shown.text s).Ok plain := by rw [Shown.Ok]; exact .inl h

theorem word_bool (b : Bool) : IsWord (showBool b) := by cases b <;> exact isWord (by decide +kernel)

theorem word_nat (n : Nat) : IsWord (showNat n) := by
  obtain ⟨h1, h2, -, -⟩ := showNat_isDecimal n
  refine ⟨h1, fun c hc => ?_⟩
  have := h2 c hc
  unfold wordChar
  simp only [Bool.or_eq_true]
  left
  unfold Char.isAlphanum
  rw [Bool.or_eq_true]
  right
  simp only [Char.isDigit, Bool.and_eq_true, decide_eq_true_eq]
  simp only [Char.le_def] at this
  exact this

theorem bool_inj {a b : Bool} (h : showBool a = showBool b) : a = b := by cases a <;> cases b <;> first | rfl | (revert h; decide +kernel)

theorem nat_inj {n m : Nat} (h : showNat n = showNat m) : n = m := by
  have h1 := (showNat_isDecimal n).2.2.1
  have h2 := (showNat_isDecimal m).2.2.1
  rw [h] at h1
  omega

/-- one field -/
theorem ok_one {n : Str} {s : Shown} (hn : IsWord n) (hs : s.Ok plain) : (Shown.tuple n [s]).Ok plain := by
  rw [Shown.Ok]
  exact ⟨hn, by simp, by rw [Shown.OkItems, Shown.OkItems]; exact ⟨hs, trivial⟩⟩

theorem ok_anyStr (s : AnyStr) : (s.shown plain).Ok plain := by
  cases s <;> exact ok_one (isWord (by decide +kernel)) (by rw [Shown.Ok]; exact .inr ⟨_, rfl⟩)

theorem quote_inj {s t : Str} (h : quoteDebug plain s = quoteDebug plain t) : s = t :=
  (quote_split (r := []) (u := []) (by rw [h])).1

theorem anyStr_inj {s t : AnyStr} (h : s.shown plain = t.shown plain) : s = t := by
  cases s <;> cases t <;> simp only [AnyStr.shown] at h <;> injection h with h1 h2
  · injection h2 with h2 _; injection h2 with h2; rw [quote_inj h2]
  · exact absurd h1 (by decide +kernel)
  · exact absurd h1 (by decide +kernel)
  · injection h2 with h2 _; injection h2 with h2; rw [quote_inj h2]

theorem ok_number (n : JsonNumber) : (n.shown plain).Ok plain := by
  unfold JsonNumber.shown
  rw [Shown.Ok, Shown.OkFields, Shown.OkFields]
  exact ⟨isWord (by decide +kernel), by simp, isWord (by decide +kernel), ok_anyStr _, trivial⟩

theorem number_inj {n m : JsonNumber} (h : n.shown plain = m.shown plain) : n = m := by
  cases n; cases m
  unfold JsonNumber.shown at h
  injection h with _ h
  injection h with h _
  injection h with _ h
  exact congrArg _ (anyStr_inj h)

theorem ok_contents (s : StringContents) : (s.shown plain).Ok plain := by
  cases s <;> exact ok_one (isWord (by decide +kernel)) (ok_anyStr _)

theorem contents_inj {s t : StringContents} (h : s.shown plain = t.shown plain) : s = t := by
  cases s <;> cases t <;> simp only [StringContents.shown] at h <;> injection h with h1 h2
  · injection h2 with h2 _; rw [anyStr_inj h2]
  · exact absurd h1 (by decide +kernel)
  · exact absurd h1 (by decide +kernel)
  · injection h2 with h2 _; rw [anyStr_inj h2]

/-- two fields -/
theorem ok_two {n a b : Str} {s t : Shown} (hn : IsWord n) (ha : IsWord a) (hb : IsWord b) (hs : s.Ok plain) (ht : t.Ok plain) :
    (Shown.struct n [(a, s), (b, t)]).Ok plain := by
  rw [Shown.Ok, Shown.OkFields, Shown.OkFields, Shown.OkFields]
  exact ⟨hn, by simp, ha, hs, hb, ht, trivial⟩

theorem two_inj {n a b : Str} {s t s' t' : Shown} (h : Shown.struct n [(a, s), (b, t)] = Shown.struct n [(a, s'), (b, t')]) :
    s = s' ∧ t = t' := by
  injection h with _ h
  injection h with h1 h2
  injection h1 with _ h1
  injection h2 with h2 _
  injection h2 with _ h2
  exact ⟨h1, h2⟩

theorem one_inj {n m : Str} {s t : Shown} (h : Shown.tuple n [s] = Shown.tuple m [t]) : n = m ∧ s = t := by
  injection h with h1 h2
  injection h2 with h2 _
  exact ⟨h1, h2⟩

theorem text_inj {s t : Str} (h : Shown.text s = Shown.text t) : s = t := by injection h

section
variable [Arch]

/-- the word of the info is a `usize` -/
def FitsUsize (s : JsonString) : Prop := s.info.word < 2 ^ Arch.bits

theorem ok_info (i : JsonStringInfo) : i.shown.Ok plain :=
  ok_two (isWord (by decide +kernel)) (isWord (by decide +kernel)) (isWord (by decide +kernel)) (ok_word (word_bool _)) (ok_word (word_nat _))

theorem info_inj {i j : JsonStringInfo} (hi : i.word < 2 ^ Arch.bits) (hj : j.word < 2 ^ Arch.bits) (h : i.shown = j.shown) : i = j := by
  obtain ⟨h1, h2⟩ := two_inj h
  have e1 := bool_inj (text_inj h1)
  have e2 := nat_inj (text_inj h2)
  rw [← (C43_flag_and_length i i hi hi).1, ← (C43_flag_and_length j j hj hj).1, e1, e2]

theorem ok_string (s : JsonString) : (s.shown plain).Ok plain :=
  ok_two (isWord (by decide +kernel)) (isWord (by decide +kernel)) (isWord (by decide +kernel)) (ok_contents _) (ok_info _)

theorem string_inj {s t : JsonString} (hs : FitsUsize s) (ht : FitsUsize t) (h : s.shown plain = t.shown plain) : s = t := by
  obtain ⟨h1, h2⟩ := two_inj h
  have e1 := contents_inj h1
  have e2 := info_inj hs ht h2
  cases s; cases t
  simp only at e1 e2
  rw [e1, e2]

mutual
theorem ok_value : ∀ v : Value, (v.shown plain).Ok plain
  | .number n => ok_one (isWord (by decide +kernel)) (ok_number n)
  | .string s => ok_one (isWord (by decide +kernel)) (ok_string s)
  | .boolean b => ok_one (isWord (by decide +kernel)) (ok_word (word_bool b))
  | .object es => ok_one (isWord (by decide +kernel)) (ok_one (isWord (by decide +kernel)) (by rw [Shown.Ok]; exact ok_entries es))
  | .array vs => ok_one (isWord (by decide +kernel)) (by rw [Shown.Ok]; exact ok_elems vs)
  | .null => ok_word (isWord (by decide +kernel))
theorem ok_elems : ∀ vs : List Value, Shown.OkItems plain (Value.shownElems plain vs)
  | [] => by rw [Value.shownElems, Shown.OkItems]; trivial
  | v :: vs => by rw [Value.shownElems, Shown.OkItems]; exact ⟨ok_value v, ok_elems vs⟩
theorem ok_entries : ∀ es : List (JsonString × Value), Shown.OkItems plain (Value.shownEntries plain es)
  | [] => by rw [Value.shownEntries, Shown.OkItems]; trivial
  | (k, v) :: es => by
    rw [Value.shownEntries, Shown.OkItems]
    exact ⟨ok_two (isWord (by decide +kernel)) (isWord (by decide +kernel)) (isWord (by decide +kernel)) (ok_string k) (ok_value v), ok_entries es⟩
end

/-- the names of the variants -/
theorem value_names {n m : Str} {s t : Shown} (hne : n ≠ m) : Shown.tuple n [s] ≠ Shown.tuple m [t] := fun h => hne (one_inj h).1

mutual
theorem value_inj : ∀ {v w : Value}, (∀ s ∈ v.strings, FitsUsize s) → (∀ s ∈ w.strings, FitsUsize s) → v.shown plain = w.shown plain → v = w
  | .number n, w, hv, hw, h => by
    cases w with
    | number m => rw [number_inj (one_inj h).2]
    | string s => exact absurd h (value_names (by decide +kernel))
    | boolean s => exact absurd h (value_names (by decide +kernel))
    | object s => exact absurd h (value_names (by decide +kernel))
    | array s => exact absurd h (value_names (by decide +kernel))
    | null => cases h
  | .string n, w, hv, hw, h => by
    cases w with
    | number m => exact absurd h (value_names (by decide +kernel))
    | string s => rw [string_inj (hv n (by simp [Value.strings])) (hw s (by simp [Value.strings])) (one_inj h).2]
    | boolean s => exact absurd h (value_names (by decide +kernel))
    | object s => exact absurd h (value_names (by decide +kernel))
    | array s => exact absurd h (value_names (by decide +kernel))
    | null => cases h
  | .boolean b, w, hv, hw, h => by
    cases w with
    | number m => exact absurd h (value_names (by decide +kernel))
    | string s => exact absurd h (value_names (by decide +kernel))
    | boolean s => rw [bool_inj (text_inj (one_inj h).2)]
    | object s => exact absurd h (value_names (by decide +kernel))
    | array s => exact absurd h (value_names (by decide +kernel))
    | null => cases h
  | .object es, w, hv, hw, h => by
    cases w with
    | number m => exact absurd h (value_names (by decide +kernel))
    | string s => exact absurd h (value_names (by decide +kernel))
    | boolean s => exact absurd h (value_names (by decide +kernel))
    | object fs =>
      have h2 := (one_inj (one_inj h).2).2
      injection h2 with h2
      rw [entries_inj (by rwa [Value.strings] at hv) (by rwa [Value.strings] at hw) h2]
    | array s => exact absurd h (value_names (by decide +kernel))
    | null => cases h
  | .array vs, w, hv, hw, h => by
    cases w with
    | number m => exact absurd h (value_names (by decide +kernel))
    | string s => exact absurd h (value_names (by decide +kernel))
    | boolean s => exact absurd h (value_names (by decide +kernel))
    | object fs => exact absurd h (value_names (by decide +kernel))
    | array ws =>
      have h2 := (one_inj h).2
      injection h2 with h2
      rw [elems_inj (by rwa [Value.strings] at hv) (by rwa [Value.strings] at hw) h2]
    | null => cases h
  | .null, w, hv, hw, h => by
    cases w with
    | null => rfl
    | _ => cases h
theorem elems_inj : ∀ {vs ws : List Value}, (∀ s ∈ Value.stringsElems vs, FitsUsize s) → (∀ s ∈ Value.stringsElems ws, FitsUsize s) →
    Value.shownElems plain vs = Value.shownElems plain ws → vs = ws
  | [], [], _, _, _ => rfl
  | [], _ :: _, _, _, h => by cases h
  | _ :: _, [], _, _, h => by cases h
  | v :: vs, w :: ws, hv, hw, h => by
    rw [Value.shownElems, Value.shownElems] at h
    rw [Value.stringsElems] at hv hw
    injection h with h1 h2
    rw [value_inj (fun s m => hv s (by simp [m])) (fun s m => hw s (by simp [m])) h1,
      elems_inj (fun s m => hv s (by simp [m])) (fun s m => hw s (by simp [m])) h2]
theorem entries_inj : ∀ {es fs : List (JsonString × Value)}, (∀ s ∈ Value.stringsEntries es, FitsUsize s) →
    (∀ s ∈ Value.stringsEntries fs, FitsUsize s) → Value.shownEntries plain es = Value.shownEntries plain fs → es = fs
  | [], [], _, _, _ => rfl
  | [], _ :: _, _, _, h => by cases h
  | _ :: _, [], _, _, h => by cases h
  | (k, v) :: es, (k', w) :: fs, hv, hw, h => by
    rw [Value.shownEntries, Value.shownEntries] at h
    rw [Value.stringsEntries] at hv hw
    injection h with h1 h2
    obtain ⟨h3, h4⟩ := two_inj h1
    rw [string_inj (hv k (by simp)) (hw k' (by simp)) h3, value_inj (fun s m => hv s (by simp [m])) (fun s m => hw s (by simp [m])) h4,
      entries_inj (fun s m => hv s (by simp [m])) (fun s m => hw s (by simp [m])) h2]
end

/-! ## C79 -/

/-- **C79.** Two values print alike, with `{:?}` or with `{:#?}`, if and only if they are the same, spelling, ownership of
their texts and order of entries included — whatever characters core holds to be printable. (That the info of each string is
a `usize` is so of every value there is.) -/
theorem C79_values (plain : Char → Bool) (a : Bool) (v w : Value) (hv : ∀ s ∈ v.strings, FitsUsize s) (hw : ∀ s ∈ w.strings, FitsUsize s) :
    v.debug plain a = w.debug plain a ↔ v = w :=
  ⟨fun h => value_inj hv hw (render_inj (ok_value v) (ok_value w) h), fun h => by rw [h]⟩

/-- **C79.** The same for strings and numbers. -/
theorem C79_strings (plain : Char → Bool) (a : Bool) (s t : JsonString) (hs : FitsUsize s) (ht : FitsUsize t) :
    s.debug plain a = t.debug plain a ↔ s = t :=
  ⟨fun h => string_inj hs ht (render_inj (ok_string s) (ok_string t) h), fun h => by rw [h]⟩

theorem C79_numbers (plain : Char → Bool) (a : Bool) (n m : JsonNumber) : n.debug plain a = m.debug plain a ↔ n = m :=
  ⟨fun h => number_inj (render_inj (ok_number n) (ok_number m) h), fun h => by rw [h]⟩

/-- the strings of a node -/
def NodeFits (n : Node) : Prop := ∀ s, n = .string s → FitsUsize s
/-- the strings of a token -/
def TokenFits (t : Token) : Prop := ∀ s, t = .string s → FitsUsize s

theorem ok_node (n : Node) : (n.shown plain).Ok plain := by
  have hl : ∀ (m : Str) (k : Nat), IsWord m → (Shown.struct m [("length".toList, .text (showNat k))]).Ok plain := by
    intro m k hm
    rw [Shown.Ok, Shown.OkFields, Shown.OkFields]
    exact ⟨hm, by simp, isWord (by decide +kernel), ok_word (word_nat k), trivial⟩
  cases n with
  | null => exact ok_word (isWord (by decide +kernel))
  | boolean b => exact ok_one (isWord (by decide +kernel)) (ok_word (word_bool b))
  | string s => exact ok_one (isWord (by decide +kernel)) (ok_string s)
  | number n => exact ok_one (isWord (by decide +kernel)) (ok_number n)
  | object k => exact hl _ k (isWord (by decide +kernel))
  | array k => exact hl _ k (isWord (by decide +kernel))

theorem node_inj {n m : Node} (hn : NodeFits n) (hm : NodeFits m) (h : n.shown plain = m.shown plain) : n = m := by
  have hl : ∀ {a b : Str} {k j : Nat}, Shown.struct a [("length".toList, .text (showNat k))] = Shown.struct b [("length".toList, .text (showNat j))] →
      a = b ∧ k = j := by
    intro a b k j h
    injection h with h1 h2
    injection h2 with h2 _
    injection h2 with _ h2
    exact ⟨h1, nat_inj (text_inj h2)⟩
  cases n with
  | null => cases m with
    | null => rfl
    | _ => cases h
  | boolean b => cases m with
    | boolean c => rw [bool_inj (text_inj (one_inj h).2)]
    | string s => exact absurd h (value_names (by decide +kernel))
    | number s => exact absurd h (value_names (by decide +kernel))
    | _ => cases h
  | string s => cases m with
    | boolean c => exact absurd h (value_names (by decide +kernel))
    | string t => rw [string_inj (hn _ rfl) (hm _ rfl) (one_inj h).2]
    | number s => exact absurd h (value_names (by decide +kernel))
    | _ => cases h
  | number k => cases m with
    | boolean c => exact absurd h (value_names (by decide +kernel))
    | string t => exact absurd h (value_names (by decide +kernel))
    | number s => rw [number_inj (one_inj h).2]
    | _ => cases h
  | object k => cases m with
    | object j => rw [(hl h).2]
    | array j => exact absurd (hl h).1 (by decide +kernel)
    | _ => cases h
  | array k => cases m with
    | object j => exact absurd (hl h).1 (by decide +kernel)
    | array j => rw [(hl h).2]
    | _ => cases h

/-- **C79.** The same for the nodes of a document. -/
theorem C79_nodes (plain : Char → Bool) (a : Bool) (n m : Node) (hn : NodeFits n) (hm : NodeFits m) :
    n.debug plain a = m.debug plain a ↔ n = m :=
  ⟨fun h => node_inj hn hm (render_inj (ok_node n) (ok_node m) h), fun h => by rw [h]⟩

theorem ok_token (t : Token) : (t.shown plain).Ok plain := by
  cases t with
  | bool b => exact ok_one (isWord (by decide +kernel)) (ok_word (word_bool b))
  | string s => exact ok_one (isWord (by decide +kernel)) (ok_string s)
  | number n => exact ok_one (isWord (by decide +kernel)) (ok_number n)
  | _ => exact ok_word (isWord (by decide +kernel))

/-- the token of a name -/
def unitToken : Shown → Option Token
  | .text s => [.null, .object, .objectEnd, .array, .arrayEnd, .colon, .comma].find? fun t =>
    match t.shown (fun _ => false) with
    | .text n => n == s
    | _ => false
  | _ => none

theorem unitToken_shown (t : Token) (hb : ∀ b, t ≠ .bool b) (hs : ∀ s, t ≠ .string s) (hn : ∀ n, t ≠ .number n) :
    unitToken (t.shown plain) = some t := by
  have key : t.shown plain = t.shown (fun _ => false) := by
    cases t with
    | bool b => exact absurd rfl (hb b)
    | string s => exact absurd rfl (hs s)
    | number n => exact absurd rfl (hn n)
    | _ => rfl
  rw [key]
  cases t with
  | bool b => exact absurd rfl (hb b)
  | string s => exact absurd rfl (hs s)
  | number n => exact absurd rfl (hn n)
  | _ => rfl

theorem token_inj {n m : Token} (hn : TokenFits n) (hm : TokenFits m) (h : n.shown plain = m.shown plain) : n = m := by
  cases n with
  | bool b => cases m with
    | bool c => rw [bool_inj (text_inj (one_inj h).2)]
    | string s => exact absurd h (value_names (by decide +kernel))
    | number s => exact absurd h (value_names (by decide +kernel))
    | _ => cases h
  | string s => cases m with
    | bool c => exact absurd h (value_names (by decide +kernel))
    | string t => rw [string_inj (hn _ rfl) (hm _ rfl) (one_inj h).2]
    | number s => exact absurd h (value_names (by decide +kernel))
    | _ => cases h
  | number k => cases m with
    | bool c => exact absurd h (value_names (by decide +kernel))
    | string t => exact absurd h (value_names (by decide +kernel))
    | number s => rw [number_inj (one_inj h).2]
    | _ => cases h
  | _ => cases m with
    | bool c => cases h
    | string c => cases h
    | number c => cases h
    | _ =>
      have h1 := unitToken_shown (plain := plain) _ (fun b e => by cases e) (fun b e => by cases e) (fun b e => by cases e) |>.symm.trans
        ((congrArg unitToken h).trans (unitToken_shown (plain := plain) _ (fun b e => by cases e) (fun b e => by cases e) (fun b e => by cases e)))
      exact Option.some.inj h1

/-- **C79.** The same for tokens. -/
theorem C79_tokens (plain : Char → Bool) (a : Bool) (t u : Token) (ht : TokenFits t) (hu : TokenFits u) :
    t.debug plain a = u.debug plain a ↔ t = u :=
  ⟨fun h => token_inj ht hu (render_inj (ok_token t) (ok_token u) h), fun h => by rw [h]⟩

end

theorem ok_kind (k : ErrorKind Empty) : (k.shown Empty.elim).Ok plain := by
  cases k with
  | unexpected b => exact ok_one (isWord (by decide +kernel)) (ok_word (word_nat _))
  | errorFromDelegate d => exact d.elim
  | _ => exact ok_word (isWord (by decide +kernel))

/-- the kind of a name -/
def unitKind : Shown → Option (ErrorKind Empty)
  | .text s => [ErrorKind.utf8, .unexpectedEof, .expectedObjectKey, .expectedColon, .expectedValue, .expectedCommaOrEndOfObject,
      .expectedCommaOrEndOfArray, .illegalTrailingComma, .trailingNonWhitespace, .objectKeysMustBeStrings, .expectedExponent,
      .expectedDecimalDigit, .expectedDigit, .invalidHexadecimal, .invalidEscape, .unclosedObject, .unclosedArray, .unclosedString,
      .expectedString, .expectedNumber, .recursionLimitReached, .payloadsShouldBeObjectOrArray, .paylodTooLarge].find? fun k =>
    match k.shown Empty.elim with
    | .text n => n == s
    | _ => false
  | _ => none

theorem unitKind_shown (k : ErrorKind Empty) (hk : ∀ b, k ≠ .unexpected b) : unitKind (k.shown Empty.elim) = some k := by
  cases k with
  | unexpected b => exact absurd rfl (hk b)
  | errorFromDelegate d => exact d.elim
  | _ => decide +kernel

theorem kind_inj {k j : ErrorKind Empty} (h : k.shown Empty.elim = j.shown Empty.elim) : k = j := by
  have key : ∀ (b : UInt8) (j : ErrorKind Empty), (ErrorKind.unexpected b).shown Empty.elim = j.shown Empty.elim → .unexpected b = j := by
    intro b j h
    cases j with
    | unexpected c =>
      have := nat_inj (text_inj (one_inj h).2)
      rw [UInt8.toNat_inj.mp this]
    | errorFromDelegate d => exact d.elim
    | _ => cases h
  by_cases hk : ∃ b, k = .unexpected b
  · obtain ⟨b, rfl⟩ := hk
    exact key b j h
  · by_cases hj : ∃ b, j = .unexpected b
    · obtain ⟨b, rfl⟩ := hj
      exact (key b k h.symm).symm
    · have h1 := unitKind_shown k (fun b e => hk ⟨b, e⟩)
      have h2 := unitKind_shown j (fun b e => hj ⟨b, e⟩)
      rw [h, h2] at h1
      injection h1 with h1
      exact h1.symm

/-- **C79.** Two errors print alike if and only if they are equal (unlike with `Display`, C60). -/
theorem C79_errors (a : Bool) (e f : Error Empty) : e.debug Empty.elim a = f.debug Empty.elim a ↔ e = f := by
  constructor
  · intro h
    have hok : ∀ e : Error Empty, (e.shown Empty.elim).Ok (fun _ => false) := fun e =>
      ok_two (isWord (by decide +kernel)) (isWord (by decide +kernel)) (isWord (by decide +kernel)) (ok_word (word_nat _)) (ok_kind _)
    obtain ⟨h1, h2⟩ := two_inj (render_inj (hok e) (hok f) h)
    have e1 := nat_inj (text_inj h1)
    have e2 := kind_inj h2
    cases e; cases f
    simp only at e1 e2
    rw [e1, e2]
  · rintro rfl; rfl

/-- **C79.** The same for configurations and for kinds. -/
theorem C79_configs (a : Bool) (c d : ParseConfig) : c.debug a = d.debug a ↔ c = d := by
  constructor
  · intro h
    have hlim : ∀ o : Option Nat, Shown.Ok (fun _ => false) (match o with
        | none => .text "None".toList
        | some n => .tuple "Some".toList [.text (showNat n)]) := by
      intro o
      cases o with
      | none => exact ok_word (isWord (by decide +kernel))
      | some n => exact ok_one (isWord (by decide +kernel)) (ok_word (word_nat n))
    have hok : ∀ c : ParseConfig, c.shown.Ok (fun _ => false) := by
      intro c
      unfold ParseConfig.shown
      rw [Shown.Ok, Shown.OkFields, Shown.OkFields, Shown.OkFields, Shown.OkFields]
      exact ⟨isWord (by decide +kernel), by simp, isWord (by decide +kernel), ok_word (word_bool _), isWord (by decide +kernel), hlim _,
        isWord (by decide +kernel), ok_word (word_bool _), trivial⟩
    have := render_inj (hok c) (hok d) h
    obtain ⟨c1, c2, c3⟩ := c
    obtain ⟨d1, d2, d3⟩ := d
    unfold ParseConfig.shown at this
    injection this with _ h
    injection h with h1 h
    injection h with h2 h
    injection h with h3 _
    injection h1 with _ h1
    injection h2 with _ h2
    injection h3 with _ h3
    have e2 : c2 = d2 := by
      cases c2 <;> cases d2
      · rfl
      · cases h2
      · cases h2
      · rw [nat_inj (text_inj (one_inj h2).2)]
    have e1 : c1 = d1 := bool_inj (text_inj h1)
    have e3 : c3 = d3 := bool_inj (text_inj h3)
    rw [e1, e2, e3]
  · rintro rfl; rfl

theorem C79_kinds (k j : JsonKind) (p q : PeekableTokenKind) : (k.debug = j.debug ↔ k = j) ∧ (p.debug = q.debug ↔ p = q) := by
  constructor
  · cases k <;> cases j <;> decide +kernel
  · cases p <;> cases q <;> decide +kernel

/-- **C79.** `{:?}` prints on one line, and no control character reaches the output: whatever the texts hold, every
character printed is visible ASCII or one that core holds to be printable. -/
theorem C79_one_line [Arch] (plain : Char → Bool) (v : Value) (n : Node) (t : Token) (c : Char)
    (hc : c ∈ v.debug plain false ∨ c ∈ n.debug plain false ∨ c ∈ t.debug plain false) :
    (' ' ≤ c ∧ c ≤ '~') ∨ (plain c = true ∧ c ≠ '\n' ∧ c ≠ '\r' ∧ c ≠ '\t' ∧ c ≠ Char.ofNat 0) := by
  have h : Visible plain c := by
    rcases hc with h | h | h
    · exact flat_visible (ok_value v) c h
    · exact flat_visible (ok_node n) c h
    · exact flat_visible (ok_token t) c h
  rcases h with h | ⟨h1, h2, h3, h4, h5⟩
  · exact .inl h
  · exact .inr ⟨h1, h5, h4, h3, h2⟩

/-- `Debug for JsonStringInfo` read off the same builders. -/
theorem C79_info [Arch] (a : Bool) (i : JsonStringInfo) : i.shown.render a = i.debug a := by
  cases a with
  | false => simp [Shown.render, JsonStringInfo.shown, JsonStringInfo.debug, Shown.flat, Shown.flatFields]
  | true =>
    have hpad : ∀ {w : Str}, '\n' ∉ w → ∀ r, padText false (w ++ r) = w ++ padText false r := by
      intro w hw r
      induction w with
      | nil => rfl
      | cons c w ih =>
        simp only [List.mem_cons, not_or] at hw
        have : (c == '\n') = false := by
          rw [beq_eq_false_iff_ne]
          exact fun e => hw.1 e.symm
        simp [padText, this, ih hw.2]
    have h1 := hpad (word_no_newline (word_bool i.hasEscapes)) [',', '\n']
    have h2 := hpad (word_no_newline (word_nat i.expectedLength)) [',', '\n']
    simp [Shown.render, JsonStringInfo.shown, JsonStringInfo.debug, Shown.lines, Shown.linesFields, padText, h1, h2]

section
attribute [local instance] arch64

/-- ASCII that is printable -/
def asciiPlain (c : Char) : Bool := decide (' ' ≤ c ∧ c ≤ '~')

/-- `{"k\n": [1, "\""]}` with an owned text, as built by a program. -/
def shownSample : Value :=
  .object [(⟨.json (.borrowed ['k', '\\', 'n']), .new true 2⟩, .array [.number ⟨.borrowed ['1']⟩, .string ⟨.raw (.owned ['"', '\n']), .new true 4⟩])]

example : (∀ s ∈ shownSample.strings, FitsUsize s) ∧ shownSample.debug asciiPlain false =
    ("Object(Object([Entry { key: JsonString { source: Json(Borrowed(\"k\\\\n\")), info: EscapeInfo { has_escapes: true, unescaped_length: 2 } }, "
    ++ "value: Array([Number(JsonNumber { source: Borrowed(\"1\") }), String(JsonString { source: Raw(Owned(\"\\\"\\n\")), "
    ++ "info: EscapeInfo { has_escapes: true, unescaped_length: 4 } })]) }]))").toList := by
  unfold FitsUsize
  decide +kernel

example : (Value.array [.null, .array [], .boolean true]).debug asciiPlain true =
    "Array(\n    [\n        Null,\n        Array(\n            [],\n        ),\n        Boolean(\n            true,\n        ),\n    ],\n)".toList := by
  decide +kernel

/-- The `Display` of the two errors is the same, their `Debug` is not. -/
example : Error.debug Empty.elim false ⟨3, .unexpected 0x22⟩ = "Error { offset: 3, kind: Unexpected(34) }".toList
    ∧ Error.debug Empty.elim true ⟨3, .unclosedArray⟩ = "Error {\n    offset: 3,\n    kind: UnclosedArray,\n}".toList := by
  decide +kernel

/-- Ownership shows: these two are equal with `==`, but `Debug` tells them apart. -/
example : Value.debug asciiPlain false (.number ⟨.owned ['1']⟩) ≠ Value.debug asciiPlain false (.number ⟨.borrowed ['1']⟩) := by
  decide +kernel
end

end

/-! ## Instances: each theorem above applied to a concrete case that meets its hypotheses -/
section Instances
attribute [local instance] arch64

example := C79_values asciiPlain true shownSample (.array [shownSample]) (by unfold FitsUsize; decide +kernel) (by unfold FitsUsize; decide +kernel)
example := C79_strings asciiPlain false ⟨.json (.borrowed ['k']), .new false 1⟩ ⟨.raw (.owned ['k']), .new true 1⟩
  (by unfold FitsUsize; decide +kernel) (by unfold FitsUsize; decide +kernel)
example := C79_nodes asciiPlain false (.string ⟨.json (.borrowed ['k']), .new false 1⟩) (.object 2)
  (fun s h => by cases h; unfold FitsUsize; decide +kernel) (fun s h => by cases h)
example := C79_tokens asciiPlain false (.string ⟨.json (.borrowed ['k']), .new false 1⟩) .colon
  (fun s h => by cases h; unfold FitsUsize; decide +kernel) (fun s h => by cases h)
example := C79_one_line asciiPlain shownSample .null .comma 'k' (.inl (by decide +kernel))

end Instances
end JustJson
