import Verif.Props.Debug
import Verif.Spec.Named
/-! # The text of `Debug`: C79 -/

namespace JustJson
open Spec

set_option linter.unusedSectionVars false

section
variable {plain : Char → Bool} {a : Bool}

theorem at_tuple (l : Nat) (name : String) (s : Shown) :
    (Shown.tuple name.toList [s]).at' a l = applied a l name (fun l => s.at' a l) := by
  rw [Shown.at', Shown.atItems]
  cases a <;> simp [applied, enclosed, breakOr, gapAt, finAt, nlAt]

theorem at_fields (l : Nat) (fs : List (String × (Nat → Str))) (gs : List (Str × Shown)) (h : fs.length = gs.length)
    (hs : ∀ p ∈ fs.zip gs, p.2.1 = p.1.1.toList ∧ p.2.2.at' a l = p.1.2 l) :
    Shown.atFields a l gs = ((fs.map fun f => f.1.toList ++ ": ".toList ++ f.2 l).intersperse (",".toList ++ breakOr a l " ")).flatten := by
  induction fs generalizing gs with
  | nil =>
    cases gs with
    | nil => simp [Shown.atFields]
    | cons => simp at h
  | cons f fs ih =>
    cases gs with
    | nil => simp at h
    | cons g gs =>
      obtain ⟨h1, h2⟩ := hs (f, g) (by simp)
      obtain ⟨g1, g2⟩ := g
      simp only at h1 h2
      subst h1
      cases fs with
      | nil =>
        cases gs with
        | nil => simp [Shown.atFields, h2]
        | cons => simp at h
      | cons f2 fs =>
        cases gs with
        | nil => simp at h
        | cons g gs =>
          rw [atFields_two, ih (g :: gs) (by simpa using h) (fun p hp => hs p (by rw [List.zip_cons_cons]; exact List.mem_cons_of_mem _ hp)), h2]
          cases a <;> simp [breakOr, sepAt, nlAt]

theorem at_struct (l : Nat) (name : String) (fs : List (String × (Nat → Str))) (gs : List (Str × Shown)) (h : fs.length = gs.length)
    (hs : ∀ p ∈ fs.zip gs, p.2.1 = p.1.1.toList ∧ p.2.2.at' a (l + 1) = p.1.2 (l + 1)) :
    (Shown.struct name.toList gs).at' a l = record a l name fs := by
  rw [Shown.at', at_fields (l + 1) fs gs h hs]
  cases a <;> simp [record, enclosed, breakOr, gapBrace, finBrace, nlAt]

theorem at_items (l : Nat) (ss : List Shown) : Shown.atItems a l ss
    = ((ss.map fun s => s.at' a l).intersperse (",".toList ++ breakOr a l " ")).flatten := by
  induction ss with
  | nil => simp [Shown.atItems]
  | cons s ss ih =>
    cases ss with
    | nil => simp [Shown.atItems]
    | cons t ss =>
      rw [atItems_two, ih]
      cases a <;> simp [breakOr, sepAt, nlAt]

theorem at_list (l : Nat) (ss : List Shown) : (Shown.list ss).at' a l = bracketed a l (ss.map fun s => s.at' a (l + 1)) := by
  cases ss with
  | nil => simp [Shown.at', bracketed]
  | cons s ss =>
    rw [Shown.at', at_items]
    cases a <;> simp [bracketed, enclosed, breakOr, gapAt, finAt, nlAt]

theorem quoted_eq (s : Str) : quoteDebug plain s = quotedText plain s := by
  unfold quoteDebug quotedText
  have : ∀ c, escapeDebug plain c = (match escapeLetters.lookup c with
      | some letter => ['\\', letter]
      | none => if plain c then [c] else "\\u{".toList ++ Nat.toDigits 16 c.toNat ++ "}".toList) := by
    intro c
    have hl : escapeLetters.lookup c = if c = '"' then some '"' else if c = '\\' then some '\\' else if c = '\n' then some 'n'
        else if c = '\r' then some 'r' else if c = '\t' then some 't' else if c = Char.ofNat 0 then some '0' else none := by
      unfold escapeLetters
      simp only [List.lookup_cons, List.lookup_nil]
      repeat' split
      all_goals simp_all
    rw [hl]
    unfold escapeDebug
    by_cases h1 : c = '"'
    · subst h1; simp +decide
    by_cases h2 : c = '\\'
    · subst h2; simp +decide
    by_cases h3 : c = '\n'
    · subst h3; simp +decide
    by_cases h4 : c = '\r'
    · subst h4; simp +decide
    by_cases h5 : c = '\t'
    · subst h5; simp +decide
    by_cases h6 : c = Char.ofNat 0
    · subst h6; simp +decide
    · simp only [h1, h2, h3, h4, h5, h6, if_false]
      rfl
  rw [show escapeDebug plain = _ from funext this]
  rfl

theorem bool_word (b : Bool) : showBool b = boolWord b := by cases b <;> rfl

theorem at_bool (l : Nat) (b : Bool) : (Shown.text (showBool b)).at' a l = boolWord b := by rw [Shown.at', bool_word]

theorem at_nat (l n : Nat) : (Shown.text (showNat n)).at' a l = natWord n := by rw [Shown.at']; rfl

theorem at_anyStr (l : Nat) (s : AnyStr) : (s.shown plain).at' a l = anyStrText plain a l s := by
  cases s <;> · rw [AnyStr.shown, at_tuple, anyStrText]; simp only [Shown.at', quoted_eq]

theorem at_number (l : Nat) (n : JsonNumber) : (n.shown plain).at' a l = numberText plain a l n := by
  unfold JsonNumber.shown numberText
  refine at_struct l _ _ _ rfl ?_
  simp [at_anyStr]

section
variable [Arch]

theorem at_info (l : Nat) (i : JsonStringInfo) : i.shown.at' a l = infoText a l i := by
  unfold JsonStringInfo.shown infoText
  refine at_struct l _ _ _ rfl ?_
  simp [at_bool, at_nat]

theorem at_string (l : Nat) (s : JsonString) : (s.shown plain).at' a l = stringText plain a l s := by
  unfold JsonString.shown stringText
  refine at_struct l _ _ _ rfl ?_
  obtain ⟨src, i⟩ := s
  cases src <;> simp only [List.zip_cons_cons, List.zip_nil_left, List.mem_cons, List.not_mem_nil, or_false, forall_eq_or_imp, forall_eq,
    StringContents.shown, at_tuple, at_anyStr, at_info, and_self]

mutual
theorem at_value (l : Nat) : ∀ v : Value, (v.shown plain).at' a l = valueText plain a l v
  | .null => by rw [Value.shown, valueText, Shown.at']
  | .boolean b => by rw [Value.shown, valueText, at_tuple]; simp only [at_bool]
  | .string s => by rw [Value.shown, valueText, at_tuple]; simp only [at_string]
  | .number n => by rw [Value.shown, valueText, at_tuple]; simp only [at_number]
  | .array vs => by
    rw [Value.shown, valueText, at_tuple]
    simp only [at_list]
    simp only [applied, at_elems _ vs]
  | .object es => by
    rw [Value.shown, valueText, at_tuple]
    simp only [at_tuple, at_list]
    simp only [applied, at_entries _ es]
theorem at_elems (l : Nat) : ∀ vs : List Value, (Value.shownElems plain vs).map (fun s => s.at' a l) = elemTexts plain a l vs
  | [] => by rw [Value.shownElems, elemTexts, List.map_nil]
  | v :: vs => by rw [Value.shownElems, elemTexts, List.map_cons, at_value l v, at_elems l vs]
theorem at_entries (l : Nat) : ∀ es : List (JsonString × Value), (Value.shownEntries plain es).map (fun s => s.at' a l) = entryTexts plain a l es
  | [] => by rw [Value.shownEntries, entryTexts, List.map_nil]
  | (k, v) :: es => by
    rw [Value.shownEntries, entryTexts, List.map_cons, at_entries l es]
    congr 1
    have hv : (v.shown plain).at' a (l + 1) = valueText plain a (l + 1) v := at_value (l + 1) v
    refine at_struct l _ _ _ rfl ?_
    simp only [List.zip_cons_cons, List.zip_nil_left, List.mem_cons, List.not_mem_nil, or_false, forall_eq_or_imp, forall_eq,
      at_string, hv, and_self]
end

theorem at_node (l : Nat) (n : Node) : (n.shown plain).at' a l = nodeText plain a l n := by
  cases n with
  | null => rw [Node.shown, nodeText, Shown.at']
  | boolean b => rw [Node.shown, nodeText, at_tuple]; simp only [at_bool]
  | string s => rw [Node.shown, nodeText, at_tuple]; simp only [at_string]
  | number n => rw [Node.shown, nodeText, at_tuple]; simp only [at_number]
  | object n =>
    rw [Node.shown, nodeText]
    refine at_struct l _ _ _ rfl ?_
    simp [at_nat]
  | array n =>
    rw [Node.shown, nodeText]
    refine at_struct l _ _ _ rfl ?_
    simp [at_nat]

theorem at_token (l : Nat) (t : Token) : (t.shown plain).at' a l = tokenText plain a l t := by
  cases t with
  | bool b =>
    change (Shown.tuple "Bool".toList [.text (showBool b)]).at' a l = applied a l "Bool" fun _ => boolWord b
    simp only [at_tuple, at_bool]
  | string s =>
    change (Shown.tuple "String".toList [s.shown plain]).at' a l = applied a l "String" fun l => stringText plain a l s
    simp only [at_tuple, at_string]
  | number n =>
    change (Shown.tuple "Number".toList [n.shown plain]).at' a l = applied a l "Number" fun l => numberText plain a l n
    simp only [at_tuple, at_number]
  | _ => exact Shown.at'.eq_1 a l _

/-- **C79.** What `{:?}` (`a = false`) and `{:#?}` (`a = true`) print for a value, a string, a number, a node and a token: the
names of the variants, structs and fields, the words and numbers, the quoted texts, laid out as `Spec` says. -/
theorem C79_text (plain : Char → Bool) (a : Bool) (v : Value) (s : JsonString) (m : JsonNumber) (n : Node) (t : Token)
    (i : JsonStringInfo) :
    v.debug plain a = valueText plain a 0 v ∧ s.debug plain a = stringText plain a 0 s ∧ m.debug plain a = numberText plain a 0 m
    ∧ n.debug plain a = nodeText plain a 0 n ∧ t.debug plain a = tokenText plain a 0 t ∧ i.debug a = infoText a 0 i :=
  ⟨(render_at a (ok_value v)).trans (at_value 0 v), (render_at a (ok_string s)).trans (at_string 0 s),
   (render_at a (ok_number m)).trans (at_number 0 m), (render_at a (ok_node n)).trans (at_node 0 n),
   (render_at a (ok_token t)).trans (at_token 0 t),
   (C79_info a i).symm.trans ((render_at a (ok_info (plain := plain) i)).trans (at_info 0 i))⟩

end

theorem at_kind (l : Nat) (k : ErrorKind Empty) : KindText a l k ((k.shown Empty.elim).at' a l) := by
  cases k with
  | unexpected b =>
    rw [ErrorKind.shown, at_tuple]
    simp only [at_nat]
    exact .unexpected b
  | errorFromDelegate d => exact d.elim
  | _ => rw [ErrorKind.shown, Shown.at']; exact .named (by simp [errorNames])

/-- **C79.** What they print for an error: its offset and its kind, by name. -/
theorem C79_error_text (a : Bool) (e : Error Empty) : ∃ kind, KindText a 1 e.kind kind
    ∧ e.debug Empty.elim a = record a 0 "Error" [("offset", fun _ => natWord e.offset), ("kind", fun _ => kind)] := by
  have hok : (e.shown Empty.elim).Ok (fun _ => false) :=
    ok_two (isWord (by decide +kernel)) (isWord (by decide +kernel)) (isWord (by decide +kernel)) (ok_word (word_nat _)) (ok_kind _)
  refine ⟨_, at_kind 1 e.kind, (render_at a hok).trans ?_⟩
  unfold Error.shown
  refine at_struct 0 _ _ _ rfl ?_
  simp [at_nat]

/-- each kind of error has one name -/
theorem errorNames_complete (k : ErrorKind Empty) : (∃ b, k = .unexpected b) ∨ ∃ n, ∀ m, (k, m) ∈ errorNames Empty ↔ m = n := by
  cases k with
  | unexpected b => exact .inl ⟨b, rfl⟩
  | errorFromDelegate d => exact d.elim
  | _ => exact .inr (by simp only [errorNames, List.mem_cons, Prod.mk.injEq, reduceCtorEq, false_and, false_or, true_and, or_false, List.not_mem_nil]; exact ⟨_, fun _ => Iff.rfl⟩)

/-- **C79.** What they print for a configuration, for a kind of value and for a kind of token. -/
theorem C79_config_text (a : Bool) (c : ParseConfig) : c.debug a = configText a 0 c := by
  have hlim : ∀ o : Option Nat, Shown.Ok (fun _ => false) (match o with
      | none => .text "None".toList
      | some n => .tuple "Some".toList [.text (showNat n)]) := by
    intro o
    cases o with
    | none => exact ok_word (isWord (by decide +kernel))
    | some n => exact ok_one (isWord (by decide +kernel)) (ok_word (word_nat n))
  have hok : c.shown.Ok (fun _ => false) := by
    unfold ParseConfig.shown
    rw [Shown.Ok, Shown.OkFields, Shown.OkFields, Shown.OkFields, Shown.OkFields]
    exact ⟨isWord (by decide +kernel), by simp, isWord (by decide +kernel), ok_word (word_bool _), isWord (by decide +kernel), hlim _,
      isWord (by decide +kernel), ok_word (word_bool _), trivial⟩
  refine (render_at a hok).trans ?_
  unfold ParseConfig.shown configText
  refine at_struct 0 _ _ _ rfl ?_
  obtain ⟨c1, c2, c3⟩ := c
  cases c2 <;> simp only [List.zip_cons_cons, List.zip_nil_left, List.mem_cons, List.not_mem_nil, or_false, forall_eq_or_imp, forall_eq,
    at_bool, at_tuple, at_nat, and_self]
  all_goals rw [Shown.at']; simp

theorem C79_kind_text (k : JsonKind) (p : PeekableTokenKind) :
    (∃ name, (k, name) ∈ jsonKindNames ∧ k.debug = name.toList) ∧ (∃ name, (p, name) ∈ tokenKindNames ∧ p.debug = name.toList) := by
  constructor
  · cases k <;> simp only [jsonKindNames, List.mem_cons, Prod.mk.injEq, reduceCtorEq, false_and, false_or, true_and, or_false, List.not_mem_nil] <;>
      exact ⟨_, rfl, rfl⟩
  · cases p <;> simp only [tokenKindNames, List.mem_cons, Prod.mk.injEq, reduceCtorEq, false_and, false_or, true_and, or_false, List.not_mem_nil] <;>
      exact ⟨_, rfl, rfl⟩

/-- each kind has one name -/
theorem kindNames_complete (k : JsonKind) (p : PeekableTokenKind) :
    (∃ n, ∀ m, (k, m) ∈ jsonKindNames ↔ m = n) ∧ ∃ n, ∀ m, (p, m) ∈ tokenKindNames ↔ m = n := by
  constructor
  · cases k <;> simp only [jsonKindNames, List.mem_cons, Prod.mk.injEq, reduceCtorEq, false_and, false_or, true_and, or_false, List.not_mem_nil] <;>
      exact ⟨_, fun _ => Iff.rfl⟩
  · cases p <;> simp only [tokenKindNames, List.mem_cons, Prod.mk.injEq, reduceCtorEq, false_and, false_or, true_and, or_false, List.not_mem_nil] <;>
      exact ⟨_, fun _ => Iff.rfl⟩

section
attribute [local instance] arch64

example : valueText asciiPlain true 0 (.object [(⟨.raw (.owned ['a']), .new false 1⟩, .null)]) =
    ("Object(\n    Object(\n        [\n            Entry {\n                key: JsonString {\n                    source: Raw(\n"
    ++ "                        Owned(\n                            \"a\",\n                        ),\n                    ),\n"
    ++ "                    info: EscapeInfo {\n                        has_escapes: false,\n                        unescaped_length: 1,\n"
    ++ "                    },\n                },\n                value: Null,\n            },\n        ],\n    ),\n)").toList := by
  decide +kernel

example : configText false 0 ParseConfig.new = "ParseConfig { allow_trailing_commas: false, recursion_limit: Some(128), allow_all_types_at_root: true }".toList
    ∧ (∃ kind, KindText false 1 (.unexpected 0x22) kind ∧ record false 0 "Error" [("offset", fun _ => natWord 3), ("kind", fun _ => kind)]
      = "Error { offset: 3, kind: Unexpected(34) }".toList) := by
  refine ⟨by decide +kernel, _, .unexpected _, by decide +kernel⟩
end

end

/-! ## Instances: each theorem above applied to a concrete case that meets its hypotheses -/
section Instances
attribute [local instance] arch64

example := C79_text (fun _ => true) true exVal ⟨.json (.borrowed ['a']), .new false 1⟩ ⟨.borrowed ['1']⟩ (.object 7) .comma (.new true 3)
example := C79_error_text true ⟨13, .unexpected 0x7D⟩
example := C79_config_text true .new
example := C79_kind_text .array .comma

end Instances
end JustJson
