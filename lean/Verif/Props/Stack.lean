import Verif.Props.Ex
import Verif.Props.Accept
import Verif.Props.Doc
import Verif.Lemmas.StackWrite
import Verif.Lemmas.StackTwin
import Verif.Lemmas.StackEq
import Verif.Lemmas.StackDebug
/-! # C72: how deep the calls nest

`parseBytesS`, `Value.writeJsonS`, `Value.fromDocumentS`, `skipNextValueS`, `Value.eqS`, `Value.dropS` (`Model/Stack.lean`) and `Value.debugS` (`Model/ShownStack.lean`) are the recursive
functions on a stack that has room for `stk` of their nested calls; one more is `.panic .stack`. -/

namespace JustJson
open Spec

set_option linter.unusedSectionVars false

section
variable [Arch]

/-- **C72.** With a recursion limit `n`, no source whatsoever makes a parse nest more than `n + 1` calls, with any
delegate: on a stack with that much room the parse is what it is on an unbounded one. -/
theorem C72_recursion_limit (g : Bool) (src : List UInt8) (cfg : ParseConfig) (D : Delegate) (d : D.σ) (n stk : Nat)
    (hn : cfg.recursionLimit = some n) (hs : n < stk) : parseBytesS g src cfg D stk d = parseBytes g src cfg D d :=
  parse_stack (.inl ⟨by rw [hn]; rfl, by show cfg.recursionLimit.getD USIZE_MAX < stk; rw [hn]; exact hs⟩)

/-- **C72**: the default configurations nest at most 129 calls, whatever the source. -/
theorem C72_default (g : Bool) (src : List UInt8) (D : Delegate) (d : D.σ) :
    parseBytesS g src .new D 129 d = parseBytes g src .new D d
    ∧ parseBytesS g src .strict D 129 d = parseBytes g src .strict D d :=
  ⟨C72_recursion_limit g src .new D d 128 129 rfl (by omega), C72_recursion_limit g src .strict D d 128 129 rfl (by omega)⟩

/-- **C72**: under any configuration, also without limit, there are at most as many nested calls as `[` and `{` in the source, and
one more. -/
theorem C72_brackets (g : Bool) (src : List UInt8) (cfg : ParseConfig) (D : Delegate) (d : D.σ) (stk : Nat)
    (hs : openers src < stk) : parseBytesS g src cfg D stk d = parseBytes g src cfg D d :=
  parse_stack (.inr hs)

/-- **C72**: every parse has a number of nested calls; with room for these it is what it is on an unbounded stack, and with
less it fills the stack. -/
theorem C72_parse_threshold (g : Bool) (src : List UInt8) (cfg : ParseConfig) (D : Delegate) (d : D.σ) :
    ∃ n, n ≤ openers src + 1 ∧ (∀ l, cfg.recursionLimit = some l → n ≤ l + 1)
      ∧ ∀ stk, parseBytesS g src cfg D stk d = if n ≤ stk then parseBytes g src cfg D d else .panic .stack := by
  obtain ⟨n, h, _⟩ := parse_need (g := g) (src := src) (cfg := cfg) (Gauge.any D) d
  by_cases hp : parseBytes g src cfg D d = .panic .stack
  · refine ⟨0, Nat.zero_le _, fun _ _ => Nat.zero_le _, fun stk => ?_⟩
    rw [h, hp, if_pos (Nat.zero_le _)]
    split <;> rfl
  · have bound : ∀ stk, parseBytesS g src cfg D stk d = parseBytes g src cfg D d → n ≤ stk := by
      intro stk hs
      by_cases hn : n ≤ stk
      · exact hn
      · rw [h, if_neg hn] at hs
        exact absurd hs.symm hp
    exact ⟨n, bound _ (C72_brackets g src cfg D d _ (by omega)),
      fun l hl => bound _ (C72_recursion_limit g src cfg D d l _ hl (by omega)), h⟩

/-- **C72**: parsing a `Value` nests exactly as many calls as the value is high. -/
theorem C72_value_exact (g : Bool) (src : List UInt8) (cfg : ParseConfig) (v : Value)
    (hv : Value.parseWithConfig g src cfg = .ok v) (stk : Nat) :
    (parseBytesS g src cfg valueParser stk ()).outcome = if v.height ≤ stk then .ok v else .panic .stack := by
  obtain ⟨n, h1, h2⟩ := parse_need (g := g) (src := src) (cfg := cfg) Gauge.value ()
  unfold Value.parseWithConfig at hv
  cases hp : parseBytes g src cfg valueParser () with
  | ok a s =>
    rw [hp] at hv
    injection hv with hv
    subst hv
    have hh : a.height = n := h2 a s hp
    rw [h1, hp, hh]
    split <;> rfl
  | err e s => rw [hp] at hv; cases hv
  | panic p => rw [hp] at hv; cases hv

/-- **C72**: and so does every parse that succeeds, whatever its delegate keeps: validation, documents, and the delegates of
users nest as many calls as the `Value` of the same text is high. -/
theorem C72_any_delegate_exact (g : Bool) (src : List UInt8) (cfg : ParseConfig) (D : Delegate) (d : D.σ) (a : D.Value)
    (s : PState D.σ) (h : parseBytes g src cfg D d = .ok a s) (v : Value) (hv : Value.parseWithConfig g src cfg = .ok v) (stk : Nat) :
    parseBytesS g src cfg D stk d = if v.height ≤ stk then .ok a s else .panic .stack := by
  unfold Value.parseWithConfig at hv
  cases hp : parseBytes g src cfg valueParser () with
  | ok b t =>
    rw [hp] at hv
    injection hv with hv
    subst hv
    exact parse_twin h hp stk
  | err e s => rw [hp] at hv; cases hv
  | panic p => rw [hp] at hv; cases hv

theorem height_depth : (∀ v : Value, v.depth ≤ v.height ∧ v.height ≤ v.depth + 1)
    ∧ (∀ es : Object, Value.depthEntries es ≤ Value.heightEntries es ∧ Value.heightEntries es ≤ Value.depthEntries es + 1)
    ∧ ∀ vs : List Value, Value.depthList vs ≤ Value.heightList vs ∧ Value.heightList vs ≤ Value.depthList vs + 1 := by
  apply Value.induct
  · simp [Value.height, Value.depth]
  · simp [Value.height, Value.depth]
  · simp [Value.height, Value.depth]
  · simp [Value.height, Value.depth]
  · intro es ih; rw [Value.height, Value.depth]; omega
  · intro es ih; rw [Value.height, Value.depth]; omega
  · simp [Value.heightEntries, Value.depthEntries]
  · intro k v es hv hes; rw [Value.heightEntries, Value.depthEntries]; omega
  · simp [Value.heightList, Value.depthList]
  · intro v es hv hes; rw [Value.heightList, Value.depthList]; omega

/-- **C72**: the height is the nesting depth of arrays and objects, or one more. -/
theorem C72_height_is_depth (v : Value) : v.depth ≤ v.height ∧ v.height ≤ v.depth + 1 := height_depth.1 v

/-- `n` arrays in each other -/
def nestedArrays (n : Nat) : List UInt8 := List.replicate (n + 1) 0x5B ++ List.replicate (n + 1) 0x5D

/-- the value -/
def nestedValue : Nat → Value
  | 0 => .array []
  | n + 1 => .array [nestedValue n]

/-- its syntax tree -/
def nestedJson : Nat → Json
  | 0 => .arr []
  | n + 1 => .arr [nestedJson n]

theorem nested_text (n : Nat) : GValue false (nestedArrays n) (nestedJson n) := by
  induction n with
  | zero => exact .emptyArr [] (by intro b hb; cases hb)
  | succ n ih =>
    have h := GValue.arr ([] ++ nestedArrays n ++ []) [nestedJson n] (.one [] _ [] _ (by intro b hb; cases hb) ih (by intro b hb; cases hb))
    have e : nestedArrays (n + 1) = 0x5B :: (([] ++ nestedArrays n ++ []) ++ [0x5D]) := by
      unfold nestedArrays
      rw [List.replicate_succ (n := n + 1), List.replicate_succ' (n := n + 1) (a := 0x5D)]
      simp
    rw [e]
    exact h

theorem nested_height (n : Nat) : (nestedValue n).height = n + 1 := by
  induction n with
  | zero => rfl
  | succ n ih => rw [nestedValue, Value.height, Value.heightList, Value.heightList, ih]; omega

theorem nested_ofJson (n : Nat) : ofJson (nestedJson n) = nestedValue n := by
  induction n with
  | zero => rw [nestedJson, ofJson, ofJsons]; rfl
  | succ n ih => rw [nestedJson, ofJson, ofJsons, ofJsons, ih]; rfl

/-- **C72**: without recursion limit any stack can be filled: a text of `stk + 1` arrays in each other, which is accepted
on an unbounded stack, needs one call more than there is room for. -/
theorem C72_no_limit_overflows (stk : Nat) (h : SliceFits (nestedArrays stk)) :
    Value.parseWithConfig false (nestedArrays stk) ParseConfig.new.withoutRecursionLimit = .ok (nestedValue stk)
    ∧ (parseBytesS false (nestedArrays stk) ParseConfig.new.withoutRecursionLimit valueParser stk ()).outcome = .panic .stack
    ∧ (nestedArrays stk).length = 2 * (stk + 1) := by
  have hv : Value.parseWithConfig false (nestedArrays stk) ParseConfig.new.withoutRecursionLimit = .ok (nestedValue stk) := by
    rw [← nested_ofJson]
    refine accepted_ok (input_bytes h) ⟨⟨[], nestedArrays stk, [], (by intro b hb; cases hb), nested_text stk, (by intro b hb; cases hb), (by simp)⟩,
      (fun n hn => (by cases hn)), (Or.inl rfl)⟩
  refine ⟨hv, ?_, by unfold nestedArrays; simp; omega⟩
  rw [C72_value_exact _ _ _ _ hv, nested_height, if_neg (by omega)]

/-- **C72**: writing a value, in any of the forms and to any writer, nests at most as many calls as it is high. -/
theorem C72_write (F : Writer) (pretty : Bool) (indent lineEnding : Str) (v : Value) (w : F.W) (stk : Nat) (hs : v.height ≤ stk) :
    v.writeJsonS F pretty indent lineEnding stk w = v.writeJson F pretty indent lineEnding w := by
  unfold Value.writeJsonS Value.writeJson
  rw [write_room.1 v stk hs]
  rfl

/-- **C72**: and exactly as many, if the writer takes all. -/
theorem C72_write_exact (F : Writer) (pretty : Bool) (indent lineEnding : Str) (v : Value) (w w' : F.W)
    (hw : v.writeJson F pretty indent lineEnding w = .ok (w', true)) (stk : Nat) :
    v.writeJsonS F pretty indent lineEnding stk w = if v.height ≤ stk then .ok (w', true) else .panic .stack := by
  obtain ⟨n, h1, h2⟩ := (write_need (F := F) (pretty := pretty) (indent := indent) (lineEnding := lineEnding)).1 v ⟨w, 0, true⟩
  have h1 : writeValueS F pretty indent lineEnding stk v ⟨w, 0, true⟩ = _ := h1 stk
  unfold Value.writeJson at hw
  unfold Value.writeJsonS
  rw [h1]
  cases hm : writeValue F pretty indent lineEnding v ⟨w, 0, true⟩ with
  | ok a s =>
    rw [hm] at hw h2
    have hn : v.height = n := h2 a s rfl
    rw [hn]
    by_cases hs : n ≤ stk
    · rw [if_pos hs, if_pos hs]; exact hw
    · rw [if_neg hs, if_neg hs]
  | err e s => rw [hm] at hw; injection hw with hw; cases hw
  | panic p => rw [hm] at hw; cases hw

/-- **C72**: a `Value` from a document nests exactly as many calls as the value is high; for any nodes, from whatever source. -/
theorem C72_document_exact (doc : Document) (v : Value) (hv : Value.fromDocument doc = .ok v) (stk : Nat) :
    Value.fromDocumentS stk doc = if v.height ≤ stk then .ok v else .panic .stack := by
  obtain ⟨n, h1, h2⟩ := fromDocument_need doc
  have h1 : Value.fromDocumentS stk doc = _ := h1 stk
  rw [h1, (h2 v hv).2, hv]

/-- **C72**: skipping a value in a document as well. -/
theorem C72_skip_exact (v : Value) (rest : List Node) (stk : Nat) :
    skipNextValueS stk (flatten v ++ rest) = if v.height ≤ stk then .ok rest else .panic .stack :=
  skip_need.1 v _ rest (by unfold nodesFuel; simp; omega) stk

/-- **C72**: comparing two values nests at most as many calls as the lower one is high. -/
theorem C72_eq (v w : Value) (stk : Nat) (hs : min v.height w.height ≤ stk) : Value.eqS stk v w = v.eq w := by
  obtain ⟨n, h1, h2, h3, _⟩ := need_eq v w
  exact (h3 stk).trans (if_pos (by omega))

/-- **C72**: and exactly as many as they are high, which is the same for both, if they are equal. -/
theorem C72_eq_exact (v w : Value) (h : v.eq w = .ok true) (stk : Nat) :
    Value.eqS stk v w = (if v.height ≤ stk then .ok true else .panic .stack) ∧ v.height = w.height := by
  obtain ⟨n, _, _, h3, h4⟩ := need_eq v w
  obtain ⟨rfl, e⟩ := h4 h
  exact ⟨(h3 stk).trans (by rw [h]), e⟩

/-- **C72**: dropping a value nests exactly as many calls as it is high. -/
theorem C72_drop_exact (v : Value) (stk : Nat) : Value.dropS stk v = if v.height ≤ stk then .ok () else .panic .stack :=
  need_drop v stk

/-- **C72**: printing a value with `{:?}` or `{:#?}` nests exactly as many calls as it is high. -/
theorem C72_debug_exact (plain : Char → Bool) (a : Bool) (v : Value) (stk : Nat) :
    v.debugS plain a stk = if v.height ≤ stk then .ok (v.debug plain a) else .panic .stack := by
  unfold Value.debugS
  rw [need_shown]
  by_cases c : v.height ≤ stk
  · rw [if_pos c, if_pos c]; rfl
  · rw [if_neg c, if_neg c]; rfl

/-- **C72**: what was parsed under a limit `n` can be written, printed with `Debug`, compared with any other value and dropped,
and its document turned into a `Value` and skipped, on a stack with room for `n + 1` calls. -/
theorem C72_limit_covers_all (g : Bool) (src : List UInt8) (h : Input g src) (cfg : ParseConfig) (n : Nat) (v : Value)
    (hv : Value.parseWithConfig g src (cfg.withRecursionLimit n) = .ok v) :
    (∀ (F : Writer) (pretty : Bool) (indent lineEnding : Str) (w : F.W),
        v.writeJsonS F pretty indent lineEnding (n + 1) w = v.writeJson F pretty indent lineEnding w)
    ∧ (∀ w, Value.eqS (n + 1) v w = v.eq w ∧ Value.eqS (n + 1) w v = w.eq v) ∧ Value.dropS (n + 1) v = .ok ()
    ∧ (∀ plain a, v.debugS plain a (n + 1) = .ok (v.debug plain a))
    ∧ (∀ cap doc, docFromJsonWithConfig cap g src (cfg.withRecursionLimit n) = .ok doc →
        Value.fromDocumentS (n + 1) doc = .ok v ∧ skipNextValueS (n + 1) doc = .ok []) := by
  have hd : v.depth ≤ n := ((C04_recursion_limit_exact g src h cfg n v).mp hv).2
  have hh : v.height ≤ n + 1 := by have := C72_height_is_depth v; omega
  refine ⟨fun F pretty indent lineEnding w => C72_write F pretty indent lineEnding v w _ hh,
    fun w => ⟨C72_eq v w _ (by omega), C72_eq w v _ (by omega)⟩, by rw [C72_drop_exact, if_pos hh],
    fun plain a => by rw [C72_debug_exact, if_pos hh], fun cap doc hdoc => ?_⟩
  obtain ⟨v', h1, h2⟩ := C08_document_to_value cap g src h _ doc hdoc
  rw [hv] at h2
  injection h2 with h2
  subst h2
  refine ⟨by rw [C72_document_exact doc v h1, if_pos hh], ?_⟩
  obtain ⟨v2, h3, rfl⟩ : ∃ v2, Value.parseWithConfig g src (cfg.withRecursionLimit n) = .ok v2 ∧ doc = flatten v2 := by
    cases cap with
    | none => exact (C09_nodes_are_preorder g src h _ doc).mp hdoc
    | some N => exact (C09_nodes_are_preorder g src h _ doc).mp ((C11_bounded_ok_iff N g src h _ doc).mp hdoc).1
  rw [hv] at h3
  injection h3 with h3
  subst h3
  have := C72_skip_exact v [] (n + 1)
  rw [List.append_nil, if_pos hh] at this
  exact this

end

/-! ## Concrete cases -/
section
attribute [local instance] arch64

/-- the panic of an outcome -/
def Outcome.panic? {ε α : Type} : Outcome ε α → Option Panic
  | .panic p => some p
  | _ => none

/-- Two arrays and a number in them: three nested calls. -/
example : (parseBytesS false (b8 "[[1], {}]") .new valueParser 3 ()).outcome.isOk = true := by decide +kernel
example : (parseBytesS false (b8 "[[1], {}]") .new valueParser 2 ()).outcome.panic? = some .stack := by decide +kernel
/-- Validation and a document of it: three as well. -/
example : (parseBytesS false (b8 "[[1], {}]") .new unitDelegate 3 ()).outcome.isOk = true := by decide +kernel
example : (parseBytesS false (b8 "[[1], {}]") .new unitDelegate 2 ()).outcome.panic? = some .stack := by decide +kernel
example : (parseBytes false (b8 "[[1], {}]") .new unitDelegate ()).outcome.isOk = true := by decide +kernel
/-- An empty array needs no call but its own. -/
example : (parseBytesS false (b8 "[[], {}]") .new valueParser 2 ()).outcome.isOk = true := by decide +kernel
/-- The limit is met: two levels are allowed, the number is a third call. -/
example : (parseBytesS false (b8 "[[1]]") (ParseConfig.new.withRecursionLimit 2) unitDelegate 2 ()).outcome.panic? = some .stack := by decide +kernel
/-- The bracket that goes over the limit is read by a third call as well. -/
example : (parseBytesS false (b8 "[[[") (ParseConfig.new.withRecursionLimit 2) unitDelegate 3 ()).outcome.error?
    = some ⟨2, .recursionLimitReached⟩ := by decide +kernel
example : (parseBytesS false (b8 "[[[") (ParseConfig.new.withRecursionLimit 2) unitDelegate 2 ()).outcome.panic? = some .stack := by decide +kernel
/-- Brackets in strings count in the bound but not in the calls. -/
example : openers (b8 "[\"[[{\"]") = 4 := by decide +kernel
example : (parseBytesS false (b8 "[\"[[{\"]") .new unitDelegate 2 ()).outcome.isOk = true := by decide +kernel

/-- `[[1], {}]` again -/
abbrev exTower : Value := .array [.array [.number ⟨.borrowed ['1']⟩], .object []]
example : exTower.height = 3 := by decide +kernel
example : exTower.writeJson stringWriter false [] [] [] = .ok ("[[1],{}]".toList, true) := by decide +kernel
example : exTower.writeJsonS stringWriter false [] [] 2 [] = .panic .stack := by decide +kernel
example : exTower.writeJsonS stringWriter false [] [] 3 [] = .ok ("[[1],{}]".toList, true) := by decide +kernel
example : Value.fromDocumentS 2 (flatten exTower) = .panic .stack := by
  rw [C72_document_exact _ exTower (fromDocument_flatten _), if_neg (by decide +kernel)]
example : Value.fromDocumentS 3 (flatten exTower) = .ok exTower := by
  rw [C72_document_exact _ exTower (fromDocument_flatten _), if_pos (by decide +kernel)]
example : skipNextValueS 2 (flatten exTower) = .panic .stack := by decide +kernel
example : skipNextValueS 3 (flatten exTower) = .ok [] := by decide +kernel
example : exTower.eq exTower = .ok true ∧ Value.eqS 2 exTower exTower = .panic .stack ∧ Value.eqS 3 exTower exTower = .ok true := by decide +kernel
example : exTower.debugS (fun _ => true) false 2 = .panic .stack
    ∧ exTower.debugS (fun _ => true) false 3
      = .ok "Array([Array([Number(JsonNumber { source: Borrowed(\"1\") })]), Object(Object([]))])".toList := by decide +kernel
-- a difference found early takes less room
example : Value.eqS 1 exTower (.array []) = .ok false := by decide +kernel
example : Value.dropS 2 exTower = .panic .stack ∧ Value.dropS 3 exTower = .ok () := by decide +kernel
example : SliceFits (nestedArrays 20) := by unfold SliceFits; decide +kernel

end

/-! ## Instances: each theorem above applied to a concrete case that meets its hypotheses -/
section Instances
attribute [local instance] arch64

example := C72_recursion_limit true exSrc .new unitDelegate () 128 129 rfl (by decide)
example := C72_default true exSrc unitDelegate ()
example := C72_brackets true exSrc .new unitDelegate () 5 (by decide +kernel)
example := C72_parse_threshold true exSrc .new unitDelegate ()
example := C72_value_exact true exSrc .new exVal (exSrc_parses _) 2
example := C72_any_delegate_exact true exSrc .new unitDelegate () _ _
  (Out.exists_ok (o := parseBytes true exSrc .new unitDelegate ()) (by decide +kernel)).choose_spec.choose_spec exVal (exSrc_parses _) 2
example := C72_height_is_depth exTower
example := C72_no_limit_overflows 20 (by unfold SliceFits; decide +kernel)
example := C72_write stringWriter false [] [] exTower [] 3 (by decide +kernel)
example := C72_write_exact stringWriter false [] [] exTower [] "[[1],{}]".toList (by decide +kernel) 2
example := C72_document_exact (flatten exTower) exTower (fromDocument_flatten _) 2
example := C72_skip_exact exTower [.null] 2
example := C72_eq exTower exTower 3 (by decide +kernel)
example := C72_eq_exact exTower exTower (by decide +kernel) 2
example := C72_drop_exact exTower 2
example := C72_debug_exact (fun _ => true) true exTower 2
example := C72_limit_covers_all true (b8 "[[1],{}]") (by lit) .new 2 exTower (value_same (by decide +kernel))

end Instances
end JustJson
