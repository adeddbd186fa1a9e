import Verif.Props.Doc
import Verif.Props.Values
/-! # Equality of documents: C64 -/

namespace JustJson
open Spec

section
variable [Arch]

/-- `Node::eq` with `E` for the strings -/
def nodeEqBy (E : JsonString → JsonString → Bool) : Node → Node → Bool
  | .null, .null => true
  | .boolean a, .boolean b => a == b
  | .string a, .string b => E a b
  | .number a, .number b => a.eq b
  | .object a, .object b => a == b
  | .array a, .array b => a == b
  | _, _ => false

/-- lists of nodes -/
def nodesEqBy (E : JsonString → JsonString → Bool) : List Node → List Node → Bool
  | [], [] => true
  | a :: as, b :: bs => nodeEqBy E a b && nodesEqBy E as bs
  | _, _ => false

/-- The strings of a list of nodes. -/
def nodeStrings : List Node → List JsonString
  | [] => []
  | .string s :: ns => s :: nodeStrings ns
  | _ :: ns => nodeStrings ns

omit [Arch] in
theorem nodeStrings_append : ∀ a b : List Node, nodeStrings (a ++ b) = nodeStrings a ++ nodeStrings b
  | [], _ => rfl
  | n :: a, b => by cases n <;> simp [nodeStrings, nodeStrings_append a b]

theorem flatten_strings : (∀ v : Value, nodeStrings (flatten v) = v.strings)
    ∧ (∀ es : Object, nodeStrings (flattenEntries es) = Value.stringsEntries es)
    ∧ ∀ vs : List Value, nodeStrings (flattenElems vs) = Value.stringsElems vs := by
  apply Value.induct
  · rfl
  · intro b; rfl
  · intro n; rfl
  · intro s; rfl
  · intro es h; rw [flatten, Value.strings, ← h]; rfl
  · intro es h; rw [flatten, Value.strings, ← h]; rfl
  · rfl
  · intro k v es h1 h2
    rw [flattenEntries, Value.stringsEntries, ← h1, ← h2]
    simp [nodeStrings, nodeStrings_append]
  · rfl
  · intro v es h1 h2
    rw [flattenElems, Value.stringsElems, ← h1, ← h2, nodeStrings_append]

theorem docEqAux_by {E : JsonString → JsonString → Bool} : ∀ {a b : List Node}, a.length = b.length →
    (∀ s ∈ nodeStrings a, ∀ t ∈ nodeStrings b, EqIs E s t) → Document.eqAux a b = .ok (nodesEqBy E a b)
  | [], [], _, _ => rfl
  | x :: a, y :: b, hl, h => by
    have h1 : Node.eq x y = .ok (nodeEqBy E x y) := by
      cases x <;> cases y <;> first
        | rfl
        | exact h _ (by simp [nodeStrings]) _ (by simp [nodeStrings])
    have h2 := docEqAux_by (a := a) (b := b) (E := E) (by simpa using hl) (fun s hs t ht =>
      h s (by cases x <;> simp [nodeStrings, hs]) t (by cases y <;> simp [nodeStrings, ht]))
    rw [Document.eqAux, h1, nodesEqBy, h2]
    cases nodeEqBy E x y <;> rfl

omit [Arch] in
theorem nodesEqBy_length {E : JsonString → JsonString → Bool} : ∀ {a b : List Node}, a.length ≠ b.length → nodesEqBy E a b = false
  | [], [], h => absurd rfl h
  | [], _ :: _, _ => rfl
  | _ :: _, [], _ => rfl
  | v :: vs, w :: ws, h => by
    rw [nodesEqBy, nodesEqBy_length (a := vs) (b := ws) (fun e => h (by simp [e])), Bool.and_false]

theorem docEq_by {E : JsonString → JsonString → Bool} {a b : Document}
    (h : ∀ s ∈ nodeStrings a, ∀ t ∈ nodeStrings b, EqIs E s t) : Document.eq a b = .ok (nodesEqBy E a b) := by
  unfold Document.eq
  split
  · exact docEqAux_by ‹_› h
  · rw [nodesEqBy_length ‹_›]

/-- listings are equal node by node exactly when the values are -/
theorem flatten_eqBy (E : JsonString → JsonString → Bool) :
    (∀ (v w : Value) (r r' : List Node), nodesEqBy E (flatten v ++ r) (flatten w ++ r') = (eqBy E v w && nodesEqBy E r r'))
    ∧ (∀ (es fs : Object) (r r' : List Node), es.length = fs.length →
        nodesEqBy E (flattenEntries es ++ r) (flattenEntries fs ++ r') = (eqEntries E es fs && nodesEqBy E r r'))
    ∧ ∀ (vs ws : List Value) (r r' : List Node), vs.length = ws.length →
        nodesEqBy E (flattenElems vs ++ r) (flattenElems ws ++ r') = (eqElems E vs ws && nodesEqBy E r r') := by
  apply Value.induct
  · intro w r r'; cases w <;> simp [flatten, nodesEqBy, nodeEqBy, eqBy]
  · intro b w r r'; cases w <;> simp [flatten, nodesEqBy, nodeEqBy, eqBy]
  · intro n w r r'; cases w <;> simp [flatten, nodesEqBy, nodeEqBy, eqBy]
  · intro s w r r'; cases w <;> simp [flatten, nodesEqBy, nodeEqBy, eqBy]
  · intro es ih w r r'
    cases w with
    | object fs =>
      simp only [flatten, List.cons_append, nodesEqBy, nodeEqBy, eqBy]
      by_cases hl : es.length = fs.length
      · rw [ih fs r r' hl, hl]; simp
      · rw [eqEntries_length hl, Bool.false_and, show (es.length == fs.length) = false from by simpa using hl, Bool.false_and]
    | _ => simp [flatten, nodesEqBy, nodeEqBy, eqBy]
  · intro es ih w r r'
    cases w with
    | array fs =>
      simp only [flatten, List.cons_append, nodesEqBy, nodeEqBy, eqBy]
      by_cases hl : es.length = fs.length
      · rw [ih fs r r' hl, hl]; simp
      · rw [eqElems_length hl, Bool.false_and, show (es.length == fs.length) = false from by simpa using hl, Bool.false_and]
    | _ => simp [flatten, nodesEqBy, nodeEqBy, eqBy]
  · intro fs r r' hl
    cases fs with
    | nil => simp [flattenEntries, eqEntries]
    | cons f fs => cases hl
  · intro k v es h1 h2 fs r r' hl
    cases fs with
    | nil => cases hl
    | cons f fs =>
      obtain ⟨l, w⟩ := f
      simp only [flattenEntries, List.cons_append, List.append_assoc, nodesEqBy, nodeEqBy, eqEntries]
      rw [h1, h2 fs r r' (by simpa using hl), Bool.and_assoc, Bool.and_assoc]
  · intro fs r r' hl
    cases fs with
    | nil => simp [flattenElems, eqElems]
    | cons f fs => cases hl
  · intro v es h1 h2 fs r r' hl
    cases fs with
    | nil => cases hl
    | cons w fs =>
      simp only [flattenElems, List.append_assoc, eqElems]
      rw [h1, h2 fs r r' (by simpa using hl), Bool.and_assoc]

/-- **C64.** Comparing two parsed documents never panics and gives what comparing the values gives that the same inputs parse
to: true exactly if they have the same content. The inputs, configurations and capacities may differ. -/
theorem C64_document_eq (cap cap' : Option Nat) (g g' : Bool) (src src' : List UInt8) (cfg cfg' : ParseConfig)
    (d d' : Document) (hi : Input g src) (hi' : Input g' src') (hd : docFromJsonWithConfig cap g src cfg = .ok d)
    (hd' : docFromJsonWithConfig cap' g' src' cfg' = .ok d') :
    ∃ v w b, Value.parseWithConfig g src cfg = .ok v ∧ Value.parseWithConfig g' src' cfg' = .ok w
      ∧ Document.eq d d' = .ok b ∧ v.eq w = .ok b ∧ (b = true ↔ SameContent v w) := by
  obtain ⟨v, hv, rfl, _⟩ := doc_ok hi hd
  obtain ⟨w, hw, rfl, _⟩ := doc_ok hi' hd'
  have pv := parsed_value_parts hi hv
  have pw := parsed_value_parts hi' hw
  have hE : ∀ s ∈ v.strings, ∀ t ∈ w.strings, EqIs eqOf s t := fun s hs t ht => (eqOf_parsed (pv s hs) (pw t ht)).1
  have h1 : v.eq w = .ok (eqBy eqOf v w) := (eq_eqBy eqOf).1 v w hE
  have h2 : Document.eq (flatten v) (flatten w) = .ok (eqBy eqOf v w) := by
    rw [docEq_by (E := eqOf) (by rw [flatten_strings.1, flatten_strings.1]; exact hE)]
    have := (flatten_eqBy eqOf).1 v w [] []
    rw [List.append_nil, List.append_nil, nodesEqBy, Bool.and_true] at this
    rw [this]
  obtain ⟨b, hb, hs⟩ := C44_eq_parsed v w pv pw
  rw [h1] at hb
  injection hb with hb
  subst hb
  exact ⟨v, w, _, hv, hw, h2, h1, hs⟩

/-- **C64.** `==` is an equivalence relation on parsed documents. -/
theorem C64_equivalence (cap : Option Nat) (d₁ d₂ d₃ : Document)
    (h : ∀ d ∈ [d₁, d₂, d₃], ∃ g src cfg, Input g src ∧ docFromJsonWithConfig cap g src cfg = .ok d) :
    Document.eq d₁ d₁ = .ok true ∧ Document.eq d₁ d₂ = Document.eq d₂ d₁
      ∧ (Document.eq d₁ d₂ = .ok true → Document.eq d₂ d₃ = .ok true → Document.eq d₁ d₃ = .ok true) := by
  have key : ∀ {d d' : Document}, d ∈ [d₁, d₂, d₃] → d' ∈ [d₁, d₂, d₃] → ∀ v w, d = flatten v → d' = flatten w →
      Document.eq d d' = v.eq w := by
    intro d d' hd hd' v w e e'
    obtain ⟨g, src, cfg, hi, hp⟩ := h d hd
    obtain ⟨g', src', cfg', hi', hp'⟩ := h d' hd'
    obtain ⟨v', hv', e1, _⟩ := doc_ok hi hp
    obtain ⟨w', hw', e2, _⟩ := doc_ok hi' hp'
    obtain ⟨v'', w'', b, h1, h2, h3, h4, _⟩ := C64_document_eq cap cap g g' src src' cfg cfg' d d' hi hi' hp hp'
    rw [hv'] at h1; cases h1
    rw [hw'] at h2; cases h2
    rw [h3, flatten_inj (e.symm.trans e1), flatten_inj (e'.symm.trans e2), h4]
  have hv : ∀ {d : Document}, d ∈ [d₁, d₂, d₃] → ∃ v, d = flatten v ∧ ParsedParts v := by
    intro d hd
    obtain ⟨g, src, cfg, hi, hp⟩ := h d hd
    obtain ⟨v, hv, e, _⟩ := doc_ok hi hp
    exact ⟨v, e, parsed_value_parts hi hv⟩
  obtain ⟨u, eu, pu⟩ := hv (d := d₁) (by simp)
  obtain ⟨v, ev, pv⟩ := hv (d := d₂) (by simp)
  obtain ⟨w, ew, pw⟩ := hv (d := d₃) (by simp)
  obtain ⟨h1, h2, h3⟩ := C44_equivalence u v w pu pv pw
  rw [key (by simp) (by simp) u u eu eu, key (by simp) (by simp) u v eu ev, key (by simp) (by simp) v u ev eu,
    key (by simp) (by simp) v w ev ew, key (by simp) (by simp) u w eu ew]
  exact ⟨h1, h2, h3⟩

end

section Examples
attribute [local instance] arch64

/-- two spellings of one document -/
def docEqEx (s t : String) : Option Bool :=
  match docFromJson none s.toList, docFromJson none t.toList with
  | .ok a, .ok b => match Document.eq a b with
    | .ok r => some r
    | _ => none
  | _, _ => none

example : docEqEx "{\"a\":[1,\"x\"]}" " {\"\\u0061\" : [1, \"\\u0078\"] }" = some true := by decide +kernel
example : docEqEx "[[1],2]" "[[1,2]]" = some false := by decide +kernel

end Examples

/-! ## Instances: each theorem above applied to a concrete case that meets its hypotheses -/
section Instances
attribute [local instance] arch64

example := C64_document_eq none none true false exSrc exSrc .new .new _ _ (exSrc_input _) (exSrc_input _) (exSrc_nodes _) (exSrc_nodes _)
example := C64_equivalence none (flatten exVal) (flatten exVal) (flatten exVal) (fun d hd => by
  have : d = flatten exVal := by simpa using hd
  exact ⟨true, exSrc, .new, exSrc_input _, this ▸ exSrc_nodes _⟩)

end Instances
end JustJson
