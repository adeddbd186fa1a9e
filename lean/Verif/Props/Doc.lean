import Verif.Props.Ex
import Verif.Lemmas.DocRead
/-! # Documents: C08 – C11 -/

namespace JustJson
open Spec

set_option linter.unusedSectionVars false

section
variable [Arch]

theorem doc_ok {cap : Option Nat} {g : Bool} {src : List UInt8} {cfg : ParseConfig} (h : Input g src) {doc : Document}
    (hd : docFromJsonWithConfig cap g src cfg = .ok doc) :
    ∃ v, Value.parseWithConfig g src cfg = .ok v ∧ doc = flatten v ∧ CapOk cap doc.length := by
  rcases doc_cases (cap := cap) (cfg := cfg) h with ⟨v, hv, ⟨hc, h1⟩ | ⟨_, off, h1⟩⟩ | ⟨e, _, h1 | ⟨_, off, h1⟩⟩
  · rw [h1] at hd; cases hd
    exact ⟨v, hv, rfl, hc⟩
  · rw [h1] at hd; cases hd
  · rw [h1] at hd; cases hd
  · rw [h1] at hd; cases hd

/-! ## C08 -/

/-- **C08.** If a document (of any capacity) is parsed, `Value::from(doc)` does not panic and is exactly the
`Value` that `Value::from_json*_with_config` returns for the same input. -/
theorem C08_document_to_value (cap : Option Nat) (g : Bool) (src : List UInt8) (h : Input g src) (cfg : ParseConfig)
    (doc : Document) (hd : docFromJsonWithConfig cap g src cfg = .ok doc) :
    ∃ v, Value.fromDocument doc = .ok v ∧ Value.parseWithConfig g src cfg = .ok v := by
  obtain ⟨v, hv, rfl, _⟩ := doc_ok h hd
  exact ⟨v, fromDocument_flatten v, hv⟩

/-! ## C09 -/

/-- **C09.** `Document` parsing succeeds exactly when `Value` parsing does, and its nodes are then the pre-order
listing of that `Value`. -/
theorem C09_nodes_are_preorder (g : Bool) (src : List UInt8) (h : Input g src) (cfg : ParseConfig) (doc : Document) :
    docFromJsonWithConfig none g src cfg = .ok doc ↔ ∃ v, Value.parseWithConfig g src cfg = .ok v ∧ doc = flatten v := by
  constructor
  · intro hd
    obtain ⟨v, hv, h1, _⟩ := doc_ok h hd
    exact ⟨v, hv, h1⟩
  · rintro ⟨v, hv, rfl⟩
    rcases doc_cases (cap := none) (cfg := cfg) h with ⟨v', hv', ⟨hc, h1⟩ | ⟨hc, off, h1⟩⟩ | ⟨e, he, _⟩
    · rw [hv] at hv'; cases hv'; exact h1
    · exact absurd (fun N hN => by cases hN) hc
    · rw [hv] at he; cases he

/-- **C09**: the listing loses nothing. -/
theorem C09_listing_injective (v v' : Value) (h : flatten v = flatten v') : v = v' := flatten_inj h

/-! ## C10 -/

/-- **C10.** Wherever an iterator over a parsed document stands on a part `u` of the value (the root, a nested
value or a key), `next_value` returns exactly `u`, `skip_next_value` does not panic, and both leave the iterator
just after the nodes of `u`. -/
theorem C10_next_and_skip (cap : Option Nat) (g : Bool) (src : List UInt8) (h : Input g src) (cfg : ParseConfig)
    (doc : Document) (v : Value) (hd : docFromJsonWithConfig cap g src cfg = .ok doc)
    (hv : Value.parseWithConfig g src cfg = .ok v) (i : Nat) (u : Value) (hu : At v i u) :
    nextValue (doc.drop i) = .ok (some (u, doc.drop (i + (flatten u).length)))
    ∧ skipNextValue (doc.drop i) = .ok (doc.drop (i + (flatten u).length)) := by
  obtain ⟨v', hv', rfl, _⟩ := doc_ok h hd
  rw [hv] at hv'; cases hv'
  obtain ⟨hi, rest, hr⟩ := at_drop hu
  have : (flatten v).drop (i + (flatten u).length) = rest := by
    rw [← List.drop_drop, hr, List.drop_left]
  rw [this, hr]
  exact ⟨nextValue_flatten u rest, skip_flatten' u rest⟩

/-- **C10**: every position of a parsed document is the beginning of some part of the value, so neither call
can ever panic or disagree with the other, wherever single nodes have been consumed before. -/
theorem C10_every_position (cap : Option Nat) (g : Bool) (src : List UInt8) (h : Input g src) (cfg : ParseConfig)
    (doc : Document) (v : Value) (hd : docFromJsonWithConfig cap g src cfg = .ok doc)
    (hv : Value.parseWithConfig g src cfg = .ok v) (i : Nat) :
    (i < doc.length → ∃ u, At v i u)
    ∧ (doc.length ≤ i → nextValue (doc.drop i) = .ok none ∧ skipNextValue (doc.drop i) = .ok []) := by
  obtain ⟨v', hv', rfl, _⟩ := doc_ok h hd
  rw [hv] at hv'; cases hv'
  refine ⟨at_exists.1 v i, fun hi => ?_⟩
  rw [List.drop_eq_nil_of_le hi]
  exact ⟨rfl, rfl⟩

theorem run_sees {doc : List Node} {v : Value} (hd : doc = flatten v) {i : Nat} {cs : List DocCall} {saws : List DocSaw}
    (h : DocSees v doc i cs saws) : runDocCalls cs (doc.drop i) = .ok saws := by
  have hat : ∀ {i u}, At v i u → nextValue (doc.drop i) = .ok (some (u, doc.drop (i + (flatten u).length)))
      ∧ skipNextValue (doc.drop i) = .ok (doc.drop (i + (flatten u).length)) := by
    intro i u hu
    subst hd
    obtain ⟨hi, rest, hr⟩ := at_drop hu
    have : (flatten v).drop (i + (flatten u).length) = rest := by
      rw [← List.drop_drop, hr, List.drop_left]
    rw [this, hr]
    exact ⟨nextValue_flatten u rest, skip_flatten' u rest⟩
  have hend : ∀ {i}, doc.length ≤ i → doc.drop i = [] := fun h => List.drop_eq_nil_of_le h
  induction h with
  | done i => rfl
  | next i n cs saws hn _ ih =>
    have e : doc.drop i = n :: doc.drop (i + 1) := by
      obtain ⟨hl, rfl⟩ := List.getElem?_eq_some_iff.mp hn
      exact List.drop_eq_getElem_cons hl
    rw [e, runDocCalls]
    show (do let saws ← runDocCalls cs (doc.drop (i + 1)); return DocSaw.node (some n) :: saws) = _
    rw [ih]; rfl
  | nextValue i u cs saws hu _ ih =>
    rw [runDocCalls, (hat hu).1]
    show (do let saws ← runDocCalls cs (doc.drop (i + (flatten u).length)); return DocSaw.value (some u) :: saws) = _
    rw [ih]; rfl
  | skip i u cs saws hu _ ih =>
    rw [runDocCalls, (hat hu).2]
    show (do let saws ← runDocCalls cs (doc.drop (i + (flatten u).length)); return DocSaw.unit :: saws) = _
    rw [ih]; rfl
  | endNext i cs saws hi _ ih =>
    rw [hend hi] at ih ⊢
    rw [runDocCalls]
    show (do let saws ← runDocCalls cs []; return DocSaw.node none :: saws) = _
    rw [ih]; rfl
  | endValue i cs saws hi _ ih =>
    rw [hend hi] at ih ⊢
    rw [runDocCalls]
    show (do let saws ← runDocCalls cs []; return DocSaw.value none :: saws) = _
    rw [ih]; rfl
  | endSkip i cs saws hi _ ih =>
    rw [hend hi] at ih ⊢
    rw [runDocCalls]
    show (do let saws ← runDocCalls cs []; return DocSaw.unit :: saws) = _
    rw [ih]; rfl

theorem sees_exists {doc : List Node} {v : Value} (hd : doc = flatten v) : ∀ (cs : List DocCall) (i : Nat), ∃ saws, DocSees v doc i cs saws
  | [], i => ⟨_, .done i⟩
  | c :: cs, i => by
    by_cases hi : i < doc.length
    · obtain ⟨u, hu⟩ := at_exists.1 v i (by rw [← hd]; exact hi)
      cases c with
      | next =>
        obtain ⟨saws, h⟩ := sees_exists hd cs (i + 1)
        exact ⟨_, .next i _ cs saws (List.getElem?_eq_getElem hi) h⟩
      | nextValue =>
        obtain ⟨saws, h⟩ := sees_exists hd cs (i + (flatten u).length)
        exact ⟨_, .nextValue i u cs saws hu h⟩
      | skipNextValue =>
        obtain ⟨saws, h⟩ := sees_exists hd cs (i + (flatten u).length)
        exact ⟨_, .skip i u cs saws hu h⟩
    · obtain ⟨saws, h⟩ := sees_exists hd cs i
      cases c with
      | next => exact ⟨_, .endNext i cs saws (by omega) h⟩
      | nextValue => exact ⟨_, .endValue i cs saws (by omega) h⟩
      | skipNextValue => exact ⟨_, .endSkip i cs saws (by omega) h⟩

/-- **C10**: any series of calls of `next`, `next_value` and `skip_next_value` on an iterator over a parsed document: none
panics, and they return what they should. -/
theorem C10_any_series_of_calls (cap : Option Nat) (g : Bool) (src : List UInt8) (h : Input g src) (cfg : ParseConfig)
    (doc : Document) (v : Value) (hd : docFromJsonWithConfig cap g src cfg = .ok doc)
    (hv : Value.parseWithConfig g src cfg = .ok v) (cs : List DocCall) :
    ∃ saws, runDocCalls cs doc = .ok saws ∧ DocSees v doc 0 cs saws ∧ ∀ saws', DocSees v doc 0 cs saws' → saws' = saws := by
  obtain ⟨v', hv', rfl, _⟩ := doc_ok h hd
  rw [hv] at hv'; cases hv'
  obtain ⟨saws, hs⟩ := sees_exists (doc := flatten v) (v := v) rfl cs 0
  have hr := run_sees rfl hs
  refine ⟨saws, hr, hs, fun saws' hs' => ?_⟩
  have hr' := run_sees rfl hs'
  rw [hr] at hr'
  cases hr'
  rfl

/-! ## C11 -/

/-- **C11.** `HeaplessDocument<N>` parsing succeeds exactly when the text is accepted by validation and the
`Document` has at most `N` nodes; the nodes are the same. -/
theorem C11_bounded_ok_iff (N : Nat) (g : Bool) (src : List UInt8) (h : Input g src) (cfg : ParseConfig) (doc : Document) :
    docFromJsonWithConfig (some N) g src cfg = .ok doc
      ↔ docFromJsonWithConfig none g src cfg = .ok doc ∧ doc.length ≤ N := by
  constructor
  · intro hd
    obtain ⟨v, hv, rfl, hc⟩ := doc_ok h hd
    exact ⟨(C09_nodes_are_preorder g src h cfg _).mpr ⟨v, hv, rfl⟩, hc N rfl⟩
  · rintro ⟨hd, hl⟩
    obtain ⟨v, hv, rfl, _⟩ := doc_ok h hd
    rcases doc_cases (cap := some N) (cfg := cfg) h with ⟨v', hv', ⟨hc, h1⟩ | ⟨hc, off, h1⟩⟩ | ⟨e, he, _⟩
    · rw [hv] at hv'; cases hv'; exact h1
    · rw [hv] at hv'; cases hv'
      exact absurd (fun M hM => by cases hM; exact hl) hc
    · rw [hv] at he; cases he

/-- **C11**: validation accepts, but there are more than `N` nodes: `PaylodTooLarge`. -/
theorem C11_too_large (N : Nat) (g : Bool) (src : List UInt8) (h : Input g src) (cfg : ParseConfig) (k : JsonKind)
    (hk : validateWithConfig g src cfg = .ok k) :
    ∃ doc, docFromJsonWithConfig none g src cfg = .ok doc ∧
      (N < doc.length → ∃ off, docFromJsonWithConfig (some N) g src cfg = .err ⟨off, .paylodTooLarge⟩) := by
  rw [validate_eq h] at hk
  rcases value_cases (cfg := cfg) h with ⟨j, _, hv⟩ | ⟨e, _, he, _⟩
  · refine ⟨flatten (ofJson j), (C09_nodes_are_preorder g src h cfg _).mpr ⟨_, hv, rfl⟩, fun hN => ?_⟩
    rcases doc_cases (cap := some N) (cfg := cfg) h with ⟨v', hv', ⟨hc, h1⟩ | ⟨hc, off, h1⟩⟩ | ⟨e, he, _⟩
    · rw [hv] at hv'; cases hv'
      exact absurd (hc N rfl) (by omega)
    · exact ⟨off, h1⟩
    · rw [hv] at he; cases he
  · rw [he] at hk; cases hk

/-- **C11**: a text that validation rejects is rejected, either with the same error or because the capacity was
exceeded before the error was met. -/
theorem C11_rejected (N : Nat) (g : Bool) (src : List UInt8) (h : Input g src) (cfg : ParseConfig) (e : Error Empty)
    (he : validateWithConfig g src cfg = .err e) :
    docFromJsonWithConfig (some N) g src cfg = .err e
    ∨ ∃ off, docFromJsonWithConfig (some N) g src cfg = .err ⟨off, .paylodTooLarge⟩ := by
  rw [validate_eq h] at he
  rcases doc_cases (cap := some N) (cfg := cfg) h with ⟨v', hv', _⟩ | ⟨e', he', h1 | ⟨_, h1⟩⟩
  · rw [hv'] at he; cases he
  · rw [he'] at he; cases he; exact .inl h1
  · exact .inr h1

/-- **C11**: the collection never holds more than `N` nodes: neither when parsing succeeds, nor when it fails
at whatever point. -/
theorem C11_capacity_respected (N : Nat) (g : Bool) (src : List UInt8) (h : Input g src) (cfg : ParseConfig) :
    match parseBytes g src cfg (nodesDelegate (some N)) [] with
    | .ok _ s => s.delegate.length ≤ N
    | .err _ s => s.delegate.length ≤ N
    | .panic _ => False := by
  have hg := parse_generic (g := g) (cfg := cfg) (nodes_cb N) h.lim h.fit (d := []) (Nat.zero_le _)
  cases hp : parseBytes g src cfg (nodesDelegate (some N)) [] with
  | ok a s => rw [hp] at hg; exact hg
  | err e s =>
    rw [hp] at hg
    have hg := hg.2.2
    obtain ⟨off, k⟩ := e
    cases k with
    | errorFromDelegate x => exact hg.2
    | _ => exact hg
  | panic p =>
    rcases doc_cases (cap := some N) (cfg := cfg) h with ⟨v', hv', ⟨hc, h1⟩ | ⟨hc, off, h1⟩⟩ | ⟨e, he, h1 | ⟨_, off, h1⟩⟩ <;>
      (unfold docFromJsonWithConfig at h1; rw [hp] at h1; cases h1)

end

/-! ## Concrete cases -/

section Examples
attribute [local instance] arch64

/-- a text used below -/
def docEx : List UInt8 := b8 "{\"a\": [1, {}], \"b\": null}"

example : Input false docEx := input_bytes (by unfold SliceFits; decide +kernel)
example : (docFromJsonBytes none docEx).isOk = true := by decide +kernel

-- capacities 7 (all nodes) and 6
example : (docFromJsonBytes (some 7) docEx).isOk = true
    ∧ (docFromJsonBytes (some 6) docEx).error?.map (·.kind) = some .paylodTooLarge := by decide +kernel

theorem docEx_parsed : (docFromJsonWithConfig none false docEx .new).map
    (fun d => (decide (skipNextValue (d.drop 2) = .ok (d.drop 5)), d.length)) = .ok (true, 7) := by decide +kernel

-- a parsed document, its listing, and what the iterator does at the inner array (position 2)
example : ∃ doc v u, docFromJsonWithConfig none false docEx .new = .ok doc ∧ Value.parseWithConfig false docEx .new = .ok v
    ∧ At v 2 u ∧ nextValue (doc.drop 2) = .ok (some (u, doc.drop 5)) ∧ skipNextValue (doc.drop 2) = .ok (doc.drop 5) := by
  have hsk := docEx_parsed
  have hi : Input false docEx := input_bytes (by unfold SliceFits; decide +kernel)
  generalize hcfg : ParseConfig.new = cfg at hsk ⊢
  generalize docEx = src at hsk hi ⊢
  cases hd : docFromJsonWithConfig none false src cfg with
  | err e => rw [hd] at hsk; cases hsk
  | panic p => rw [hd] at hsk; cases hsk
  | ok doc =>
  rw [hd] at hsk
  have hsk : Outcome.ok (decide (skipNextValue (doc.drop 2) = .ok (doc.drop 5)), doc.length) = (.ok (true, 7) : Outcome (Error Empty) _) := hsk
  injection hsk with hsk
  injection hsk with h1 h2
  obtain ⟨v, hv, _, _⟩ := doc_ok hi hd
  obtain ⟨u, hu⟩ := (C10_every_position none false src hi cfg doc v hd hv 2).1 (by omega)
  have h3 := C10_next_and_skip none false src hi cfg doc v hd hv 2 u hu
  have h4 := of_decide_eq_true h1
  refine ⟨doc, v, u, rfl, hv, hu, ?_, h4⟩
  rw [h3.2] at h4
  rw [h3.1]
  injection h4 with h4
  rw [h4]

-- C10: the object's node, the first key, its value whole, the second key skipped, `null`, the end
example : runDocCalls [.next, .next, .nextValue, .skipNextValue, .next, .next]
      [.object 2, .string ⟨.json (.borrowed ['a']), .new false 1⟩, .array 2, .boolean true, .object 0,
        .string ⟨.json (.borrowed ['b']), .new false 1⟩, .null]
    = .ok [.node (some (.object 2)), .node (some (.string ⟨.json (.borrowed ['a']), .new false 1⟩)),
        .value (some (.array [.boolean true, .object []])), .unit, .node (some .null), .node none] := by rfl

end Examples

/-! ## Instances: each theorem above applied to a concrete case that meets its hypotheses -/
section Instances
attribute [local instance] arch64

/-- the nodes of `exSrc` -/
theorem exSrc_nodes (g : Bool) : docFromJsonWithConfig none g exSrc .new = .ok (flatten exVal) :=
  (C09_nodes_are_preorder g exSrc (exSrc_input _) .new _).mpr ⟨exVal, exSrc_parses _, rfl⟩

example := C08_document_to_value none true exSrc (exSrc_input _) .new _ (exSrc_nodes _)
example := C09_nodes_are_preorder true exSrc (exSrc_input _) .new (flatten exVal)
example := C09_listing_injective exVal exVal rfl
example := C10_next_and_skip none true exSrc (exSrc_input _) .new _ exVal (exSrc_nodes _) (exSrc_parses _) 2 _
  ((C10_every_position none true exSrc (exSrc_input _) .new _ exVal (exSrc_nodes _) (exSrc_parses _) 2).1 (by decide +kernel)).choose_spec
example := C10_every_position none true exSrc (exSrc_input _) .new _ exVal (exSrc_nodes _) (exSrc_parses _) 2
example := C10_any_series_of_calls none true exSrc (exSrc_input _) .new _ exVal (exSrc_nodes _) (exSrc_parses _)
  [.next, .next, .nextValue, .skipNextValue, .next]
example := C11_bounded_ok_iff 12 true exSrc (exSrc_input _) .new (flatten exVal)
example := C11_too_large 3 true exSrc (exSrc_input _) .new .object (by decide +kernel)
example := C11_rejected 3 true exBad (exBad_input _) .new ⟨13, .unexpected 0x7D⟩ (Outcome.error_eq (by decide +kernel))
-- C11_capacity_respected: the same inputs, and a run that succeeds
example : (parseBytes true exSrc .new (nodesDelegate (some 12)) []).tag = 0 ∧ (parseBytes true exBad .new (nodesDelegate (some 12)) []).tag = 1
    ∧ (parseBytes true exSrc .new (nodesDelegate (some 3)) []).tag = 1 := by decide +kernel

end Instances
end JustJson
