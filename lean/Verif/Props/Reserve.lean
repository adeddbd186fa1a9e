import Verif.Props.Doc
import Verif.Props.Capacity
import Verif.Lemmas.Reserve
/-! # Memory reserved when values are read back from documents: C81 -/

namespace JustJson
open Spec

set_option linter.unusedSectionVars false

section
variable [Arch]

/-- **C81.** `Value::from(doc)` on a parsed document asks, for each array and object of the value it returns, for exactly as
much room as that container then has elements: no container grows while it is filled, and nothing is asked for in vain.
In all, less room than the document has nodes, and less than half as much as the text has bytes. -/
theorem C81_from_document (cap : Option Nat) (g : Bool) (src : List UInt8) (h : Input g src) (cfg : ParseConfig)
    (doc : Document) (hd : docFromJsonWithConfig cap g src cfg = .ok doc) :
    ∃ v, (Value.fromDocumentR doc).res = .ok v ∧ Value.parseWithConfig g src cfg = .ok v
      ∧ (Value.fromDocumentR doc).asked = sizes v
      ∧ (sizes v).sum < doc.length ∧ 2 * (sizes v).sum < src.length := by
  have hn := C52_nodes_le_half cap g src h cfg doc hd
  obtain ⟨v, hv, rfl, _⟩ := doc_ok h hd
  have hs := sizes_sum.1 v
  rw [fromDocumentR_flatten]
  exact ⟨v, rfl, hv, rfl, by omega, by omega⟩

/-- **C81**: so does `next_value`, wherever the iterator stands: on the part `u` of the value, it asks for the sizes of the
containers of `u` and returns `u`. -/
theorem C81_next_value (cap : Option Nat) (g : Bool) (src : List UInt8) (h : Input g src) (cfg : ParseConfig)
    (doc : Document) (v : Value) (hd : docFromJsonWithConfig cap g src cfg = .ok doc)
    (hv : Value.parseWithConfig g src cfg = .ok v) (i : Nat) (u : Value) (hu : At v i u) :
    nextValueR (doc.drop i) = ⟨sizes u, .ok (some (u, doc.drop (i + (flatten u).length)))⟩
    ∧ (sizes u).sum < doc.length - i := by
  obtain ⟨v', hv', rfl, _⟩ := doc_ok h hd
  rw [hv] at hv'; cases hv'
  obtain ⟨hi, rest, hr⟩ := at_drop hu
  have : (flatten v).drop (i + (flatten u).length) = rest := by
    rw [← List.drop_drop, hr, List.drop_left]
  rw [this, hr]
  have := at_flatten_le hu
  have := sizes_sum.1 u
  exact ⟨nextValueR_flatten u rest, by omega⟩

/-- **C81**: any series of calls of `next`, `next_value` and `skip_next_value` on an iterator over a parsed document asks, in
all, for no more room than the document has nodes, which is at most half the bytes of the text (rounded up). -/
theorem C81_any_series_of_calls (cap : Option Nat) (g : Bool) (src : List UInt8) (h : Input g src) (cfg : ParseConfig)
    (doc : Document) (hd : docFromJsonWithConfig cap g src cfg = .ok doc) (cs : List DocCall) :
    (runDocCallsR cs doc).asked.sum ≤ doc.length ∧ 2 * (runDocCallsR cs doc).asked.sum ≤ src.length + 1 := by
  have hn := C52_nodes_le_half cap g src h cfg doc hd
  obtain ⟨v, hv, rfl, _⟩ := doc_ok h hd
  have := runDocCallsR_sum v cs 0
  rw [List.drop_zero] at this
  omega

/-- **C81**: saying what is asked for changes nothing else: on any nodes whatever, the calls return, or panic, as before. -/
theorem C81_same_calls (nodes : List Node) (cs : List DocCall) :
    (Value.fromDocumentR nodes).res = Value.fromDocument nodes
    ∧ (nextValueR nodes).res = nextValue nodes
    ∧ (runDocCallsR cs nodes).res = runDocCalls cs nodes :=
  ⟨fromDocumentR_res nodes, nextValueR_res nodes, runDocCallsR_res cs nodes⟩

end

section Examples
attribute [local instance] arch64

-- `{"a": [1, {}], "b": null}`: an object of two entries, an array of two elements, an empty object
example : (docFromJsonWithConfig none false docEx .new).map (fun doc => ((Value.fromDocumentR doc).asked, doc.length, docEx.length))
    = .ok ([2, 2, 0], 7, 25) := by decide +kernel
-- the object's node and the first key with `next`, then the array whole
example : (docFromJsonWithConfig none false docEx .new).map
    (fun doc => (runDocCallsR [.next, .next, .nextValue, .skipNextValue, .nextValue] doc).asked) = .ok [2, 0] := by decide +kernel
-- nodes that no parse makes: the room is asked for before the nodes are looked at
example : (Value.fromDocumentR [.array 1000000]).asked = [1000000] := by rfl

end Examples

/-! ## Instances: each theorem above applied to a concrete case that meets its hypotheses -/
section Instances
attribute [local instance] arch64

theorem reserveEx_nodes : docFromJsonWithConfig none false docEx .new
    = .ok [.object 2, .string ⟨.json (.borrowed ['a']), .new false 1⟩, .array 2, .number ⟨.borrowed ['1']⟩, .object 0,
      .string ⟨.json (.borrowed ['b']), .new false 1⟩, .null] := Outcome.value_eq (by decide +kernel)
example := C81_from_document none false docEx (by lit) .new _ reserveEx_nodes
example := C81_any_series_of_calls none false docEx (by lit) .new _ reserveEx_nodes [.next, .next, .nextValue, .skipNextValue, .nextValue]
example := C81_same_calls [.array 3, .null] [.nextValue, .next]

end Instances
end JustJson
