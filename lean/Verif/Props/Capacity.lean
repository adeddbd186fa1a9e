import Verif.Props.Doc
import Verif.Lemmas.DocSize
/-! # C52: how large a document collection must be -/

namespace JustJson
open Spec

set_option linter.unusedSectionVars false

section
variable [Arch]

theorem docs_agree {cap : Option Nat} {g : Bool} {src : List UInt8} {cfg : ParseConfig} (h : Input g src) :
    docFromJsonWithConfig cap g src cfg = docFromJsonWithConfig cap false src cfg := by
  cases g with
  | false => rfl
  | true =>
    unfold docFromJsonWithConfig
    rw [parseBytes_agree h.lim (h.fit rfl) (D := nodesDelegate cap) (cfg := cfg) []]

/-- **C52.** A parsed document has at most one node per two bytes of its source (rounded up). -/
theorem C52_nodes_le_half (cap : Option Nat) (g : Bool) (src : List UInt8) (h : Input g src) (cfg : ParseConfig)
    (doc : Document) (hd : docFromJsonWithConfig cap g src cfg = .ok doc) : 2 * doc.length ≤ src.length + 1 := by
  obtain ⟨v, hv, rfl, _⟩ := doc_ok h hd
  obtain ⟨j, ⟨⟨w, b, w', hw, hb, hw', hs⟩, -, -⟩, rfl⟩ := (value_ok_iff h).mp hv
  have := flatten_size hb
  rw [hs]
  simp only [List.length_append]
  omega

/-- **C52**: so `HeaplessDocument<N>` parses every text that `Document` parses and that has fewer than `2 * N` bytes,
with the same nodes. -/
theorem C52_half_suffices (N : Nat) (g : Bool) (src : List UInt8) (h : Input g src) (cfg : ParseConfig)
    (hN : src.length < 2 * N) (doc : Document) (hd : docFromJsonWithConfig none g src cfg = .ok doc) :
    docFromJsonWithConfig (some N) g src cfg = .ok doc := by
  have := C52_nodes_le_half none g src h cfg doc hd
  exact (C11_bounded_ok_iff N g src h cfg doc).mpr ⟨hd, by omega⟩

/-- **C52**: with room for one node per byte of the source, whether the text is accepted or not, `HeaplessDocument<N>`
behaves exactly as `Document`: the same nodes, or the same error at the same offset. -/
theorem C52_whole_is_unbounded (N : Nat) (g : Bool) (src : List UInt8) (h : Input g src) (cfg : ParseConfig)
    (hN : src.length ≤ N) : docFromJsonWithConfig (some N) g src cfg = docFromJsonWithConfig none g src cfg := by
  rw [docs_agree h, docs_agree (cap := none) h]
  unfold docFromJsonWithConfig
  rw [parse_small (cfg := cfg) h.lim hN]
  cases parseBytes false src cfg (nodesDelegate none) ([] : List Node) <;> rfl

end

/-! ## Concrete cases -/
section
attribute [local instance] arch64

/-- The bound is met: `[1,2]` has five bytes and three nodes. -/
example : 2 * 3 = (b8 "[1,2]").length + 1 := by decide +kernel
example : ∃ d, docFromJsonWithConfig none false (b8 "[1,2]") .new = .ok d ∧ d.length = 3 := by
  refine ⟨flatten (.array [.number ⟨.borrowed ['1']⟩, .number ⟨.borrowed ['2']⟩]), ?_, by decide +kernel⟩
  exact (C09_nodes_are_preorder false (b8 "[1,2]") (input_bytes (by unfold SliceFits; decide +kernel)) .new _).mpr
    ⟨_, value_same (by decide +kernel), rfl⟩

/-- For a text that is rejected half is not enough: with two nodes `[[[` overflows the collection, with three it is
reported as unclosed. -/
example : ((docFromJsonWithConfig (some 2) false (b8 "[[[") .new).error?.map (·.kind)) = some .paylodTooLarge := by
  decide +kernel
example : docFromJsonWithConfig (some 3) false (b8 "[[[") .new = docFromJsonWithConfig none false (b8 "[[[") .new :=
  C52_whole_is_unbounded 3 false (b8 "[[[") (input_bytes (by unfold SliceFits; decide +kernel)) .new (by decide +kernel)

end

/-! ## Instances: each theorem above applied to a concrete case that meets its hypotheses -/
section Instances
attribute [local instance] arch64

example := C52_nodes_le_half none true exSrc (exSrc_input _) .new _ (exSrc_nodes _)
example := C52_half_suffices 40 true exSrc (exSrc_input _) .new (by decide +kernel) _ (exSrc_nodes _)
example := C52_whole_is_unbounded 60 true exBad (exBad_input _) .new (by decide +kernel)

end Instances
end JustJson
