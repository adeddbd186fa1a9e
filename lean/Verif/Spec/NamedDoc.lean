import Verif.Spec.Named
/-! # Specification: the text of `Debug` for documents and their iterators -/

namespace JustJson.Spec
section
variable [Arch] (plain : Char → Bool) (a : Bool)

/-- nodes in brackets -/
def nodesText (l : Nat) (ns : List Node) : Str := bracketed a l (ns.map (nodeText plain a (l + 1)))

/-- a document: its nodes, and the text of core's `PhantomData` -/
def documentText (phantom : Str) (l : Nat) (d : List Node) : Str :=
  record a l "GenericDocument" [("nodes", fun l => record a l "Nodes"
    [("collection", fun l => nodesText plain a l d), ("_phantom", fun _ => phantom)])]

/-- an iterator: the nodes it has left -/
def documentIterText (l : Nat) (left : List Node) : Str :=
  record a l "DocumentIter" [("nodes", fun l => record a l "Cloned"
    [("it", fun l => applied a l "Iter" fun l => nodesText plain a l left)])]
end
end JustJson.Spec
