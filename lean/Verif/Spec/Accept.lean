import Verif.Spec.Json
import Verif.Spec.Fold
/-! # Specification: which texts a configuration admits, and which `Value` a text stands for -/

namespace JustJson
open Spec

section
variable [Arch]

/-- Rust's bound on the length of a slice: at most `isize::MAX` bytes. -/
def SliceFits (src : List UInt8) : Prop := src.length ≤ 2 ^ (Arch.bits - 1) - 1

/-- What an entry point can be given. `g = false` are the `&[u8]` variants: any slice. `g = true` are the
`&str` variants: a slice that is the UTF-8 encoding of some text. -/
def Input (g : Bool) (src : List UInt8) : Prop := SliceFits src ∧ (g = true → ∃ s : Str, src = utf8 s)

mutual
/-- Nesting depth of arrays and objects in a `Value`. -/
def Value.depth : Value → Nat
  | .array vs => 1 + Value.depthList vs
  | .object es => 1 + Value.depthEntries es
  | _ => 0
/-- maximum over the elements -/
def Value.depthList : List Value → Nat
  | [] => 0
  | v :: vs => max v.depth (Value.depthList vs)
/-- maximum over the entries -/
def Value.depthEntries : List (JsonString × Value) → Nat
  | [] => 0
  | (_, v) :: es => max v.depth (Value.depthEntries es)
end

/-- the value is an array or an object -/
def Value.IsContainer : Value → Prop
  | .array _ => True
  | .object _ => True
  | _ => False

end

/-- Apply a function to a successful result. -/
def Outcome.map {ε α β : Type} (f : α → β) : Outcome ε α → Outcome ε β
  | .ok a => .ok (f a)
  | .err e => .err e
  | .panic p => .panic p

/-- The limit a configuration puts on nesting. -/
def DepthOk (cfg : ParseConfig) (j : Json) : Prop := ∀ n, cfg.recursionLimit = some n → j.depth ≤ n

/-- What a configuration demands of the root. -/
def RootOk (cfg : ParseConfig) (j : Json) : Prop := cfg.allowAllTypesAtRoot = true ∨ j.IsContainer

/-- `src` is a JSON text denoting `j`, admitted by `cfg`. -/
def Accepted (cfg : ParseConfig) (src : List UInt8) (j : Json) : Prop :=
  Text cfg.allowTrailingCommas src j ∧ DepthOk cfg j ∧ RootOk cfg j

/-- The kind of a tree. -/
def Spec.Json.kind : Json → JsonKind
  | .null => .null
  | .bool _ => .boolean
  | .num _ => .number
  | .str _ => .string
  | .arr _ => .array
  | .obj _ => .object

section
variable [Arch]

/-- A `JsonString` that borrows the source bytes of the string body `is`. -/
def StrDenotes (s : JsonString) (is : List Item) : Prop :=
  ∃ t, s.asJsonStr = some (.borrowed t) ∧ utf8 t = bodyBytes is

/-- A `JsonNumber` whose source is the literal `n`. -/
def NumDenotes (x : JsonNumber) (n : NumLit) : Prop := utf8 x.sourceStr = n.bytes

mutual
/-- `Denotes v j`: the `Value` is the tree `j`, with numbers and strings as the exact source bytes,
all elements and entries in order. -/
inductive Denotes : Value → Json → Prop where
  | null : Denotes .null .null
  | bool (b : Bool) : Denotes (.boolean b) (.bool b)
  | num (x : JsonNumber) (n : NumLit) : NumDenotes x n → Denotes (.number x) (.num n)
  | str (s : JsonString) (is : List Item) : StrDenotes s is → Denotes (.string s) (.str is)
  | arr (vs : List Value) (js : List Json) : DenotesElems vs js → Denotes (.array vs) (.arr js)
  | obj (es : Object) (ms : List (List Item × Json)) : DenotesMembers es ms → Denotes (.object es) (.obj ms)
/-- element by element -/
inductive DenotesElems : List Value → List Json → Prop where
  | nil : DenotesElems [] []
  | cons (v : Value) (j : Json) (vs : List Value) (js : List Json) :
      Denotes v j → DenotesElems vs js → DenotesElems (v :: vs) (j :: js)
/-- entry by entry -/
inductive DenotesMembers : Object → List (List Item × Json) → Prop where
  | nil : DenotesMembers [] []
  | cons (k : JsonString) (v : Value) (is : List Item) (j : Json) (es : Object) (ms : List (List Item × Json)) :
      StrDenotes k is → Denotes v j → DenotesMembers es ms → DenotesMembers ((k, v) :: es) ((is, j) :: ms)
end

end
end JustJson
