import Verif.Spec.Accept
/-! # Specification: putting texts together -/

namespace JustJson

/-- The texts with a comma between each two. -/
def joinTexts : List (List UInt8) → List UInt8
  | [] => []
  | [t] => t
  | t :: ts => t ++ 0x2C :: joinTexts ts

/-- `[` texts `]` -/
def arrayText (ts : List (List UInt8)) : List UInt8 := 0x5B :: (joinTexts ts ++ [0x5D])

/-- key text, colon, value text -/
def memberText (k t : List UInt8) : List UInt8 := k ++ 0x3A :: t

/-- `{` member texts `}` -/
def objectText (ms : List (List UInt8 × List UInt8)) : List UInt8 :=
  0x7B :: (joinTexts (ms.map fun m => memberText m.1 m.2) ++ [0x7D])

/-- The configuration for a part: same comma rule, any depth, any kind at the root. -/
def ParseConfig.forPart (cfg : ParseConfig) : ParseConfig := ⟨cfg.allowTrailingCommas, none, true⟩

end JustJson
