import Verif.Model.Parser
/-! # Specification: errors that are about the configuration -/

namespace JustJson

/-- An error of this kind under `cfg` is one that the difference between `cfg` and `cfg'` is about. -/
def ConfigError {δ : Type} (cfg cfg' : ParseConfig) : ErrorKind δ → Prop
  | .illegalTrailingComma => cfg.allowTrailingCommas = false ∧ cfg'.allowTrailingCommas = true
  | .recursionLimitReached => cfg.recursionLimit ≠ cfg'.recursionLimit
  | .payloadsShouldBeObjectOrArray => cfg.allowAllTypesAtRoot = false ∧ cfg'.allowAllTypesAtRoot = true
  | _ => False

end JustJson
