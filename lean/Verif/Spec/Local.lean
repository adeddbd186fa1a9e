import Verif.Model.Parser
/-! # Specification: a part of a text, parsed by itself and in its place -/

namespace JustJson

/-- The configuration for a part that is `n` containers down: the same answer to trailing commas, a recursion limit `n` less, and
any kind of value. -/
def ParseConfig.below (cfg : ParseConfig) (n : Nat) : ParseConfig := ⟨cfg.allowTrailingCommas, cfg.recursionLimit.map (· - n), true⟩

/-- The errors about the first token of a text: that it is a closing bracket or brace, a colon or a comma, or that it opens one
container too many. What they become in another place depends on the place (`]` ends the array it is put into). -/
def misplaced : List (ErrorKind Empty) := [.unexpected 0x7D, .unexpected 0x5D, .unexpected 0x3A, .unexpected 0x2C, .recursionLimitReached]

end JustJson
