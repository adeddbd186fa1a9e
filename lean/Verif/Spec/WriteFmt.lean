import Verif.Model.WriteFmt
import Verif.Spec.Calls
/-! # Specification: what a `fmt::Write` with a `write_fmt` of its own sees -/

namespace JustJson
section
variable [Arch]

/-- A call on a `fmt::Write`. -/
inductive FCall where
  | str (s : Str)
  | fmt (a : FmtArgs)
deriving DecidableEq

/-- Make calls one after the other until one fails; whether all succeeded. -/
def makeFmtCalls (G : FmtWriter) (w : G.W) : List FCall → Res (G.W × Bool)
  | [] => .ok (w, true)
  | .str s :: cs =>
    match G.writeStr w s with
    | (w', true) => makeFmtCalls G w' cs
    | (w', false) => .ok (w', false)
  | .fmt a :: cs =>
    match G.writeFmt w a with
    | .ok (w', true) => makeFmtCalls G w' cs
    | .ok (w', false) => .ok (w', false)
    | .panic p => .panic p

/-- What a call amounts to on a writer that has no `write_fmt` of its own: formatting `"\"{}\""` is a `write_str` of each
quote and a `write_char` of each character of what the string is rendered as, `body s`. -/
def FCall.plain (body : JsonString → Str) : FCall → List WCall
  | .str s => [.str s]
  | .fmt a => [.str a.before] ++ (body a.arg).map .char ++ [.str a.after]

/-- A writer that records the calls it is given with their outcome: `fails i` says whether the `i`-th call is to fail. -/
@[reducible] def fmtLogger (fails : Nat → Bool) : FmtWriter where
  W := List (FCall × Bool)
  writeStr w s := (w ++ [(.str s, !fails w.length)], !fails w.length)
  writeChar w c := (w ++ [(.str [c], !fails w.length)], !fails w.length)
  writeFmt w a := .ok (w ++ [(.fmt a, !fails w.length)], !fails w.length)

end
end JustJson
