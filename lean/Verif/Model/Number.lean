import Verif.Model.Str
/-! # Model of the accessors of `src/number.rs`

`str::parse::<T>()` is core's; the integer and float grammars below follow
`core::num::from_str_radix` and `core::num::dec2flt`. -/

namespace JustJson

/-- `JsonNumber`, number.rs:8-12. -/
structure JsonNumber where
  source : AnyStr
deriving DecidableEq, Repr

/-- `JsonNumber::source`, number.rs:27-29. -/
def JsonNumber.sourceStr (n : JsonNumber) : Str := n.source.asStr

/-- `char::to_digit(10)`. Core, for number.rs:53. -/
def toDigit10 (c : Char) : Option Nat :=
  if 48 ≤ c.toNat ∧ c.toNat ≤ 57 then some (c.toNat - 48) else none

/-- Digit loop of `from_str_radix` for a non-negative number: `checked_mul(10)`, `to_digit`,
`checked_add`. Core, for number.rs:53. -/
def posDigits (max : Nat) : Str → Nat → Option Nat
  | [], acc => some acc
  | c :: cs, acc =>
    if acc * 10 ≤ max then
      match toDigit10 c with
      | none => none
      | some d => if acc * 10 + d ≤ max then posDigits max cs (acc * 10 + d) else none
    else none

/-- Digit loop of `from_str_radix` for a negative number: `checked_mul(10)`, `to_digit`,
`checked_sub`. Core, for number.rs:53. -/
def negDigits (min : Int) : Str → Int → Option Int
  | [], acc => some acc
  | c :: cs, acc =>
    if min ≤ acc * 10 then
      match toDigit10 c with
      | none => none
      | some d => if min ≤ acc * 10 - d then negDigits min cs (acc * 10 - d) else none
    else none

/-- `<unsigned>::from_str` for a type with `bits` bits (core): an optional `+`, digits. For number.rs:53, 58-85. -/
def parseUnsigned (bits : Nat) (s : Str) : Option Nat :=
  match s with
  | [] => none
  | c :: cs =>
    if (c = '+' ∨ c = '-') ∧ cs = [] then none
    else if c = '+' then posDigits (2 ^ bits - 1) cs 0
    else posDigits (2 ^ bits - 1) (c :: cs) 0

/-- `<signed>::from_str` for a type with `bits` bits (core): an optional `+` or `-`, digits. For number.rs:53, 58-85. -/
def parseSigned (bits : Nat) (s : Str) : Option Int :=
  match s with
  | [] => none
  | c :: cs =>
    if (c = '+' ∨ c = '-') ∧ cs = [] then none
    else if c = '+' then (posDigits (2 ^ (bits - 1) - 1) cs 0).map Int.ofNat
    else if c = '-' then negDigits (-(2 ^ (bits - 1) : Nat)) cs 0
    else (posDigits (2 ^ (bits - 1) - 1) (c :: cs) 0).map Int.ofNat

/-- `as_u8` (bits = 8) .. `as_u128` (128), `as_usize` (pointer width), number.rs:56-78:
`self.parse().ok()` with `parse` of number.rs:52-54. -/
def JsonNumber.asUnsigned (bits : Nat) (n : JsonNumber) : Option Nat := parseUnsigned bits n.sourceStr

/-- `as_i8` (bits = 8) .. `as_i128` (128), `as_isize` (pointer width), number.rs:56-84. -/
def JsonNumber.asSigned (bits : Nat) (n : JsonNumber) : Option Int := parseSigned bits n.sourceStr

/-- an ASCII digit character. Core, for number.rs:38, 48. -/
def isDigitChar (c : Char) : Bool := (toDigit10 c).isSome

/-- drop leading digits. Core, for number.rs:38, 48. -/
def skipDigits : Str → Str
  | c :: cs => if isDigitChar c then skipDigits cs else c :: cs
  | [] => []

/-- the digits at the beginning. Core's `parse_digits`, for number.rs:38, 48. -/
def digitRun : Str → List Nat
  | c :: cs =>
    match toDigit10 c with
    | some d => d :: digitRun cs
    | none => []
  | [] => []

/-- `mantissa = mantissa * 10 + digit`. Core's `parse_number` keeps 19 digits and falls back to a slow path that reads all of them if
the others matter; the model keeps all. For number.rs:38, 48. -/
def readMantissa (ds : List Nat) : Nat := ds.foldl (fun a d => a * 10 + d) 0

/-- `if exponent < 0x10000 { exponent = 10 * exponent + digit }`: an exponent of many digits is cut off. Core's `parse_scientific`, for
number.rs:38, 48. -/
def readExponent (ds : List Nat) : Nat := ds.foldl (fun a d => if a < 0x10000 then 10 * a + d else a) 0

/-- `parse_scientific` of dec2flt after the `e`/`E`: optional sign, at least one digit, end. For number.rs:38, 48. -/
def floatExp (s : Str) : Option Int :=
  let signed : Bool × Str := match s with
    | c :: cs => if c = '+' ∨ c = '-' then (c == '-', cs) else (false, c :: cs)
    | [] => (false, [])
  let ds := digitRun signed.2
  if ds.isEmpty then none
  else if (skipDigits signed.2).isEmpty then some (if signed.1 then -(readExponent ds : Int) else readExponent ds)
  else none

/-- Exponent part or end of input. For number.rs:38, 48. -/
def floatTail (s : Str) : Option Int :=
  match s with
  | [] => some 0
  | c :: cs => if c = 'e' ∨ c = 'E' then floatExp cs else none

/-- `parse_number` of dec2flt on the text after the sign: digits, optional fraction, at least one digit in total, optional exponent.
The mantissa and the power of ten. For number.rs:38, 48. -/
def floatBody (s : Str) : Option (Nat × Int) :=
  let int := digitRun s
  match skipDigits s with
  | c :: cs =>
    if c = '.' then
      let frac := digitRun cs
      if int.length + frac.length = 0 then none
      else (floatTail (skipDigits cs)).map fun e => (readMantissa (int ++ frac), e - frac.length)
    else if int.length = 0 then none
    else (floatTail (c :: cs)).map fun e => (readMantissa int, e)
  | [] => if int.length = 0 then none else some (readMantissa int, 0)

/-- What `<f32/f64>::from_str` reads: sign, mantissa and power of ten (core::num::dec2flt). The special words `inf`, `infinity`, `nan`
are left out: no JSON number is one. For number.rs:38, 48. -/
def floatSyntax (s : Str) : Option (Bool × Nat × Int) :=
  match s with
  | [] => none
  | c :: cs => if c = '+' ∨ c = '-' then (floatBody cs).map fun r => (c == '-', r) else (floatBody (c :: cs)).map fun r => (false, r)

/-- A binary floating point format: bits of precision (with the hidden one) and bits of the exponent field. For number.rs:37, 47. -/
structure FloatFormat where
  precision : Nat
  exponentBits : Nat
deriving DecidableEq, Repr

/-- `f32`, number.rs:37. -/
def f32 : FloatFormat := ⟨24, 8⟩
/-- `f64`, number.rs:47. -/
def f64 : FloatFormat := ⟨53, 11⟩

/-- A float as `to_bits` shows it: the sign, and the other bits as a number. For number.rs:37, 47. -/
structure FloatBits where
  negative : Bool
  bits : Nat
deriving DecidableEq, Repr

/-- The bits of infinity: all ones in the exponent field. For number.rs:37, 47. -/
def FloatFormat.infinity (f : FloatFormat) : Nat := (2 ^ f.exponentBits - 1) * 2 ^ (f.precision - 1)

/-- The least positive value is this power of two: -149 for `f32`, -1074 for `f64`. For number.rs:37, 47. -/
def FloatFormat.least (f : FloatFormat) : Int := 3 - 2 ^ (f.exponentBits - 1) - f.precision

/-- The value of some bits in units of the least positive value. For number.rs:37, 47. -/
def FloatFormat.units (f : FloatFormat) (k : Nat) : Nat :=
  if k < 2 ^ (f.precision - 1) then k
  else (2 ^ (f.precision - 1) + k % 2 ^ (f.precision - 1)) * 2 ^ (k / 2 ^ (f.precision - 1) - 1)

/-- The largest bits whose value in units is at most `n`. For number.rs:38, 48. -/
def FloatFormat.below (f : FloatFormat) (n : Nat) : Nat :=
  let e := if n < 2 ^ f.precision then 0 else n.log2 + 1 - f.precision
  e * 2 ^ (f.precision - 1) + n / 2 ^ e

/-- Rounding of `x ≥ 0`: to the nearest, ties to even, beyond the largest to infinity. Core documents that `from_str` gives the float
closest to the decimal; its algorithms (fast path, Eisel-Lemire, slow path) are not modelled but assumed to do this.
For number.rs:38, 48. -/
def FloatFormat.round (f : FloatFormat) (x : Rat) : Nat :=
  let y := x * 2 ^ (-f.least)
  let low := f.below y.floor.toNat
  if f.infinity ≤ low then f.infinity
  else
    let sum : Rat := f.units low + f.units (low + 1)
    if 2 * y < sum then low
    else if sum < 2 * y then low + 1
    else if low % 2 = 0 then low else low + 1

/-- `as_f32` and `as_f64`, number.rs:36-49: `self.parse().ok()` with `parse` of number.rs:52-54. -/
def JsonNumber.asFloat (f : FloatFormat) (n : JsonNumber) : Option FloatBits :=
  (floatSyntax n.sourceStr).map fun r => ⟨r.1, f.round ((r.2.1 : Rat) * 10 ^ r.2.2)⟩

end JustJson
