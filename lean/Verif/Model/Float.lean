import Verif.Model.Basic
/-! Model of the floating point numbers of Rust (external, IEEE 754), for the operations which are used by `src/views/progress.rs` and `src/views/text_view.rs`. -/
namespace Verif

/-- A `f32` or a `f64` (external). The two zeros are not distinguished: neither `as usize`, `as i32`, the comparison with 0, nor the product, `fract`, `round`, `floor` and
`ceil` of finite numbers do it. -/
inductive Flt where
  | nan
  | inf
  | negInf
  | fin (x : Rat)
deriving DecidableEq

/-- The product of two floats (external, IEEE 754), `rnd` being the rounding of the exact result, which may overflow. -/
def Flt.mul (rnd : Rat → Flt) : Flt → Flt → Flt
  | .nan, _ | _, .nan => .nan
  | .fin a, .fin b => rnd (a * b)
  | .inf, .inf | .negInf, .negInf => .inf
  | .inf, .negInf | .negInf, .inf => .negInf
  | .inf, .fin a | .fin a, .inf => if a = 0 then .nan else if 0 < a then .inf else .negInf
  | .negInf, .fin a | .fin a, .negInf => if a = 0 then .nan else if 0 < a then .negInf else .inf

/-- The nearest integer, and the even one of two when they're at the same distance. IEEE 754, external. -/
def roundEven (q : Rat) : Int :=
  let k := (q + 1 / 2).floor
  if (k : Rat) = q + 1 / 2 ∧ k % 2 = 1 then k - 1 else k

/-- The exponent of a positive number: the integer part of its binary logarithm. IEEE 754, external. -/
def binaryExponent (x : Rat) : Int :=
  let k := (x.num.natAbs.log2 : Int) - x.den.log2
  if (2 : Rat) ^ k ≤ x then k else k - 1

/-- A binary format: the number of bits of the significand, the exponent of the least positive number, and the exponent of the first power of 2 which is too large.
IEEE 754, external. -/
structure FloatFormat where
  bits : Nat
  least : Int
  limit : Int

/-- The format of `f32` (external, IEEE 754 binary32). -/
def f32 : FloatFormat := ⟨24, -149, 128⟩

/-- The format of `f64` (external, IEEE 754 binary64). -/
def f64 : FloatFormat := ⟨53, -1074, 1024⟩

namespace FloatFormat

/-- The exponent of the unit in the last place. IEEE 754, external. -/
def unit (f : FloatFormat) (x : Rat) : Int := max (binaryExponent (if x < 0 then -x else x) + 1 - f.bits) f.least

/-- The rounding of an exact result, to the nearest and ties to even, without the overflow. IEEE 754, external. -/
def nearest (f : FloatFormat) (x : Rat) : Rat :=
  if x = 0 then 0 else (roundEven (x / (2 : Rat) ^ (f.unit x)) : Rat) * (2 : Rat) ^ (f.unit x)

/-- The rounding of an exact result. IEEE 754, external. -/
def round (f : FloatFormat) (x : Rat) : Flt :=
  if (2 : Rat) ^ f.limit ≤ f.nearest x then .inf
  else if f.nearest x ≤ -(2 : Rat) ^ f.limit then .negInf
  else .fin (f.nearest x)

end FloatFormat
end Verif
