/-
IEEE-754 `float` and `double`, as rationals with rounding to nearest, ties to even.

Simplification: the exponent range is unbounded (no overflow to infinity, no subnormals) and there is
no negative zero; operations whose exact result does not exist (division by zero) are reported as
`Err.nonFinite` by the callers.
-/
import Verif.Model.Base

namespace LibSub

/-- `2^e` for an integer exponent. -/
def pow2 (e : Int) : Rat :=
  if 0 ≤ e then ((2 ^ e.toNat : Nat) : Rat) else 1 / ((2 ^ (-e).toNat : Nat) : Rat)

/-- C `rint` in the default rounding mode: nearest integer, ties to even. -/
def rint (x : Rat) : Int :=
  let f := x.floor
  let d := x - f
  if d < 1/2 then f
  else if 1/2 < d then f + 1
  else if f % 2 = 0 then f else f + 1

/-- Absolute value (kept local so that the model needs nothing but core Lean). -/
def absR (x : Rat) : Rat := if x < 0 then -x else x

/-- `⌊log₂ |x|⌋` for `x ≠ 0`. -/
def ilog2 (x : Rat) : Int :=
  let e : Int := (x.num.natAbs.log2 : Int) - (x.den.log2 : Int)
  if pow2 e ≤ absR x then e else e - 1

/-- Round to the nearest number with a `p`-bit significand, ties to even. -/
def rnd (p : Nat) (x : Rat) : Rat :=
  if x = 0 then 0
  else
    let u := pow2 (ilog2 x - ((p : Int) - 1))
    (rint (x / u) : Rat) * u

/-- Rounding to `float` (binary32). -/
def f32 (x : Rat) : Rat := rnd 24 x

/-- Rounding to `double` (binary64). -/
def f64 (x : Rat) : Rat := rnd 53 x

/-- Truncation toward zero, as in the conversion from a floating type to an integer type. -/
def truncR (x : Rat) : Int := if 0 ≤ x then x.floor else -((-x).floor)

/-- C++ conversion of a floating value to `int`: undefined if the truncated value does not fit. -/
def toInt (x : Rat) : R Int :=
  if InInt (truncR x) then .ok (truncR x) else .error (.ub .floatToInt)

/-- Exact floating division `a / b` (rounding is applied by the caller); division by zero leaves the
finite numbers. -/
def fdiv (a b : Rat) : R Rat := if b = 0 then .error .nonFinite else .ok (a / b)

end LibSub
