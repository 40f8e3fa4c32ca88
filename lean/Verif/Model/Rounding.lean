import Mathlib.Data.Int.Log
import Mathlib.Algebra.Order.Floor.Ring
import Mathlib.Algebra.Group.Int.Even

/-! IEEE 754 binary arithmetic, as numpy and Python carry it out in every float expression of
`/repo/resippy` (binary64 has `p = 53`, binary32 `p = 24`).

Each operation `+ - * /` gives the exact result rounded to `p` significant bits, to nearest, ties to even.
Simplified: the exponent is unbounded (no overflow to infinity, no subnormal numbers), there is no NaN and no
negative zero. -/

namespace Verif.Rounding

section
variable {K : Type} [Field K] [LinearOrder K] [IsStrictOrderedRing K] [FloorRing K]

/-- Round to the nearest integer, ties to even (IEEE 754 `roundTiesToEven`). Used for `fl`, which models every
float operation of e.g. image_utils.py:71-78. -/
def roundEven (q : K) : ℤ :=
  if 2 * (q - ⌊q⌋) < 1 then ⌊q⌋
  else if 1 < 2 * (q - ⌊q⌋) then ⌊q⌋ + 1
  else if Even ⌊q⌋ then ⌊q⌋ else ⌊q⌋ + 1

/-- Round a non-negative number to `p` bits: scale so that the leading bit has weight `2^(p-1)`, round to an
integer, scale back. Used for `fl`, which models every float operation of e.g. image_utils.py:71-78. -/
def flPos (p : ℕ) (x : K) : K :=
  (roundEven (x * 2 ^ ((p : ℤ) - 1 - Int.log 2 x)) : K) * 2 ^ (Int.log 2 x - ((p : ℤ) - 1))

/-- Round to `p` significant bits, to nearest, ties to even: the result of one float operation whose exact
result is `x`, e.g. `1.0 / scale_factor` at image_utils.py:75. -/
def fl (p : ℕ) (x : K) : K := if x < 0 then -flPos p (-x) else flPos p x

/-- The numbers a float with `p` significant bits can hold: binary64 inputs (`p = 53`) of e.g.
image_utils.py:125-133. -/
def IsFloat (p : ℕ) (x : K) : Prop := ∃ k e : ℤ, |k| ≤ 2 ^ p ∧ x = (k : K) * 2 ^ e

/-- The unit roundoff `2^-p`: one operation is off by at most this fraction of its result (image_utils.py:71-78
and every other float expression). -/
def unit (p : ℕ) : K := 1 / 2 ^ p

end

end Verif.Rounding
