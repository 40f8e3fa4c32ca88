import Verif.Model.Rounding
import Verif.Model.FloatSpectral

/-! IEEE 754 arithmetic with its exponent range: infinities, NaN, signed zeros, subnormal numbers.  `Model/Rounding.lean` and the float models built on it have
unbounded exponents; here the functions of `/repo/resippy/spectral/spectral_image_processing_1d.py` that compute means and spectral angles are written once more, with
the arithmetic the hardware has.  Not modelled: the payload and the sign of NaN, floating-point warnings. -/

namespace Verif.Ieee
open Verif FloatSpectral

/-- A binary format: significant bits, smallest and largest exponent of a normal number.  `img.dtype` in every float expression, e.g.
spectral_image_processing_1d.py:171-180. -/
structure Format where
  p : ℕ
  emin : ℤ
  emax : ℤ

/-- `np.float64` (spectral_image_processing_1d.py:171-180). -/
def binary64 : Format := ⟨53, -1022, 1023⟩

/-- `np.float32` (spectral_image_processing_1d.py:171-180). -/
def binary32 : Format := ⟨24, -126, 127⟩

/-- A floating-point datum; `true` is the negative sign; `fin x` is a non-zero number.  The entries of the arrays of spectral_image_processing_1d.py:8-181. -/
inductive Num (K : Type) where
  | nan
  | inf (neg : Bool)
  | zero (neg : Bool)
  | fin (x : K)

section
variable {K : Type} [Field K] [LinearOrder K] [IsStrictOrderedRing K]

/-- The number with the given value (`-0.0` is `.zero true`).  Used for the sample count in `np.mean`, spectral_image_processing_1d.py:12. -/
def Num.of (x : K) : Num K := if x = 0 then .zero false else .fin x

/-- The sign. Used for `exactMul`, spectral_image_processing_1d.py:171-180. -/
def Num.sign : Num K → Bool
  | .nan => false
  | .inf s => s
  | .zero s => s
  | .fin x => decide (x < 0)

/-- A sum before rounding (`np.sum`, `np.dot`, spectral_image_processing_1d.py:12, 171-179): infinities of opposite sign are invalid; a sum of opposite numbers is `+0`,
of two negative zeros `-0`. -/
def exactAdd : Num K → Num K → Num K
  | .nan, _ => .nan
  | _, .nan => .nan
  | .inf s, .inf t => if s = t then .inf s else .nan
  | .inf s, _ => .inf s
  | _, .inf t => .inf t
  | .zero s, .zero t => .zero (s && t)
  | .zero _, .fin y => .fin y
  | .fin x, .zero _ => .fin x
  | .fin x, .fin y => Num.of (x + y)

/-- The opposite. Used for `exactSub`, spectral_image_processing_1d.py:26. -/
def Num.neg : Num K → Num K
  | .nan => .nan
  | .inf s => .inf !s
  | .zero s => .zero !s
  | .fin x => .fin (-x)

/-- A product before rounding (`np.multiply`, `np.dot`, spectral_image_processing_1d.py:171-180): zero times infinity is invalid. -/
def exactMul : Num K → Num K → Num K
  | .nan, _ => .nan
  | _, .nan => .nan
  | .inf _, .zero _ => .nan
  | .zero _, .inf _ => .nan
  | .inf s, b => .inf (s ^^ b.sign)
  | a, .inf t => .inf (a.sign ^^ t)
  | .zero s, b => .zero (s ^^ b.sign)
  | a, .zero t => .zero (a.sign ^^ t)
  | .fin x, .fin y => .fin (x * y)

/-- A quotient before rounding (spectral_image_processing_1d.py:12, 180): `0/0` and `inf/inf` are invalid, anything else by zero is infinite. -/
def exactDiv : Num K → Num K → Num K
  | .nan, _ => .nan
  | _, .nan => .nan
  | .inf _, .inf _ => .nan
  | .zero _, .zero _ => .nan
  | .inf s, b => .inf (s ^^ b.sign)
  | a, .inf t => .zero (a.sign ^^ t)
  | .zero s, b => .zero (s ^^ b.sign)
  | a, .zero t => .inf (a.sign ^^ t)
  | .fin x, .fin y => .fin (x / y)

variable [FloorRing K]

/-- The spacing of the subnormal numbers (spectral_image_processing_1d.py:171-180). -/
def Format.quantum (F : Format) : ℤ := F.emin - (F.p - 1)

/-- A number rounded to nearest, ties to even, exponents unbounded above (spectral_image_processing_1d.py:171-180): below the normal range the spacing no longer
shrinks. -/
def roundNum (F : Format) (x : K) : K :=
  if |x| < 2 ^ F.emin then (Rounding.roundEven (x * 2 ^ (-F.quantum)) : K) * 2 ^ F.quantum else Rounding.fl F.p x

/-- The result of an operation (spectral_image_processing_1d.py:171-180): what is rounded beyond the largest number is infinite, what is rounded to zero keeps its sign. -/
def round (F : Format) : Num K → Num K
  | .fin x => if 2 ^ (F.emax + 1) ≤ |roundNum F x| then .inf (decide (x < 0)) else if roundNum F x = 0 then .zero (decide (x < 0)) else .fin (roundNum F x)
  | a => a

/-- `a + b` (spectral_image_processing_1d.py:12, 171-179). -/
def add (F : Format) (a b : Num K) : Num K := round F (exactAdd a b)

/-- `a - b` (spectral_image_processing_1d.py:26). -/
def sub (F : Format) (a b : Num K) : Num K := round F (exactAdd a b.neg)

/-- `a * b` (spectral_image_processing_1d.py:171-180). -/
def mul (F : Format) (a b : Num K) : Num K := round F (exactMul a b)

/-- `a * b + c` with one rounding, as BLAS does on hardware that can (spectral_image_processing_1d.py:171, 176). -/
def fma (F : Format) (a b c : Num K) : Num K := round F (exactAdd (exactMul a b) c)

/-- `a / b` (spectral_image_processing_1d.py:12, 180). -/
def div (F : Format) (a b : Num K) : Num K := round F (exactDiv a b)

/-- Adding up numbered terms in a given order (`np.mean`, spectral_image_processing_1d.py:12). -/
def sumOf (F : Format) (f : Nat → Num K) : SumTree → Num K
  | .leaf k => f k
  | .node a b => add F (sumOf F f a) (sumOf F f b)

/-- An inner product computed in a given way (spectral_image_processing_1d.py:171-179). -/
def dotOf (F : Format) (u v : Nat → Num K) : DotTree → Num K
  | .mul k => mul F (u k) (v k)
  | .fma k a => fma F (u k) (v k) (dotOf F u v a)
  | .add a b => add F (dotOf F u v a) (dotOf F u v b)

/-- `compute_image_cube_spectral_mean` without mask (spectral_image_processing_1d.py:8-12) for an image of at least one sample; `order b` is the order for band `b`. -/
def meanI (F : Format) (order : Nat → SumTree) (img : A2 (Num K)) : A1 (Num K) :=
  ⟨img.nx, fun b => div F (sumOf F (fun k => img.px k b) (order b)) (Num.of (img.ny : K))⟩

/-- `demean_image_data` without mask (spectral_image_processing_1d.py:22-26). -/
def demeanI (F : Format) (order : Nat → SumTree) (img : A2 (Num K)) : A2 (Num K) :=
  ⟨img.ny, img.nx, fun k b => sub F (img.px k b) ((meanI F order img).px b)⟩

end

/-- `np.sqrt` before rounding (spectral_image_processing_1d.py:176-179): negative numbers are invalid. -/
noncomputable def exactSqrt : Num ℝ → Num ℝ
  | .nan => .nan
  | .inf s => if s then .nan else .inf false
  | .zero s => .zero s
  | .fin x => if x < 0 then .nan else .fin (Real.sqrt x)

/-- `np.sqrt` (spectral_image_processing_1d.py:176-179). -/
noncomputable def sqrt (F : Format) (a : Num ℝ) : Num ℝ := round F (exactSqrt a)

/-- One score of `sam` (spectral_image_processing_1d.py:165-181): `d1`, `d2`, `d3` are the ways the three inner products are computed. -/
noncomputable def samScoreI (F : Format) (d1 d2 d3 : DotTree) (t x : Nat → Num ℝ) : Num ℝ :=
  div F (dotOf F t x d1) (mul F (sqrt F (dotOf F t t d2)) (sqrt F (dotOf F x x d3)))

/-- `sam` (spectral_image_processing_1d.py:165-181) on an image of at least one band; `order k` gives the three ways for sample `k`.  A target of another length is a
ValueError. -/
noncomputable def samI (F : Format) (order : Nat → DotTree × DotTree × DotTree) (img : A2 (Num ℝ)) (t : A1 (Num ℝ)) : Py (A1 (Num ℝ)) :=
  if t.n ≠ img.nx then .error .valueError
  else .ok ⟨img.ny, fun k => samScoreI F (order k).1 (order k).2.1 (order k).2.2 t.px (fun b => img.px k b)⟩

end Verif.Ieee
