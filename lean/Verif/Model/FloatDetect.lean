import Verif.Model.FloatSpectral

/-! The RX and ACE detectors of `/repo/resippy/spectral/spectral_image_processing_1d.py` in float arithmetic, with the rounding of every operation written out, for a mean and
an inverse covariance that are given (or have been computed).  The orders in which `np.dot` and `np.sum` add are trees. -/

namespace Verif.FloatSpectral
open Verif ImageUtils

section
variable {K : Type} [Field K] [LinearOrder K] [IsStrictOrderedRing K]

/-- How one quadratic form is computed: a way for each row of `np.dot`, and an order for `np.sum` (spectral_image_processing_1d.py:60-63, 97-101, 106-111, 116-119). -/
structure FormOrder where
  rows : Nat → DotTree
  sum : SumTree

/-- `np.sum(np.multiply(u, np.dot(m, v)))` in float arithmetic (spectral_image_processing_1d.py:60-63, 97-101, 106-111, 116-119, 133-155). -/
def quadR (r : K → K) (o : FormOrder) (m : Nat → Nat → K) (u v : Nat → K) : K :=
  o.sum.eval r (fun i => r (u i * (o.rows i).eval r (m i) v))

/-- `np.subtract(spectral_image, spectral_mean)`, one sample (spectral_image_processing_1d.py:55, 91-92). -/
def demeanedR (r : K → K) (x m : Nat → K) : Nat → K := fun b => r (x b - m b)

/-- The RX score of sample `k` (spectral_image_processing_1d.py:55-63). -/
def rxScoreR (r : K → K) (o : FormOrder) (img : A2 K) (m : A1 K) (ic : A2 K) (k : Nat) : K :=
  quadR r o ic.px (demeanedR r (fun b => img.px k b) m.px) (demeanedR r (fun b => img.px k b) m.px)

/-- `rx_anomaly_detector` with a mean and an inverse covariance (spectral_image_processing_1d.py:45-64); `order k` is how the score of sample `k` is computed.  Other shapes are a
ValueError. -/
def rxR (r : K → K) (order : Nat → FormOrder) (img : A2 K) (m : A1 K) (ic : A2 K) : Py (A1 K) :=
  if m.n = img.nx ∧ ic.ny = img.nx ∧ ic.nx = img.nx then .ok ⟨img.ny, fun k => rxScoreR r (order k) img m ic k⟩
  else .error .valueError

/-- The ACE score of a demeaned sample `x` against a demeaned target `t` (spectral_image_processing_1d.py:97-122, 133-158): `o1`, `o2`, `o3` are how the numerator and the two
factors of the denominator are computed; division by zero is not finite. -/
def aceScoreR (r : K → K) (o1 o2 o3 : FormOrder) (ic : Nat → Nat → K) (t x : Nat → K) : Option K :=
  (fdiv (r (quadR r o1 ic t x * quadR r o1 ic t x)) (r (quadR r o2 ic t t * quadR r o3 ic x x))).map r

/-- `ace_demeaned` (spectral_image_processing_1d.py:126-159). -/
def aceDemeanedR (r : K → K) (o1 : Nat → FormOrder) (o2 : FormOrder) (o3 : Nat → FormOrder) (img : A2 K) (t : A1 K) (ic : A2 K) : Py (A1 (Option K)) :=
  if t.n = img.nx ∧ ic.ny = img.nx ∧ ic.nx = img.nx then
    .ok ⟨img.ny, fun k => aceScoreR r (o1 k) o2 (o3 k) ic.px t.px (fun b => img.px k b)⟩
  else .error .valueError

/-- `ace` with a mean and an inverse covariance (spectral_image_processing_1d.py:67-123). -/
def aceR (r : K → K) (o1 : Nat → FormOrder) (o2 : FormOrder) (o3 : Nat → FormOrder) (img : A2 K) (t m : A1 K) (ic : A2 K) : Py (A1 (Option K)) :=
  if m.n = img.nx ∧ t.n = img.nx ∧ ic.ny = img.nx ∧ ic.nx = img.nx then
    .ok ⟨img.ny, fun k => aceScoreR r (o1 k) o2 (o3 k) ic.px (demeanedR r t.px m.px) (demeanedR r (fun b => img.px k b) m.px)⟩
  else .error .valueError

end
end Verif.FloatSpectral
