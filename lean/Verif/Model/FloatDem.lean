import Verif.Model.Ortho

/-! Bilinear DEM interpolation (`/repo/resippy/photogrammetry/dem/geotiff_dem.py`) with every operation rounded. -/

namespace Verif.FloatGeom
open Verif ImageUtils

/-- One weight (geotiff_dem.py:122-125): `np.sqrt(np.square(dy) + np.square(dx))`, each operation rounded by `r`, the root computed by `sq`. -/
def weightR (r sq : ℝ → ℝ) (dy dx : ℝ) : ℝ := sq (r (r (dy * dy) + r (dx * dx)))

/-- A sum of four terms from the left (`ndarray.sum` along an axis of length four, inside `np.average`, geotiff_dem.py:129). -/
def sum4R (r : ℝ → ℝ) (a b c d : ℝ) : ℝ := r (r (r (a + b) + c) + d)

/-- Bilinear interpolation of one point (geotiff_dem.py:105-131) in floating point: `r` rounds the result of an operation, `sq` computes square roots.  The indices
(truncation, `np.ceil`, `np.clip`) are exact; an index is converted to a float exactly.  `np.average` multiplies, adds and divides; it raises ZeroDivisionError when the
computed sum of the weights is zero.  Overflow and underflow are not modelled. -/
noncomputable def demBilinearR (r sq : ℝ → ℝ) (dem : A2 ℝ) (x y : ℝ) : Py ℝ := do
  let x1 := Ortho.clipIdx (Ortho.toInt x) dem.nx
  let y1 := Ortho.clipIdx (Ortho.toInt y) dem.ny
  let x2 := Ortho.clipIdx ⌈x⌉ dem.nx
  let y2 := Ortho.clipIdx ⌈y⌉ dem.ny
  let e11 ← Ortho.demCell dem y1 x1
  let e12 ← Ortho.demCell dem y1 x2
  let e21 ← Ortho.demCell dem y2 x1
  let e22 ← Ortho.demCell dem y2 x2
  let dx1 := r (x - x1)
  let dx2 := r (x2 - x)
  let dy1 := r (y - y1)
  let dy2 := r (y2 - y)
  let w11 := weightR r sq dy1 dx1
  let w12 := weightR r sq dy1 dx2
  let w21 := weightR r sq dy2 dx1
  let w22 := weightR r sq dy2 dx2
  let scl := sum4R r w11 w12 w21 w22
  if scl = 0 then .error .zeroDivision
  else .ok (r (sum4R r (r (e11 * w11)) (r (e12 * w12)) (r (e21 * w21)) (r (e22 * w22)) / scl))

end Verif.FloatGeom
