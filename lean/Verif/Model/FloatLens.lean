import Verif.Model.FloatGeom
import Verif.Model.Camera

/-! The OpenCV calculator in float arithmetic: every operation is followed by a rounding `r`.
`/repo/resippy/image_objects/earth_overhead/earth_overhead_point_calculators/opencv_point_calc.py`.

Simplified: as in `Verif.Rounding`, no overflow and no subnormal numbers; a division by zero is `none`.  Angles are in radians and offsets in metres, the default units (fixtured_camera.py:43-45,64-66,87-89), so the conversions
of units multiply by 1. -/

set_option linter.unusedSectionVars false

namespace Verif.FloatGeom
open Verif ImageUtils FloatSpectral

/-- The lens distortion (opencv_point_calc.py:149-158) in float arithmetic, the operations in the order of the code. -/
noncomputable def bendR (r : ℝ → ℝ) (c : Camera.OpenCV) (x y : ℝ) : ℝ × ℝ :=
  let r2 := r (r (x * x) + r (y * y))
  let r4 := r (r2 * r2)
  let r6 := r (r (r2 * r2) * r2)
  let radial := r (r (r (1 + r (c.k1 * r2)) + r (c.k2 * r4)) + r (c.k3 * r6))
  (r (r (r (x * radial) + r (r (r (2 * c.p1) * x) * y)) + r (c.p2 * r (r2 + r (r (2 * x) * x)))),
   r (r (r (y * radial) + r (c.p1 * r (r2 + r (r (2 * y) * y)))) + r (r (r (2 * c.p2) * x) * y)))

/-- `get_camera_absolute_M_matrix` (fixtured_camera.py:110-115) in float arithmetic: `boresight_matrix @ fixture_M`; `t` is the order in which the inner product of an entry is computed. -/
noncomputable def absMR (r : ℝ → ℝ) (t : Fin 3 → Fin 3 → DotTree) (b m : Fin 3 → Fin 3 → ℝ) : Fin 3 → Fin 3 → ℝ :=
  fun i j => (t i j).eval r (fun n => b i (Fin.ofNat 3 n)) (fun n => m (Fin.ofNat 3 n) j)

/-- `get_camera_absolute_xyz` (fixtured_camera.py:103-108) in float arithmetic: the offset of the camera times the fixture's orientation, added to the fixture's position. -/
noncomputable def absXyzR (r : ℝ → ℝ) (t : Fin 3 → DotTree) (f rel : Fin 3 → ℝ) (m : Fin 3 → Fin 3 → ℝ) : Fin 3 → ℝ :=
  fun j => r (f j + (t j).eval r (fun n => rel (Fin.ofNat 3 n)) (fun n => m (Fin.ofNat 3 n) j))

/-- `_lon_lat_alt_to_pixel_x_y_native` (opencv_point_calc.py:132-164) in float arithmetic; `t` is the order in which `np.matmul` computes the inner product of a row. -/
noncomputable def opencvPixelR (r : ℝ → ℝ) (t : Fin 3 → DotTree) (c : Camera.OpenCV) (rot : Fin 3 → Fin 3 → ℝ) (xyz p : Fin 3 → ℝ) : Option (ℝ × ℝ) := do
  let d : Nat → ℝ := fun n => r (p (Fin.ofNat 3 n) - xyz (Fin.ofNat 3 n))
  let q : Fin 3 → ℝ := fun i => (t i).eval r (fun n => rot i (Fin.ofNat 3 n)) d
  let x ← divR r (q 0) (q 2)
  let y ← divR r (q 1) (q 2)
  some (r (r (-c.fx * (bendR r c x y).1) + c.cx), r (r (c.fy * (bendR r c x y).2) + c.cy))

end Verif.FloatGeom
