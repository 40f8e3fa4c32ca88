import Verif.Base
import Mathlib.LinearAlgebra.Matrix.NonsingularInverse
import Mathlib.LinearAlgebra.Matrix.Notation
import Mathlib.LinearAlgebra.Matrix.Adjugate
import Mathlib.Analysis.SpecialFunctions.Trigonometric.Inverse

/-! Model of the rotation matrices of `/repo/resippy/utils/photogrammetry_utils.py` and
`/repo/resippy/utils/pix4d_utils.py`, over the real numbers. -/

namespace Verif.Rotation
open Verif Matrix Real

/-- Used for `mOmega`, photogrammetry_utils.py:134-138. -/
abbrev M3 := Matrix (Fin 3) (Fin 3) ℝ

/-- `m_omega` (photogrammetry_utils.py:134-138). -/
noncomputable def mOmega (w : ℝ) : M3 := !![1, 0, 0; 0, cos w, sin w; 0, -1 * sin w, cos w]

/-- `m_phi` (photogrammetry_utils.py:140-144). -/
noncomputable def mPhi (p : ℝ) : M3 := !![cos p, 0, -1 * sin p; 0, 1, 0; sin p, 0, cos p]

/-- `m_kappa` (photogrammetry_utils.py:146-150). -/
noncomputable def mKappa (k : ℝ) : M3 := !![cos k, sin k, 0; -1 * sin k, cos k, 0; 0, 0, 1]

/-- The explicit matrix of order 'rpy' (photogrammetry_utils.py:101-127). -/
noncomputable def mRpy (w p k : ℝ) : M3 :=
  !![cos p * cos k,
     cos w * sin k + sin w * sin p * cos k,
     sin w * sin k - cos w * sin p * cos k;
     -1 * cos p * sin k,
     cos w * cos k - sin w * sin p * sin k,
     sin w * cos k + cos w * sin p * sin k;
     sin p,
     -1 * sin w * cos p,
     cos w * cos p]

/-- `create_M_matrix` (photogrammetry_utils.py:84-164).  Any other order string leaves the matrix of
zeros. -/
noncomputable def createM (w p k : ℝ) (order : String) : M3 :=
  if order = "rpy" then mRpy w p k
  else if order = "ryp" then mPhi p * mKappa k * mOmega w
  else if order = "pry" then mKappa k * mOmega w * mPhi p
  else if order = "pyr" then mOmega w * mKappa k * mPhi p
  else if order = "yrp" then mPhi p * mOmega w * mKappa k
  else if order = "ypr" then mOmega w * mPhi p * mKappa k
  else 0

/-- `np.arcsin`/`np.arccos`: NaN (`none`) outside `[-1, 1]`.
Used for `solveOPK`, photogrammetry_utils.py:167-196. -/
noncomputable def npArcsin (x : ℝ) : Option ℝ := if -1 ≤ x ∧ x ≤ 1 then some (arcsin x) else none
/-- See `npArcsin`. Used for `ratioArccos`, photogrammetry_utils.py:167-196. -/
noncomputable def npArccos (x : ℝ) : Option ℝ := if -1 ≤ x ∧ x ≤ 1 then some (arccos x) else none

/-- `m / cos_phi` followed by `np.arccos`: division by zero is non-finite, its arccos is NaN.
Used for `solveOPK`, photogrammetry_utils.py:167-196. -/
noncomputable def ratioArccos (m c : ℝ) : Option ℝ := if c = 0 then none else npArccos (m / c)

/-- `solve_for_omega_phi_kappa` (photogrammetry_utils.py:167-196): `(omega, phi, kappa)`, each `none`
when it is NaN. -/
noncomputable def solveOPK (m : M3) : Option ℝ × Option ℝ × Option ℝ :=
  let phi := npArcsin (m 2 0)
  let cosPhi := phi.map cos
  let kappa := cosPhi.bind (fun c => ratioArccos (m 0 0) c)
  let omega := cosPhi.bind (fun c => ratioArccos (m 2 2) c)
  let omega := if m 2 1 > 0 then omega.map (fun v => -v) else omega
  let kappa := if m 1 0 > 0 then kappa.map (fun v => -v) else kappa
  (omega, phi, kappa)

/-- `solve_for_boresight_angle_offsets` (photogrammetry_utils.py:199-205).  `np.linalg.inv` raises
LinAlgError (a ValueError) on a singular matrix and otherwise returns the inverse. -/
noncomputable def boresightOffsets (rough ideal : M3) : Py M3 :=
  if rough.det = 0 then .error .valueError else .ok (rough⁻¹ * ideal)

/-- `np.deg2rad`. Used for `createR`, pix4d_utils.py:91-119. -/
noncomputable def deg2rad (d : ℝ) : ℝ := d * (π / 180)

/-- `create_r_matrix` (pix4d_utils.py:91-119); the three angles are entries 3, 4, 5 of the parameters,
in degrees (IndexError when there are fewer than six). -/
noncomputable def createR (params : List ℝ) : Py M3 :=
  match params[3]?, params[4]?, params[5]? with
  | some wd, some pd, some kd =>
    let w := deg2rad wd
    let p := deg2rad pd
    let k := deg2rad kd
    .ok !![cos k * cos p, -sin k * cos p, sin p;
           cos k * sin w * sin p + sin k * cos w, cos k * cos w - sin k * sin w * sin p, -sin w * cos p;
           sin k * sin w - cos k * cos w * sin p, sin k * cos w * sin p + cos k * sin w, cos w * cos p]
  | _, _, _ => .error .indexError

end Verif.Rotation
