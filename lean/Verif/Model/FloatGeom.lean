import Verif.Model.FloatSpectral
import Verif.Model.Geotiff
import Verif.Model.Camera

/-! The projection formulas in float arithmetic: every operation is followed by a rounding `r`.  `/repo/resippy/image_objects/earth_overhead/
earth_overhead_point_calculators/rpc_point_calc.py`, `pinhole_camera.py`, `ideal_pinhole_fpa_local_utm_point_calc.py`, `/repo/resippy/utils/photogrammetry_utils.py`.

Simplified: as in `Verif.Rounding`, no overflow and no subnormal numbers; a division by zero is `none`. -/

set_option linter.unusedSectionVars false

namespace Verif.FloatGeom
open Verif ImageUtils FloatSpectral

section
variable {K : Type} [Field K] [LinearOrder K] [IsStrictOrderedRing K]

/-- A float division (rpc_point_calc.py:204-206, 213-214, pinhole_camera.py:103-111): `none` when the divisor is zero. -/
def divR (r : K → K) (a b : K) : Option K := (fdiv a b).map r

/-- `compute_p` (rpc_point_calc.py:135-186) in float arithmetic, the operations in the order of the code: the powers and the products of two variables are
computed first (lines 170-180), the twenty terms are added from left to right (lines 182-185). -/
def computePR (r : K → K) (a : Nat → K) (x y z : K) : K :=
  let xx := r (x * x)
  let yy := r (y * y)
  let zz := r (z * z)
  let xxx := r (xx * x)
  let yyy := r (yy * y)
  let zzz := r (zz * z)
  let xy := r (x * y)
  let xz := r (x * z)
  let yz := r (y * z)
  let s := r (a 0 + r (a 1 * y))
  let s := r (s + r (a 2 * x))
  let s := r (s + r (a 3 * z))
  let s := r (s + r (a 4 * xy))
  let s := r (s + r (a 5 * yz))
  let s := r (s + r (a 6 * xz))
  let s := r (s + r (a 7 * yy))
  let s := r (s + r (a 8 * xx))
  let s := r (s + r (a 9 * zz))
  let s := r (s + r (r (r (a 10 * x) * y) * z))
  let s := r (s + r (a 11 * yyy))
  let s := r (s + r (r (a 12 * y) * xx))
  let s := r (s + r (r (a 13 * y) * zz))
  let s := r (s + r (r (a 14 * yy) * x))
  let s := r (s + r (a 15 * xxx))
  let s := r (s + r (r (a 16 * x) * zz))
  let s := r (s + r (r (a 17 * yy) * z))
  let s := r (s + r (r (a 18 * xx) * y))
  r (s + r (a 19 * zzz))

/-- `RPCPointCalc._lon_lat_alt_to_pixel_x_y_native` (rpc_point_calc.py:188-218) in float arithmetic. -/
def rpcR (r : K → K) (c : Geotiff.Rpc K) (lon lat alt : K) : Option (K × K) := do
  let x ← divR r (r (lat - c.latOff)) c.latScale
  let y ← divR r (r (lon - c.lonOff)) c.lonScale
  let z ← divR r (r (alt - c.hOff)) c.hScale
  let xn ← divR r (computePR r c.sampNum x y z) (computePR r c.sampDen x y z)
  let yn ← divR r (computePR r c.lineNum x y z) (computePR r c.lineDen x y z)
  some (r (r (r (xn * c.sampScale) + c.sampOff) + 1 / 2), r (r (r (yn * c.lineScale) + c.lineOff) + 1 / 2))

/-- A row of the matrix times the vector from the camera to the point (pinhole_camera.py:103-111), in float arithmetic. -/
def rowR (r : K → K) (m d : Fin 3 → K) : K := r (r (r (m 0 * d 0) + r (m 1 * d 1)) + r (m 2 * d 2))

/-- `world_to_image_plane` (pinhole_camera.py:91-113) in float arithmetic: position, focal length, matrix and point are floats. -/
def imagePlaneR (r : K → K) (pos : Fin 3 → K) (f : K) (m : Fin 3 → Fin 3 → K) (p : Fin 3 → K) : Option (K × K) := do
  let d : Fin 3 → K := fun i => r (p i - pos i)
  let q1 ← divR r (rowR r (m 0) d) (rowR r (m 2) d)
  let q2 ← divR r (rowR r (m 1) d) (rowR r (m 2) d)
  some (r (r (-1 * f) * q1), r (r (-1 * f) * q2))

end

/-- The float functions of numpy and the C library used by `create_M_matrix` and `solve_for_omega_phi_kappa` (photogrammetry_utils.py:84-196): rounding of the
arithmetic, and the computed sine, cosine, inverse sine and inverse cosine. -/
structure Lib where
  r : ℝ → ℝ
  sn : ℝ → ℝ
  cs : ℝ → ℝ
  asn : ℝ → ℝ
  acs : ℝ → ℝ

/-- `m_omega` (photogrammetry_utils.py:134-138) in float arithmetic. -/
noncomputable def mOmegaR (L : Lib) (w : ℝ) : Fin 3 → Fin 3 → ℝ :=
  ![![1, 0, 0], ![0, L.cs w, L.sn w], ![0, L.r (-1 * L.sn w), L.cs w]]

/-- `m_phi` (photogrammetry_utils.py:140-144) in float arithmetic. -/
noncomputable def mPhiR (L : Lib) (p : ℝ) : Fin 3 → Fin 3 → ℝ :=
  ![![L.cs p, 0, L.r (-1 * L.sn p)], ![0, 1, 0], ![L.sn p, 0, L.cs p]]

/-- `m_kappa` (photogrammetry_utils.py:146-150) in float arithmetic. -/
noncomputable def mKappaR (L : Lib) (k : ℝ) : Fin 3 → Fin 3 → ℝ :=
  ![![L.cs k, L.sn k, 0], ![L.r (-1 * L.sn k), L.cs k, 0], ![0, 0, 1]]

/-- The matrix of order 'rpy' (photogrammetry_utils.py:101-127) in float arithmetic, operations from left to right. -/
noncomputable def mRpyR (L : Lib) (w p k : ℝ) : Fin 3 → Fin 3 → ℝ :=
  ![![L.r (L.cs p * L.cs k),
      L.r (L.r (L.cs w * L.sn k) + L.r (L.r (L.sn w * L.sn p) * L.cs k)),
      L.r (L.r (L.sn w * L.sn k) - L.r (L.r (L.cs w * L.sn p) * L.cs k))],
    ![L.r (L.r (-1 * L.cs p) * L.sn k),
      L.r (L.r (L.cs w * L.cs k) - L.r (L.r (L.sn w * L.sn p) * L.sn k)),
      L.r (L.r (L.sn w * L.cs k) + L.r (L.r (L.cs w * L.sn p) * L.sn k))],
    ![L.sn p,
      L.r (L.r (-1 * L.sn w) * L.cs p),
      L.r (L.cs w * L.cs p)]]

/-- A matrix product `a @ b` of 3x3 arrays (photogrammetry_utils.py:152-162): the order in which the inner product of an entry is computed is the library's. -/
noncomputable def matmulR (L : Lib) (t : Fin 3 → Fin 3 → DotTree) (a b : Fin 3 → Fin 3 → ℝ) : Fin 3 → Fin 3 → ℝ :=
  fun i j => (t i j).eval L.r (fun n => a i (Fin.ofNat 3 n)) (fun n => b (Fin.ofNat 3 n) j)

/-- `create_M_matrix` (photogrammetry_utils.py:84-164) in float arithmetic; `t1`, `t2` are the orders of the two matrix products. -/
noncomputable def createMR (L : Lib) (t1 t2 : Fin 3 → Fin 3 → DotTree) (w p k : ℝ) (order : String) : Fin 3 → Fin 3 → ℝ :=
  if order = "rpy" then mRpyR L w p k
  else if order = "ryp" then matmulR L t2 (matmulR L t1 (mPhiR L p) (mKappaR L k)) (mOmegaR L w)
  else if order = "pry" then matmulR L t2 (matmulR L t1 (mKappaR L k) (mOmegaR L w)) (mPhiR L p)
  else if order = "pyr" then matmulR L t2 (matmulR L t1 (mOmegaR L w) (mKappaR L k)) (mPhiR L p)
  else if order = "yrp" then matmulR L t2 (matmulR L t1 (mPhiR L p) (mOmegaR L w)) (mKappaR L k)
  else if order = "ypr" then matmulR L t2 (matmulR L t1 (mOmegaR L w) (mPhiR L p)) (mKappaR L k)
  else fun _ _ => 0

/-- `np.arcsin` (photogrammetry_utils.py:183) in float arithmetic: NaN (`none`) outside `[-1, 1]`. -/
noncomputable def asinR (L : Lib) (x : ℝ) : Option ℝ := if -1 ≤ x ∧ x ≤ 1 then some (L.asn x) else none

/-- `np.arccos` of a quotient (photogrammetry_utils.py:185-186) in float arithmetic: NaN (`none`) outside `[-1, 1]` and for a zero divisor. -/
noncomputable def acosR (L : Lib) (m c : ℝ) : Option ℝ :=
  if c = 0 then none else if -1 ≤ L.r (m / c) ∧ L.r (m / c) ≤ 1 then some (L.acs (L.r (m / c))) else none

/-- `solve_for_omega_phi_kappa` (photogrammetry_utils.py:167-196) in float arithmetic: `(omega, phi, kappa)`, each `none` when it is NaN. -/
noncomputable def solveR (L : Lib) (m : Fin 3 → Fin 3 → ℝ) : Option ℝ × Option ℝ × Option ℝ :=
  let phi := asinR L (m 2 0)
  let cosPhi := phi.map L.cs
  let kappa := cosPhi.bind (fun c => acosR L (m 0 0) c)
  let omega := cosPhi.bind (fun c => acosR L (m 2 2) c)
  let omega := if m 2 1 > 0 then omega.map (fun v => -v) else omega
  let kappa := if m 1 0 > 0 then kappa.map (fun v => -v) else kappa
  (omega, phi, kappa)

end Verif.FloatGeom
