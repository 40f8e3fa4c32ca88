import Verif.Model.FloatLens

/-! Model of `pix4d_point_calc.py` in float arithmetic, for a calculator without distortion model. -/

namespace Verif.FloatGeom
open Verif ImageUtils FloatSpectral

/-- `world_to_camera_coordinates` and `camera_coords_to_pixel_coords_no_distortion`, then the reversal of the axes in `world_xyzs_to_pixel_locations`
(pix4d_point_calc.py:48-60, 160-174, 230-236, 288-298), in float arithmetic; `t` is the order in which `np.matmul` computes the inner product of a row. -/
noncomputable def pixUndistortedR (r : ℝ → ℝ) (t : Fin 3 → DotTree) (c : Camera.Pix4d) (p : Fin 3 → ℝ) : Option (ℝ × ℝ) := do
  let d : Nat → ℝ := fun n => r (p (Fin.ofNat 3 n) - c.trans (Fin.ofNat 3 n))
  let q : Fin 3 → ℝ := fun i => (t i).eval r (fun n => c.r i (Fin.ofNat 3 n)) d
  let ppx := if c.revX then r (c.nX - c.ppx) else c.ppx
  let ppy := if c.revY then r (c.nY - c.ppy) else c.ppy
  let a ← divR r (r (-c.f * q 0)) (q 2)
  let b ← divR r (r (-c.f * q 1)) (q 2)
  let x := r (a + ppx)
  let y := r (b + ppy)
  some (if c.revX then r (c.nX - x) else x, if c.revY then r (c.nY - y) else y)

/-- The elementary operations: `r` rounds, `sq` is `np.power(·, 0.5)`, `pw` is `np.power` with a literal integer exponent. Used for `bendPixR`, pix4d_point_calc.py:260-264. -/
structure PowLib where
  r : ℝ → ℝ
  sq : ℝ → ℝ
  pw : ℝ → Nat → ℝ

/-- The distortion of `camera_coords_to_pixel_coords_with_distortion` (pix4d_point_calc.py:260-264) in float arithmetic, the operations in the order of the code. -/
noncomputable def bendPixR (L : PowLib) (c : Camera.Pix4d) (x y : ℝ) : ℝ × ℝ :=
  let r2 := L.r (L.pw x 2 + L.pw y 2)
  let ρ := L.sq r2
  let radial := L.r (L.r (L.r (1 + L.r (c.k1 * r2)) + L.r (c.k2 * L.pw ρ 4)) + L.r (c.k3 * L.pw ρ 6))
  (L.r (L.r (L.r (radial * x) + L.r (L.r (L.r (2 * c.t1) * x) * y)) + L.r (c.t2 * L.r (L.pw ρ 2 + L.r (2 * L.pw x 2)))),
   L.r (L.r (L.r (radial * y) + L.r (L.r (L.r (2 * c.t2) * x) * y)) + L.r (c.t1 * L.r (L.pw ρ 2 + L.r (2 * L.pw y 2)))))

/-- `world_to_camera_coordinates` and `camera_coords_to_pixel_coords_with_distortion`, then the reversal of the axes in `world_xyzs_to_pixel_locations`
(pix4d_point_calc.py:48-60, 160-174, 230-236, 249-273), in float arithmetic. -/
noncomputable def pixDistortedR (L : PowLib) (t : Fin 3 → DotTree) (c : Camera.Pix4d) (p : Fin 3 → ℝ) : Option (ℝ × ℝ) := do
  let d : Nat → ℝ := fun n => L.r (p (Fin.ofNat 3 n) - c.trans (Fin.ofNat 3 n))
  let q : Fin 3 → ℝ := fun i => (t i).eval L.r (fun n => c.r i (Fin.ofNat 3 n)) d
  let ppx := if c.revX then L.r (c.nX - c.ppx) else c.ppx
  let ppy := if c.revY then L.r (c.nY - c.ppy) else c.ppy
  let xh ← divR L.r (q 0) (q 2)
  let yh ← divR L.r (q 1) (q 2)
  let x := L.r (L.r (-c.f * (bendPixR L c xh yh).1) + ppx)
  let y := L.r (L.r (-c.f * (bendPixR L c xh yh).2) + ppy)
  some (if c.revX then L.r (c.nX - x) else x, if c.revY then L.r (c.nY - y) else y)

end Verif.FloatGeom
