import Verif.Model.FloatGeom
import Verif.Model.PointCalc

/-! The iterative conversion of pixels to ground positions in float arithmetic: every operation is followed by a rounding `r`.
`/repo/resippy/image_objects/earth_overhead/earth_overhead_point_calculators/abstract_earth_overhead_point_calc.py`, `ideal_pinhole_fpa_local_utm_point_calc.py`.

Simplified: as in `Verif.Rounding`, no overflow and no subnormal numbers; a division by zero is `none`.  The forward projection `f` is a parameter: it is given floats and
returns floats. -/

set_option linter.unusedSectionVars false

namespace Verif.PointCalc
open Verif ImageUtils FloatGeom

variable {K : Type} [Field K] [LinearOrder K] [IsStrictOrderedRing K]

/-- One update of one pixel (abstract_earth_overhead_point_calc.py:259-279) in float arithmetic, the operations in the order of the code. -/
def newtonStepR (r : K → K) (f : K → K → K → Option (K × K)) (dLon dLat alt tx ty : K) (e : Option (K × K)) : Option (K × K) := do
  let (lon, lat) ← e
  let (x0, y0) ← f lon lat alt
  let (xa, ya) ← f (r (lon + dLon)) lat alt
  let (xb, yb) ← f lon (r (lat + dLat)) alt
  let pxx ← divR r (r (xa - x0)) dLon
  let pxy ← divR r (r (xb - x0)) dLat
  let pyx ← divR r (r (ya - y0)) dLon
  let pyy ← divR r (r (yb - y0)) dLat
  let dpx := r (tx - x0)
  let dpy := r (ty - y0)
  let deltaLat ← divR r (r (r (dpy * pxx) - r (pyx * dpx))) (r (r (pyy * pxx) - r (pxy * pyx)))
  let deltaLon ← divR r (r (dpx - r (deltaLat * pxy))) pxx
  some (r (lon + deltaLon), r (lat + deltaLat))

/-- The computed errors of one pixel are within the threshold (abstract_earth_overhead_point_calc.py:281, 286-289); false when anything is non-finite. -/
def withinR (r : K → K) (f : K → K → K → Option (K × K)) (thr alt tx ty : K) (e : Est K) : Bool :=
  match e with
  | none => false
  | some (lon, lat) =>
    match f lon lat alt with
    | none => false
    | some (x, y) => decide (|r (tx - x)| ≤ thr ∧ |r (ty - y)| ≤ thr)

/-- The iteration (abstract_earth_overhead_point_calc.py:258-290) on all pixels at once, `todo` iterations left. -/
def newtonLoopR (r : K → K) (f : K → K → K → Option (K × K)) (dLon dLat thr : K) : Nat → List (Target K) → List (Est K) → List (Est K)
  | 0, _, es => es
  | todo + 1, ts, es =>
    let es' := List.zipWith (fun t e => newtonStepR r f dLon dLat t.alt t.x t.y e) ts es
    if (List.zipWith (fun t e => withinR r f thr t.alt t.x t.y e) ts es').all id then es'
    else newtonLoopR r f dLon dLat thr todo ts es'

/-- The displacement of the projection (abstract_earth_overhead_point_calc.py:237-241); a non-finite one along latitude only is treated as 0 (numpy's comparison drops it). -/
def moveR (r : K → K) (q base : Option (K × K)) : K × K :=
  match q, base with
  | some (x, y), some (x0, y0) => (r (x - x0), r (y - y0))
  | _, _ => (0, 0)

/-- Search for the step in one direction (abstract_earth_overhead_point_calc.py:217-256) from the coordinate `c` of the centre: the first of `eps, 2 eps, ...` (`m` of them,
exact doublings) whose shifted coordinate moves the projection by more than one pixel; the step is the difference of the coordinates; IndexError when there is none. -/
def findDeltaR (r : K → K) (c : K) (move : K → K × K) (eps : K) : Nat → Py K
  | 0 => .error .indexError
  | m + 1 =>
    if r (r ((move (r (c + eps))).1 * (move (r (c + eps))).1) + r ((move (r (c + eps))).2 * (move (r (c + eps))).2)) > 1 then .ok (r (r (c + eps) - c))
    else findDeltaR r c move (eps * 2) m

/-- `_pixel_x_y_alt_to_lon_lat_native_solver` (abstract_earth_overhead_point_calc.py:182-292) in float arithmetic, with the default `d_lon = d_lat = None`;
the parameters are those of `solver`. -/
def solverR (r : K → K) (f : K → K → K → Option (K × K)) (centre : K × K) (eps : K) (m : Nat) (meanAlt thr : K) (maxIter : Nat) (ts : List (Target K)) :
    Py (List (Est K)) := do
  let base := f centre.1 centre.2 meanAlt
  let (dLon, dLat) ←
    if base.isSome && allFinite (fun d => f (r (centre.1 + d)) centre.2 meanAlt) eps m then do
      let a ← findDeltaR r centre.1 (fun x => moveR r (f x centre.2 meanAlt) base) eps m
      let b ← findDeltaR r centre.2 (fun y => moveR r (f centre.1 y meanAlt) base) eps m
      Except.ok (a, b)
    else .ok (2, 2)
  if ts = [] ∧ 0 < maxIter then .error .valueError
  else .ok (newtonLoopR r f dLon dLat thr maxIter ts (ts.map (fun _ => some centre)))

end Verif.PointCalc

namespace Verif.FloatGeom
open Verif ImageUtils

/-- The pixel coordinate on the focal plane array (ideal_pinhole_fpa_local_utm_point_calc.py:36-44) in float arithmetic: `x` metres on the image plane, `n` pixels of the given
pitch, flipped or not. -/
def fpaCoordR {K : Type} [Field K] [LinearOrder K] [IsStrictOrderedRing K] (r : K → K) (n pitch : K) (flip : Bool) (x : K) : Option K :=
  divR r (r ((if flip then r (-1 * x) else x) + r (r (n * pitch) / 2))) pitch

/-- `_lon_lat_alt_to_pixel_x_y_native` (ideal_pinhole_fpa_local_utm_point_calc.py:30-45) in float arithmetic; `m` is the orientation matrix of the camera as a float matrix. -/
noncomputable def fpaPixelR (r : ℝ → ℝ) (c : Camera.Fpa) (m : Fin 3 → Fin 3 → ℝ) (p : Fin 3 → ℝ) : Option (ℝ × ℝ) := do
  let (x, y) ← imagePlaneR r c.cam.pos c.cam.f m p
  let px ← fpaCoordR r c.npixX c.pitchX c.flipX x
  let py ← fpaCoordR r c.npixY c.pitchY c.flipY y
  some (px, py)

end Verif.FloatGeom
