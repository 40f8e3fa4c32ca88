import Verif.Model.PointCalc
import Verif.Model.FloatGeom

/-! The ray caster in float arithmetic: `/repo/resippy/image_objects/earth_overhead/earth_overhead_point_calculators/abstract_earth_overhead_point_calc.py`.
`r` rounds the result of every operation; with the identity these are the functions of `Model/PointCalc.lean` (proved in `Props/FloatRay.lean`). -/

set_option linter.unusedSectionVars false

namespace Verif.PointCalc
open Verif ImageUtils FloatGeom

section ray
variable {K : Type} [Field K] [LinearOrder K] [IsStrictOrderedRing K]

/-- `np.linspace(lo, hi, n)[i]` as numpy computes it (abstract_earth_overhead_point_calc.py:354-355, 364): `i * step + lo` with `step = (hi - lo) / (n - 1)`, or
`i / (n - 1) * (hi - lo) + lo` when the step is zero; the last point is `hi` itself.  Simplified: for one point, `lo`. -/
def linspaceR (r : K → K) (lo hi : K) (n i : Nat) : K :=
  if n ≤ 1 then lo
  else if i + 1 = n then hi
  else
    let delta := r (hi - lo)
    let step := r (delta / ((n : K) - 1))
    if step = 0 then r (r (r ((i : K) / ((n : K) - 1)) * delta) + lo) else r (r ((i : K) * step) + lo)

/-- One ray in float arithmetic (abstract_earth_overhead_point_calc.py:354-391), `E` being the DEM's computed elevations.  Adding `np.zeros` to the sample positions
(354-355) is exact. -/
def castRayR (r : K → K) (E : K → K → K) (maxAlt minAlt : K) (s : Nat) (top bot : K × K) : Py (Hit K) := do
  let t : Nat → K := linspaceR r 0 1 s
  let lon : Nat → K := fun i => r (r (r (bot.1 - top.1) * t i) + top.1)
  let lat : Nat → K := fun i => r (r (r (bot.2 - top.2) * t i) + top.2)
  let elev : Nat → K := fun i => E (lon i) (lat i)
  let ray : Nat → K := linspaceR r maxAlt minAlt s
  let idx := searchLoop (fun i => decide (ray i < elev i)) s 0
  let first ← pyIdx s ((idx : Int) - 1)
  let second ← pyIdx s (idx : Int)
  if s < 2 then .error .indexError
  else
    let mRays := r (ray 1 - ray 0)
    let mAlts := r (elev second - elev first)
    .ok ((divR r (r (elev first - ray first)) (r (mRays - mAlts))).map (fun x =>
      (r (r (r (lon second - lon first) * x) + lon first),
       r (r (r (lat second - lat first) * x) + lat first),
       r (r (r (elev second - elev first) * x) + elev first))))

/-- All rays, one after the other (abstract_earth_overhead_point_calc.py:294-398). -/
def castRaysR (r : K → K) (E : K → K → K) (maxAlt minAlt : K) (s : Nat) : List ((K × K) × (K × K)) → Py (List (Hit K))
  | [] => if s < 2 then .error .indexError else .ok []
  | p :: ps => do
    let h ← castRayR r E maxAlt minAlt s p.1 p.2
    let hs ← castRaysR r E maxAlt minAlt s ps
    .ok (h :: hs)

/-- The top of the search in float arithmetic (abstract_earth_overhead_point_calc.py:337-340); the constant 0.01 is a float too. -/
def searchTopR (r : K → K) (hi lo : K) : K := r (hi + r (r (hi - lo) * r (1 / 100)))

/-- The bottom of the search in float arithmetic (abstract_earth_overhead_point_calc.py:337, 341). -/
def searchBottomR (r : K → K) (hi lo : K) : K := r (lo - r (r (hi - lo) * r (1 / 100)))

/-- Horizontal length of a ray in float arithmetic (abstract_earth_overhead_point_calc.py:350-351); `sq` is the exact square root, rounded by `r` (IEEE 754). -/
def horizontalLenR (r sq : K → K) (p : (K × K) × (K × K)) : K :=
  let dx := r (p.1.1 - p.2.1)
  let dy := r (p.1.2 - p.2.2)
  r (sq (r (r (dx * dx) + r (dy * dy))))

/-- `np.max` of the computed lengths (abstract_earth_overhead_point_calc.py:352). -/
def maxLenR (r sq : K → K) : List ((K × K) × (K × K)) → K
  | [] => 0
  | p :: ps => max (horizontalLenR r sq p) (maxLenR r sq ps)

/-- `n_steps_per_ray` (abstract_earth_overhead_point_calc.py:352) in float arithmetic.  Simplified: adding 1 to the rounded-up quotient is exact (below 2^53 steps). -/
def rayStepsR [FloorRing K] (r sq : K → K) (dist : K) (rays : List ((K × K) × (K × K))) : Nat := (⌈r (maxLenR r sq rays / dist)⌉ + 1).toNat

/-- `pixel_x_y_to_lon_lat_alt` (abstract_earth_overhead_point_calc.py:294-398, 401-444) in float arithmetic, in the native projection. -/
def pixelToLonLatAltR [FloorRing K] (r sq : K → K) (E : K → K → K) (demHi demLo : K) (ground : K → Nat → K × K) (n : Nat) (dist hi lo : Option K) : Py (List (Hit K)) :=
  let maxAlt := searchTopR r (hi.getD demHi) (lo.getD demLo)
  let minAlt := searchBottomR r (hi.getD demHi) (lo.getD demLo)
  let rays := (List.range n).map (fun k => (ground maxAlt k, ground minAlt k))
  if n = 0 then .error .valueError
  else castRaysR r E maxAlt minAlt (rayStepsR r sq (dist.getD 5) rays) rays

end ray

end Verif.PointCalc
