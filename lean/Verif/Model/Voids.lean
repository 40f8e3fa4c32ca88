import Verif.Model.Missing
import Verif.Model.Ortho
import Verif.Model.PointCalc

/-! Model of elevation queries and of the routines that use them over a DEM with voids: an unknown elevation is NaN (`none`), as left by
`remove_nodata_values` (geotiff_dem.py:61-67). Every float operation with a NaN gives NaN, every comparison with a NaN is false. -/

namespace Verif.Voids
open Verif ImageUtils Missing PointCalc

/-- Bilinear interpolation of one point (geotiff_dem.py:105-131) of a raster with voids: the weighted average is NaN as soon as one of the four
cells is NaN, whatever its weight (`0 * nan` is NaN). `np.average` looks at the sum of the weights before. -/
noncomputable def demBilinearN (dem : A2 (Option ℝ)) (x y : ℝ) : Py (Option ℝ) := do
  let x1 := Ortho.clipIdx (Ortho.toInt x) dem.nx
  let y1 := Ortho.clipIdx (Ortho.toInt y) dem.ny
  let x2 := Ortho.clipIdx ⌈x⌉ dem.nx
  let y2 := Ortho.clipIdx ⌈y⌉ dem.ny
  let e11 ← Ortho.demCell dem y1 x1
  let e12 ← Ortho.demCell dem y1 x2
  let e21 ← Ortho.demCell dem y2 x1
  let e22 ← Ortho.demCell dem y2 x2
  let dx1 := x - x1
  let dx2 := x2 - x
  let dy1 := y - y1
  let dy2 := y2 - y
  let w11 := Real.sqrt (dy1 * dy1 + dx1 * dx1)
  let w12 := Real.sqrt (dy1 * dy1 + dx2 * dx2)
  let w21 := Real.sqrt (dy2 * dy2 + dx1 * dx1)
  let w22 := Real.sqrt (dy2 * dy2 + dx2 * dx2)
  if w11 + w12 + w21 + w22 = 0 then .error .zeroDivision
  else .ok ((lift2 (· + ·) (lift2 (· + ·) (lift2 (· + ·) (e11.map (· * w11)) (e12.map (· * w12))) (e21.map (· * w21))) (e22.map (· * w22))).map
    (· / (w11 + w12 + w21 + w22)))

section
variable {K : Type} [Field K] [LinearOrder K] [IsStrictOrderedRing K]

/-- The result of one ray with `s` samples (abstract_earth_overhead_point_calc.py:354-391) over a DEM with voids; see `PointCalc.castRay`. All three
results contain the fraction `xs`, which is NaN when one of the two elevations is. -/
def castRayN (E : K → K → Option K) (maxAlt minAlt : K) (s : Nat) (top bot : K × K) : Py (Hit K) := do
  let t : Nat → K := linspace 0 1 s
  let lon : Nat → K := fun i => (bot.1 - top.1) * t i + top.1
  let lat : Nat → K := fun i => (bot.2 - top.2) * t i + top.2
  let elev : Nat → Option K := fun i => E (lon i) (lat i)
  let ray : Nat → K := linspace maxAlt minAlt s
  let idx := searchLoop (fun i => olt (some (ray i)) (elev i)) s 0
  let first ← pyIdx s ((idx : Int) - 1)
  let second ← pyIdx s (idx : Int)
  if s < 2 then .error .indexError
  else
    let mRays := ray 1 - ray 0
    let mAlts := lift2 (· - ·) (elev second) (elev first)
    let xs := odiv (lift2 (· - ·) (elev first) (some (ray first))) (lift2 (· - ·) (some mRays) mAlts)
    .ok (match xs, lift2 (· + ·) (lift2 (· * ·) mAlts xs) (elev first) with
      | some x, some alt => some ((lon second - lon first) * x + lon first, (lat second - lat first) * x + lat first, alt)
      | _, _ => none)

/-- All rays; see `PointCalc.castRays`.
Used for `rayCasterN`, abstract_earth_overhead_point_calc.py:294-398. -/
def castRaysN (E : K → K → Option K) (maxAlt minAlt : K) (s : Nat) : List ((K × K) × (K × K)) → Py (List (Hit K))
  | [] => if s < 2 then .error .indexError else .ok []
  | p :: ps => do
    let h ← castRayN E maxAlt minAlt s p.1 p.2
    let hs ← castRaysN E maxAlt minAlt s ps
    .ok (h :: hs)

/-- `_pixel_x_y_to_lon_lat_ray_caster_native` (abstract_earth_overhead_point_calc.py:294-398) over a DEM with voids; see `PointCalc.rayCaster`. -/
def rayCasterN (E : K → K → Option K) (hi lo : K) (ground : K → Nat → K × K) (n : Nat)
    (nSteps : List ((K × K) × (K × K)) → Nat) : Py (List (Hit K)) :=
  let range := hi - lo
  let maxAlt := hi + range * (1 / 100)
  let minAlt := lo - range * (1 / 100)
  let rays := (List.range n).map (fun k => (ground maxAlt k, ground minAlt k))
  if n = 0 then .error .valueError
  else castRaysN E maxAlt minAlt (nSteps rays) rays

/-- `are_pixels_obstructed_by_dem` (ortho_tools.py:379-413) over a DEM with voids, altitudes that may be NaN; see `Ortho.obstructed`. `highest` is
`np.nanmax`, a number. -/
def obstructedN [FloorRing K] (n : Nat) (toLonLat : K → K → K → K × K) (dem : K → K → Option K) (highest : K) (castPix : K → K)
    (px py lons lats : Nat → K) (alts : Option (Nat → Option K)) (resolution : K) : Py (Nat → Bool) :=
  let highestAlts : Nat → K := fun _ => castPix (highest + 1 / 1000)
  let alts : Nat → Option K := alts.getD (fun k => dem (lons k) (lats k))
  let hi : Nat → K × K := fun k => toLonLat (px k) (py k) (highestAlts k)
  let lonDiff : Nat → K := fun k => lons k - (hi k).1
  let latDiff : Nat → K := fun k => lats k - (hi k).2
  let horizontal : Nat → K := fun k => |lonDiff k + latDiff k|
  let vertical : Nat → Option K := fun k => lift2 (· - ·) (some (highestAlts k)) (alts k)
  match ((List.range n).map horizontal).max? with
  | none => .error .valueError
  | some mx =>
    let nSteps := mx / resolution
    let steps := (List.range (⌈nSteps - 1⌉).toNat).map (fun (i : Nat) => 1 + (i : K))
    .ok (fun k => steps.any (fun step =>
      olt (lift2 (· + ·) (alts k) ((vertical k).map (fun v => v * step / nSteps)))
        (dem (lons k + lonDiff k * step / nSteps) (lats k + latDiff k * step / nSteps))))

/-! ### The solver with unknown altitudes -/

/-- A requested pixel whose altitude may be NaN. Used for `solverN`, abstract_earth_overhead_point_calc.py:182-292. -/
structure TargetN (K : Type) where
  alt : Option K
  x : K
  y : K

/-- The forward projection at an altitude that may be NaN: a NaN altitude gives NaN pixels (they are sums and products with the altitude).
Used for `solverN`, abstract_earth_overhead_point_calc.py:259. -/
def projN (f : K → K → K → Option (K × K)) (lon lat : K) (alt : Option K) : Option (K × K) := alt.bind (f lon lat)

/-- One update of one pixel (abstract_earth_overhead_point_calc.py:259-279): NaN for a NaN altitude, as the estimates of its pixel position are. -/
def newtonStepN (f : K → K → K → Option (K × K)) (dLon dLat : K) (t : TargetN K) (e : Est K) : Est K :=
  t.alt.bind (fun a => newtonStep f dLon dLat a t.x t.y e)

/-- The error of one pixel is within the threshold; false when it is NaN (abstract_earth_overhead_point_calc.py:281, 286-289). -/
def withinN (f : K → K → K → Option (K × K)) (thr : K) (t : TargetN K) (e : Est K) : Bool :=
  match t.alt with
  | none => false
  | some a => within f thr a t.x t.y e

/-- The iteration (abstract_earth_overhead_point_calc.py:258-290): `.max()` of errors with a NaN is NaN, which is never within the threshold. -/
def newtonLoopN (f : K → K → K → Option (K × K)) (dLon dLat thr : K) : Nat → List (TargetN K) → List (Est K) → List (Est K)
  | 0, _, es => es
  | todo + 1, ts, es =>
    let es' := List.zipWith (fun t e => newtonStepN f dLon dLat t e) ts es
    if (List.zipWith (fun t e => withinN f thr t e) ts es').all id then es'
    else newtonLoopN f dLon dLat thr todo ts es'

/-- `np.average(alts)` (abstract_earth_overhead_point_calc.py:226): NaN when one altitude is, or when there is none. -/
def meanAltN (ts : List (TargetN K)) : Option K :=
  if ts.all (fun t => t.alt.isSome) then fdiv (ts.map (fun t => t.alt.getD 0)).sum (ts.length : K) else none

/-- `_pixel_x_y_alt_to_lon_lat_native_solver` (abstract_earth_overhead_point_calc.py:182-292) with altitudes that may be NaN; see `PointCalc.solver`. -/
def solverN (f : K → K → K → Option (K × K)) (centre : K × K) (eps : K) (m : Nat) (thr : K) (maxIter : Nat) (ts : List (TargetN K)) :
    Py (List (Est K)) := do
  let mean := meanAltN ts
  let base := projN f centre.1 centre.2 mean
  let diff : Option (K × K) → K × K := fun q =>
    match q, base with
    | some (x, y), some (x0, y0) => (x - x0, y - y0)
    | _, _ => (0, 0)
  let (dLon, dLat) ←
    if base.isSome && allFinite (fun d => projN f (centre.1 + d) centre.2 mean) eps m then do
      let a ← findDelta (fun d => diff (projN f (centre.1 + d) centre.2 mean)) eps m
      let b ← findDelta (fun d => diff (projN f centre.1 (centre.2 + d) mean)) eps m
      Except.ok (a, b)
    else .ok (2, 2)
  if ts = [] ∧ 0 < maxIter then .error .valueError
  else .ok (newtonLoopN f dLon dLat thr maxIter ts (ts.map (fun _ => some centre)))

end
end Verif.Voids
