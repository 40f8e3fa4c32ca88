import Verif.Model.Rounding
import Verif.Model.ImageUtils
import Verif.Model.Grids
import Verif.Model.Nav
import Verif.Model.Geotiff

/-! Functions of `/repo/resippy` once more, with the rounding of every float operation written out.

`r : K → K` is the rounding of one operation.  With `r = id` each definition is the exact one used elsewhere in
the model (theorems `*_id` in `Props/Rounded.lean`); with `r = Rounding.fl 53` it is binary64 arithmetic. -/

namespace Verif.Rounded
open Verif ImageUtils

section
variable {K : Type} [Field K] [LinearOrder K] [IsStrictOrderedRing K] [FloorRing K]

/-- `np.arange(0, n, step)` in float arithmetic: numpy takes the ceiling of the rounded quotient for the length
and fills with the rounded products `i * step` (the start 0 adds no rounding).  `n` and `i` are converted to
float first. Used for `createPixelGridR`, image_utils.py:71-78. -/
def arangeR (r : K → K) (n : Nat) (step : K) : Py (A1 K) :=
  if step = 0 then .error .zeroDivision
  else .ok ⟨(⌈r (r (n : K) / step)⌉).toNat, fun i => r (r (i : K) * step)⟩

/-- `create_pixel_grid` (image_utils.py:71-78) in float arithmetic. -/
def createPixelGridR (r : K → K) (nx ny : Nat) (scale : K) : Py (A2 K × A2 K) := do
  if scale = 0 then .error .zeroDivision
  else
    let x ← arangeR r nx (r (1 / scale))
    let y ← arangeR r ny (r (1 / scale))
    .ok (⟨y.n, x.n, fun _ i => x.px i⟩, ⟨y.n, x.n, fun j _ => y.px j⟩)

/-- `blend_images` (image_utils.py:262-266) in float arithmetic, on images of equal shape. -/
def blendImagesR (r : K → K) (a b : A2 K) (p : K) : A2 K :=
  ⟨a.ny, a.nx, fun y x => r (r (a.px y x * p) + r (b.px y x * r (1 - p)))⟩

/-- `normalize_grayscale_image` (image_utils.py:125-133) on a float image with `output_dtype=None`, in float
arithmetic; `none` is a non-finite pixel. -/
def normalizeGrayscaleR (r : K → K) (img : A2 K) (newMin newMax : K) : Py (A2 (Option K)) := do
  let mn ← npMin img
  let mx ← npMax img
  .ok ⟨img.ny, img.nx, fun y x =>
    (fdiv (r (img.px y x - mn)) (r (mx - mn))).map
      (fun z => r (r (r z * r (newMax - newMin)) + newMin))⟩

/-- `_linear_interp` (applanix_sbet_nav.py:53-58) in float arithmetic. -/
def linearInterpR (r : K → K) (x x0 x1 y0 y1 : K) : Option K :=
  (fdiv (r (r (y0 * r (x1 - x)) + r (y1 * r (x - x0)))) (r (x1 - x0))).map r

/-- One queried time (applanix_sbet_nav.py:60-72, 92-108) in float arithmetic; the search compares and does not
round. -/
def interpAtR (r : K → K) (times col : List K) (t : K) : Py (Option K) := do
  let right : Int := (Nav.searchLeft times t : Int)
  let left : Int := right - 1
  let x0 ← Nav.gather times left
  let x1 ← Nav.gather times right
  let y0 ← Nav.gather col left
  let y1 ← Nav.gather col right
  .ok (linearInterpR r t x0 x1 y0 y1)

/-- The queried times one after the other, in float arithmetic (applanix_sbet_nav.py:92-186). -/
def interpAllR (r : K → K) (times col : List K) : List K → Py (List (Option K))
  | [] => .ok []
  | t :: ts => do
    let v ← interpAtR r times col t
    let vs ← interpAllR r times col ts
    .ok (v :: vs)

/-- A native getter on a vector of times, in float arithmetic (applanix_sbet_nav.py:92-186). -/
def nativeR (r : K → K) (times col : List K) (q : List K) : Py (Option (List (Option K))) := do
  let b ← Nav.inRange times q
  if b then do
    let vs ← interpAllR r times col q
    .ok (some vs)
  else .ok none

/-- `get_nx_ny_pixels_in_extent` (photogrammetry_utils.py:67-81) in float arithmetic. -/
def pixelsInExtentR (r : K → K) (pts : List (K × K)) (gsdX gsdY : K) : Py (Int × Int) :=
  match pts with
  | [] => .error .valueError
  | p :: ps =>
    let width := r (Grids.lmax p.1 (ps.map Prod.fst) - Grids.lmin p.1 (ps.map Prod.fst))
    let height := r (Grids.lmax p.2 (ps.map Prod.snd) - Grids.lmin p.2 (ps.map Prod.snd))
    if gsdX = 0 ∨ gsdY = 0 then .error .zeroDivision
    else .ok (Grids.pyInt (r (width / gsdX)), Grids.pyInt (r (height / gsdY)))

/-! ### Time -/

/-- `utc_timestamp_to_gps_timestamp` (time_utils.py:54-57) in float arithmetic; the leap second offset is a whole
number and the table search only compares. -/
def utcToGpsR (r : K → K) (z : K → K) (t : K) : Py K := do
  let o ← Nav.gpsOffset z t
  .ok (r (r (t - r (Nav.gpsEpoch z - Nav.unixEpoch z)) + o))

/-- `gps_timestamp_to_utc_timestamp` (time_utils.py:60-63) in float arithmetic. -/
def gpsToUtcR (r : K → K) (z : K → K) (g : K) : Py K := do
  let u := r (g + r (Nav.gpsEpoch z - Nav.unixEpoch z))
  let o ← Nav.gpsOffset z u
  .ok (r (u - o))

/-- `utc_timestamp_to_gps_week_and_seconds` (time_utils.py:66-73) in float arithmetic. -/
def gpsWeekR (r : K → K) (z : K → K) (t : K) : Py (Int × K) := do
  let g ← utcToGpsR r z t
  let weeks := r (g / 604800)
  .ok (⌊weeks⌋, r (r (r (weeks - ⌊weeks⌋) * 7) * 86400))

/-! ### Geotransforms -/

/-- `_pixel_x_y_alt_to_lon_lat_native` (geotiff_point_calc.py:113-130) in float arithmetic. -/
def pixelToWorldR (r : K → K) (g : Geotiff.GeoT K) (x y : K) : K × K :=
  (r (r (g.g0 + r (x * g.g1)) + r (y * g.g2)), r (r (g.g3 + r (x * g.g4)) + r (y * g.g5)))

/-- `_lon_lat_alt_to_pixel_x_y_native` (geotiff_point_calc.py:93-111) in float arithmetic, with the inverse
geotransform `i`. -/
def worldToPixelR (r : K → K) (i : Geotiff.GeoT K) (lon lat : K) : K × K :=
  (r (r (i.g0 + r (i.g1 * lon)) + r (i.g2 * lat)), r (r (i.g3 + r (i.g4 * lon)) + r (i.g5 * lat)))

/-- `gdal.InvGeoTransform` (called at geotiff_point_calc.py:56) of a north-up geotransform, in float arithmetic:
GDAL's special case for `geo_t[2] = geo_t[4] = 0` and non-zero pixel sizes.  Rotated geotransforms are not
modelled in float arithmetic. -/
def invNorthUpR (r : K → K) (g : Geotiff.GeoT K) : Geotiff.GeoT K :=
  ⟨r (-g.g0 / g.g1), r (1 / g.g1), 0, r (-g.g3 / g.g5), 0, r (1 / g.g5)⟩

/-! ### Ground grid -/

/-- One axis of `create_ground_grid` (photogrammetry_utils.py:56-61): fraction `k / n` of the extent, in float
arithmetic. -/
def axisR (r : K → K) (lo hi : K) (n k : Nat) : K := r (r (r (r (k : K) / r (n : K)) * r (hi - lo)) + lo)

/-- `create_ground_grid` (photogrammetry_utils.py:49-64) in float arithmetic.  `(j - npix_y) * -1` is an exact
integer. -/
def groundGridR (r : K → K) (minX maxX minY maxY : K) (nx ny : Nat) : Py (A2 K × A2 K) :=
  let gx : Nat → K := axisR r minX maxX nx
  let gy : Nat → K := fun j => axisR r minY maxY ny (ny - j)
  if ny = 0 ∨ nx < 2 then .error .indexError
  else if ny < 2 then .error .indexError
  else
    let xGsd := |r (gx 1 - gx 0)|
    let yGsd := |r (gy 0 - gy 1)|
    .ok (⟨ny, nx, fun _ i => r (gx i + r (xGsd / 2))⟩, ⟨ny, nx, fun j _ => r (gy j - r (yGsd / 2))⟩)

end

end Verif.Rounded
