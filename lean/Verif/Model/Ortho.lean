import Verif.Model.Grids
import Mathlib.Analysis.Real.Sqrt

/-! Model of `/repo/resippy/photogrammetry/ortho_tools.py` and of the DEM classes in
`/repo/resippy/photogrammetry/dem/`.

Point calculators act element by element (see C16), so a projection is a function of one point. -/

namespace Verif.Ortho
open Verif ImageUtils Geotiff Grids

section
variable {K : Type} [Field K] [LinearOrder K] [IsStrictOrderedRing K]

/-! ### Orthorectification -/

/-- What the orthorectifier uses of an image object.
`cast` is the conversion to the dtype of the image data (`astype`, and assignment into such an
array). Used for `orthoBandSeparate`, ortho_tools.py:206-219. -/
structure Source (K : Type) where
  /-- `get_npix_x()` of the metadata -/
  npixX : Nat
  /-- `get_npix_y()` of the metadata -/
  npixY : Nat
  /-- `get_n_bands()` of the metadata -/
  nBands : Nat
  /-- `bands_coregistered()` of the point calculator -/
  coregistered : Bool
  /-- the image data in memory, `None` when not loaded -/
  loaded : Option (A3 K)
  /-- `read_band_from_disk` -/
  disk : Nat → Py (A2 K)
  /-- `lon_lat_alt_to_pixel_x_y` of one point, per band -/
  project : Nat → K → K → K → K × K
  cast : K → K

/-- `scipy.ndimage.map_coordinates(img, [y, x], order=0)` at one point, scipy's defaults
`mode='constant', cval=0`: 0 outside, otherwise the nearest pixel, `floor(c + 1/2)`.
See ortho_tools.py:212, 229. -/
def mapCoord0 [FloorRing K] (img : A2 K) (y x : K) : K :=
  if y < 0 ∨ (img.ny : K) - 1 < y ∨ x < 0 ∨ (img.nx : K) - 1 < x then 0
  else img.px (⌊y + 1 / 2⌋).toNat (⌊x + 1 / 2⌋).toNat

/-- Flatten the pixel grids, resample, unflatten, convert (ortho_tools.py:212-218 and 229-236).
`resample img y x` is `map_coordinates(img, [y, x], order=spline_order)`. -/
def regrid (resample : A2 K → K → K → K) (cast : K → K) (img : A2 K) (py px : A2 K) (nx ny : Nat) :
    Py (A2 K) := do
  let fy := flattenBand py
  let fx := flattenBand px
  let r ← unflattenBand ⟨fy.n, fun k => resample img (fy.px k) (fx.px k)⟩ nx ny
  .ok ⟨r.ny, r.nx, fun j i => cast (r.px j i)⟩

/-- `regridded[np.where(cond)] = nodata_val`. Used for `orthoBandShared`, ortho_tools.py:221-243. -/
def setWhere (r : A2 K) (cond : Nat → Nat → Bool) (v : K) : A2 K :=
  ⟨r.ny, r.nx, fun j i => if cond j i then v else r.px j i⟩

/-- `get_image_band` (abstract_image.py:80-89) on the data in memory: subscripting `None` raises
TypeError, a band past the end IndexError. -/
def getBand (loaded : Option (A3 K)) (b : Nat) : Py (A2 K) :=
  match loaded with
  | none => .error .typeError
  | some c => if b < c.nb then .ok ⟨c.ny, c.nx, fun y x => c.px y x b⟩ else .error .indexError

/-- One band when bands are not co-registered (ortho_tools.py:206-219). -/
def orthoBandSeparate (resample : A2 K → K → K → K) (s : Source K) (gx gy alts : A2 K) (nx ny b : Nat) :
    Py (A2 K) := do
  let p : Nat → Nat → K × K := fun j i => s.project b (gx.px j i) (gy.px j i) (alts.px j i)
  let img ← s.disk b
  regrid resample s.cast img ⟨gx.ny, gx.nx, fun j i => (p j i).2⟩ ⟨gx.ny, gx.nx, fun j i => (p j i).1⟩ nx ny

/-- One band when bands are co-registered (ortho_tools.py:221-243): the projection of band 0. -/
def orthoBandShared (resample : A2 K → K → K → K) (s : Source K) (gx gy alts : A2 K) (nx ny : Nat)
    (nodata : K) (b : Nat) : Py (A2 K) := do
  let p : Nat → Nat → K × K := fun j i => s.project 0 (gx.px j i) (gy.px j i) (alts.px j i)
  let img ← getBand s.loaded b
  let r ← regrid resample s.cast img ⟨gx.ny, gx.nx, fun j i => (p j i).2⟩ ⟨gx.ny, gx.nx, fun j i => (p j i).1⟩ nx ny
  let r := setWhere r (fun j i => decide ((p j i).1 ≤ 0)) (s.cast nodata)
  let r := setWhere r (fun j i => decide ((s.npixX : K) - 2 ≤ (p j i).1)) (s.cast nodata)
  let r := setWhere r (fun j i => decide ((p j i).2 ≤ 0)) (s.cast nodata)
  let r := setWhere r (fun j i => decide ((s.npixY : K) - 2 ≤ (p j i).2)) (s.cast nodata)
  .ok r

/-- `for band in bands: images.append(...)`. Used for `ortho`, ortho_tools.py:178-248. -/
def collect {A : Type} (f : Nat → Py A) : List Nat → Py (List A)
  | [] => .ok []
  | b :: bs => do
    let a ← f b
    let as ← collect f bs
    .ok (a :: as)

/-- `np.stack(images, axis=2)` (ortho_tools.py:245): ValueError for no images. -/
def stack2 (nx ny : Nat) (l : List (A2 K)) : Py (A3 K) :=
  if l = [] then .error .valueError
  else .ok ⟨ny, nx, l.length, fun y x b => match l[b]? with
    | some a => a.px y x
    | none => 0⟩

/-- `mask_image` (ortho_tools.py:158-175): no band 0 raises IndexError.  `cast` is the conversion to the
dtype of the image. -/
def maskImage (cast : K → K) (img : A3 K) (nodata : K) : Py (A3 K) :=
  if img.nb = 0 then .error .indexError
  else
    let layer : Nat → Nat → K := fun y x => img.px y x 0
    let alpha : Nat → Nat → K := fun y x =>
      if layer y x = nodata then cast 0 else cast 255
    .ok ⟨img.ny, img.nx, img.nb + 1, fun y x b => if b < img.nb then img.px y x b else alpha y x⟩

/-- The image data of `create_ortho_gtiff_image_world_to_sensor` (ortho_tools.py:178-248); `dem x y` is
the elevation at one ground point, `bands = none` means all of them.  The geotransform attached to it
is `polyToGeoT`. -/
def ortho (resample : A2 K → K → K → K) (s : Source K) (nx ny : Nat) (ext : Box K) (dem : K → K → K)
    (bands : Option (List Nat)) (nodata : K) (mask : Bool) : Py (A3 K) := do
  let (gx, gy) ← groundGrid ext.minX ext.maxX ext.minY ext.maxY nx ny
  let alts : A2 K := ⟨gx.ny, gx.nx, fun j i => dem (gx.px j i) (gy.px j i)⟩
  let bands := bands.getD (List.range s.nBands)
  let images ←
    if s.coregistered then collect (orthoBandShared resample s gx gy alts nx ny nodata) bands
    else collect (orthoBandSeparate resample s gx gy alts nx ny) bands
  let im ← stack2 nx ny images
  if mask then maskImage s.cast im nodata else .ok im

/-! ### Extent -/

/-- The pixels of `get_extent` (ortho_tools.py:340-345): top row, right column, bottom row, left column
of the `meshgrid`; `xx[:, -1]` raises IndexError for an empty image. -/
def extentPixels (nx ny : Nat) : Py (List (Nat × Nat)) :=
  if nx = 0 ∨ ny = 0 then .error .indexError
  else
    let xx : Nat → Nat → Nat := fun _ i => i
    let yy : Nat → Nat → Nat := fun j _ => j
    let border : (Nat → Nat → Nat) → List Nat := fun a =>
      (List.range nx).map (fun i => a 0 i) ++ (List.range ny).map (fun j => a j (nx - 1)) ++
      (List.range nx).map (fun i => a (ny - 1) i) ++ (List.range ny).map (fun j => a j 0)
    .ok ((border xx).zip (border yy))

/-- `get_pixel_lon_lats` (ortho_tools.py:62-89) for one pixel: `toLonLat x y alt` is the point
calculator, `dem` the elevation, `highest` its highest altitude. -/
def pixelLonLat (toLonLat : K → K → K → K × K) (dem : K → K → K) (highest : K) (x y : K) : K × K :=
  let p := toLonLat x y highest
  let altDiff := highest - dem p.1 p.2
  toLonLat x y (highest - altDiff)

/-- The points whose convex hull `get_extent` takes (ortho_tools.py:346-373): band 0 only when the
bands are co-registered, otherwise every band. -/
def extentPoints (toLonLat : Nat → K → K → K → K × K) (dem : K → K → K) (highest : K) (coregistered : Bool)
    (bands : List Nat) (nx ny : Nat) : Py (List (K × K)) := do
  let px ← extentPixels nx ny
  let one : Nat → List (K × K) := fun b => px.map (fun p => pixelLonLat (toLonLat b) dem highest (p.1 : K) (p.2 : K))
  .ok (if coregistered then one 0 else bands.flatMap one)

/-! ### Obstruction -/

/-- `are_pixels_obstructed_by_dem` (ortho_tools.py:379-413) for 1-D arrays of equal length; `alts` is
`None` or given.  `castPix` is the conversion to the dtype of `pixels_x` (the array `highest_alts` has
that dtype, line 392).  `np.sqrt(np.square(a))` is `|a|`.  `np.arange(1, n)` for a float `n` is `1, 2, ...`
below `n`.  A zero resolution (which raises) is not modelled.  Result: the mask. -/
def obstructed [FloorRing K] (n : Nat) (toLonLat : K → K → K → K × K) (dem : K → K → K) (highest : K) (castPix : K → K)
    (px py lons lats : Nat → K) (alts : Option (Nat → K)) (resolution : K) : Py (Nat → Bool) :=
  let highestAlts : Nat → K := fun _ => castPix (highest + 1 / 1000)
  let alts : Nat → K := alts.getD (fun k => dem (lons k) (lats k))
  let hi : Nat → K × K := fun k => toLonLat (px k) (py k) (highestAlts k)
  let lonDiff : Nat → K := fun k => lons k - (hi k).1
  let latDiff : Nat → K := fun k => lats k - (hi k).2
  let horizontal : Nat → K := fun k => |lonDiff k + latDiff k|
  let vertical : Nat → K := fun k => highestAlts k - alts k
  match ((List.range n).map horizontal).max? with
  | none => .error .valueError
  | some mx =>
    let nSteps := mx / resolution
    let steps := (List.range (⌈nSteps - 1⌉).toNat).map (fun (i : Nat) => 1 + (i : K))
    .ok (fun k => steps.any (fun step =>
      decide (alts k + vertical k * step / nSteps <
        dem (lons k + lonDiff k * step / nSteps) (lats k + latDiff k * step / nSteps))))

/-! ### Pixel values -/

/-- `np.round`: to the nearest integer, halves to the even one.
Used for `pixelValue`, ortho_tools.py:37-56. -/
def npRound [FloorRing K] (x : K) : Int :=
  let f := ⌊x⌋
  if x - f < 1 / 2 then f
  else if 1 / 2 < x - f then f + 1
  else if f % 2 = 0 then f else f + 1

/-- One point and band of `get_pixel_values` (ortho_tools.py:37-56): mean over a Python slice of the
pixels different from the no-data value (`!= None` is true everywhere); the mean of none is NaN,
here `none`. -/
def pixelValue [FloorRing K] (img : A2 K) (nodata : Option K) (window : K) (x y : K) : Option K :=
  let wh := npRound (window / 2)
  let cx := npRound x
  let cy := npRound y
  let y0 := pyBound img.ny (cy - wh)
  let y1 := pyBound img.ny (cy + wh)
  let x0 := pyBound img.nx (cx - wh)
  let x1 := pyBound img.nx (cx + wh)
  let good := npWhere (y1 - y0) (x1 - x0) (fun r c => decide (some (img.px (y0 + r) (x0 + c)) ≠ nodata))
  if good = [] then none
  else some ((good.map (fun p => img.px (y0 + p.1) (x0 + p.2))).sum / (good.length : K))

/-! ### DEMs -/

/-- A query to a DEM: a number, a vector or an image of points.
Used for `constElevations`, constant_elevation_dem.py:13-18. -/
inductive Query (K : Type) where
  | num (x y : K)
  | d1 (x y : A1 K)
  | d2 (x y : A2 K)

/-- An answer: number (zero-dimensional array), vector or image.
Used for `constElevations`, constant_elevation_dem.py:13-18. -/
inductive Answer (V : Type) where
  | num (v : V)
  | d1 (a : A1 V)
  | d2 (a : A2 V)

/-- `ConstantElevationDem.get_elevations` (constant_elevation_dem.py:13-18). -/
def constElevations (e : K) : Query K → Answer K
  | .num _ _ => .num (0 + e)
  | .d1 x _ => .d1 ⟨x.n, fun _ => 0 + e⟩
  | .d2 x _ => .d2 ⟨x.ny, x.nx, fun _ _ => 0 + e⟩

/-- `get_highest_alt`, `get_lowest_alt`, `get_mean_alt` (constant_elevation_dem.py:20-27). -/
def constAlts (e : K) : K × K × K := (e, e, e)

/-- `ndarray.astype(int)`: truncation toward zero. Used for `demNearest`, geotiff_dem.py:101-104. -/
def toInt [FloorRing K] (x : K) : Int := pyInt x

/-- `np.clip(i, a_min=0, a_max=n-1)` = `minimum(maximum(i, 0), n - 1)`.
Used for `demNearest`, geotiff_dem.py:101-104. -/
def clipIdx (i : Int) (n : Nat) : Int := min (max i 0) ((n : Int) - 1)

/-- One entry of the DEM raster at clipped indices.  An empty raster clips to -1 and raises
IndexError.  `np.squeeze` (geotiff_dem.py:76) turns a raster of one row or one column into a vector
(or a number), so that indexing it with two indices raises IndexError. -/
def demCell {V : Type} (dem : A2 V) (y x : Int) : Py V := do
  if dem.ny = 1 ∨ dem.nx = 1 then .error .indexError
  let i ← pyIdx dem.ny y
  let j ← pyIdx dem.nx x
  .ok (dem.px i j)

/-- Nearest interpolation of one point (geotiff_dem.py:101-104) at pixel coordinates `(x, y)`. -/
def demNearest {V : Type} [FloorRing K] (dem : A2 V) (x y : K) : Py V :=
  demCell dem (clipIdx (toInt y) dem.ny) (clipIdx (toInt x) dem.nx)

/-- `GeotiffDem.get_elevations` of one world point with nearest interpolation (geotiff_dem.py:79-104):
`c` is the point calculator of the DEM's geotiff, whose pixel counts are those of the raster. -/
def geotiffDemNearest {V : Type} [FloorRing K] (c : Calc K) (dem : A2 V) (lon lat : K) : Py V := do
  let p ← c.worldToPixel lon lat
  demNearest dem p.1 p.2

/-- `get_highest_alt` (geotiff_dem.py:142-143) of a raster without NaN; ValueError for an empty one. -/
def demHighest (dem : A2 K) : Py K := npMax dem
/-- `get_lowest_alt` (geotiff_dem.py:145-146). -/
def demLowest (dem : A2 K) : Py K := npMin dem

end

/-- Bilinear interpolation of one point (geotiff_dem.py:105-131), over the reals because of `np.sqrt`.
`np.average` raises ZeroDivisionError when the weights sum to zero. -/
noncomputable def demBilinear (dem : A2 ℝ) (x y : ℝ) : Py ℝ := do
  let x1 := clipIdx (toInt x) dem.nx
  let y1 := clipIdx (toInt y) dem.ny
  let x2 := clipIdx ⌈x⌉ dem.nx
  let y2 := clipIdx ⌈y⌉ dem.ny
  let e11 ← demCell dem y1 x1
  let e12 ← demCell dem y1 x2
  let e21 ← demCell dem y2 x1
  let e22 ← demCell dem y2 x2
  let dx1 := x - x1
  let dx2 := x2 - x
  let dy1 := y - y1
  let dy2 := y2 - y
  let w11 := Real.sqrt (dy1 * dy1 + dx1 * dx1)
  let w12 := Real.sqrt (dy1 * dy1 + dx2 * dx2)
  let w21 := Real.sqrt (dy2 * dy2 + dx1 * dx1)
  let w22 := Real.sqrt (dy2 * dy2 + dx2 * dx2)
  if w11 + w12 + w21 + w22 = 0 then .error .zeroDivision
  else .ok ((e11 * w11 + e12 * w12 + e21 * w21 + e22 * w22) / (w11 + w12 + w21 + w22))

/-- A vector query with bilinear interpolation (geotiff_dem.py:82-139): one `np.average` over the whole
batch, so a single zero weight sum raises for all points. -/
noncomputable def demBilinearVec (dem : A2 ℝ) : List (ℝ × ℝ) → Py (List ℝ)
  | [] => .ok []
  | p :: ps => do
    let e ← demBilinear dem p.1 p.2
    let es ← demBilinearVec dem ps
    .ok (e :: es)

end Verif.Ortho
