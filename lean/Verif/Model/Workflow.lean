import Verif.Model.Ortho
import Verif.Model.PointCalc
import Verif.Model.Readers

/-! Models of the calls that chain the others: `pixel_x_y_alt_to_lon_lat`, `create_full_ortho_gtiff_image`, `create_igm_image`, the camera
simulator's images, and the small geometry, projection and file helpers of `/repo/resippy/utils`. -/

namespace Verif.Workflow
open Verif ImageUtils Geotiff Grids Ortho

section
variable {K : Type} [Field K] [LinearOrder K] [IsStrictOrderedRing K]

/-- The native position (abstract_earth_overhead_point_calc.py:165-174): the calculator's own answer, or else the solver's. -/
def nativeOrSolve (native : K → K → K → Option (K × K)) (solve : K → K → K → Py (K × K)) (x y alt : K) : Py (K × K) :=
  match native x y alt with
  | some p => .ok p
  | none => solve x y alt

/-- `pixel_x_y_alt_to_lon_lat` (abstract_earth_overhead_point_calc.py:140-180) for one pixel: `native` is the calculator's own answer (`None` for
"not implemented"), `solve` the iterative solver, `T = none` when the two projections have the same `srs`, otherwise pyproj's two-dimensional
transform from the native to the world projection. -/
def pixelToWorld (native : K → K → K → Option (K × K)) (solve : K → K → K → Py (K × K)) (T : Option (K → K → K × K))
    (x y alt : K) : Py (K × K) := do
  let p ← nativeOrSolve native solve x y alt
  match T with
  | none => .ok p
  | some t => .ok (t p.1 p.2)

/-! ### Full orthorectification -/

/-- `int(d / gsd)` of a numpy number (ortho_tools.py:141-142): a division by zero gives infinity or NaN, which `int` rejects (OverflowError; for
0/0 a ValueError). -/
def pixelCount [FloorRing K] (d gsd : K) : Py Int :=
  if gsd = 0 then (if d = 0 then .error .valueError else .error .overflow) else .ok (pyInt (d / gsd))

/-- The size of the full ortho image (ortho_tools.py:138-142) for an extent with the given bounds. -/
def fullSize [FloorRing K] (b : Box K) (gsd : K) : Py (Int × Int) := do
  let nx ← pixelCount |b.maxX - b.minX| gsd
  let ny ← pixelCount |b.maxY - b.minY| gsd
  .ok (nx, ny)

/-- `create_full_ortho_gtiff_image` (ortho_tools.py:113-156) once the extent's bounds and the ground sample distance are known.  A negative count
gives an empty `mgrid`, as zero does. -/
def fullOrtho [FloorRing K] (resample : A2 K → K → K → K) (s : Source K) (ext : Box K) (dem : K → K → K)
    (bands : Option (List Nat)) (nodata gsd : K) : Py (A3 K) := do
  let n ← fullSize ext gsd
  ortho resample s n.1.toNat n.2.toNat ext dem bands nodata false

end

/-- The default ground sample distance (ortho_tools.py:123-136): `p0`, `p1`, `p2` are the first pixel, the last of its row and the last of its
column in local metres. -/
noncomputable def defaultGsd (nx ny : Nat) (p0 p1 p2 : ℝ × ℝ) : Py ℝ :=
  let dx := Real.sqrt ((p1.1 - p0.1) ^ 2 + (p1.2 - p0.2) ^ 2)
  let dy := Real.sqrt ((p2.1 - p0.1) ^ 2 + (p2.2 - p0.2) ^ 2)
  if nx = 0 ∨ ny = 0 then .error .zeroDivision
  else .ok ((dx / nx + dy / ny) / 2)

section
variable {K : Type} [Field K] [LinearOrder K] [IsStrictOrderedRing K]

/-! ### IGM images -/

/-- Image data in memory: none, a two-dimensional array, or a cube (ortho_tools.py:104-108). -/
inductive Data (K : Type) where
  | none
  | flat (a : A2 K)
  | cube (a : A3 K)

/-- An `IgmImage` (igm_image.py:10-26). -/
structure IgmImg (K : Type) where
  data : A3 K
  igm : Igm K
  nx : Nat
  ny : Nat
  nb : Nat

/-- `create_igm_image` (ortho_tools.py:92-110) with `IgmImage.from_params` (igm_image.py:11-26): `cast x y` is the ray caster's answer for the grid of
pixels.  `get_image_data().shape[2]` is an AttributeError without data, an IndexError for two dimensions. -/
def createIgm [FloorRing K] (npixX npixY : Nat) (cast : A2 K → A2 K → Py (A2 K × A2 K × A2 K)) (data : Data K) : Py (IgmImg K) := do
  let grid ← createPixelGrid npixX npixY (1 : K)
  let r ← cast grid.1 grid.2
  match data with
  | .none => .error .attributeError
  | .flat _ => .error .indexError
  | .cube c => do
    let g ← mkIgm r.1 r.2.1 (.array r.2.2)
    .ok ⟨c, g, r.1.nx, r.1.ny, c.nb⟩

/-! ### Simulated images -/

/-- `create_overhead_image_object` (physical_camera_simulator.py:119-151) with the camera and the band known: `ground x y alt` is the camera's
`pixel_x_y_alt_to_lon_lat`, `geo lon lat` the geotiff's `lon_lat_alt_to_pixel_x_y` at altitude 0 **in its own projection**, `resample img y x` is
`map_coordinates` of one point.  Result: image data. -/
def simulate [FloorRing K] (ground : K → K → K → K × K) (geo : K → K → K × K) (resample : A2 K → K → K → K) (band : A2 K)
    (npixX npixY : Nat) : Py (A3 K) := do
  let grid ← createPixelGrid npixX npixY (1 : K)
  let p : Nat → Nat → K × K := fun j i =>
    let g := ground (grid.1.px j i) (grid.2.px j i) (grid.1.px j i * 0)
    geo g.1 g.2
  let fy := flattenBand (⟨grid.1.ny, grid.1.nx, fun j i => (p j i).2⟩ : A2 K)
  let fx := flattenBand (⟨grid.1.ny, grid.1.nx, fun j i => (p j i).1⟩ : A2 K)
  let r ← unflattenBand ⟨fy.n, fun k => resample band (fy.px k) (fx.px k)⟩ npixX npixY
  .ok ⟨r.ny, r.nx, 1, fun y x _ => r.px y x⟩

/-- Calls of the simulator's owner: the file on disk is written anew, or an image is made with a camera
(physical_camera_simulator.py:133-134). -/
inductive SimOp (K : Type) where
  | write (band : A2 K)
  | image (ground : K → K → K → K × K)

/-- The band on disk and the band the simulator keeps (physical_camera_simulator.py:53, 133-134). -/
structure SimState (K : Type) where
  disk : A2 K
  kept : Option (A2 K)

/-- The band used for an image, and the state afterwards (physical_camera_simulator.py:133-134). -/
def SimState.use (s : SimState K) : A2 K × SimState K :=
  match s.kept with
  | some b => (b, s)
  | none => (s.disk, { s with kept := some s.disk })

/-- One call (physical_camera_simulator.py:119-151). -/
def simStep [FloorRing K] (geo : K → K → K × K) (resample : A2 K → K → K → K) (npixX npixY : Nat) (s : SimState K) :
    SimOp K → SimState K × Option (Py (A3 K))
  | .write b => ({ s with disk := b }, none)
  | .image ground => (s.use.2, some (simulate ground geo resample s.use.1 npixX npixY))

/-- A history of calls: the state after it (physical_camera_simulator.py:119-151). -/
def simRun [FloorRing K] (geo : K → K → K × K) (resample : A2 K → K → K → K) (npixX npixY : Nat) (s : SimState K) :
    List (SimOp K) → SimState K
  | [] => s
  | o :: os => simRun geo resample npixX npixY (simStep geo resample npixX npixY s o).1 os

/-! ### Geometry and projection helpers -/

/-- `shift_points_by_meters` (photogrammetry_utils.py:24-34) for one point: `fwd` and `back` are pyproj's transforms to and from EPSG:3857. -/
def shiftPoint (fwd back : K × K → K × K) (east north : K) (p : K × K) : K × K :=
  let m := fwd p
  back (m.1 + east, m.2 + north)

/-- `bounds_2_shapely_polygon` (geom_utils.py:7-14): the bounds of the envelope of the two points, in the order of the arguments. -/
def boundsPolygon (minX maxX maxY minY : K) : Box K :=
  let p : K × K := (minX, maxY)
  let q : K × K := (maxX, minY)
  ⟨min p.1 q.1, min p.2 q.2, max p.1 q.1, max p.2 q.2⟩

/-- `utm`'s latitude bands: `"CDEFGHJKLMNPQRSTUVWXX"[int(latitude + 80) >> 3]` for -80 ≤ latitude ≤ 84 (called at proj_utils.py:31); outside, an
OutOfRangeError (a ValueError). -/
def utmLetter [FloorRing K] (lat : K) : Py Char :=
  if -80 ≤ lat ∧ lat ≤ 84 then
    match "CDEFGHJKLMNPQRSTUVWXX".toList[(pyInt (lat + 80) / 8).toNat]? with
    | some c => .ok c
    | none => .error .indexError
  else .error .valueError

/-- The `south` flag of the local UTM projection (proj_utils.py:28-36). -/
def utmSouth [FloorRing K] (lat : K) : Py Bool := do
  let c ← utmLetter lat
  .ok (decide (c < 'N'))

end

/-! ### P matrices -/

open Envi TextUtils Readers in
/-- One line of a P-matrix file (pix4d_utils.py:17-21): file name and numbers. -/
def pLine (pf : Str → Option ℚ) (ls line : Str) : Py (Str × List ℚ) :=
  match splitOn ' ' (removeNewlines ls (strip line)) with
  | [] => .error .indexError
  | name :: nums => do
    let v ← nums.mapM (toFloat pf)
    .ok (name, v)

open Envi TextUtils Readers in
/-- `read_p_matrices` (pix4d_utils.py:11-23). -/
def readP (pf : Str → Option ℚ) (ls file : Str) : Py (Dict (List ℚ)) := do
  let rows ← (readlines (decodeText file)).mapM (pLine pf ls)
  .ok (rows.foldl (fun d r => setKey d r.1 r.2) [])

/-! ### Principal components -/

/-- Mean of a column of a two-dimensional array (scikit-learn's `mean_`).  Used for `cubePca`, spectral_image_processing_2d.py:23-27. -/
def colMean {K : Type} [Field K] (a : A2 K) (b : Nat) : K := ((List.range a.ny).map (fun k => a.px k b)).sum / (a.ny : K)

/-- `compute_image_cube_pca` (spectral_image_processing_2d.py:11-29): `fit` is scikit-learn's `fit_transform`, one row per row of the input.  With
`copy=False` scikit-learn subtracts the mean in place; `inPlace` says that `reshape` gave a view of floating-point data, so that this happens to
the caller's image.  Result: components, and the caller's image afterwards. -/
def cubePca {K : Type} [Field K] (fit : A2 K → A2 K) (inPlace : Bool) (img : A3 K) : Py (A3 K × A3 K) :=
  let flat : A2 K := ⟨img.ny * img.nx, img.nb, fun k b => img.px (k / img.nx) (k % img.nx) b⟩
  let t := fit flat
  let after : A3 K := if inPlace then ⟨img.ny, img.nx, img.nb, fun y x b => img.px y x b - colMean flat b⟩ else img
  if t.ny = img.ny * img.nx then .ok (⟨img.ny, img.nx, t.nx, fun y x b => t.px (y * img.nx + x) b⟩, after) else .error .valueError

end Verif.Workflow
