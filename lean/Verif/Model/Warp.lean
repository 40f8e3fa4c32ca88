import Verif.Model.Ortho
import Verif.Model.Images
import Verif.Model.DemObject

/-! Model of the resampling with scikit-image (`/repo/resippy/utils/image_utils/image_utils.py`,
`/repo/resippy/photogrammetry/ortho_tools.py`) and of the warping of geotiffs with GDAL
(`/repo/resippy/image_objects/earth_overhead/geotiff/geotiff_image.py`, `/repo/resippy/photogrammetry/dem/geotiff_dem.py`). -/

namespace Verif.Warp
open Verif ImageUtils Geotiff Grids Ortho Images

/-! ### Resampling one band -/

/-- The spline order of an interpolation name (image_utils.py:36-49). -/
def splineOrder (name : Str) : Py Nat :=
  if name = "nearest".toList then .ok 0
  else if name = "bilinear".toList then .ok 1
  else if name = "biquadratic".toList then .ok 2
  else if name = "bicubic".toList then .ok 3
  else if name = "biquartic".toList then .ok 4
  else if name = "biquintic".toList then .ok 5
  else .error .valueError

section
variable {K : Type} [Field K] [LinearOrder K] [IsStrictOrderedRing K] [FloorRing K]

/-- One value of `scipy.ndimage.map_coordinates(img, [y, x], order, mode='constant', cval)`: `cval` outside the image, the nearest pixel for
order 0, otherwise the spline, which is a parameter. Used for `warpPixel`, image_utils.py:51-52. -/
def mapCoord (spline : Nat → A2 K → K → K → K) (order : Nat) (img : A2 K) (cval y x : K) : K :=
  if y < 0 ∨ (img.ny : K) - 1 < y ∨ x < 0 ∨ (img.nx : K) - 1 < x then cval
  else if order = 0 then img.px (⌊y + 1 / 2⌋).toNat (⌊x + 1 / 2⌋).toNat
  else spline order img y x

/-- `np.clip(v, lo, hi)`. Used for `warpPixel`, image_utils.py:51-52. -/
def clip (lo hi v : K) : K := min (max v lo) hi

/-- One output pixel of `skimage.transform.warp(img, coords, mode='constant', cval=cval, order=order)` (image_utils.py:51-52): for a spline the
result is clipped to the range of the input image; pixels that hold `cval` keep it when it is outside that range. -/
def warpPixel (spline : Nat → A2 K → K → K → K) (order : Nat) (img : A2 K) (lo hi cval y x : K) : K :=
  let v := mapCoord spline order img cval y x
  if order = 0 then v
  else if lo ≤ cval ∧ cval ≤ hi then clip lo hi v
  else if v = cval then cval
  else clip lo hi v

/-- `grid_warp_image_band` (image_utils.py:29-54).  The two coordinate arrays must have one shape (`np.array` of different shapes is a ragged
array, taken as ValueError); the minimum of an empty image is a ValueError. -/
def gridWarp (spline : Nat → A2 K → K → K → K) (img xs ys : A2 K) (nodata : K) (name : Str) : Py (A2 K) := do
  if xs.ny = ys.ny ∧ xs.nx = ys.nx then
    let order ← splineOrder name
    if order = 0 then .ok ⟨ys.ny, ys.nx, fun j i => warpPixel spline 0 img 0 0 nodata (ys.px j i) (xs.px j i)⟩
    else do
      let lo ← npMin img
      let hi ← npMax img
      .ok ⟨ys.ny, ys.nx, fun j i => warpPixel spline order img lo hi nodata (ys.px j i) (xs.px j i)⟩
  else .error .valueError

/-! ### Orthorectification with it -/

/-- The source of one band (ortho_tools.py:289, 301): from disk, or from memory when the bands share a projection. -/
def backupSource (s : Source K) (b : Nat) : Py (A2 K) := if s.coregistered then getBand s.loaded b else s.disk b

/-- One band of `create_ortho_gtiff_image_world_to_sensor_backup` (ortho_tools.py:285-308): when the bands are not co-registered the band's own
projection and the band read from disk, otherwise the projection of band 0 and the band in memory (`get_image_band` never returns
None, so the fallback of line 302 is not reached). -/
def backupBand (spline : Nat → A2 K → K → K → K) (s : Source K) (gx gy alts : A2 K) (nodata : K) (name : Str) (b : Nat) : Py (A2 K) := do
  let pb := if s.coregistered then 0 else b
  let p : Nat → Nat → K × K := fun j i => s.project pb (gx.px j i) (gy.px j i) (alts.px j i)
  let img ← backupSource s b
  let r ← gridWarp spline img ⟨gx.ny, gx.nx, fun j i => (p j i).1⟩ ⟨gx.ny, gx.nx, fun j i => (p j i).2⟩ nodata name
  .ok ⟨r.ny, r.nx, fun j i => s.cast (r.px j i)⟩

/-- The image data of `create_ortho_gtiff_image_world_to_sensor_backup` (ortho_tools.py:258-318); the parameters are those of `Ortho.ortho`. -/
def orthoBackup (spline : Nat → A2 K → K → K → K) (s : Source K) (nx ny : Nat) (ext : Box K) (dem : K → K → K)
    (bands : Option (List Nat)) (nodata : K) (name : Str) (mask : Bool) : Py (A3 K) := do
  let (gx, gy) ← groundGrid ext.minX ext.maxX ext.minY ext.maxY nx ny
  let alts : A2 K := ⟨gx.ny, gx.nx, fun j i => dem (gx.px j i) (gy.px j i)⟩
  let bands := bands.getD (List.range s.nBands)
  let images ← collect (backupBand spline s gx gy alts nodata name) bands
  let im ← stack2 nx ny images
  if mask then maskImage s.cast im nodata else .ok im

end

/-! ### Warping geotiffs with GDAL -/

section
variable {K P O : Type} [Field K] [LinearOrder K] [IsStrictOrderedRing K] [FloorRing K] [Inhabited K]

/-- The rasters GDAL can open, by name. Used for `gdalwarp`, geotiff_image.py:147-162. -/
abbrev Files (K P : Type) := Str → Option (Dset K P)

/-- The name used when no destination is given (geotiff_image.py:156). -/
def defaultName : Str := "/vsimem/tmp_gdalwarp_geotiff.vrt".toList

/-- `GeotiffImage.init_from_file(fname)` (geotiff_image.py:24-34): a file GDAL cannot open is an AttributeError. -/
def openName (files : Files K P) (name : Str) : Py (DImage K P) :=
  match files name with
  | none => .error .attributeError
  | some d => openImage d

/-- The dataset warped by `gdalwarp_geotiff_image` (geotiff_image.py:151-153): the file's dataset when there is one, otherwise one made from the
data in memory. -/
def warpSource (cast : K → K) (im : DImage K P) : Py (Dset K P) :=
  match im.dset with
  | some d => .ok d
  | none => do
    let r ← im.write cast
    .ok r.2

/-- `gdalwarp_geotiff_image` (geotiff_image.py:147-162): `W ops src` is what `gdal.Warp` writes, `none` when it fails (it then returns None, which
is not looked at, and no file is written). The files afterwards and the image returned. -/
def gdalwarp (W : O → Dset K P → Option (Dset K P)) (cast : K → K) (files : Files K P) (im : DImage K P) (ops : O)
    (dst : Option Str) : Py (Files K P × DImage K P) := do
  let src ← warpSource cast im
  let name := dst.getD defaultName
  let files' : Files K P := match W ops src with
    | none => files
    | some d => fun n => if n = name then some d else files n
  let out ← openName files' name
  .ok (files', out)

/-- `reproject_vertical_datum` (geotiff_image.py:166-177): its last line calls a function that does not exist. -/
def reprojectVertical (_files : Files K P) (_im : DImage K P) (_dst : Str) (_epsg : Int) : Py (Files K P × DImage K P) :=
  .error .nameError

/-- `create_map_tiles` (geotiff_image.py:179-186) up to the tiles: the image itself is not passed to the static method `gdalwarp_geotiff_image`,
whose argument `warp_ops` is then missing. -/
def createMapTiles (_files : Files K P) (_im : DImage K P) : Py (Files K P) := .error .typeError

/-- A `GeotiffDem` with its image (geotiff_dem.py:12-16). -/
structure DemGeo (K P : Type) where
  dem : DemState K
  gtiff : DImage K P

/-- `set_geotiff_image` (geotiff_dem.py:73-78) for an image of one band (`np.squeeze` drops that axis; rasters of one row or column, which it would
flatten, and of more bands are outside the model: ValueError); `floating dtype` says whether the data type is a floating one. -/
def DemGeo.setImage (floating : Nat → Bool) (d : DemGeo K P) (im : DImage K P) : Py (DemGeo K P) := do
  let all ← im.readAll
  if all.nb = 1 ∧ all.ny ≠ 1 ∧ all.nx ≠ 1 then do
    let s ← setGeotiff d.dem ⟨⟨all.ny, all.nx, fun y x => all.px y x 0⟩, floating im.dtype⟩
    .ok ⟨s, im⟩
  else .error .valueError

/-- `convert_reference` (geotiff_dem.py:27-33). -/
def DemGeo.convertReference (floating : Nat → Bool) (files : Files K P) (d : DemGeo K P) (dst : Str) (epsg : Int) :
    Py (Files K P × DemGeo K P) := do
  let (files', im) ← reprojectVertical files d.gtiff dst epsg
  let d' ← d.setImage floating im
  .ok (files', d')

/-- The source and destination reference systems given to GDAL. Used for `DemGeo.convert`, geotiff_dem.py:35-59. -/
structure SrsPair where
  src : Str
  dst : Str
deriving DecidableEq

/-- The warp options of `convert_to_geoid_heights` (geotiff_dem.py:39-41). -/
def geoidOps (srs grid : Str) : SrsPair := ⟨srs, srs ++ " +geoidgrids=".toList ++ grid⟩

/-- The warp options of `convert_to_ellipsoid_heights` (geotiff_dem.py:52-54). -/
def ellipsoidOps (srs grid : Str) : SrsPair := ⟨srs ++ " +geoidgrids=".toList ++ grid, srs⟩

/-- `convert_to_geoid_heights` and `convert_to_ellipsoid_heights` (geotiff_dem.py:35-59), which differ in the options; `srs` is the `srs` attribute
of a projection. -/
def DemGeo.convert (W : SrsPair → Dset K P → Option (Dset K P)) (cast : K → K) (floating : Nat → Bool) (srs : P → Str) (files : Files K P)
    (d : DemGeo K P) (dst grid : Str) (toGeoid : Bool) : Py (Files K P × DemGeo K P) := do
  let ops := if toGeoid then geoidOps (srs d.gtiff.proj) grid else ellipsoidOps (srs d.gtiff.proj) grid
  let (files', im) ← gdalwarp W cast files d.gtiff ops (some dst)
  let d' ← d.setImage floating im
  .ok (files', d')

end
end Verif.Warp
