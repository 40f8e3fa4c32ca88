import Verif.Model.GeoFiles
import Verif.Model.Warp

/-! `gdalwarp_geotiff_image` (`/repo/resippy/image_objects/earth_overhead/geotiff/geotiff_image.py`) over files that change: the image it returns reads its pixels from
the destination when they are asked for. -/

namespace Verif.GeoFiles
open Verif Verif.Images

variable {K P : Type} [Field K] [LinearOrder K] [IsStrictOrderedRing K] [FloorRing K] [Inhabited K]

/-- The dataset that is warped (geotiff_image.py:152-154): the image's dataset, or one made from the data in memory (`get_gdal_mem_datset`, geotiff_image.py:101-120).
`lost` is what GDAL finds in a dataset whose file has been created anew since. -/
def warpFrom (cast : K → K) (lost : Handle → Option (GFile K P) → Dset K P) (fs : FS K P) (g : GImage K P) : Py (Dset K P) :=
  match g.handle with
  | some h =>
    match fs.files h.path with
    | none => .ok (lost h none)
    | some (gen, f) => if gen = h.gen then .ok f.d else .ok (lost h (some f))
  | none =>
    match g.im.data with
    | none => .error .attributeError
    | some _ =>
      let w := writeLoop cast g.im g.special 0 g.im.nb (blank g.im)
      w.2.map (fun _ => w.1)

/-- `gdalwarp_geotiff_image` (geotiff_image.py:147-164): `W src` is what `gdal.Warp` writes to the destination with the given options, `none` when it fails and writes nothing; the
destination is then opened. -/
def warp (cast : K → K) (lost : Handle → Option (GFile K P) → Dset K P) (fs : FS K P) (g : GImage K P) (W : Dset K P → Option (Dset K P)) (dst : Option Str) :
    FS K P × Py (GImage K P) :=
  match warpFrom cast lost fs g with
  | .error e => (fs, .error e)
  | .ok src =>
    let name := dst.getD Verif.Warp.defaultName
    let fs' := match W src with
      | none => fs
      | some d => fs.create name d
    (fs', openFile fs' name)

end Verif.GeoFiles
