import Verif.Model.Ortho
import Verif.Model.Images

/-! The image object made by the orthorectifier: `/repo/resippy/photogrammetry/ortho_tools.py:191, 249-254`. -/

namespace Verif.OrthoFile
open Verif Geotiff Grids Ortho Images

/-- The six numbers of a geotransform as a tuple and back; `get_geotransform` and `set_geot` (geotiff_point_calc.py:46-56) pass them unchanged. -/
def geoTuple {K : Type} (g : GeoT K) : K × K × K × K × K × K := (g.g0, g.g1, g.g2, g.g3, g.g4, g.g5)
/-- See `geoTuple` (geotiff_point_calc.py:46-56). -/
def geoOf {K : Type} (t : K × K × K × K × K × K) : GeoT K := ⟨t.1, t.2.1, t.2.2.1, t.2.2.2.1, t.2.2.2.2.1, t.2.2.2.2.2⟩

/-- `create_ortho_gtiff_image_world_to_sensor` (ortho_tools.py:178-257): the image object returned, which is also the one written when a file name is
given.  `dtype` is GDAL's code of the array's data type, `proj` the world projection; the no-data value is set on the metadata afterwards
(line 250). -/
def orthoImage {K P : Type} [Field K] [LinearOrder K] [IsStrictOrderedRing K] (resample : A2 K → K → K → K) (s : Source K) (nx ny : Nat)
    (ext : Box K) (dem : K → K → K) (bands : Option (List Nat)) (nodata : K) (mask : Bool) (dtype : Nat) (proj : P) : Py (DImage K P) := do
  let a ← ortho resample s nx ny ext dem bands nodata mask
  .ok { fromArray (.cube a) dtype (geoTuple (polyToGeoT ext nx ny)) proj none with nodata := some nodata }

/-- The point calculator of an image opened from a file (geotiff_image.py:23-35: geotransform and pixel counts of the dataset). -/
def calcOf {K P : Type} [Field K] [LinearOrder K] (im : DImage K P) : Calc K := mkCalc (geoOf im.geot) im.nx im.ny

end Verif.OrthoFile
