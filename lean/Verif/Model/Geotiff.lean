import Verif.Model.ImageUtils

/-! Model of
`/repo/resippy/image_objects/earth_overhead/earth_overhead_point_calculators/geotiff_point_calc.py`
and `rpc_point_calc.py` in the same directory.  Altitude and band are ignored by the geotiff code. -/

namespace Verif.Geotiff
open Verif ImageUtils

/-- A GDAL geotransform `geo_t[0..5]`. Used for `invGeoT`, geotiff_point_calc.py:56. -/
structure GeoT (K : Type) where
  g0 : K
  g1 : K
  g2 : K
  g3 : K
  g4 : K
  g5 : K

section
variable {K : Type} [Field K] [LinearOrder K]

/-- `gdal.InvGeoTransform` (called at geotiff_point_calc.py:56).  GDAL is outside the repository; its
documented result is modelled: the inverse affine map, `None` for a singular one.  Simplified: for a rotated
geotransform GDAL also answers `None` when the determinant is tiny beside the squared entries (a relative
`1e-10`); the model inverts every non-singular one. -/
def invGeoT (g : GeoT K) : Option (GeoT K) :=
  let det := g.g1 * g.g5 - g.g2 * g.g4
  if det = 0 then none
  else some {
    g1 := g.g5 / det
    g4 := -g.g4 / det
    g2 := -g.g2 / det
    g5 := g.g1 / det
    g0 := (g.g2 * g.g3 - g.g0 * g.g5) / det
    g3 := (-g.g1 * g.g3 + g.g0 * g.g4) / det }

/-- `GeotiffPointCalc` state: the attributes set by `set_geot`, `set_npix_x`, `set_npix_y`
(geotiff_point_calc.py:19-24, 46-91). -/
structure Calc (K : Type) where
  geo : GeoT K
  inv : Option (GeoT K)
  npixX : Nat
  npixY : Nat

/-- `set_geot` on a calculator (geotiff_point_calc.py:46-56), and the two pixel counts. -/
def mkCalc (g : GeoT K) (nx ny : Nat) : Calc K := ⟨g, invGeoT g, nx, ny⟩

/-- `_lon_lat_alt_to_pixel_x_y_native` (geotiff_point_calc.py:93-111); subscripting a `None` inverse
raises TypeError. -/
def Calc.worldToPixel (c : Calc K) (lon lat : K) : Py (K × K) :=
  match c.inv with
  | none => .error .typeError
  | some i => .ok (i.g0 + i.g1 * lon + i.g2 * lat, i.g3 + i.g4 * lon + i.g5 * lat)

/-- `_pixel_x_y_alt_to_lon_lat_native` (geotiff_point_calc.py:113-130). -/
def Calc.pixelToWorld (c : Calc K) (x y : K) : K × K :=
  (c.geo.g0 + x * c.geo.g1 + y * c.geo.g2, c.geo.g3 + x * c.geo.g4 + y * c.geo.g5)

/-- An axis-aligned box `minx, miny, maxx, maxy`.
Used for `Calc.extent`, geotiff_point_calc.py:137-141. -/
structure Box (K : Type) where
  minX : K
  minY : K
  maxX : K
  maxY : K

/-- `.bounds` of `shapely.geometry.box(a, b, c, d)`: shapely orders the coordinates.
Used for `Calc.extent`, geotiff_point_calc.py:137-141. -/
def boxOf (a b c d : K) : Box K := ⟨min a c, min b d, max a c, max b d⟩

/-- `get_world_extent_native` (geotiff_point_calc.py:137-141). -/
def Calc.extent (c : Calc K) : Box K :=
  let ul := c.pixelToWorld 0 0
  let br := c.pixelToWorld (c.npixX : K) (c.npixY : K)
  boxOf ul.1 br.2 br.1 ul.2

/-- `compute_p` (rpc_point_calc.py:135-186), `x` normalised latitude, `y` normalised longitude, `z`
normalised height.  `coeffs` has at least twenty entries. -/
def computeP (a : Nat → K) (x y z : K) : K :=
  a 0 + a 1 * y + a 2 * x + a 3 * z + a 4 * (x * y) + a 5 * (y * z) + a 6 * (x * z) + a 7 * (y * y) +
  a 8 * (x * x) + a 9 * (z * z) + a 10 * x * y * z + a 11 * (y * y * y) + a 12 * y * (x * x) +
  a 13 * y * (z * z) + a 14 * (y * y) * x + a 15 * (x * x * x) + a 16 * x * (z * z) +
  a 17 * (y * y) * z + a 18 * (x * x) * y + a 19 * (z * z * z)

/-- The parameters stored by `init_from_coeffs` (rpc_point_calc.py:77-133). -/
structure Rpc (K : Type) where
  sampNum : Nat → K
  sampDen : Nat → K
  sampScale : K
  sampOff : K
  lineNum : Nat → K
  lineDen : Nat → K
  lineScale : K
  lineOff : K
  latScale : K
  latOff : K
  lonScale : K
  lonOff : K
  hScale : K
  hOff : K

/-- `RPCPointCalc._lon_lat_alt_to_pixel_x_y_native` (rpc_point_calc.py:188-218); `none` when a
division by zero makes a coordinate non-finite. -/
def Rpc.project (r : Rpc K) (lon lat alt : K) : Option (K × K) := do
  let x ← fdiv (lat - r.latOff) r.latScale
  let y ← fdiv (lon - r.lonOff) r.lonScale
  let z ← fdiv (alt - r.hOff) r.hScale
  let xn ← fdiv (computeP r.sampNum x y z) (computeP r.sampDen x y z)
  let yn ← fdiv (computeP r.lineNum x y z) (computeP r.lineDen x y z)
  some (xn * r.sampScale + r.sampOff + 1 / 2, yn * r.lineScale + r.lineOff + 1 / 2)

end
end Verif.Geotiff
