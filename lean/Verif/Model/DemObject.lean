import Verif.Model.Ortho
import Verif.Str

/-! Model of the state of a `GeotiffDem` (`/repo/resippy/photogrammetry/dem/geotiff_dem.py`) and of
`/repo/resippy/photogrammetry/dem/dem_factory.py`. -/

namespace Verif.Ortho
open Verif ImageUtils Grids

section
variable {K : Type} [Field K] [LinearOrder K] [IsStrictOrderedRing K]

/-- The raster of a one-band geotiff, with its number type: floating or integer (geotiff_dem.py:73-78). -/
structure Raster (K : Type) where
  cells : A2 K
  floating : Bool

/-- The interpolation methods (geotiff_dem.py:16-23). -/
inductive Method where
  | bilinear | nearest
deriving DecidableEq

/-- A `GeotiffDem` (geotiff_dem.py:12-16): `dem_data` with `none` for NaN, whether its numbers are floating, the stored no-data value, the
interpolation method. -/
structure DemState (K : Type) where
  data : Option (A2 (Option K))
  floating : Bool
  nodata : Option K
  method : Method

/-- `GeotiffDem()` (geotiff_dem.py:12-16). -/
def demInit : DemState K := ⟨none, true, none, .bilinear⟩

/-- `remove_nodata_values` (geotiff_dem.py:64-71).  NaN cannot be stored in an integer array: numpy converts it to the array's type first, which
raises ValueError, even when no cell holds the value. -/
def removeNodata (s : DemState K) (v : Option K) : Py (DemState K) :=
  let s := { s with nodata := v }
  match v, s.data with
  | some v, some d =>
    if s.floating then
      .ok { s with data := some ⟨d.ny, d.nx, fun y x => if d.px y x = some v then none else d.px y x⟩ }
    else .error .valueError
  | _, _ => .ok s

/-- `set_geotiff_image` (geotiff_dem.py:73-78): the raster is read from the file again and the stored no-data value removed. -/
def setGeotiff (s : DemState K) (r : Raster K) : Py (DemState K) :=
  removeNodata { s with data := some ⟨r.cells.ny, r.cells.nx, fun y x => some (r.cells.px y x)⟩, floating := r.floating } s.nodata

/-- The public operations of a DEM (geotiff_dem.py:18-23, 64-78). -/
inductive DemOp (K : Type) where
  | setImage (r : Raster K)
  | remove (v : Option K)
  | method (m : Method)

/-- One operation (geotiff_dem.py:18-23, 64-78). -/
def demStep (s : DemState K) : DemOp K → Py (DemState K)
  | .setImage r => setGeotiff s r
  | .remove v => removeNodata s v
  | .method m => .ok { s with method := m }

/-- Several operations (geotiff_dem.py:18-23, 64-78). -/
def demRun : DemState K → List (DemOp K) → Py (DemState K)
  | s, [] => .ok s
  | s, op :: ops => do
    let s' ← demStep s op
    demRun s' ops

/-- The name of an interpolation method in `from_gtiff_file` (dem_factory.py:23-28): the TypeError of the last branch is made but not
raised. -/
def demMethodNamed (s : DemState K) (name : Str) : DemState K :=
  if name = "bilinear".toList then { s with method := .bilinear }
  else if name = "nearest".toList then { s with method := .nearest }
  else s

/-- The no-data value used by `from_gtiff_file` (dem_factory.py:18-20): the argument, or the file's. -/
def demChosen (fileNodata arg : Option K) : Option K :=
  match arg with
  | some v => some v
  | none => fileNodata

/-- `DemFactory.from_gtiff_file` (dem_factory.py:10-29) on a file with the given raster and no-data entry. -/
def demFromFile (r : Raster K) (fileNodata arg : Option K) (name : Str) : Py (DemState K) := do
  let s ← setGeotiff demInit r
  let s ← removeNodata s (demChosen fileNodata arg)
  .ok (demMethodNamed s name)

/-- The cells that are not NaN (geotiff_dem.py:142-149). -/
def validCells (d : A2 (Option K)) : List K := (pixels d).filterMap id

/-- `get_highest_alt` (geotiff_dem.py:142-143): `none` is NaN; an empty raster raises ValueError. -/
def demMax (d : A2 (Option K)) : Py (Option K) := if pixels d = [] then .error .valueError else .ok (validCells d).max?

/-- `get_lowest_alt` (geotiff_dem.py:145-146). -/
def demMin (d : A2 (Option K)) : Py (Option K) := if pixels d = [] then .error .valueError else .ok (validCells d).min?

/-- `get_mean_alt` (geotiff_dem.py:148-149): NaN without valid cells. -/
def demMean (d : A2 (Option K)) : Option K :=
  if validCells d = [] then none else some ((validCells d).sum / ((validCells d).length : K))

end
end Verif.Ortho
