import Verif.Model.Geotiff

/-! Geotransform arrays shared between the caller and point calculators
(`/repo/resippy/image_objects/earth_overhead/earth_overhead_point_calculators/geotiff_point_calc.py`,
`/repo/resippy/image_objects/earth_overhead/geotiff/geotiff_image.py:36-72`): `set_geot` stores the caller's list or array itself and `get_geot` hands it out. -/

namespace Verif.Geotiff
open Verif ImageUtils

section
variable {K : Type} [Field K] [LinearOrder K]

/-- A `GeotiffPointCalc` (geotiff_point_calc.py:19-24): the number of the array stored as `_geo_t`, the inverse computed when it was stored, the pixel counts. -/
structure CalcRef (K : Type) where
  cell : Nat
  inv : Option (GeoT K)
  npixX : Nat
  npixY : Nat

/-- The six-element lists or arrays of a program and its calculators (geotiff_point_calc.py:46-56). -/
structure GeoWorld (K : Type) where
  cells : List (GeoT K)
  calcs : List (CalcRef K)

/-- What a program does: makes a list; makes a calculator for a list, as `init_from_numpy_array` does (geotiff_image.py:63-67); calls `set_geot`
(geotiff_point_calc.py:46-56); assigns elements of a list, be it its own or the one `get_geot` returned (geotiff_point_calc.py:58-63). -/
inductive GeoOp (K : Type) where
  | newList (g : GeoT K)
  | newCalc (a nx ny : Nat)
  | setGeot (k a : Nat)
  | assign (a : Nat) (g : GeoT K)

/-- One operation (geotiff_point_calc.py:46-63, geotiff_image.py:63-67); one on an object that does not exist does nothing. -/
def GeoWorld.step (w : GeoWorld K) : GeoOp K → GeoWorld K
  | .newList g => { w with cells := w.cells ++ [g] }
  | .newCalc a nx ny => match w.cells[a]? with
    | some g => { w with calcs := w.calcs ++ [⟨a, invGeoT g, nx, ny⟩] }
    | none => w
  | .setGeot k a => match w.cells[a]?, w.calcs[k]? with
    | some g, some c => { w with calcs := w.calcs.set k { c with cell := a, inv := invGeoT g } }
    | _, _ => w
  | .assign a g => { w with cells := w.cells.set a g }

/-- Several operations (geotiff_point_calc.py:46-63). -/
def GeoWorld.run (w : GeoWorld K) (ops : List (GeoOp K)) : GeoWorld K := ops.foldl GeoWorld.step w

/-- The calculator as its queries see it now: the array's present elements, the stored inverse (geotiff_point_calc.py:93-130). -/
def GeoWorld.calc (w : GeoWorld K) (k : Nat) : Option (Calc K) :=
  match w.calcs[k]? with
  | none => none
  | some c => match w.cells[c.cell]? with
    | none => none
    | some g => some ⟨g, c.inv, c.npixX, c.npixY⟩

end
end Verif.Geotiff
