import Verif.Model.ImageUtils
import Verif.Model.Geotiff

/-! Model of
`/repo/resippy/image_objects/earth_overhead/earth_overhead_point_calculators/igm_point_calc.py`,
`earth_overhead_sensor_model.py` (same directory) and of the extent and grid functions of
`/repo/resippy/utils/photogrammetry_utils.py`. -/

namespace Verif.Grids
open Verif ImageUtils Geotiff

section
variable {K : Type} [Field K] [LinearOrder K] [IsStrictOrderedRing K]

/-! ### IGM -/

/-- The altitude argument of the constructor. Used for `mkIgm`, igm_point_calc.py:13-36. -/
inductive AltArg (K : Type) where
  | array (a : A2 K)
  | number (v : K)

/-- `IGMPointCalc` (igm_point_calc.py:13-36). -/
structure Igm (K : Type) where
  lons : A2 K
  lats : A2 K
  alts : A2 K
  centre : K × K

/-- The constructor (igm_point_calc.py:13-36): a number altitude becomes an array of zeros (line 24);
an empty grid makes the centre lookup raise IndexError.  `lats` is assumed to have the shape of
`lons`. -/
def mkIgm (lons lats : A2 K) (alt : AltArg K) : Py (Igm K) :=
  if lons.ny = 0 ∨ lons.nx = 0 then .error .indexError
  else .ok
    { lons := lons
      lats := lats
      alts := match alt with
        | .array a => a
        | .number _ => ⟨lons.ny, lons.nx, fun _ _ => 0⟩
      centre := (lons.px (lons.ny / 2) (lons.nx / 2), lats.px (lons.ny / 2) (lons.nx / 2)) }

/-- `_pixel_x_y_alt_to_lon_lat_native` (igm_point_calc.py:50-51) for one integer pixel. -/
def Igm.pixelToLonLat (g : Igm K) (x y : Int) : Py (K × K) := do
  let i ← pyIdx g.lons.ny y
  let j ← pyIdx g.lons.nx x
  .ok (g.lons.px i j, g.lats.px i j)

/-- `distances[numpy.isclose(distances, 0)] = 0.00000001` (igm_point_calc.py:66): `isclose(d, 0)` is
`|d| <= 1e-8`. -/
def fixDist (d : K) : K := if |d| ≤ 1 / 10 ^ 8 then 1 / 10 ^ 8 else d

/-- `numpy.sum(inv_distances * idx) / inv_distances_sum` (igm_point_calc.py:67-70). -/
def idw (nbrs : List (K × Nat)) (coord : Nat → Nat) : K :=
  (nbrs.map (fun n => 1 / fixDist n.1 * (coord n.2 : K))).sum / (nbrs.map (fun n => 1 / fixDist n.1)).sum

/-- `_lon_lat_alt_to_pixel_x_y_native` (igm_point_calc.py:53-71) for one query: `nbrs` is the answer of
`cKDTree.query(point, 6)`: six pairs of distance and flat index.  A missing neighbour (grid of fewer
than six pixels) has the index `n`, which makes `unravel_index` raise ValueError. -/
def Igm.lonLatToPixel (g : Igm K) (nbrs : List (K × Nat)) : Py (K × K) :=
  if nbrs.all (fun n => decide (n.2 < g.lons.ny * g.lons.nx)) then
    .ok (idw nbrs (fun k => k % g.lons.nx), idw nbrs (fun k => k / g.lons.nx))
  else .error .valueError

/-! ### Ground grid -/

/-- `create_ground_grid` (photogrammetry_utils.py:49-64).  `ground_x_arr[0, 1]` and
`ground_y_arr[1, 0]` raise IndexError unless there are two columns and two rows. -/
def groundGrid (minX maxX minY maxY : K) (nx ny : Nat) : Py (A2 K × A2 K) :=
  let gx : Nat → Nat → K := fun _ i => (i : K) / (nx : K) * (maxX - minX) + minX
  let gy : Nat → Nat → K := fun j _ => (((j : K) - (ny : K)) * -1) / (ny : K) * (maxY - minY) + minY
  if ny = 0 ∨ nx < 2 then .error .indexError
  else if ny < 2 then .error .indexError
  else
    let xGsd := |gx 0 1 - gx 0 0|
    let yGsd := |gy 0 0 - gy 1 0|
    .ok (⟨ny, nx, fun j i => gx j i + xGsd / 2⟩, ⟨ny, nx, fun j i => gy j i - yGsd / 2⟩)

/-- `world_poly_to_geo_t` (photogrammetry_utils.py:37-46) for a polygon with the given bounds; the
divisors `npix + 1` are positive. -/
def polyToGeoT (b : Box K) (nx ny : Nat) : GeoT K :=
  let gsdX := (b.maxX - b.minX) / ((nx : K) + 1)
  let gsdY := (b.maxY - b.minY) / ((ny : K) + 1)
  ⟨b.minX, gsdX, 0, b.maxY, 0, -1 * gsdY⟩

/-- Python `int(x)`: truncation toward zero.
Used for `pixelsInExtent`, photogrammetry_utils.py:67-81. -/
def pyInt [FloorRing K] (x : K) : Int := if 0 ≤ x then ⌊x⌋ else ⌈x⌉

/-- Largest entry of a non-empty list given as head and tail (`max`).
Used for `pixelsInExtent`, photogrammetry_utils.py:67-81. -/
def lmax (a : K) (l : List K) : K := l.foldl max a
/-- Smallest entry (`min`). Used for `pixelsInExtent`, photogrammetry_utils.py:67-81. -/
def lmin (a : K) (l : List K) : K := l.foldl min a

/-- `get_nx_ny_pixels_in_extent` (photogrammetry_utils.py:67-81); `pts` are the exterior coordinates
(`max` of none raises ValueError). -/
def pixelsInExtent [FloorRing K] (pts : List (K × K)) (gsdX gsdY : K) : Py (Int × Int) :=
  match pts with
  | [] => .error .valueError
  | p :: ps =>
    let width := lmax p.1 (ps.map Prod.fst) - lmin p.1 (ps.map Prod.fst)
    let height := lmax p.2 (ps.map Prod.snd) - lmin p.2 (ps.map Prod.snd)
    if gsdX = 0 ∨ gsdY = 0 then .error .zeroDivision
    else .ok (pyInt (width / gsdX), pyInt (height / gsdY))

end

/-! ### Sensor model -/

section
variable {C : Type}

/-- Calls that change an `EarthOverheadSensorModel` (earth_overhead_sensor_model.py:50-69). -/
inductive SensorOp (C : Type) where
  | set (l : List C)
  | add (c : C)
  | update (i : Int) (c : C)

/-- One call on the stored list (earth_overhead_sensor_model.py:50-69).  The list passed to
`set_point_calcs` is assumed not to be shared (see `World` for sharing).  On an exception the list is
unchanged. -/
def sensorStep (l : List C) : SensorOp C → Py (List C)
  | .set l' => .ok l'
  | .add c => .ok (l ++ [c])
  | .update i c => do
    let k ← pyIdx l.length i
    .ok (l.set k c)

/-- A history: exceptions are caught by the caller and leave the list as it is.
See earth_overhead_sensor_model.py:50-69. -/
def sensorRun (ops : List (SensorOp C)) : List C :=
  ops.foldl (fun l o => match sensorStep l o with
    | .ok l' => l'
    | .error _ => l) []

/-- `_lon_lat_alt_to_pixel_x_y_native` and `_pixel_x_y_alt_to_lon_lat_native`
(earth_overhead_sensor_model.py:14-38): `band = None` raises TypeError (`None < int`); a band at or
beyond the number of calculators falls through and returns None; `ask` is the calculator's own
answer. -/
def sensorQuery {R : Type} (l : List C) (band : Option Int) (ask : C → Int → R) : Py (Option R) :=
  match band with
  | none => .error .typeError
  | some b =>
    if b < (l.length : Int) then do
      let k ← pyIdx l.length b
      match l[k]? with
      | some c => .ok (some (ask c b))
      | none => .error .indexError
    else .ok none

/-- Several sensor models and the lists they refer to: `set_point_calcs` and `get_point_calcs`
(earth_overhead_sensor_model.py:50-57) pass the list itself, not a copy. -/
structure World (C : Type) where
  ref : Nat → Nat
  lists : Nat → List C

/-- `models[a].set_point_calcs(models[b].get_point_calcs())`.
See earth_overhead_sensor_model.py:50-57. -/
def World.share (w : World C) (a b : Nat) : World C :=
  { w with ref := fun i => if i = a then w.ref b else w.ref i }

/-- `models[a].update_point_calc(k, c)` for a valid index.
See earth_overhead_sensor_model.py:59-69. -/
def World.update (w : World C) (a k : Nat) (c : C) : World C :=
  { w with lists := fun r => if r = w.ref a then (w.lists r).set k c else w.lists r }

/-- The calculators model `a` uses. See earth_overhead_sensor_model.py:50-57. -/
def World.calcs (w : World C) (a : Nat) : List C := w.lists (w.ref a)

end
end Verif.Grids
