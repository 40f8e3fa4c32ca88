import Verif.Base

/-! The attributes every point calculator has, as the constructors and factories leave them, and the public pixel-to-world call that needs them:
`/repo/resippy/image_objects/earth_overhead/earth_overhead_point_calculators`. -/

namespace Verif.CalcObject
open Verif

/-- An attribute: never assigned, or assigned None or a value. Used for `Base`, abstract_earth_overhead_point_calc.py:31-33. -/
inductive Slot (α : Type) where
  | unset
  | none
  | val (a : α)
deriving DecidableEq

variable {α P C R : Type}

/-- Reading an attribute: AttributeError when it was never assigned (abstract_earth_overhead_point_calc.py:451, 469). -/
def Slot.get : Slot α → Py (Option α)
  | .unset => .error .attributeError
  | .none => .ok Option.none
  | .val a => .ok (some a)

/-- The attributes of `AbstractEarthOverheadPointCalc` (abstract_earth_overhead_point_calc.py:31-33); `_bands_coregistered` is assigned in every
constructor. -/
structure Base (P C : Type) where
  proj : Slot P
  centre : Slot C
  coregistered : Bool

/-- `AbstractEarthOverheadPointCalc.__init__` (abstract_earth_overhead_point_calc.py:21-33), run by Pix4dPointCalc (pix4d_point_calc.py:21), OpenCVPointCalc
(opencv_point_calc.py:12), IdealPinholeFpaLocalUtmPointCalc (ideal_pinhole_fpa_local_utm_point_calc.py:17-19) and EarthOverheadSensorModel
(earth_overhead_sensor_model.py:11). -/
def baseInit : Base P C := ⟨.none, .none, true⟩

/-- `GeotiffPointCalc.__init__` (geotiff_point_calc.py:18-23), which does not run the constructor of its base class. -/
def geotiffInit : Base P C := ⟨.unset, .unset, true⟩

/-- `set_projection` (abstract_earth_overhead_point_calc.py:453-461). -/
def Base.setProjection (b : Base P C) (p : P) : Base P C := { b with proj := .val p }

/-- `set_approximate_lon_lat_center` (abstract_earth_overhead_point_calc.py:471-482). -/
def Base.setCentre (b : Base P C) (c : C) : Base P C := { b with centre := .val c }

/-- `RPCPointCalc.__init__` (rpc_point_calc.py:17-38), which does not run the constructor of its base class; `p4326` is `crs_defs.PROJ_4326`. -/
def rpcInit (p4326 : P) : Base P C := (⟨.unset, .unset, true⟩ : Base P C).setProjection p4326

/-- The ways to make a point calculator, with what they put in the base class's attributes. Used for `make`, files cited there. -/
inductive Factory (P K : Type) where
  | rpc (lonOff latOff : K)
  | pix4d (x y : K) (proj : P)
  | pinhole (x y : K) (proj : P)
  | igm (lon lat : K) (proj : P)
  | geotiff (proj : P)
  | opencv
  | sensorModel

/-- The attributes after the factory: `RPCPointCalc.init_from_coeffs` (rpc_point_calc.py:115-132); `Pix4dPointCalc.init_from_params` (pix4d_point_calc.py:82-112);
`init_from_wgs84_params` and `init_from_local_params` (ideal_pinhole_fpa_local_utm_point_calc.py:105-139, 166-200); `IGMPointCalc.__init__` (igm_point_calc.py:14-34);
`GeotiffPointCalc.init_from_file` and `GeotiffImage.init_from_numpy_array` (geotiff_point_calc.py:26-44, geotiff_image.py:63-67); `OpenCVPointCalc.init_from_params`
(opencv_point_calc.py:49-64; `utm18` its fixed projection, no centre); `EarthOverheadSensorModel()` (earth_overhead_sensor_model.py:10-12). -/
def make {K : Type} (p4326 utm18 : P) : Factory P K → Base P (K × K)
  | .rpc lonOff latOff => (rpcInit p4326).setCentre (lonOff, latOff)
  | .pix4d x y p => (baseInit.setCentre (x, y)).setProjection p
  | .pinhole x y p => (baseInit.setProjection p).setCentre (x, y)
  | .igm lon lat p => ((⟨.unset, .unset, true⟩ : Base P (K × K)).setProjection p).setCentre (lon, lat)
  | .geotiff p => geotiffInit.setProjection p
  | .opencv => baseInit.setProjection utm18
  | .sensorModel => baseInit

/-- The world projection to use (abstract_earth_overhead_point_calc.py:164-165). -/
def Base.worldProj (b : Base P C) (world : Option P) : Py (Option P) :=
  match world with
  | some p => .ok (some p)
  | none => b.proj.get

/-- The position in the native projection (abstract_earth_overhead_point_calc.py:166-175): what the calculator's own method gives, or the solver's answer
from the approximate centre (207); unpacking a centre that is None is a TypeError. -/
def Base.nativePosition (b : Base P C) (native : Py (Option R)) (solve : C → Py R) : Py R := do
  let r ← native
  match r with
  | some r => .ok r
  | none =>
    match b.centre.get with
    | .error e => .error e
    | .ok none => .error .typeError
    | .ok (some c) => solve c

/-- The conversion to the world projection (abstract_earth_overhead_point_calc.py:176-180): `srs` of None is an AttributeError. -/
def Base.inWorld (b : Base P C) (srs : P → Nat) (T : P → P → R → R) (wp : Option P) (r : R) : Py R :=
  match wp with
  | none => .error .attributeError
  | some w =>
    match b.proj.get with
    | .error e => .error e
    | .ok none => .error .attributeError
    | .ok (some p) => if srs w ≠ srs p then .ok (T p w r) else .ok r

/-- `pixel_x_y_alt_to_lon_lat` (abstract_earth_overhead_point_calc.py:140-180): `native` is what `_pixel_x_y_alt_to_lon_lat_native` gives (the same both times it
is called), `solve` the solver from a given centre (modelled in `PointCalc.solver`), `srs` the definition string of a projection (as a number), `T` pyproj's
transform. -/
def Base.pixelToLonLat (b : Base P C) (srs : P → Nat) (T : P → P → R → R) (native : Py (Option R)) (solve : C → Py R) (world : Option P) : Py R := do
  let wp ← b.worldProj world
  let r ← b.nativePosition native solve
  b.inWorld srs T wp r

/-- `_from_point_calcs` (micasense_image_factory.py:19-25): the sensor model gets the first calculator's projection (`set_projection(None)` stores None), its bands are
not coregistered. -/
def sensorFrom (calcs : List (Base P C)) : Py (Base P C) :=
  match calcs with
  | [] => .error .indexError
  | c :: _ => do
    let p ← c.proj.get
    let b : Base P C := baseInit
    .ok { b with proj := match p with | none => .none | some p => .val p, coregistered := false }

/-- `from_image_number_and_pix4d` (micasense_image_factory.py:48-70): the centre too is the first calculator's; `*None` is a TypeError. -/
def micaPix4d (calcs : List (Base P C)) : Py (Base P C) := do
  let s ← sensorFrom calcs
  match calcs with
  | [] => .error .indexError
  | c :: _ =>
    match c.centre.get with
    | .error e => .error e
    | .ok none => .error .typeError
    | .ok (some x) => .ok (s.setCentre x)

/-- `from_image_number_and_opencv` (micasense_image_factory.py:72-97): no centre. -/
def micaOpencv (calcs : List (Base P C)) : Py (Base P C) := sensorFrom calcs

/-! ### Any history of setters -/

/-- The public setters (abstract_earth_overhead_point_calc.py:453-482). -/
inductive SetOp (P C : Type) where
  | projection (p : P)
  | centre (c : C)

/-- One call (abstract_earth_overhead_point_calc.py:453-482). -/
def Base.apply (b : Base P C) : SetOp P C → Base P C
  | .projection p => b.setProjection p
  | .centre c => b.setCentre c

/-- `get_projection` (abstract_earth_overhead_point_calc.py:446-451). -/
def Base.getProjection (b : Base P C) : Py (Option P) := b.proj.get

/-- `get_approximate_lon_lat_center` (abstract_earth_overhead_point_calc.py:463-469). -/
def Base.getCentre (b : Base P C) : Py (Option C) := b.centre.get

/-- `bands_coregistered` (abstract_earth_overhead_point_calc.py:484-491). -/
def Base.bandsCoregistered (b : Base P C) : Bool := b.coregistered

end Verif.CalcObject
