import Verif.Model.Geotiff
import Verif.Model.Camera
import Verif.Model.Readers
import Verif.Lemmas.Base
import Mathlib.Analysis.SpecialFunctions.Trigonometric.Arctan

/-! Model of the ways point calculators are set up, in
`/repo/resippy/image_objects/earth_overhead/earth_overhead_point_calculators/`: rpc_point_calc.py,
ideal_pinhole_fpa_local_utm_point_calc.py, opencv_point_calc.py and
earth_overhead_sensor_model.py. -/

namespace Verif.Setup
open Verif Verif.Envi Verif.Readers

/-! ### Rational polynomial coefficients from a file -/

section
variable {K : Type} [Field K] [LinearOrder K] [IsStrictOrderedRing K]

/-- `RPCPointCalc` as it is stored (rpc_point_calc.py:17-38), with the approximate centre.  The coefficient arrays have
whatever length the file gave them. -/
structure RpcCalc (K : Type) where
  sampNum : List K
  sampDen : List K
  sampScale : K
  sampOff : K
  lineNum : List K
  lineDen : List K
  lineScale : K
  lineOff : K
  latScale : K
  latOff : K
  lonScale : K
  lonOff : K
  hScale : K
  hOff : K
  centre : K × K

/-- `init_from_coeffs` (rpc_point_calc.py:77-133), arguments in the order of the signature. -/
def rpcFromCoeffs (sampNum sampDen : List K) (sampScale sampOff : K) (lineNum lineDen : List K) (lineScale lineOff : K)
    (latScale latOff lonScale lonOff hScale hOff : K) : RpcCalc K :=
  { sampNum := sampNum, sampDen := sampDen, sampScale := sampScale, sampOff := sampOff, lineNum := lineNum,
    lineDen := lineDen, lineScale := lineScale, lineOff := lineOff, latScale := latScale, latOff := latOff,
    lonScale := lonScale, lonOff := lonOff, hScale := hScale, hOff := hOff, centre := (lonOff, latOff) }

/-- `d[key]` of a Python dictionary: KeyError when missing. Used for `rpcFromFile`, rpc_point_calc.py:54-72. -/
def item {V : Type} (d : Dict V) (k : Str) : Py V :=
  match lookup d k with
  | some v => .ok v
  | none => .error .keyError

/-- `_str_to_numpy_arr(rpcs[key])` (rpc_point_calc.py:236-245). -/
def coeffs (pf : Str → Option K) (d : Dict Str) (k : Str) : Py (List K) := do
  let s ← item d k
  floatRow pf s

/-- `float(rpcs[key])` (rpc_point_calc.py:56-72). -/
def num (pf : Str → Option K) (d : Dict Str) (k : Str) : Py K := do
  let s ← item d k
  toFloat pf s

/-- `init_from_file` (rpc_point_calc.py:40-75).  `md` is the RPC metadata dictionary of the file as gdal returns it, `none`
when gdal cannot open the file (gdal.Open returns None, whose `GetMetadata` is an AttributeError). -/
def rpcFromFile (pf : Str → Option K) (md : Option (Dict Str)) : Py (RpcCalc K) :=
  match md with
  | none => .error .attributeError
  | some d => do
    let sampNum ← coeffs pf d "SAMP_NUM_COEFF".toList
    let sampDen ← coeffs pf d "SAMP_DEN_COEFF".toList
    let sampScale ← num pf d "SAMP_SCALE".toList
    let sampOff ← num pf d "SAMP_OFF".toList
    let lineNum ← coeffs pf d "LINE_NUM_COEFF".toList
    let lineDen ← coeffs pf d "LINE_DEN_COEFF".toList
    let lineScale ← num pf d "LINE_SCALE".toList
    let lineOff ← num pf d "LINE_OFF".toList
    let latScale ← num pf d "LAT_SCALE".toList
    let latOff ← num pf d "LAT_OFF".toList
    let lonScale ← num pf d "LONG_SCALE".toList
    let lonOff ← num pf d "LONG_OFF".toList
    let hScale ← num pf d "HEIGHT_SCALE".toList
    let hOff ← num pf d "HEIGHT_OFF".toList
    .ok (rpcFromCoeffs sampNum sampDen sampScale sampOff lineNum lineDen lineScale lineOff latScale latOff
      lonScale lonOff hScale hOff)

/-- `coeffs[0] ... coeffs[19]` (rpc_point_calc.py:151-170): IndexError when there are fewer than twenty; further ones are ignored. -/
def first20 (l : List K) : Py (Nat → K) :=
  if l.length < 20 then .error .indexError else .ok (fun i => l.getD i 0)

/-- `_lon_lat_alt_to_pixel_x_y_native` (rpc_point_calc.py:188-218) on the stored arrays; the arithmetic is `Geotiff.Rpc.project`. -/
def RpcCalc.project (c : RpcCalc K) (lon lat alt : K) : Py (Option (K × K)) := do
  let sampNum ← first20 c.sampNum
  let sampDen ← first20 c.sampDen
  let lineNum ← first20 c.lineNum
  let lineDen ← first20 c.lineDen
  .ok (Geotiff.Rpc.project
    { sampNum := sampNum, sampDen := sampDen, sampScale := c.sampScale, sampOff := c.sampOff, lineNum := lineNum,
      lineDen := lineDen, lineScale := c.lineScale, lineOff := c.lineOff, latScale := c.latScale, latOff := c.latOff,
      lonScale := c.lonScale, lonOff := c.lonOff, hScale := c.hScale, hOff := c.hOff } lon lat alt)

end

/-! ### Ideal pinhole: position in degrees, field of view of a pixel -/

section
open Camera

/-- An `IdealPinholeFpaLocalUtmPointCalc` with its projection and approximate centre. Used for `initWgs84`, ideal_pinhole_fpa_local_utm_point_calc.py:48-139. -/
structure LocalFpa (P : Type) where
  fpa : Fpa
  proj : P
  centre : ℝ × ℝ

/-- `init_from_wgs84_params` (ideal_pinhole_fpa_local_utm_point_calc.py:48-139).  `utm lon lat` is `decimal_degrees_to_local_utm_proj` (proj_utils.py:28-36),
`tr P lon lat` is pyproj's transform from EPSG:4326 to the projection `P`.  The units are as for `initFpa`. -/
noncomputable def initWgs84 {P : Type} (utm : ℝ → ℝ → Py P) (tr : P → ℝ → ℝ → ℝ × ℝ) (lon lat alt omega phi kappa : ℝ)
    (npixX npixY : Nat) (pitchX pitchY f : ℝ) (ua uw up uk upx upy uf : ℝ) (flipX flipY : Bool) : Py (LocalFpa P) := do
  let p ← utm lon lat
  let xy := tr p lon lat
  .ok { fpa :=
          { cam := initPinhole xy.1 xy.2 alt omega phi kappa f 1 1 ua uw up uk uf
            pitchX := pitchX * upx
            pitchY := pitchY * upy
            npixX := npixX
            npixY := npixY
            flipX := flipX
            flipY := flipY }
        proj := p
        centre := xy }

/-- `init_from_local_params` (ideal_pinhole_fpa_local_utm_point_calc.py:142-200). -/
noncomputable def initLocal {P : Type} (lon lat alt : ℝ) (p : P) (omega phi kappa : ℝ) (npixX npixY : Nat)
    (pitchX pitchY f : ℝ) (ua uw up uk upx upy uf : ℝ) (flipX flipY : Bool) : LocalFpa P :=
  { fpa := initFpa lon lat alt omega phi kappa npixX npixY pitchX pitchY f ua uw up uk upx upy uf flipX flipY
    proj := p
    centre := (lon, lat) }

/-- Quotient of two Python floats: ZeroDivisionError for a zero divisor. Used for `ifovX`, ideal_pinhole_fpa_local_utm_point_calc.py:202-208. -/
noncomputable def pyDiv (a b : ℝ) : Py ℝ := if b = 0 then .error .zeroDivision else .ok (a / b)

/-- `compute_ifov_x` (ideal_pinhole_fpa_local_utm_point_calc.py:202-204); `u` is radians per output unit. -/
noncomputable def ifovX (c : Fpa) (u : ℝ) : Py ℝ := do
  let q ← pyDiv c.pitchX c.cam.f
  .ok (Real.arctan q / u)

/-- `compute_ifov_y` (ideal_pinhole_fpa_local_utm_point_calc.py:206-208). -/
noncomputable def ifovY (c : Fpa) (u : ℝ) : Py ℝ := do
  let q ← pyDiv c.pitchY c.cam.f
  .ok (Real.arctan q / u)

/-! ### OpenCV camera from a dictionary -/

/-- An `OpenCVPointCalc`: intrinsics, fixture, pixel pitch and the UTM zone of its projection. Used for `openCVFromParams`, opencv_point_calc.py:11-64. -/
structure OpenCVCalc where
  cam : OpenCV
  fixture : Fixture
  pitchMicrons : ℝ
  zone : Nat

/-- `init_offsets` (opencv_point_calc.py:113-130): units are metres and radians. -/
noncomputable def offsets (s : Fixture) (x y z omega phi kappa : ℝ) : Fixture :=
  (s.step (.setRelative x y z 1 1 1)).step (.setBoresightRpy omega phi kappa 1 1 1 "rpy")

/-- `init_extrinsic` (opencv_point_calc.py:95-111). -/
noncomputable def OpenCVCalc.extrinsic (c : OpenCVCalc) (x y z omega phi kappa : ℝ) : OpenCVCalc :=
  { c with fixture := (c.fixture.step (.setXyz x y z)).step (.setOrientationRpy omega phi kappa 1 1 1 "rpy") }

/-- `init_from_params` (opencv_point_calc.py:49-64). -/
noncomputable def openCVFromParams (d : Dict ℝ) : Py OpenCVCalc := do
  let fx ← item d "fx_pixels".toList
  let fy ← item d "fy_pixels".toList
  let cx ← item d "cx_pixels".toList
  let cy ← item d "cy_pixels".toList
  let k1 ← item d "k1".toList
  let k2 ← item d "k2".toList
  let k3 ← item d "k3".toList
  let p1 ← item d "p1".toList
  let p2 ← item d "p2".toList
  let pitch ← item d "pixel_pitch_microns".toList
  let x ← item d "x_offset_meters".toList
  let y ← item d "y_offset_meters".toList
  let z ← item d "z_offset_meters".toList
  let omega ← item d "omega_offset_radians".toList
  let phi ← item d "phi_offset_radians".toList
  let kappa ← item d "kappa_offset_radians".toList
  .ok { cam := initOpenCV fx fy cx cy k1 k2 k3 p1 p2, fixture := offsets {} x y z omega phi kappa,
        pitchMicrons := pitch, zone := 18 }

/-- `_lon_lat_alt_to_pixel_x_y_native` of the calculator (opencv_point_calc.py:132-164). -/
noncomputable def OpenCVCalc.pixel (c : OpenCVCalc) (p : V3) : Py (Option (ℝ × ℝ)) := c.cam.pixel c.fixture p

end

/-! ### The projection of a sensor model -/

section
variable {P W R : Type}

/-- A point calculator as the sensor model sees it: its projection attribute and its native calculation; every calculator class of the
code base lacks a method `set_distortion_model`. Used for `Sensor`, earth_overhead_sensor_model.py:10-45. -/
structure CalcObj (P W R : Type) where
  proj : P
  native : W → R

/-- An `EarthOverheadSensorModel`: its own projection (None at first) and its calculators, which are mutable objects named by numbers
in `heap`. See earth_overhead_sensor_model.py:10-12. -/
structure Sensor (P W R : Type) where
  proj : Option P
  calcs : List Nat
  heap : Nat → CalcObj P W R

/-- `set_projection` (earth_overhead_sensor_model.py:36-40). -/
def Sensor.setProjection (s : Sensor P W R) (p : P) : Sensor P W R :=
  { s with proj := some p, heap := s.calcs.foldl (fun h a => fun b => if b = a then { h b with proj := p } else h b) s.heap }

/-- `add_point_calc` (earth_overhead_sensor_model.py:56-59). -/
def Sensor.add (s : Sensor P W R) (a : Nat) : Sensor P W R := { s with calcs := s.calcs ++ [a] }

/-- `set_point_calcs` (earth_overhead_sensor_model.py:47-50). -/
def Sensor.setCalcs (s : Sensor P W R) (l : List Nat) : Sensor P W R := { s with calcs := l }

/-- `set_distortion_model` (earth_overhead_sensor_model.py:42-45): the calculators have no such method. -/
def Sensor.setDistortion (s : Sensor P W R) (_model : Str) : Py (Sensor P W R) :=
  match s.calcs with
  | [] => .ok s
  | _ :: _ => .error .attributeError

/-- The public world-to-pixel call of one calculator (abstract_earth_overhead_point_calc.py:120-126) for a point `w` in the
projection `from_`; `T` is pyproj's transform, applied unless the projections are the same. -/
def CalcObj.query [DecidableEq P] (T : P → P → W → W) (c : CalcObj P W R) (from_ : P) (w : W) : R :=
  if from_ = c.proj then c.native w else c.native (T from_ c.proj w)

/-- The public world-to-pixel call of the sensor model for a band that has a calculator (abstract_earth_overhead_point_calc.py:120-126,
earth_overhead_sensor_model.py:14-22): the point is converted to the sensor model's projection and given to the native calculation of the band's
calculator.  Without a projection the `srs` of None is an AttributeError. -/
def Sensor.query [DecidableEq P] (T : P → P → W → W) (s : Sensor P W R) (band : Nat) (from_ : P) (w : W) : Py (Option R) :=
  match s.proj with
  | none => .error .attributeError
  | some p =>
    let w' := if from_ = p then w else T from_ p w
    match s.calcs[band]? with
    | some a => .ok (some ((s.heap a).native w'))
    | none => .ok none

end
end Verif.Setup
