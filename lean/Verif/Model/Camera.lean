import Verif.Str
import Verif.Model.ImageUtils
import Verif.Model.Rotation

/-! Model of the frame cameras in
`/repo/resippy/image_objects/earth_overhead/earth_overhead_point_calculators/`: pinhole_camera.py,
ideal_pinhole_fpa_local_utm_point_calc.py, fixtured_camera.py,
opencv_point_calc.py, pix4d_point_calc.py; and of the orientation computed by the camera simulator
`/repo/resippy/utils/physical_camera_simulator.py`.  Units (pint) are modelled as
the scale factor of the unit; projections are identities (native projection). -/

namespace Verif.Camera
open Verif ImageUtils Matrix Rotation

/-- Used for `Pinhole`, pinhole_camera.py:38-89. -/
abbrev V3 := Fin 3 → ℝ

/-! ### Pinhole -/

/-- `PinholeCamera` after `init_pinhole_from_coeffs` (pinhole_camera.py:38-89): position in metres,
focal length in metres, orientation matrix. -/
structure Pinhole where
  pos : V3
  f : ℝ
  m : M3

/-- `init_pinhole_from_coeffs` (pinhole_camera.py:38-89).  `ux, uy, uz, uf` are metres per unit of the
given coordinates and focal length, `uw, up, uk` radians per unit of the angles.  The matrix is
always of the default order. -/
noncomputable def initPinhole (x y z omega phi kappa f ux uy uz uw up uk uf : ℝ) : Pinhole :=
  ⟨![x * ux, y * uy, z * uz], f * uf, createM (omega * uw) (phi * up) (kappa * uk) "rpy"⟩

/-- `world_to_image_plane` (pinhole_camera.py:91-113); `none` when the denominator is zero. -/
noncomputable def Pinhole.imagePlane (c : Pinhole) (p : V3) : Option (ℝ × ℝ) := do
  let num1 := c.m 0 0 * (p 0 - c.pos 0) + c.m 0 1 * (p 1 - c.pos 1) + c.m 0 2 * (p 2 - c.pos 2)
  let num2 := c.m 1 0 * (p 0 - c.pos 0) + c.m 1 1 * (p 1 - c.pos 1) + c.m 1 2 * (p 2 - c.pos 2)
  let den := c.m 2 0 * (p 0 - c.pos 0) + c.m 2 1 * (p 1 - c.pos 1) + c.m 2 2 * (p 2 - c.pos 2)
  let q1 ← fdiv num1 den
  let q2 ← fdiv num2 den
  some (-1 * c.f * q1, -1 * c.f * q2)

/-! ### Ideal pinhole with a focal plane array -/

/-- `IdealPinholeFpaLocalUtmPointCalc` state (ideal_pinhole_fpa_local_utm_point_calc.py:16-25). -/
structure Fpa where
  cam : Pinhole
  pitchX : ℝ
  pitchY : ℝ
  npixX : ℝ
  npixY : ℝ
  flipX : Bool
  flipY : Bool

/-- `_lon_lat_alt_to_pixel_x_y_native` (ideal_pinhole_fpa_local_utm_point_calc.py:30-45); `none` when a coordinate is
non-finite. -/
noncomputable def Fpa.pixel (c : Fpa) (p : V3) : Option (ℝ × ℝ) := do
  let halfX := c.npixX * c.pitchX / 2
  let halfY := c.npixY * c.pitchY / 2
  let (x, y) ← c.cam.imagePlane p
  let x := if c.flipX then -1 * x else x
  let y := if c.flipY then -1 * y else y
  let px ← fdiv (x + halfX) c.pitchX
  let py ← fdiv (y + halfY) c.pitchY
  some (px, py)

/-- `init_from_local_params` (ideal_pinhole_fpa_local_utm_point_calc.py:142-200): `ua` metres per altitude unit, `uw, up, uk`
radians per angle unit, `upx, upy` metres per pitch unit, `uf` metres per focal-length unit. -/
noncomputable def initFpa (lon lat alt omega phi kappa : ℝ) (npixX npixY : Nat) (pitchX pitchY f : ℝ)
    (ua uw up uk upx upy uf : ℝ) (flipX flipY : Bool) : Fpa :=
  { cam := initPinhole lon lat alt omega phi kappa f 1 1 ua uw up uk uf
    pitchX := pitchX * upx
    pitchY := pitchY * upy
    npixX := npixX
    npixY := npixY
    flipX := flipX
    flipY := flipY }

/-! ### Fixtured camera -/

/-- `FixturedCamera` attributes (fixtured_camera.py:11-25), `none` is Python None. -/
structure Fixture where
  xyz : Option V3 := none
  m : Option M3 := none
  rel : Option V3 := none
  boresight : Option M3 := none

/-- The setter calls (fixtured_camera.py:27-101).  `u`s are the unit scale factors. -/
inductive FixtureOp where
  | setXyz (x y z : ℝ)
  | setOrientation (m : M3)
  | setOrientationRpy (r p y ur up uy : ℝ) (order : String)
  | setRelative (x y z ux uy uz : ℝ)
  | setBoresight (m : M3)
  | setBoresightRpy (r p y ur up uy : ℝ) (order : String)

/-- One setter call (fixtured_camera.py:27-101). -/
noncomputable def Fixture.step (s : Fixture) : FixtureOp → Fixture
  | .setXyz x y z => { s with xyz := some ![x, y, z] }
  | .setOrientation m => { s with m := some m }
  | .setOrientationRpy r p y ur up uy o => { s with m := some (createM (r * ur) (p * up) (y * uy) o) }
  | .setRelative x y z ux uy uz => { s with rel := some ![x * ux, y * uy, z * uz] }
  | .setBoresight m => { s with boresight := some m }
  | .setBoresightRpy r p y ur up uy o =>
    { s with boresight := some (createM (r * ur) (p * up) (y * uy) o) }

/-- A history of setter calls on a new camera.
Used for `simulatorM`, physical_camera_simulator.py:72-117. -/
noncomputable def runFixture (ops : List FixtureOp) : Fixture := ops.foldl Fixture.step {}

/-- `get_camera_absolute_xyz` (fixtured_camera.py:106-111): `None` operands raise TypeError. -/
noncomputable def Fixture.absXyz (s : Fixture) : Py V3 :=
  match s.rel, s.m, s.xyz with
  | some r, some m, some f => .ok (f + r ᵥ* m)
  | _, _, _ => .error .typeError

/-- `get_camera_absolute_M_matrix` (fixtured_camera.py:113-118). -/
noncomputable def Fixture.absM (s : Fixture) : Py M3 :=
  match s.boresight, s.m with
  | some b, some m => .ok (b * m)
  | _, _ => .error .typeError

/-! ### OpenCV camera -/

/-- Intrinsic parameters as stored by `init_intrinsic` (opencv_point_calc.py:66-93). -/
structure OpenCV where
  fx : ℝ
  fy : ℝ
  cx : ℝ
  cy : ℝ
  k1 : ℝ
  k2 : ℝ
  k3 : ℝ
  p1 : ℝ
  p2 : ℝ

/-- `init_intrinsic` (opencv_point_calc.py:66-93): the focal lengths are stored negated. -/
def initOpenCV (fx fy cx cy k1 k2 k3 p1 p2 : ℝ) : OpenCV := ⟨-fx, -fy, cx, cy, k1, k2, k3, p1, p2⟩

/-- `_lon_lat_alt_to_pixel_x_y_native` (opencv_point_calc.py:132-164) for one point. -/
noncomputable def OpenCV.pixel (c : OpenCV) (s : Fixture) (p : V3) : Py (Option (ℝ × ℝ)) := do
  let rot ← s.absM
  let xyz ← s.absXyz
  let q := rot *ᵥ (p - xyz)
  .ok (do
    let x ← fdiv (q 0) (q 2)
    let y ← fdiv (q 1) (q 2)
    let r2 := x * x + y * y
    let r4 := r2 * r2
    let r6 := r2 * r2 * r2
    let radial := 1 + c.k1 * r2 + c.k2 * r4 + c.k3 * r6
    let xx := x * radial + 2 * c.p1 * x * y + c.p2 * (r2 + 2 * x * x)
    let yy := y * radial + c.p1 * (r2 + 2 * y * y) + 2 * c.p2 * x * y
    some (-c.fx * xx + c.cx, c.fy * yy + c.cy))

/-! ### Pix4d camera -/

/-- The entries of the parameter dictionary of one image (pix4d_utils.py:122-204, make_master_dict). -/
structure PixParams where
  r : M3
  external : List ℝ
  nX : ℝ
  nY : ℝ
  fpaWidthMm : ℝ
  F : ℝ
  Px : ℝ
  Py : ℝ
  tangential : List ℝ
  radial : List ℝ

/-- `Pix4dPointCalc` state (pix4d_point_calc.py:20-37). -/
structure Pix4d where
  r : M3
  trans : V3
  nX : ℝ
  nY : ℝ
  f : ℝ
  ppx : ℝ
  ppy : ℝ
  t1 : ℝ
  t2 : ℝ
  k1 : ℝ
  k2 : ℝ
  k3 : ℝ
  model : Option String
  revX : Bool
  revY : Bool

/-- List subscript with a non-negative literal index.
Used for `initPix4d`, pix4d_point_calc.py:62-112. -/
def sub (l : List ℝ) (i : Nat) : Py ℝ := match l[i]? with
  | some v => .ok v
  | none => .error .indexError

/-- `init_from_params` (pix4d_point_calc.py:62-112).  The dictionary is an association list (first
match); a missing key raises KeyError, a zero sensor width ZeroDivisionError.  `radial_distortion_3`
is read from index 1 (line 102).  Simplified: a missing third external parameter raises here, in the code at the first projection; the key
'projection' is assumed present (`Collect.initFromMaster` models it). -/
noncomputable def initPix4d (imageKey : Str) (all : List (Str × PixParams)) (model : Option String) : Py Pix4d :=
  match all.lookup (basename imageKey) with
  | none => .error .keyError
  | some d => do
    let t0 ← sub d.external 0
    let t1 ← sub d.external 1
    let t2 ← sub d.external 2
    if d.fpaWidthMm = 0 then .error .zeroDivision
    else
      let ppm := d.nX / d.fpaWidthMm
      let tan1 ← sub d.tangential 0
      let tan2 ← sub d.tangential 1
      let rad1 ← sub d.radial 0
      let rad2 ← sub d.radial 1
      let rad3 ← sub d.radial 1
      .ok { r := d.r, trans := ![t0, t1, t2], nX := d.nX, nY := d.nY, f := d.F * ppm, ppx := d.Px * ppm,
            ppy := d.Py * ppm, t1 := tan1, t2 := tan2, k1 := rad1, k2 := rad2, k3 := rad3, model := model,
            revX := true, revY := true }

/-- Principal point, reversed when the axis is (pix4d_point_calc.py:48-60, 255-260). -/
def Pix4d.pp (c : Pix4d) : ℝ × ℝ :=
  (if c.revX then c.nX - c.ppx else c.ppx, if c.revY then c.nY - c.ppy else c.ppy)

/-- `world_to_camera_coordinates` (pix4d_point_calc.py:218-236). -/
noncomputable def Pix4d.camCoords (c : Pix4d) (p : V3) : V3 := c.r *ᵥ (p - c.trans)

/-- `camera_coords_to_pixel_coords_with_distortion` (pix4d_point_calc.py:238-273). -/
noncomputable def Pix4d.distorted (c : Pix4d) (q : V3) : Option (ℝ × ℝ) := do
  let xh ← fdiv (q 0) (q 2)
  let yh ← fdiv (q 1) (q 2)
  let r2 := xh ^ 2 + yh ^ 2
  let r := Real.sqrt r2
  let xhd := (1 + c.k1 * r2 + c.k2 * r ^ 4 + c.k3 * r ^ 6) * xh + 2 * c.t1 * xh * yh + c.t2 * (r ^ 2 + 2 * xh ^ 2)
  let yhd := (1 + c.k1 * r2 + c.k2 * r ^ 4 + c.k3 * r ^ 6) * yh + 2 * c.t2 * xh * yh + c.t1 * (r ^ 2 + 2 * yh ^ 2)
  some (-c.f * xhd + c.pp.1, -c.f * yhd + c.pp.2)

/-- `camera_coords_to_pixel_coords_no_distortion` (pix4d_point_calc.py:275-298). -/
noncomputable def Pix4d.undistorted (c : Pix4d) (q : V3) : Option (ℝ × ℝ) := do
  let a ← fdiv (-c.f * q 0) (q 2)
  let b ← fdiv (-c.f * q 1) (q 2)
  some (a + c.pp.1, b + c.pp.2)

/-- `world_xyzs_to_pixel_locations` (pix4d_point_calc.py:133-174) for one point; an unknown
distortion model leaves `pixel_coords` None, whose subscripting raises TypeError (when an axis is
reversed; otherwise None is returned, modelled as TypeError too). -/
noncomputable def Pix4d.pixel (c : Pix4d) (p : V3) : Py (Option (ℝ × ℝ)) := do
  let q := c.camCoords p
  let pc ← match c.model with
    | none => Except.ok (c.undistorted q)
    | some s => if s = "regular" then Except.ok (c.distorted q) else .error .typeError
  .ok (pc.map (fun uv => (if c.revX then c.nX - uv.1 else uv.1, if c.revY then c.nY - uv.2 else uv.2)))

/-! ### Camera simulator -/

/-- `numpy.isclose(v, 0)`. Used for `cleanAngle`, physical_camera_simulator.py:57-62. -/
def isClose0 (v : ℝ) : Prop := |v| ≤ 1 / 10 ^ 8

open Classical in
/-- The constructor's clean-up of one boresight angle (physical_camera_simulator.py:57-62). -/
noncomputable def cleanAngle (v : ℝ) : ℝ := if isClose0 v then v + 1 / 10 ^ 8 else v

/-- The orientation part of `_generate_camera_point_calc` (physical_camera_simulator.py:72-117): the
matrix with which the created point calculator projects; TypeError stands for a non-finite angle
(NaN orientation).  `ub` is radians per boresight unit; the platform angles are converted with the
boresight units as well (lines 91-94), `_ue` (the external orientation unit) is not used. -/
noncomputable def simulatorM (bRoll bPitch bYaw : ℝ) (order : String) (ub _ue roll pitch yaw : ℝ) : Py M3 := do
  let fx := runFixture
    [.setBoresightRpy (cleanAngle bRoll) (cleanAngle bPitch) (cleanAngle bYaw) ub ub ub order,
     .setOrientationRpy roll pitch yaw ub ub ub "rpy"]
  let m ← fx.absM
  match solveOPK m with
  | (some w, some p, some k) => .ok (initFpa 0 0 0 w p k 1 1 1 1 1 1 1 1 1 1 1 1 false true).cam.m
  | _ => .error .typeError

end Verif.Camera
