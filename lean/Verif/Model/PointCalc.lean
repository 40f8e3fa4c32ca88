import Verif.Base
import Verif.Model.ImageUtils
import Mathlib.Analysis.SpecialFunctions.Pow.Real

/-! Model of
`/repo/resippy/image_objects/earth_overhead/earth_overhead_point_calculators/abstract_earth_overhead_point_calc.py`
(below: abstract_earth_overhead_point_calc.py): the world-to-pixel wrapper, the iterative pixel-to-world solver and
the ray caster. -/

namespace Verif.PointCalc
open Verif ImageUtils

/-- A numpy-like argument: a number, a one-dimensional or a two-dimensional array.
Used for `worldToPixel`, abstract_earth_overhead_point_calc.py:78-138. -/
inductive Nd (α : Type) where
  | num (v : α)
  | d1 (a : A1 α)
  | d2 (a : A2 α)

/-- `np.reshape(a, n)` to one dimension: ValueError when the sizes differ.
Used for `worldToPixel`, abstract_earth_overhead_point_calc.py:78-138. -/
def reshape1 {α : Type} (n : Nat) : Nd α → Py (A1 α)
  | .num v => if n = 1 then .ok ⟨1, fun _ => v⟩ else .error .valueError
  | .d1 a => if a.n = n then .ok a else .error .valueError
  | .d2 a => if a.ny * a.nx = n then .ok (flattenBand a) else .error .valueError

section
variable {K : Type} [Zero K]

/-- numpy's broadcast length of two one-dimensional arrays: equal lengths, or one of them 1.
Used for `nativeVec`, abstract_earth_overhead_point_calc.py:126. -/
def bcast (a b : Nat) : Py Nat :=
  if a = b then .ok a else if a = 1 then .ok b else if b = 1 then .ok a else .error .valueError

/-- Element `k` of a one-dimensional array in a broadcast. Used for `nativeVec`, abstract_earth_overhead_point_calc.py:126. -/
def bAt (a : A1 K) (k : Nat) : K := a.px (if a.n = 1 then 0 else k)

/-- The vectorised native calculation `_lon_lat_alt_to_pixel_x_y_native` on one-dimensional arrays
(abstract_earth_overhead_point_calc.py:126).  The calculators of the code base compute it element by element, with numpy's broadcasting of
one-element arrays, which is what the parameter `native` says.  Simplified: the calculators that ignore altitudes accept any length of them,
and `IGMPointCalc` does not broadcast. -/
def nativeVec (native : K → K → K → K × K) (lon lat alt : A1 K) : Py (A1 K × A1 K) := do
  let m ← bcast lon.n lat.n
  let n ← bcast m alt.n
  .ok (⟨n, fun k => (native (bAt lon k) (bAt lat k) (bAt alt k)).1⟩, ⟨n, fun k => (native (bAt lon k) (bAt lat k) (bAt alt k)).2⟩)

/-- `proj_transform(world_proj, native_proj, lons, lats, alts)` element by element, when the `srs` of the projections differ, and the native
calculation (abstract_earth_overhead_point_calc.py:122-126).  pyproj is the parameter `T`, `none` when the two projections have the same `srs`; it
refuses arrays of different lengths (the kind of exception is not modelled). -/
def calcVec (native : K → K → K → K × K) (T : Option (K → K → K → K × K × K)) (lon lat alt : A1 K) : Py (A1 K × A1 K) :=
  match T with
  | none => nativeVec native lon lat alt
  | some t =>
    if lon.n = lat.n ∧ lon.n = alt.n then
      nativeVec native ⟨lon.n, fun k => (t (lon.px k) (lat.px k) (alt.px k)).1⟩ ⟨lat.n, fun k => (t (lon.px k) (lat.px k) (alt.px k)).2.1⟩
        ⟨alt.n, fun k => (t (lon.px k) (lat.px k) (alt.px k)).2.2⟩
    else .error .valueError

/-- `lon_lat_alt_to_pixel_x_y` (abstract_earth_overhead_point_calc.py:78-138).  `alts = none` is Python `None`.
A number for only one of `lons`, `lats`, and two-dimensional altitudes for others than two-dimensional positions, are outside the model
(`notImplemented`). -/
def worldToPixel (native : K → K → K → K × K) (T : Option (K → K → K → K × K × K))
    (lons lats : Nd K) (alts : Option (Nd K)) : Py (Nd K × Nd K) :=
  -- lines 99-100
  let alts1 : Nd K := match alts with
    | none => .num 0
    | some a => a
  match lons, lats with
  | .num lon, .num lat => do
    -- lines 105-107: both become one-element arrays; 108-109: a number altitude too
    let a ← match alts1 with
      | .num v => Except.ok (⟨1, fun _ => v⟩ : A1 K)
      | .d1 a => .ok a
      | .d2 _ => .error .notImplemented
    let (px, py) ← calcVec native T ⟨1, fun _ => lon⟩ ⟨1, fun _ => lat⟩ a
    -- lines 128-129
    if px.n = 0 then .error .indexError
    else .ok (.num (px.px 0), .num (py.px 0))
  | .d1 lon, .d1 lat => do
    let a ← match alts1 with
      | .num v => Except.ok (⟨lon.n, fun _ => v⟩ : A1 K)
      | .d1 a => .ok a
      | .d2 _ => .error .notImplemented
    let (px, py) ← calcVec native T lon lat a
    .ok (.d1 px, .d1 py)
  | .d2 lon, lats' => do
    -- lines 113-119; a number altitude has been spread to the shape of `lons`
    let n := lon.nx * lon.ny
    let lo0 := flattenBand lon
    let la0 ← reshape1 n lats'
    let al0 ← match alts1 with
      | .num v => Except.ok (⟨n, fun _ => v⟩ : A1 K)
      | other => reshape1 n other
    let (px, py) ← calcVec native T ⟨n, lo0.px⟩ la0 al0
    -- lines 133-136
    let x2 ← unflattenBand px lon.nx lon.ny
    let y2 ← unflattenBand py lon.nx lon.ny
    .ok (.d2 x2, .d2 y2)
  | _, _ => .error .notImplemented

end

/-! ### Iterative solver -/

section solver
variable {K : Type} [Field K] [LinearOrder K] [IsStrictOrderedRing K]

/-- A ground position estimate; `none` stands for a non-finite one (NaN), which stays non-finite.
Used for `within`, abstract_earth_overhead_point_calc.py:281, 286-289. -/
abbrev Est (K : Type) := Option (K × K)

/-- One Newton-like update of one pixel (abstract_earth_overhead_point_calc.py:259-279).  `f` is the forward
projection (`none` when it gives a non-finite pixel).  Division by zero gives a non-finite value. -/
def newtonStep (f : K → K → K → Option (K × K)) (dLon dLat alt tx ty : K) (e : Option (K × K)) :
    Option (K × K) := do
  let (lon, lat) ← e
  let (x0, y0) ← f lon lat alt
  let (xa, ya) ← f (lon + dLon) lat alt
  let (xb, yb) ← f lon (lat + dLat) alt
  let pxx ← fdiv (xa - x0) dLon
  let pxy ← fdiv (xb - x0) dLat
  let pyx ← fdiv (ya - y0) dLon
  let pyy ← fdiv (yb - y0) dLat
  let dpx := tx - x0
  let dpy := ty - y0
  let deltaLat ← fdiv (dpy * pxx - pyx * dpx) (pyy * pxx - pxy * pyx)
  let deltaLon ← fdiv (dpx - deltaLat * pxy) pxx
  some (lon + deltaLon, lat + deltaLat)

/-- The new estimate of one pixel projects within `thr` of the target in both coordinates; false when
anything is non-finite (comparisons with NaN are false) (abstract_earth_overhead_point_calc.py:281, 286-289). -/
def within (f : K → K → K → Option (K × K)) (thr alt tx ty : K) (e : Est K) : Bool :=
  match e with
  | none => false
  | some (lon, lat) =>
    match f lon lat alt with
    | none => false
    | some (x, y) => decide (|tx - x| ≤ thr ∧ |ty - y| ≤ thr)

/-- A requested pixel: its altitude and its image coordinates.
Used for `newtonLoop`, abstract_earth_overhead_point_calc.py:258-290. -/
structure Target (K : Type) where
  alt : K
  x : K
  y : K

/-- The iteration (abstract_earth_overhead_point_calc.py:258-290) on all pixels at once: `todo` iterations left;
stops early when the maximal errors are within the threshold. -/
def newtonLoop (f : K → K → K → Option (K × K)) (dLon dLat thr : K) :
    Nat → List (Target K) → List (Est K) → List (Est K)
  | 0, _, es => es
  | todo + 1, ts, es =>
    let es' := List.zipWith (fun t e => newtonStep f dLon dLat t.alt t.x t.y e) ts es
    if (List.zipWith (fun t e => within f thr t.alt t.x t.y e) ts es').all id then es'
    else newtonLoop f dLon dLat thr todo ts es'

/-- Search for the step in one direction (abstract_earth_overhead_point_calc.py:217-256): the first of
`eps, 2 eps, 4 eps, ...` (`m` of them) that moves the projection of the centre by more than one pixel;
IndexError when there is none.  `move d` is the projected pixel displacement. -/
def findDelta (move : K → K × K) (eps : K) : Nat → Py K
  | 0 => .error .indexError
  | m + 1 =>
    if (move eps).1 * (move eps).1 + (move eps).2 * (move eps).2 > 1 then .ok eps
    else findDelta move (eps * 2) m

/-- All `eps * 2^k`, `k < m`, have finite projections along longitude
(abstract_earth_overhead_point_calc.py:245: `np.isnan(...).max()`). -/
def allFinite (g : K → Option (K × K)) (eps : K) : Nat → Bool
  | 0 => true
  | m + 1 => (g eps).isSome && allFinite g (eps * 2) m

/-- `_pixel_x_y_alt_to_lon_lat_native_solver` (abstract_earth_overhead_point_calc.py:182-292) with the default
`d_lon = d_lat = None`.  `eps` and `m` are the machine epsilon and the number of doublings below the
cut-off; `centre` is the approximate centre; `meanAlt` is `np.average(alts)`.  An empty request makes
`.max()` of an empty array raise ValueError (as soon as one iteration runs).  A non-finite projection
along latitude only (a NaN that numpy's comparison drops) is treated as a displacement of 0. -/
def solver (f : K → K → K → Option (K × K)) (centre : K × K) (eps : K) (m : Nat) (meanAlt thr : K)
    (maxIter : Nat) (ts : List (Target K)) : Py (List (Est K)) := do
  let base := f centre.1 centre.2 meanAlt
  let diff : Option (K × K) → K × K := fun q =>
    match q, base with
    | some (x, y), some (x0, y0) => (x - x0, y - y0)
    | _, _ => (0, 0)
  let (dLon, dLat) ←
    if base.isSome && allFinite (fun d => f (centre.1 + d) centre.2 meanAlt) eps m then do
      let a ← findDelta (fun d => diff (f (centre.1 + d) centre.2 meanAlt)) eps m
      let b ← findDelta (fun d => diff (f centre.1 (centre.2 + d) meanAlt)) eps m
      Except.ok (a, b)
    else .ok (2, 2)
  if ts = [] ∧ 0 < maxIter then .error .valueError
  else .ok (newtonLoop f dLon dLat thr maxIter ts (ts.map (fun _ => some centre)))

end solver

/-! ### Ray caster -/

section ray
variable {K : Type} [Field K] [LinearOrder K] [IsStrictOrderedRing K]

/-- The reversed search loop of one ray (abstract_earth_overhead_point_calc.py:365-370): indices `s-1, ..., 0`; an
index where the terrain is above the ray overwrites the stored one, so the smallest such index
remains; 0 when there is none. -/
def searchLoop (above : Nat → Bool) : Nat → Nat → Nat
  | 0, acc => acc
  | s + 1, acc => searchLoop above s (if above s then s else acc)

/-- One intersected point: longitude, latitude, altitude; `none` for a non-finite result.
Used for `castRay`, abstract_earth_overhead_point_calc.py:354-391. -/
abbrev Hit (K : Type) := Option (K × K × K)

/-- The result of one ray with `s` samples (abstract_earth_overhead_point_calc.py:354-391).  `top`, `bot` are the
ground positions of the pixel at the altitudes `maxAlt` and `minAlt`; `E` is the DEM (elevation as a
function of longitude and latitude).  `ray[1]` raises IndexError when `s = 1`. -/
def castRay (E : K → K → K) (maxAlt minAlt : K) (s : Nat) (top bot : K × K) : Py (Hit K) := do
  let t : Nat → K := linspace 0 1 s
  let lon : Nat → K := fun i => (bot.1 - top.1) * t i + top.1
  let lat : Nat → K := fun i => (bot.2 - top.2) * t i + top.2
  let elev : Nat → K := fun i => E (lon i) (lat i)
  let ray : Nat → K := linspace maxAlt minAlt s
  let idx := searchLoop (fun i => decide (ray i < elev i)) s 0
  -- first_ray_intersect_indices - 1: -1 wraps to the last sample
  let first ← pyIdx s ((idx : Int) - 1)
  let second ← pyIdx s (idx : Int)
  if s < 2 then .error .indexError
  else
    let mRays := ray 1 - ray 0
    let mAlts := elev second - elev first
    .ok ((fdiv (elev first - ray first) (mRays - mAlts)).map (fun x =>
      ((lon second - lon first) * x + lon first,
       (lat second - lat first) * x + lat first,
       (elev second - elev first) * x + elev first)))

/-- All rays, one after the other; the first exception wins.
Used for `rayCaster`, abstract_earth_overhead_point_calc.py:294-398. -/
def castRays (E : K → K → K) (maxAlt minAlt : K) (s : Nat) : List ((K × K) × (K × K)) → Py (List (Hit K))
  | [] => if s < 2 then .error .indexError else .ok []
  | p :: ps => do
    let h ← castRay E maxAlt minAlt s p.1 p.2
    let hs ← castRays E maxAlt minAlt s ps
    .ok (h :: hs)

/-- `_pixel_x_y_to_lon_lat_ray_caster_native` (abstract_earth_overhead_point_calc.py:294-398) for a list of pixels.
`ground alt k` is the ground position of pixel `k` at altitude `alt` (`pixel_x_y_alt_to_lon_lat`);
`nSteps top bot` is the number of samples (350-352), which depends on all rays: see
`raySteps`.  `np.max` of no pixels raises ValueError. -/
def rayCaster (E : K → K → K) (hi lo : K) (ground : K → Nat → K × K) (n : Nat)
    (nSteps : List ((K × K) × (K × K)) → Nat) : Py (List (Hit K)) :=
  let range := hi - lo
  let maxAlt := hi + range * (1 / 100)
  let minAlt := lo - range * (1 / 100)
  let rays := (List.range n).map (fun k => (ground maxAlt k, ground minAlt k))
  if n = 0 then .error .valueError
  else castRays E maxAlt minAlt (nSteps rays) rays

end ray

/-- Horizontal length of a ray (abstract_earth_overhead_point_calc.py:349-350). -/
noncomputable def horizontalLen (r : (ℝ × ℝ) × (ℝ × ℝ)) : ℝ :=
  Real.sqrt ((r.1.1 - r.2.1) ^ 2 + (r.1.2 - r.2.2) ^ 2)

/-- `np.max` of the horizontal lengths (all are non-negative).
Used for `raySteps`, abstract_earth_overhead_point_calc.py:351. -/
noncomputable def maxLen : List ((ℝ × ℝ) × (ℝ × ℝ)) → ℝ
  | [] => 0
  | r :: rs => max (horizontalLen r) (maxLen rs)

/-- `n_steps_per_ray = int(np.ceil(np.max(ray_horizontal_lens) / dem_sample_distance) + 1)`
(abstract_earth_overhead_point_calc.py:351) for a positive sample distance. -/
noncomputable def raySteps (dist : ℝ) (rays : List ((ℝ × ℝ) × (ℝ × ℝ))) : Nat :=
  (⌈maxLen rays / dist⌉ + 1).toNat

/-- `pixel_x_y_to_lon_lat_alt` (abstract_earth_overhead_point_calc.py:401-444) in the native projection:
`dem_sample_distance` defaults to 5, the altitude bounds default to those of the DEM. -/
noncomputable def pixelToLonLatAlt (E : ℝ → ℝ → ℝ) (demHi demLo : ℝ) (ground : ℝ → Nat → ℝ × ℝ) (n : Nat)
    (dist hi lo : Option ℝ) : Py (List (Hit ℝ)) :=
  rayCaster E (hi.getD demHi) (lo.getD demLo) ground n (raySteps (dist.getD 5))

end Verif.PointCalc
