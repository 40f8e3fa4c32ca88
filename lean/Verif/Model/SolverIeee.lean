import Verif.Model.Ieee
import Verif.Model.PointCalc
import Verif.Model.Geotiff

/-! The iterative pixel-to-ground conversion (abstract_earth_overhead_point_calc.py:182-292) and the RPC projection (rpc_point_calc.py:135-218) in IEEE 754 arithmetic with its
exponent range (`Model/Ieee.lean`): overflow, infinities, NaN.  `Model/PointCalc.lean` has the conversion in exact arithmetic, `Model/FloatSolver.lean` with rounding but
without overflow.

Simplified: all numbers have one format (numpy computes with float64 throughout); floating-point warnings are not modelled. -/

namespace Verif.SolverIeee
open Verif Ieee PointCalc

section
variable {K : Type} [Field K] [LinearOrder K] [IsStrictOrderedRing K]

/-- `np.isnan` (abstract_earth_overhead_point_calc.py:245). -/
def isNan : Num K → Bool
  | .nan => true
  | _ => false

/-- `np.abs` (abstract_earth_overhead_point_calc.py:286-287). -/
def absN : Num K → Num K
  | .nan => .nan
  | .inf _ => .inf false
  | .zero _ => .zero false
  | .fin x => .fin |x|

/-- `a < b`, false with NaN (abstract_earth_overhead_point_calc.py:249-255, 289). -/
def ltN : Num K → Num K → Bool
  | .nan, _ => false
  | _, .nan => false
  | .inf s, .inf t => s && !t
  | .inf s, _ => s
  | _, .inf t => !t
  | .zero _, .zero _ => false
  | .zero _, .fin y => decide (0 < y)
  | .fin x, .zero _ => decide (x < 0)
  | .fin x, .fin y => decide (x < y)

/-- `a <= b`, false with NaN (abstract_earth_overhead_point_calc.py:289). -/
def leN (a b : Num K) : Bool := !isNan a && !isNan b && !ltN b a

/-- `float_nums` (abstract_earth_overhead_point_calc.py:211-220): `eps, 2 eps, 4 eps, ...` below a quarter of the largest number, that is `2^(1-p)` up to `2^(emax-2)`
(`trialSteps_spec`). -/
def trialSteps (F : Format) : List (Num K) :=
  (List.range (F.emax - 2 + F.p).toNat).map (fun (k : Nat) => Num.fin ((2 : K) ^ ((k : Int) + 1 - F.p)))

variable [FloorRing K]

/-- The first of the trial positions that moves the projection by more than one pixel, as a difference from the centre (abstract_earth_overhead_point_calc.py:249-256);
IndexError when there is none.  The list pairs each trial coordinate with its pixel. -/
def firstMove (F : Format) (base : Num K × Num K) (c : Num K) : List (Num K × Num K × Num K) → Py (Num K)
  | [] => .error .indexError
  | (pos, px, py) :: rest =>
    let dx := sub F px base.1
    let dy := sub F py base.2
    if ltN (.fin 1) (add F (mul F dx dx) (mul F dy dy)) then .ok (sub F pos c)
    else firstMove F base c rest

/-- The shifts `d_lon`, `d_lat` (abstract_earth_overhead_point_calc.py:207-256); `f` is the forward projection in float arithmetic.  The condition of line 245 tests the same
array twice. -/
def shifts (F : Format) (f : Num K → Num K → Num K → Num K × Num K) (centre : Num K × Num K) (meanAlt : Num K) : Py (Num K × Num K) :=
  let lon0 := add F (.zero false) centre.1
  let lat0 := add F (.zero false) centre.2
  let base := f centre.1 centre.2 meanAlt
  let lonTrials := (trialSteps F).map (fun d => (add F lon0 d, f (add F lon0 d) lat0 meanAlt))
  let latTrials := (trialSteps F).map (fun d => (add F lat0 d, f lon0 (add F lat0 d) meanAlt))
  if lonTrials.any (fun q => isNan (sub F q.2.1 base.1)) then .ok (.fin 2, .fin 2)
  else do
    let a ← firstMove F base centre.1 lonTrials
    let b ← firstMove F base centre.2 latTrials
    .ok (a, b)

/-- One update of one pixel (abstract_earth_overhead_point_calc.py:259-279). -/
def newtonStepI (F : Format) (f : Num K → Num K → Num K → Num K × Num K) (dLon dLat : Num K) (t : Target (Num K)) (e : Num K × Num K) : Num K × Num K :=
  let (lon, lat) := e
  let (x0, y0) := f lon lat t.alt
  let (xa, ya) := f (add F lon dLon) lat t.alt
  let (xb, yb) := f lon (add F lat dLat) t.alt
  let pxx := div F (sub F xa x0) dLon
  let pxy := div F (sub F xb x0) dLat
  let pyx := div F (sub F ya y0) dLon
  let pyy := div F (sub F yb y0) dLat
  let dpx := sub F t.x x0
  let dpy := sub F t.y y0
  let deltaLat := div F (sub F (mul F dpy pxx) (mul F pyx dpx)) (sub F (mul F pyy pxx) (mul F pxy pyx))
  let deltaLon := div F (sub F dpx (mul F deltaLat pxy)) pxx
  (add F lon deltaLon, add F lat deltaLat)

/-- One estimate projects within the threshold (abstract_earth_overhead_point_calc.py:281-289): `.max()` of an array with a NaN is NaN. -/
def withinI (F : Format) (f : Num K → Num K → Num K → Num K × Num K) (thr : Num K) (t : Target (Num K)) (e : Num K × Num K) : Bool :=
  let p := f e.1 e.2 t.alt
  leN (absN (sub F t.x p.1)) thr && leN (absN (sub F t.y p.2)) thr

/-- The iteration (abstract_earth_overhead_point_calc.py:258-290). -/
def newtonLoopI (F : Format) (f : Num K → Num K → Num K → Num K × Num K) (dLon dLat thr : Num K) :
    Nat → List (Target (Num K)) → List (Num K × Num K) → List (Num K × Num K)
  | 0, _, es => es
  | todo + 1, ts, es =>
    let es' := List.zipWith (newtonStepI F f dLon dLat) ts es
    if (List.zipWith (withinI F f thr) ts es').all id then es'
    else newtonLoopI F f dLon dLat thr todo ts es'

/-- `_pixel_x_y_alt_to_lon_lat_native_solver` (abstract_earth_overhead_point_calc.py:182-292) with `d_lon = d_lat = None`; `meanAlt` is `np.average(alts)`.  `.max()` of no
pixels raises ValueError. -/
def solverI (F : Format) (f : Num K → Num K → Num K → Num K × Num K) (centre : Num K × Num K) (meanAlt thr : Num K) (maxIter : Nat) (ts : List (Target (Num K))) :
    Py (List (Num K × Num K)) := do
  let d ← shifts F f centre meanAlt
  if ts = [] ∧ 0 < maxIter then .error .valueError
  else .ok (newtonLoopI F f d.1 d.2 thr maxIter ts (ts.map (fun _ => (add F (.zero false) centre.1, add F (.zero false) centre.2))))

/-- `compute_p` (rpc_point_calc.py:135-186), in the order of the code. -/
def computePI (F : Format) (a : Nat → Num K) (x y z : Num K) : Num K :=
  let m := mul F
  let s := add F
  let xx := m x x
  let yy := m y y
  let zz := m z z
  let xxx := m xx x
  let yyy := m yy y
  let zzz := m zz z
  let xy := m x y
  let xz := m x z
  let yz := m y z
  let p := s (a 0) (m (a 1) y)
  let p := s p (m (a 2) x)
  let p := s p (m (a 3) z)
  let p := s p (m (a 4) xy)
  let p := s p (m (a 5) yz)
  let p := s p (m (a 6) xz)
  let p := s p (m (a 7) yy)
  let p := s p (m (a 8) xx)
  let p := s p (m (a 9) zz)
  let p := s p (m (m (m (a 10) x) y) z)
  let p := s p (m (a 11) yyy)
  let p := s p (m (m (a 12) y) xx)
  let p := s p (m (m (a 13) y) zz)
  let p := s p (m (m (a 14) yy) x)
  let p := s p (m (a 15) xxx)
  let p := s p (m (m (a 16) x) zz)
  let p := s p (m (m (a 17) yy) z)
  let p := s p (m (m (a 18) xx) y)
  s p (m (a 19) zzz)

/-- `RPCPointCalc._lon_lat_alt_to_pixel_x_y_native` (rpc_point_calc.py:188-218). -/
def rpcI (F : Format) (c : Geotiff.Rpc (Num K)) (lon lat alt : Num K) : Num K × Num K :=
  let x := div F (sub F lat c.latOff) c.latScale
  let y := div F (sub F lon c.lonOff) c.lonScale
  let z := div F (sub F alt c.hOff) c.hScale
  let xn := div F (computePI F c.sampNum x y z) (computePI F c.sampDen x y z)
  let yn := div F (computePI F c.lineNum x y z) (computePI F c.lineDen x y z)
  (add F (add F (mul F xn c.sampScale) c.sampOff) (.fin (1 / 2)), add F (add F (mul F yn c.lineScale) c.lineOff) (.fin (1 / 2)))

/-- `pixel_x_y_alt_to_lon_lat` of an RPC calculator in its own projection (abstract_earth_overhead_point_calc.py:140-180, rpc_point_calc.py:130, 220-234): the calculator has no
native inverse, the centre is the offset of the model. -/
def rpcPixelToLonLat (F : Format) (c : Geotiff.Rpc (Num K)) (meanAlt thr : Num K) (maxIter : Nat) (ts : List (Target (Num K))) : Py (List (Num K × Num K)) :=
  solverI F (rpcI F c) (c.lonOff, c.latOff) meanAlt thr maxIter ts

end
end Verif.SolverIeee
