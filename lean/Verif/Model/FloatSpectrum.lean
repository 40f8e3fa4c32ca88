import Verif.Model.Spectrum
import Verif.Model.FloatGeom

/-! `Spectrum.resample_spectrum_direct` (`/repo/resippy/spectral/spectrum.py`) in float arithmetic: every operation of numpy's `interp` and `trapz` is followed by a
rounding `r`; the order in which `np.sum` adds is a tree, and the theorems are about all of them.

Simplified: as in `Verif.Rounding`, no overflow and no subnormal numbers; a division by zero is `none`; no fused multiply-add inside `np.interp` (the wheels of
numpy are compiled for plain x86-64). -/

set_option linter.unusedSectionVars false

namespace Verif.Spectrum
open Verif ImageUtils FloatSpectral FloatGeom

section
variable {K : Type} [Field K] [LinearOrder K] [IsStrictOrderedRing K]

/-- `np.interp(x, xp, fp, left=0, right=0)` (spectrum.py:107) in float arithmetic: at a sample its value, otherwise the slope of the segment times the distance from
the segment's left end, plus the value there.  As in `interp1`, `xp` is increasing. -/
def interp1R (r : K → K) (xp fp : List K) (x : K) : K :=
  match xp.head?, xp.getLast? with
  | some a, some b =>
    if x < a then 0
    else if b < x then 0
    else
      let j := xp.countP (fun p => decide (p ≤ x)) - 1
      if j + 1 < xp.length then
        if xp.getD j 0 = x then fp.getD j 0
        else
          r (r (r (r (fp.getD (j + 1) 0 - fp.getD j 0) / r (xp.getD (j + 1) 0 - xp.getD j 0)) * r (x - xp.getD j 0)) + fp.getD j 0)
      else fp.getD j 0
  | _, _ => 0

/-- One term of `np.trapz(y, x)` (spectrum.py:117-118): `d * (y[1:] + y[:-1]) / 2.0` with `d = np.diff(x)`. -/
def trapzTermR (r : K → K) (ys xs : List K) (k : Nat) : K :=
  r (r (r (xs.getD (k + 1) 0 - xs.getD k 0) * r (ys.getD (k + 1) 0 + ys.getD k 0)) / 2)

/-- `np.trapz(y, x)` (spectrum.py:117-118), the terms added in the order `t`. -/
def trapzR (r : K → K) (t : SumTree) (ys xs : List K) : K :=
  if xs.length ≤ 1 then 0 else t.eval r (trapzTermR r ys xs)

/-- One band of `resample_spectrum_direct` (spectrum.py:103-120) in float arithmetic; `t`, `t'` are the orders of the two sums.  The branches are those of
`resampleBand`. -/
def resampleBandR (r : K → K) (t t' : SumTree) (wl data : List K) (rsr : List K × List K) : Py (Option K) :=
  if rsr.1 = [] then .error .valueError
  else if rsr.1.length ≠ rsr.2.length then .error .valueError
  else
    let q := wl.map (interp1R r rsr.1 rsr.2)
    if wl.length = data.length then
      .ok (divR r (trapzR r t (List.zipWith (fun d v => r (d * v)) data q) wl) (trapzR r t' q wl))
    else if data.length = 1 then
      .ok (divR r (trapzR r t (q.map (fun v => r (data.headD 0 * v))) wl) (trapzR r t' q wl))
    else if wl.length = 1 ∧ data.length ≤ 2 then .ok (divR r 0 (trapzR r t' q wl))
    else .error .valueError

end
end Verif.Spectrum
