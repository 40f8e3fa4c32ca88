import Verif.Model.ImageUtils

/-! Model of `/repo/resippy/spectral/spectrum.py`.

Arrays live in a heap, so that aliasing between the spectrum and its callers is visible. -/

namespace Verif.Spectrum
open Verif ImageUtils

section
variable {K : Type} [Field K] [LinearOrder K] [IsStrictOrderedRing K]

/-- A one-dimensional numpy array: integer or float, with its values (`none` is NaN).
See spectrum.py:9-17. -/
structure Arr (K : Type) where
  isInt : Bool
  vals : List (Option K)

/-- Program state: the arrays allocated so far, the address of the spectrum's data array and its no-data
value. Used for `St.init`, spectrum.py:9-17. -/
structure St (K : Type) where
  next : Nat
  heap : Nat → Arr K
  data : Option Nat
  nodata : Option K

/-- `Spectrum.__init__` (spectrum.py:9-17). -/
def St.init : St K := ⟨0, fun _ => ⟨false, []⟩, none, none⟩

/-- The caller allocates an array. Used for `getData`, spectrum.py:35-45. -/
def alloc (s : St K) (a : Arr K) : St K × Nat :=
  ({ s with next := s.next + 1, heap := fun p => if p = s.next then a else s.heap p }, s.next)

/-- `set_spectral_data` (spectrum.py:47-50): the spectrum keeps the caller's array, not a copy. -/
def setData (s : St K) (p : Nat) : St K := { s with data := some p }

/-- `set_nodata_val` (spectrum.py:30-33). -/
def setNodata (s : St K) (v : Option K) : St K := { s with nodata := v }

/-- `a[i] = v` by the caller, on an array it holds (out of range: IndexError, no effect).
See spectrum.py:9-45. -/
def write (s : St K) (p i : Nat) (v : Option K) : St K :=
  { s with heap := fun q => if q = p then ⟨(s.heap p).isInt, (s.heap p).vals.set i v⟩ else s.heap q }

/-- The no-data replacement `a[np.where(a == nodata)] = np.nan` (spectrum.py:40-42): NaN equals nothing and
nothing equals None. -/
def replaceNodata (nodata : Option K) (l : List (Option K)) : List (Option K) :=
  l.map (fun v => if v.isSome && v == nodata then none else v)

/-- `get_spectral_data` (spectrum.py:35-45) without units: a deep copy; assigning NaN into an integer array
raises ValueError (even when nothing is to be replaced), and into None TypeError. -/
def getData (s : St K) (nodataToNan : Bool) : Py (St K × Option Nat) :=
  match s.data with
  | none => if nodataToNan then .error .typeError else .ok (s, none)
  | some p =>
    let a := s.heap p
    if nodataToNan then
      if a.isInt then .error .valueError
      else
        let r := alloc s ⟨false, replaceNodata s.nodata a.vals⟩
        .ok (r.1, some r.2)
    else
      let r := alloc s a
      .ok (r.1, some r.2)

/-! ### Resampling -/

/-- `np.interp(x, xp, fp, left=0, right=0)` at one point (spectrum.py:107), for response functions given at
one or more wavelengths in increasing order. -/
def interp1 (xp fp : List K) (x : K) : K :=
  match xp.head?, xp.getLast? with
  | some a, some b =>
    if x < a then 0
    else if b < x then 0
    else
      let j := xp.countP (fun p => decide (p ≤ x)) - 1
      if j + 1 < xp.length then
        (fp.getD (j + 1) 0 - fp.getD j 0) / (xp.getD (j + 1) 0 - xp.getD j 0) * (x - xp.getD j 0) + fp.getD j 0
      else fp.getD j 0
  | _, _ => 0

/-- `np.trapz(y, x)` (spectrum.py:117-118). -/
def trapz : List K → List K → K
  | y0 :: y1 :: ys, x0 :: x1 :: xs => (x1 - x0) * (y1 + y0) / 2 + trapz (y1 :: ys) (x1 :: xs)
  | _, _ => 0

/-- One band of `resample_spectrum_direct` (spectrum.py:103-120): ValueError for an empty response or for
mismatching lengths; `none` when the widths vanish (0/0).  Spectra without no-data values.  numpy's
broadcasting is modelled: a single value stands for a constant spectrum, and at a single wavelength up to two
values are accepted (the trapezoids then have no width). -/
def resampleBand (wl data : List K) (rsr : List K × List K) : Py (Option K) :=
  if rsr.1 = [] then .error .valueError
  else if rsr.1.length ≠ rsr.2.length then .error .valueError
  else
    let r := wl.map (interp1 rsr.1 rsr.2)
    if wl.length = data.length then
      .ok (fdiv (trapz (List.zipWith (· * ·) data r) wl) (trapz r wl))
    else if data.length = 1 then
      .ok (fdiv (trapz (r.map (data.headD 0 * ·)) wl) (trapz r wl))
    else if wl.length = 1 ∧ data.length ≤ 2 then .ok (fdiv 0 (trapz r wl))
    else .error .valueError

/-- `resample_spectrum_direct` (spectrum.py:95-125): the values of the new spectrum, one per response
function. -/
def resample (wl data : List K) : List (List K × List K) → Py (List (Option K))
  | [] => .ok []
  | rsr :: rest => do
    let v ← resampleBand wl data rsr
    let vs ← resample wl data rest
    .ok (v :: vs)

end
end Verif.Spectrum
