import Verif.Model.Spectrum
import Verif.Str

/-! Model of whole `Spectrum` objects (`/repo/resippy/spectral/spectrum.py`): all attributes, several spectra sharing arrays, units, and the new
spectrum made by resampling.  Arrays live in a heap, so that aliasing is visible. -/

namespace Verif.SpectrumObject
open Verif Spectrum

/-- A unit: a pint unit, or any other text.  Used for `getWithUnits`, spectrum.py:43-44. -/
inductive Unit where
  | pint (u : Str)
  | text (s : Str)
deriving DecidableEq

/-- What an attribute can hold: the address of an array, a unit, a number, a text. Used for `Obj`, spectrum.py:9-17. -/
inductive Val (K : Type) where
  | arr (p : Nat)
  | unit (u : Unit)
  | num (v : K)
  | text (s : Str)

/-- The attributes with a setter and a getter (spectrum.py:19-92). -/
inductive Attr where
  | wavelengths | data | fwhm | spectrumUnits | wavelengthUnits | nodata | fname
deriving DecidableEq

/-- The instance variable assigned by each setter (spectrum.py:22-25, 30-33, 47-50, 60-63, 73-76, 81-84, 89-92). -/
def setterVar : Attr → Str
  | .wavelengths => "_wavelengths".toList
  | .data => "_spectral_data".toList
  | .fwhm => "_fwhm".toList
  | .spectrumUnits => "_spectrum_units".toList
  | .wavelengthUnits => "_wavelength_units".toList
  | .nodata => "_nodata_val".toList
  | .fname => "_fname".toList

/-- The instance variable read by each getter (spectrum.py:19-20, 27-28, 39, 55, 68, 78-79, 86-87). -/
def getterVar : Attr → Str
  | .wavelengths => "_wavelengths".toList
  | .data => "_spectral_data".toList
  | .fwhm => "_fwhm".toList
  | .spectrumUnits => "_spectrum_units".toList
  | .wavelengthUnits => "_wavelength_units".toList
  | .nodata => "_nodata_val".toList
  | .fname => "_fname".toList

/-- A spectrum: its instance variables, `none` is None. Used for `newSpectrum`, spectrum.py:9-17. -/
abbrev Obj (K : Type) := Str → Option (Val K)

/-- `Spectrum()` (spectrum.py:9-17). -/
def newSpectrum (K : Type) : Obj K := fun _ => none

/-- The arrays and spectra of a program: addresses from `next` and spectra from `count` on are unused. Used for `step`, spectrum.py:9-92. -/
structure World (K : Type) where
  next : Nat
  heap : Nat → Arr K
  count : Nat
  specs : Nat → Obj K

section
variable {K : Type} [Field K] [LinearOrder K] [IsStrictOrderedRing K]

/-- A new array. Used for `getData`, spectrum.py:39. -/
def World.alloc (w : World K) (a : Arr K) : World K × Nat :=
  ({ w with next := w.next + 1, heap := fun p => if p = w.next then a else w.heap p }, w.next)

/-- A new spectrum object. Used for `resampleSpectrum`, spectrum.py:120. -/
def World.newSpec (w : World K) (o : Obj K) : World K × Nat :=
  ({ w with count := w.count + 1, specs := fun s => if s = w.count then o else w.specs s }, w.count)

/-- Setter calls, and the program's own assignment `p[i] = v` to an array it holds. Used for `step`, spectrum.py:19-92. -/
inductive Op (K : Type) where
  | set (s : Nat) (a : Attr) (v : Option (Val K))
  | write (p i : Nat) (v : Option K)

/-- One call (spectrum.py:22-25, 30-33, 47-50, 60-63, 73-76, 81-84, 89-92). -/
def step (w : World K) : Op K → World K
  | .set s a v => { w with specs := fun t => if t = s then (fun x => if x = setterVar a then v else w.specs s x) else w.specs t }
  | .write p i v => { w with heap := fun q => if q = p then ⟨(w.heap p).isInt, (w.heap p).vals.set i v⟩ else w.heap q }

/-- A history of calls (spectrum.py:19-92). -/
def run (w : World K) (ops : List (Op K)) : World K := ops.foldl step w

/-- A getter without units (spectrum.py:19-20, 27-28, 52-58, 65-71, 78-79, 86-87): the stored object itself. -/
def get (w : World K) (s : Nat) (a : Attr) : Option (Val K) := w.specs s (getterVar a)

/-- The stored no-data value as a number. Used for `getData`, spectrum.py:42. -/
def nodataOf (w : World K) (s : Nat) : Option K :=
  match get w s .nodata with
  | some (.num v) => some v
  | _ => none

/-- `get_spectral_data` without units (spectrum.py:35-45): a deep copy; NaN cannot be assigned into an integer array (ValueError), nor into
None (TypeError). -/
def getData (w : World K) (s : Nat) (nodataToNan : Bool) : Py (World K × Option Nat) :=
  match get w s .data with
  | some (.arr p) =>
    let a := w.heap p
    if nodataToNan then
      if a.isInt then .error .valueError
      else
        let r := w.alloc ⟨false, replaceNodata (nodataOf w s) a.vals⟩
        .ok (r.1, some r.2)
    else
      let r := w.alloc a
      .ok (r.1, some r.2)
  | _ => if nodataToNan then .error .typeError else .ok (w, none)

/-- An array times the stored unit (spectrum.py:44, 57, 70): with a pint unit a quantity, whose magnitude is a new array; a product with a text or
None is a TypeError, and so is taken to be that of None with a unit. -/
def times (w : World K) (p : Option Nat) (u : Option (Val K)) : Py (World K × (Nat × Str)) :=
  match p, u with
  | some p, some (.unit (.pint n)) =>
    let r := w.alloc ⟨(w.heap p).isInt, (w.heap p).vals⟩
    .ok (r.1, (r.2, n))
  | _, _ => .error .typeError

/-- The address stored in an attribute. Used for `getWithUnits`, spectrum.py:55. -/
def addr : Option (Val K) → Option Nat
  | some (.arr p) => some p
  | _ => none

/-- The getters with units (spectrum.py:35-45, 52-58, 65-71): the magnitude's address and the unit.  `none` for attributes without such a
getter. -/
def getWithUnits (w : World K) (s : Nat) (a : Attr) (nodataToNan : Bool) : Option (Py (World K × (Nat × Str))) :=
  match a with
  | .wavelengths => some (times w (addr (get w s .wavelengths)) (get w s .wavelengthUnits))
  | .fwhm => some (times w (addr (get w s .fwhm)) (get w s .wavelengthUnits))
  | .data => some (do
      let r ← getData w s nodataToNan
      times r.1 r.2 (get w s .spectrumUnits))
  | _ => none

/-- All values of an array that holds no NaN. Used for `resampleSpectrum`, spectrum.py:104-118. -/
def finite : List (Option K) → Option (List K)
  | [] => some []
  | none :: _ => none
  | some v :: l => (finite l).map (v :: ·)

/-- One resampled band of data that may hold NaN (spectrum.py:107-120): NaN times any response, 0 included, is NaN, and so is the sum. -/
def resampleNan (wl : List K) (data : List (Option K)) (rsr : List K × List K) : Py (Option K) := do
  let r ← resampleBand wl (data.map (·.getD 0)) rsr
  .ok (if data.any (·.isNone) then none else r)

/-- Wavelengths and values of one response spectrum (spectrum.py:104-105); NaN in them is outside the model (reported as NotImplementedError). -/
def response (w : World K) (s : Nat) : Py (World K × (List K × List K)) := do
  let r ← getData w s true
  match addr (get w s .wavelengths), r.2 with
  | some p, some q =>
    match finite (w.heap p).vals, finite (r.1.heap q).vals with
    | some x, some y => .ok (r.1, (x, y))
    | _, _ => .error .notImplemented
  | _, _ => .error .typeError

/-- The loop of `resample_spectrum_direct` (spectrum.py:103-120). -/
def resampleLoop (s : Nat) : World K → List Nat → Py (World K × List (Option K))
  | w, [] => .ok (w, [])
  | w, rsr :: rest => do
    let (w, r) ← response w rsr
    let (w, q) ← getData w s true
    match addr (get w s .wavelengths), q with
    | some p, some q =>
      match finite (w.heap p).vals with
      | some wl => do
        let v ← resampleNan wl (w.heap q).vals r
        let (w, vs) ← resampleLoop s w rest
        .ok (w, v :: vs)
      | none => .error .notImplemented
    | _, _ => .error .typeError

/-- `resample_spectrum_direct` (spectrum.py:95-125): the new spectrum. -/
def resampleSpectrum (w : World K) (s : Nat) (rsrs : List Nat) (centers : Nat) : Py (World K × Nat) := do
  let (w, vals) ← resampleLoop s w rsrs
  let (w, n) := w.newSpec (newSpectrum K)
  let w := step w (.set n .wavelengths (some (.arr centers)))
  let (w, d) := w.alloc ⟨false, vals⟩
  let w := step w (.set n .data (some (.arr d)))
  let w := step w (.set n .spectrumUnits (get w s .spectrumUnits))
  .ok (w, n)

end
end Verif.SpectrumObject
