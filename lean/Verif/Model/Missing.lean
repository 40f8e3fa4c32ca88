import Verif.Model.Spectral

/-! Model of the spectral routines and of some image routines on data with missing values: `none` is a NaN. Every float operation with a NaN
operand gives NaN; a comparison with a NaN is false. Reductions over masked samples leave their values out (`np.ma` fills them with zeros), so a
NaN under the mask is not seen. -/

namespace Verif.Missing
open Verif ImageUtils Spectral
open Finset (range)
open scoped BigOperators

section
variable {K : Type} [Field K] [LinearOrder K] [IsStrictOrderedRing K]

/-- A float operation on two values that may be NaN. Used throughout spectral_image_processing_1d.py:8-181. -/
def lift2 (f : K → K → K) : Option K → Option K → Option K
  | some a, some b => some (f a b)
  | _, _ => none

/-- Division; not finite for a zero divisor. Used throughout spectral_image_processing_1d.py:8-181. -/
def odiv : Option K → Option K → Option K
  | some a, some b => fdiv a b
  | _, _ => none

/-- `np.sum` over the indices in `s`: NaN when one of the terms is. Used throughout spectral_image_processing_1d.py:8-181. -/
def osum (s : Finset Nat) (f : Nat → Option K) : Option K :=
  if ∀ k ∈ s, (f k).isSome = true then some (∑ k ∈ s, (f k).getD 0) else none

/-- The samples that enter statistics: all, or those with mask value zero (spectral_image_processing_1d.py:11-17, 32-38). -/
def left (n : Nat) : Option (A1 K) → Finset Nat
  | none => range n
  | some mask => (range n).filter (fun k => mask.px k = 0)

/-- `mask[:, i] = image_mask` is possible (spectral_image_processing_1d.py:14-16, 35-37). -/
def fits (img : A2 (Option K)) : Option (A1 K) → Bool
  | none => true
  | some mask => decide (img.nx = 0 ∨ mask.n = img.ny)

/-- `compute_image_cube_spectral_mean` (spectral_image_processing_1d.py:8-19). -/
def meanN (img : A2 (Option K)) (mask : Option (A1 K)) : Py (A1 (Option K)) :=
  if fits img mask then
    .ok ⟨img.nx, fun b => odiv (osum (left img.ny mask) (fun k => img.px k b)) (some ((left img.ny mask).card : K))⟩
  else .error .valueError

/-- `demean_image_data` (spectral_image_processing_1d.py:22-26). -/
def demeanN (img : A2 (Option K)) (mask : Option (A1 K)) : Py (A2 (Option K)) := do
  let m ← meanN img mask
  .ok ⟨img.ny, img.nx, fun k b => lift2 (· - ·) (img.px k b) (m.px b)⟩

/-- One covariance entry over the samples in `s` (spectral_image_processing_1d.py:29-40): `np.cov`, `np.ma.cov`. -/
def covEntryN (img : A2 (Option K)) (s : Finset Nat) (b c : Nat) : Option K :=
  let m := fun b => odiv (osum s (fun k => img.px k b)) (some (s.card : K))
  if s.card ≤ 1 then none
  else odiv (osum s (fun k => lift2 (· * ·) (lift2 (· - ·) (img.px k b) (m b)) (lift2 (· - ·) (img.px k c) (m c)))) (some ((s.card : K) - 1))

/-- `compute_image_cube_spectral_covariance` (spectral_image_processing_1d.py:29-40). -/
def covN (img : A2 (Option K)) (mask : Option (A1 K)) : Py (CovAns K) :=
  if fits img mask then
    .ok (if img.nx = 1 then .scalar (covEntryN img (left img.ny mask) 0 0)
      else .mat ⟨img.nx, img.nx, fun b c => covEntryN img (left img.ny mask) b c⟩)
  else .error .valueError

/-- A mean given by the caller or computed (spectral_image_processing_1d.py:49-50, 84-86). -/
def meanOr (img : A2 (Option K)) (m : Option (A1 (Option K))) (mask : Option (A1 K)) : Py (A1 (Option K)) :=
  match m with
  | some m => .ok m
  | none => meanN img mask

/-- A caller-given inverse covariance or the inverse of the computed one (spectral_image_processing_1d.py:51-54, 87-90); `inv` is `np.linalg.inv`
and may do anything with NaN entries. -/
def invOr (inv : A2 (Option K) → Py (A2 (Option K))) (img : A2 (Option K)) (ic : Option (A2 (Option K))) (mask : Option (A1 K)) : Py (A2 (Option K)) :=
  match ic with
  | some ic => .ok ic
  | none => do
    let c ← covN img mask
    match c with
    | .scalar _ => .error .linAlgError
    | .mat a => inv a

/-- `np.sum(np.multiply(u, np.dot(M, v)))` (spectral_image_processing_1d.py:60-63, 97-101, 106-111, 116-119). -/
def quadN (n : Nat) (m : Nat → Nat → Option K) (u v : Nat → Option K) : Option K :=
  osum (range n) (fun i => lift2 (· * ·) (u i) (osum (range n) (fun j => lift2 (· * ·) (m i j) (v j))))

/-- `rx_anomaly_detector` (spectral_image_processing_1d.py:45-64). -/
def rxN (inv : A2 (Option K) → Py (A2 (Option K))) (img : A2 (Option K)) (m : Option (A1 (Option K))) (ic : Option (A2 (Option K))) :
    Py (A1 (Option K)) := do
  let m ← meanOr img m none
  let ic ← invOr inv img ic none
  if m.n = img.nx ∧ ic.ny = img.nx ∧ ic.nx = img.nx then
    .ok ⟨img.ny, fun k => quadN img.nx ic.px (fun b => lift2 (· - ·) (img.px k b) (m.px b)) (fun b => lift2 (· - ·) (img.px k b) (m.px b))⟩
  else .error .valueError

/-- The ACE quotient of demeaned target and sample (spectral_image_processing_1d.py:97-122). -/
def aceScoreN (n : Nat) (ic : Nat → Nat → Option K) (t x : Nat → Option K) : Option K :=
  odiv (lift2 (· * ·) (quadN n ic t x) (quadN n ic t x)) (lift2 (· * ·) (quadN n ic t t) (quadN n ic x x))

/-- `ace` (spectral_image_processing_1d.py:67-123). -/
def aceN (inv : A2 (Option K) → Py (A2 (Option K))) (img : A2 (Option K)) (t : A1 (Option K)) (m : Option (A1 (Option K)))
    (ic : Option (A2 (Option K))) (mask : Option (A1 K)) : Py (A1 (Option K)) := do
  let m ← meanOr img m mask
  let ic ← invOr inv img ic mask
  if m.n = img.nx ∧ t.n = img.nx ∧ ic.ny = img.nx ∧ ic.nx = img.nx then
    .ok ⟨img.ny, fun k => aceScoreN img.nx ic.px (fun b => lift2 (· - ·) (t.px b) (m.px b)) (fun b => lift2 (· - ·) (img.px k b) (m.px b))⟩
  else .error .valueError

/-! ### Image routines -/

/-- `np.min`: NaN when one of the pixels is. Used for `normalizeN`, image_utils.py:126. -/
def npMinN (a : A2 (Option K)) : Py (Option K) :=
  match pixels a with
  | [] => .error .valueError
  | l => .ok (if l.all (fun v => v.isSome) then (l.filterMap id).min? else none)

/-- `np.max`. Used for `normalizeN`, image_utils.py:127. -/
def npMaxN (a : A2 (Option K)) : Py (Option K) :=
  match pixels a with
  | [] => .error .valueError
  | l => .ok (if l.all (fun v => v.isSome) then (l.filterMap id).max? else none)

/-- `normalize_grayscale_image` (image_utils.py:125-133) with `output_dtype=None`. -/
def normalizeN (img : A2 (Option K)) (newMin newMax : K) : Py (A2 (Option K)) := do
  let mn ← npMinN img
  let mx ← npMaxN img
  .ok ⟨img.ny, img.nx, fun y x =>
    (odiv (lift2 (· - ·) (img.px y x) mn) (lift2 (· - ·) mx mn)).map (fun z => z * (newMax - newMin) + newMin)⟩

/-- `blend_images` (image_utils.py:262-266) on images of equal shape. -/
def blendN (a b : A2 (Option K)) (p : K) : A2 (Option K) :=
  ⟨a.ny, a.nx, fun y x => lift2 (· + ·) (lift2 (· * ·) (a.px y x) (some p)) (lift2 (· * ·) (b.px y x) (some (1 - p)))⟩

/-- The pixels `np.nanmin` looks at (image_utils.py:175-188): those that are not the no-data value (a NaN differs from it); ValueError for none
at all, NaN (with a warning) when all are NaN. -/
def clipPixelsN (img : A2 (Option K)) (nodata : Option K) : List (Option K) :=
  match nodata with
  | none => pixels img
  | some d => (pixels img).filter (fun v => v ≠ some d)

/-- A clip limit given by the caller, or that of the pixels (image_utils.py:179-188). -/
def clipLimitN (given : Option K) (l : List (Option K)) (pick : List K → Option K) : Py (Option K) :=
  match given, l with
  | some c, _ => .ok (some c)
  | none, [] => .error .valueError
  | none, l => .ok (pick (l.filterMap id))

/-- `a < b` is false when one of them is NaN. Used for `colormapPixelN`, image_utils.py:253-254. -/
def olt : Option K → Option K → Bool
  | some a, some b => decide (a < b)
  | _, _ => false

/-- One channel of one pixel (image_utils.py:204-257): with a NaN pixel or a NaN clip limit the positions compared are NaN, so no bin matches: the
index stays 0 with weights `0/0` (continuous), or the colour is that of the first bin (not continuous; a palette of one colour has no bin, the colour
stays zero).  Without `continuous` the upper limit is recomputed from both (204-205) and is NaN when one of them is. -/
def colormapPixelN (pal : Nat → K) (n : Nat) (continuous : Bool) (mn mx v : Option K) : Option K :=
  match mn, mx, v with
  | some mn, some mx, some v => colormapPixel pal n continuous mn mx v
  | _, _, _ =>
    let col := if continuous && olt mx v then some (pal (n - 1))
      else if olt v mn then some (pal 0)
      else if continuous then none else some (lookupLoop pal 0 (n - 1) 0 (0, 0)).1
    col.map (fun z => z * 255)

/-- `apply_colormap_to_grayscale_image` (image_utils.py:166-259) with `n_bins=None`, before the dtype conversion; the caller's
clip limits and no-data value are numbers. -/
def applyColormapN (img : A2 (Option K)) (pal : Nat → Nat → K) (n : Nat) (continuous : Bool) (minClip maxClip nodata : Option K) :
    Py (A3 (Option K)) := do
  let mn ← clipLimitN minClip (clipPixelsN img nodata) List.min?
  let mx ← clipLimitN maxClip (clipPixelsN img nodata) List.max?
  if n = 0 then .error .indexError
  else .ok ⟨img.ny, img.nx, 3, fun y x ch => colormapPixelN (fun i => pal i ch) n continuous mn mx (img.px y x)⟩

end

/-- `sam` (spectral_image_processing_1d.py:165-181). -/
noncomputable def samN (img : A2 (Option ℝ)) (t : A1 (Option ℝ)) : Py (A1 (Option ℝ)) :=
  if t.n = img.nx then
    .ok ⟨img.ny, fun k => odiv (osum (range img.nx) (fun b => lift2 (· * ·) (t.px b) (img.px k b)))
      (lift2 (· * ·) ((osum (range img.nx) (fun b => lift2 (· * ·) (t.px b) (t.px b))).map Real.sqrt)
        ((osum (range img.nx) (fun b => lift2 (· * ·) (img.px k b) (img.px k b))).map Real.sqrt))⟩
  else .error .valueError

end Verif.Missing
