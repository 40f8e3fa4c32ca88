import Verif.Base
import Mathlib.Analysis.SpecialFunctions.Log.Basic
import Mathlib.Algebra.BigOperators.Group.List.Basic

/-! Model of `/repo/resippy/utils/image_utils/image_registration.py`. -/

namespace Verif.Registration
open Verif

/-- The value range `np.histogram` uses for one image: `(0, 1)` if empty, `(v - 0.5, v + 0.5)` if
constant, `(min, max)` otherwise (numpy's documented default).
Used for `hist`, image_registration.py:18-19. -/
noncomputable def histRange (vs : List ℝ) : ℝ × ℝ :=
  match vs.min?, vs.max? with
  | some lo, some hi => if lo = hi then (lo - 1/2, hi + 1/2) else (lo, hi)
  | _, _ => (0, 1)

/-- Bin number of a value: `n` equal bins, the last one closed.
Used for `hist`, image_registration.py:18-19. -/
noncomputable def histBin (n : Nat) (r : ℝ × ℝ) (v : ℝ) : Nat :=
  if v = r.2 then n - 1 else ⌊(v - r.1) * n / (r.2 - r.1)⌋₊

/-- `np.histogram(vs, bins=n)[0]` (image_registration.py:18-19). -/
noncomputable def hist (n : Nat) (vs : List ℝ) (k : Nat) : Nat :=
  vs.countP (fun v => decide (histBin n (histRange vs) v = k))

/-- `np.histogram2d(a, b, bins=n)[0]` (image_registration.py:20): pairs of pixels at the same
position, each image binned as by `np.histogram` (floating-point differences between numpy's one-
and two-dimensional binning are not modelled). -/
noncomputable def jointHist (n : Nat) (a b : List ℝ) (k m : Nat) : Nat :=
  (a.zip b).countP (fun p =>
    decide (histBin n (histRange a) p.1 = k ∧ histBin n (histRange b) p.2 = m))

/-- The double loop of `_histogram_mmi` (image_registration.py:24-40). -/
noncomputable def histogramMmi (n : Nat) (h1 h2 : Nat → Nat) (j : Nat → Nat → Nat) : ℝ :=
  ((List.range n).map (fun k => ((List.range n).map (fun m =>
    if (j k m : ℝ) ≠ 0 then (j k m : ℝ) * Real.log ((j k m : ℝ) / ((h1 k : ℝ) * (h2 m : ℝ))) else 0)).sum)).sum

/-- `MMI.image_mmi` (image_registration.py:9-22) on the ravelled images.  `nbins = 0` and images of
different sizes raise ValueError in numpy. -/
noncomputable def imageMmi (a b : List ℝ) (n : Nat) : Py ℝ :=
  if n = 0 then .error .valueError
  else if a.length ≠ b.length then .error .valueError
  else .ok (histogramMmi n (hist n a) (hist n b) (jointHist n a b))

end Verif.Registration
