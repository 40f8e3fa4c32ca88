import Verif.Model.Rounding
import Verif.Model.Spectral

/-! `/repo/resippy/spectral/spectral_image_processing_1d.py` in float arithmetic: mean, demeaned image and spectral angle, with the rounding of every operation written
out.  numpy and BLAS do not say in which order they add (pairwise, in blocks, with fused multiply-add, ...): every order is a tree here, and the theorems
are about all of them. -/

namespace Verif.FloatSpectral
open Verif ImageUtils

section
variable {K : Type} [Field K] [LinearOrder K] [IsStrictOrderedRing K]

/-- An order of adding up numbered terms (`np.mean`, spectral_image_processing_1d.py:12). -/
inductive SumTree where
  | leaf (k : Nat)
  | node (a b : SumTree)
deriving DecidableEq

/-- The terms of a tree, from left to right (spectral_image_processing_1d.py:12). -/
def SumTree.leaves : SumTree → List Nat
  | .leaf k => [k]
  | .node a b => a.leaves ++ b.leaves

/-- Adding up in that order; `r` rounds the result of each addition (spectral_image_processing_1d.py:12). -/
def SumTree.eval (r : K → K) (f : Nat → K) : SumTree → K
  | .leaf k => f k
  | .node a b => r (a.eval r f + b.eval r f)

/-- `np.mean(spectral_image, axis=0)` (spectral_image_processing_1d.py:11-12) of one band `f` of `n` samples, added up in the order `t`. -/
def meanBandR (r : K → K) (n : Nat) (t : SumTree) (f : Nat → K) : Option K := (fdiv (t.eval r f) (n : K)).map r

/-- `compute_image_cube_spectral_mean` without mask (spectral_image_processing_1d.py:8-12); `order b` is the order for band `b`. -/
def meanR (r : K → K) (order : Nat → SumTree) (img : A2 K) : A1 (Option K) :=
  ⟨img.nx, fun b => meanBandR r img.ny (order b) (fun k => img.px k b)⟩

/-- `demean_image_data` without mask (spectral_image_processing_1d.py:22-26). -/
def demeanR (r : K → K) (order : Nat → SumTree) (img : A2 K) : A2 (Option K) :=
  ⟨img.ny, img.nx, fun k b => ((meanR r order img).px b).map (fun m => r (img.px k b - m))⟩

/-- A way to compute an inner product of numbered terms (`np.dot`, `np.multiply` and `np.sum`, spectral_image_processing_1d.py:171-179): a rounded product,
a product added with one rounding (fused multiply-add), a rounded sum. -/
inductive DotTree where
  | mul (k : Nat)
  | fma (k : Nat) (a : DotTree)
  | add (a b : DotTree)
deriving DecidableEq

/-- The terms of an inner product, from left to right (spectral_image_processing_1d.py:171-179). -/
def DotTree.leaves : DotTree → List Nat
  | .mul k => [k]
  | .fma k a => k :: a.leaves
  | .add a b => a.leaves ++ b.leaves

/-- The inner product computed that way (spectral_image_processing_1d.py:171-179). -/
def DotTree.eval (r : K → K) (u v : Nat → K) : DotTree → K
  | .mul k => r (u k * v k)
  | .fma k a => r (u k * v k + a.eval r u v)
  | .add a b => r (a.eval r u v + b.eval r u v)

end

/-- One score of `sam` (spectral_image_processing_1d.py:165-181): `d1`, `d2`, `d3` are the ways the three inner products are computed; division by zero is not finite.
`np.sqrt` is correctly rounded. -/
noncomputable def samScoreR (r : ℝ → ℝ) (d1 d2 d3 : DotTree) (t x : Nat → ℝ) : Option ℝ :=
  (fdiv (d1.eval r t x) (r (r (Real.sqrt (d2.eval r t t)) * r (Real.sqrt (d3.eval r x x))))).map r

/-- `sam` (spectral_image_processing_1d.py:165-181) on an image of at least one band; `order k` gives the three ways for sample `k`.  A target of another length is a
ValueError. -/
noncomputable def samR (r : ℝ → ℝ) (order : Nat → DotTree × DotTree × DotTree) (img : A2 ℝ) (t : A1 ℝ) : Py (A1 (Option ℝ)) :=
  if t.n ≠ img.nx then .error .valueError
  else .ok ⟨img.ny, fun k => samScoreR r (order k).1 (order k).2.1 (order k).2.2 t.px (fun b => img.px k b)⟩

end Verif.FloatSpectral
