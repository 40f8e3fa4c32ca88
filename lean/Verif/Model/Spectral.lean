import Verif.Model.ImageUtils
import Mathlib.Algebra.BigOperators.Group.Finset.Basic
import Mathlib.Analysis.SpecialFunctions.Sqrt

/-! Model of `/repo/resippy/spectral/spectral_image_processing_1d.py` and
`/repo/resippy/spectral/spectral_image_processing_2d.py` (without `compute_image_cube_pca`, which is
scikit-learn's PCA).

A one-dimensional spectral image is an array of shape (samples, bands).  `np.linalg.inv` and
`scipy.linalg.fractional_matrix_power` are parameters.  Images hold field elements: the routines
that subtract a mean convert integer images to floats (a mean given by the caller is assumed to be of floats); `sam` does not, and its behaviour on
integer images is modelled in `Verif.Model.IntImages`; `none` is a non-finite or masked value.  Broadcasting of
arrays of length one is not modelled (it is an error here) except where said. -/

namespace Verif.Spectral
open Verif ImageUtils
open Finset (range)
open scoped BigOperators

section
variable {K : Type} [Field K] [LinearOrder K] [IsStrictOrderedRing K]

/-! ### Mean -/

/-- `np.mean(image, axis=0)` (spectral_image_processing_1d.py:11-12): NaN for an image without samples. -/
def meanNoMask (img : A2 K) : A1 (Option K) :=
  ⟨img.nx, fun b => fdiv (∑ k ∈ range img.ny, img.px k b) (img.ny : K)⟩

/-- The number of unmasked samples: a sample is masked when its mask value is non-zero.
Used for `meanMask`, spectral_image_processing_1d.py:17-19. -/
def unmasked (img : A2 K) (mask : A1 K) : Nat := ((range img.ny).filter (fun k => mask.px k = 0)).card

/-- The mask image `mask[:, i] = image_mask` (spectral_image_processing_1d.py:14-16, 35-37): ValueError when
the lengths differ, unless there is no band to assign. -/
def maskOk (img : A2 K) (mask : A1 K) : Bool := decide (img.nx = 0 ∨ mask.n = img.ny)

/-- `np.ma.mean(masked, axis=0)` (spectral_image_processing_1d.py:17-19): masked when all samples are. -/
def meanMask (img : A2 K) (mask : A1 K) : A1 (Option K) :=
  ⟨img.nx, fun b => fdiv (∑ k ∈ (range img.ny).filter (fun k => mask.px k = 0), img.px k b) (unmasked img mask : K)⟩

/-- `compute_image_cube_spectral_mean` (spectral_image_processing_1d.py:8-19). -/
def mean (img : A2 K) : Option (A1 K) → Py (A1 (Option K))
  | none => .ok (meanNoMask img)
  | some mask => if maskOk img mask then .ok (meanMask img mask) else .error .valueError

/-- `demean_image_data` (spectral_image_processing_1d.py:22-26). -/
def demean (img : A2 K) (mask : Option (A1 K)) : Py (A2 (Option K)) := do
  let m ← mean img mask
  .ok ⟨img.ny, img.nx, fun k b => (m.px b).map (fun v => img.px k b - v)⟩

/-! ### Covariance -/

/-- What `np.cov` returns: a matrix, or for one band a zero-dimensional array (`squeeze`).
Used for `cov`, spectral_image_processing_1d.py:29-40. -/
inductive CovAns (K : Type) where
  | scalar (v : Option K)
  | mat (a : A2 (Option K))

/-- One entry of the covariance of the samples in `s`: the sum of products of deviations from the mean,
over the number of samples minus one; not finite (or masked) for fewer than two samples.
Used for `covOver`, spectral_image_processing_1d.py:29-40. -/
def covEntry (img : A2 K) (s : Finset Nat) (b c : Nat) : Option K :=
  let m := fun b => (∑ k ∈ s, img.px k b) / (s.card : K)
  if s.card ≤ 1 then none
  else fdiv (∑ k ∈ s, (img.px k b - m b) * (img.px k c - m c)) ((s.card : K) - 1)

/-- `np.cov` / `np.ma.cov` of the transposed image, over the samples in `s`.
Used for `cov`, spectral_image_processing_1d.py:29-40. -/
def covOver (img : A2 K) (s : Finset Nat) : CovAns K :=
  if img.nx = 1 then .scalar (covEntry img s 0 0)
  else .mat ⟨img.nx, img.nx, fun b c => covEntry img s b c⟩

/-- `compute_image_cube_spectral_covariance` (spectral_image_processing_1d.py:29-40). -/
def cov (img : A2 K) : Option (A1 K) → Py (CovAns K)
  | none => .ok (covOver img (range img.ny))
  | some mask =>
    if maskOk img mask then .ok (covOver img ((range img.ny).filter (fun k => mask.px k = 0)))
    else .error .valueError

/-! ### RX -/

/-- A mean given by the caller or computed (spectral_image_processing_1d.py:49-50, 84-86). -/
def meanOrDefault (img : A2 K) (m : Option (A1 K)) (mask : Option (A1 K)) : Py (A1 (Option K)) :=
  match m with
  | some m => .ok ⟨m.n, fun b => some (m.px b)⟩
  | none => mean img mask

/-- A caller-given inverse covariance, or `np.linalg.inv` of the computed covariance
(spectral_image_processing_1d.py:51-54, 87-90): a zero-dimensional covariance raises LinAlgError. -/
def invOrDefault (inv : A2 (Option K) → Py (A2 (Option K))) (img : A2 K) (ic : Option (A2 K)) (mask : Option (A1 K)) :
    Py (A2 (Option K)) :=
  match ic with
  | some ic => .ok ⟨ic.ny, ic.nx, fun i j => some (ic.px i j)⟩
  | none => do
    let c ← cov img mask
    match c with
    | .scalar _ => .error .linAlgError
    | .mat a => inv a

/-- Finite entries of a vector. Used for `rx`, spectral_image_processing_1d.py:45-64. -/
def finite1 (a : A1 (Option K)) : Option (A1 K) :=
  if (List.range a.n).all (fun i => (a.px i).isSome) then some ⟨a.n, fun i => (a.px i).getD 0⟩ else none

/-- Finite entries of a matrix. Used for `rx`, spectral_image_processing_1d.py:45-64. -/
def finite2 (a : A2 (Option K)) : Option (A2 K) :=
  if (pixels a).all (fun v => v.isSome) then some ⟨a.ny, a.nx, fun i j => (a.px i j).getD 0⟩ else none

/-- `sum_i u_i * (sum_j M_ij v_j)`: `np.sum(np.multiply(u, np.dot(M, v)))`, the order of operations of
spectral_image_processing_1d.py:60-63, 97-101, 106-111, 116-119. -/
def quad (n : Nat) (m : Nat → Nat → K) (u v : Nat → K) : K := ∑ i ∈ range n, u i * ∑ j ∈ range n, m i j * v j

/-- The RX score of sample `k` (spectral_image_processing_1d.py:55-63). -/
def rxScore (img : A2 K) (m : A1 K) (ic : A2 K) (k : Nat) : K :=
  quad img.nx ic.px (fun b => img.px k b - m.px b) (fun b => img.px k b - m.px b)

/-- `rx_anomaly_detector` (spectral_image_processing_1d.py:45-64).  Non-finite statistics are modelled as
giving non-finite scores throughout. -/
def rx (inv : A2 (Option K) → Py (A2 (Option K))) (img : A2 K) (m : Option (A1 K)) (ic : Option (A2 K)) :
    Py (A1 (Option K)) := do
  let m ← meanOrDefault img m none
  let ic ← invOrDefault inv img ic none
  if m.n = img.nx ∧ ic.ny = img.nx ∧ ic.nx = img.nx then
    match finite1 m, finite2 ic with
    | some m, some ic => .ok ⟨img.ny, fun k => some (rxScore img m ic k)⟩
    | _, _ => .ok ⟨img.ny, fun _ => none⟩
  else .error .valueError

/-! ### ACE -/

/-- `np.divide(numerator, den_left * den_right)` of ACE for demeaned sample `x` and demeaned target `t`
(spectral_image_processing_1d.py:97-122, 133-158). -/
def aceScore (n : Nat) (ic : Nat → Nat → K) (t x : Nat → K) : Option K :=
  fdiv (quad n ic t x ^ 2) (quad n ic t t * quad n ic x x)

/-- `ace_demeaned` (spectral_image_processing_1d.py:126-159). -/
def aceDemeaned (img : A2 K) (t : A1 K) (ic : A2 K) : Py (A1 (Option K)) :=
  if t.n = img.nx ∧ ic.ny = img.nx ∧ ic.nx = img.nx then
    .ok ⟨img.ny, fun k => aceScore img.nx ic.px t.px (fun b => img.px k b)⟩
  else .error .valueError

/-- `ace` (spectral_image_processing_1d.py:67-123). -/
def ace (inv : A2 (Option K) → Py (A2 (Option K))) (img : A2 K) (t : A1 K) (m : Option (A1 K)) (ic : Option (A2 K))
    (mask : Option (A1 K)) : Py (A1 (Option K)) := do
  let m ← meanOrDefault img m mask
  let ic ← invOrDefault inv img ic mask
  if m.n = img.nx ∧ t.n = img.nx ∧ ic.ny = img.nx ∧ ic.nx = img.nx then
    match finite1 m, finite2 ic with
    | some m, some ic =>
      .ok ⟨img.ny, fun k => aceScore img.nx ic.px (fun b => t.px b - m.px b) (fun b => img.px k b - m.px b)⟩
    | _, _ => .ok ⟨img.ny, fun _ => none⟩
  else .error .valueError

/-! ### Covariance equalisation -/

/-- `np.dot` of two matrices. Used for `covEqMatrix`, spectral_image_processing_1d.py:225-245. -/
def matMul (a b : A2 K) : A2 K := ⟨a.ny, b.nx, fun i j => ∑ k ∈ range a.nx, a.px i k * b.px k j⟩

/-- `np.eye`. Used for `covEqMatrix`, spectral_image_processing_1d.py:225-245. -/
def eye (n : Nat) : A2 K := ⟨n, n, fun i j => if i = j then 1 else 0⟩

/-- `compute_cov_eq_linear_transform_matrix` (spectral_image_processing_1d.py:225-245).  `pw a r` is
`fractional_matrix_power(a, r)`: it raises ValueError on a zero-dimensional covariance.  Non-finite
covariances are modelled as an error. -/
def covEqMatrix (pw : A2 K → K → Py (A2 K)) (s1 s2 : A2 K) (m1 m2 : Option (A1 K)) : Py (A2 K) := do
  let c1 ← cov s1 m1
  let c2 ← cov s2 m2
  match c1, c2 with
  | .mat a1, .mat a2 =>
    match finite2 a1, finite2 a2 with
    | some a1, some a2 => do
      let r ← pw a1 (-1 / 2)
      let s ← pw a2 (1 / 2)
      if s.nx = s1.nx ∧ r.ny = s1.nx then .ok (matMul (matMul s (eye s1.nx)) r) else .error .valueError
    | _, _ => .error .linAlgError
  | _, _ => .error .valueError

/-- `covariance_equalization_mean_centered` (spectral_image_processing_1d.py:195-213): each sample times
the matrix. -/
def covEq (pw : A2 K → K → Py (A2 K)) (s1 s2 : A2 K) (m1 m2 : Option (A1 K)) : Py (A2 K) := do
  let l ← covEqMatrix pw s1 s2 m1 m2
  if l.nx = s1.nx then .ok ⟨s1.ny, l.ny, fun k i => ∑ j ∈ range l.nx, l.px i j * s1.px k j⟩ else .error .valueError

end

/-! ### SAM -/

/-- `sam` (spectral_image_processing_1d.py:165-181). -/
noncomputable def sam (img : A2 ℝ) (t : A1 ℝ) : Py (A1 (Option ℝ)) :=
  if t.n = img.nx then
    .ok ⟨img.ny, fun k => fdiv (∑ b ∈ range img.nx, t.px b * img.px k b)
      (Real.sqrt (∑ b ∈ range img.nx, t.px b * t.px b) * Real.sqrt (∑ b ∈ range img.nx, img.px k b * img.px k b))⟩
  else .error .valueError

/-! ### Two-dimensional versions -/

section
variable {K : Type} [Field K] [LinearOrder K] [IsStrictOrderedRing K]

/-- The optional flattening of a mask (spectral_image_processing_2d.py:36-37 and others). -/
def flatMask (m : Option (A2 K)) : Option (A1 K) := m.map flattenBand

/-- `compute_image_cube_spectral_mean` (spectral_image_processing_2d.py:32-39). -/
def mean2 (c : A3 K) (m : Option (A2 K)) : Py (A1 (Option K)) := mean (flattenCube c) (flatMask m)

/-- `demean_image_data` (spectral_image_processing_2d.py:42-51); `get_2d_cube_nx_ny_nbands`
(spectral_utils.py:8-12) gives `nx = shape[1]`, `ny = shape[0]`. -/
def demean2 (c : A3 K) (m : Option (A2 K)) : Py (A3 (Option K)) := do
  let d ← demean (flattenCube c) (flatMask m)
  unflattenCube d c.nx c.ny

/-- `compute_image_cube_spectral_covariance` (spectral_image_processing_2d.py:54-61). -/
def cov2 (c : A3 K) (m : Option (A2 K)) : Py (CovAns K) := cov (flattenCube c) (flatMask m)

/-- `rx_anomaly_detector` (spectral_image_processing_2d.py:64-74). -/
def rx2 (inv : A2 (Option K) → Py (A2 (Option K))) (c : A3 K) (m : Option (A1 K)) (ic : Option (A2 K)) :
    Py (A2 (Option K)) := do
  let r ← rx inv (flattenCube c) m ic
  unflattenBand r c.nx c.ny

/-- `ace` (spectral_image_processing_2d.py:77-93). -/
def ace2 (inv : A2 (Option K) → Py (A2 (Option K))) (c : A3 K) (t : A1 K) (m : Option (A1 K)) (ic : Option (A2 K))
    (mask : Option (A2 K)) : Py (A2 (Option K)) := do
  let r ← ace inv (flattenCube c) t m ic (flatMask mask)
  unflattenBand r c.nx c.ny

/-- `ace_demeaned` (spectral_image_processing_2d.py:96-104). -/
def aceDemeaned2 (c : A3 K) (t : A1 K) (ic : A2 K) : Py (A2 (Option K)) := do
  let r ← aceDemeaned (flattenCube c) t ic
  unflattenBand r c.nx c.ny

/-- `sam` (spectral_image_processing_2d.py:107-114). -/
noncomputable def sam2 (c : A3 ℝ) (t : A1 ℝ) : Py (A2 (Option ℝ)) := do
  let r ← sam (flattenCube c) t
  unflattenBand r c.nx c.ny

/-- `covariance_equalization_mean_centered` (spectral_image_processing_2d.py:117-134). -/
def covEq2 (pw : A2 K → K → Py (A2 K)) (c1 c2 : A3 K) (m1 m2 : Option (A2 K)) : Py (A3 K) := do
  let r ← covEq pw (flattenCube c1) (flattenCube c2) (flatMask m1) (flatMask m2)
  unflattenCube r c1.nx c1.ny

/-- `compute_cov_eq_linear_transform_matrix` (spectral_image_processing_2d.py:142-155): both masks are
flattened unconditionally, and `flatten_image_band(None)` (image_utils.py:56-61) raises AttributeError. -/
def covEqMatrix2 (pw : A2 K → K → Py (A2 K)) (c1 c2 : A3 K) (m1 m2 : Option (A2 K)) : Py (A2 K) :=
  match m1, m2 with
  | some m1, some m2 =>
    covEqMatrix pw (flattenCube c1) (flattenCube c2) (some (flattenBand m1)) (some (flattenBand m2))
  | _, _ => .error .attributeError

end
end Verif.Spectral
