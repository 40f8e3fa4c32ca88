import Verif.Props.SpectralDetect
import Mathlib.LinearAlgebra.Matrix.NonsingularInverse
import Mathlib.Data.Matrix.Mul

/-! C158: anomaly and target scores do not depend on the calibration of the bands.
C159: they do not depend on the order of the samples, and follow the pixels when an image is mirrored. -/

set_option linter.unusedSectionVars false

namespace Verif.Spectral
open Verif ImageUtils
open Finset (range)
open scoped BigOperators

section
variable {K : Type} [Field K] [LinearOrder K] [IsStrictOrderedRing K]

/-! ### Specification -/

/-- Specification: `e` is a left inverse of the `n` by `n` matrix `c`. -/
def LeftInv (n : Nat) (e c : Nat → Nat → K) : Prop := ∀ i j, i < n → j < n → ∑ k ∈ range n, e i k * c k j = if i = j then 1 else 0

/-- Specification of `np.linalg.inv` on finite square matrices: the inverse when there is one, LinAlgError otherwise. -/
def InvExact (inv : A2 (Option K) → Py (A2 (Option K))) : Prop :=
  InvContract inv ∧ ∀ (n : Nat) (c : Nat → Nat → K),
    ((∃ e, LeftInv n e c) → ∃ r, inv ⟨n, n, fun i j => some (c i j)⟩ = .ok r) ∧
    ((¬ ∃ e, LeftInv n e c) → inv ⟨n, n, fun i j => some (c i j)⟩ = .error .linAlgError)

/-- Specification: the same image in other units: every sample `x` is replaced by `A x + t`. -/
def Recalibrated (a : Nat → Nat → K) (t : Nat → K) (img img' : A2 K) : Prop :=
  img'.ny = img.ny ∧ img'.nx = img.nx ∧ ∀ k b, k < img.ny → b < img.nx → img'.px k b = ∑ i ∈ range img.nx, a b i * img.px k i + t b

/-! ### Matrices -/

/-- A matrix of Mathlib. -/
def toMat (n : Nat) (c : Nat → Nat → K) : Matrix (Fin n) (Fin n) K := fun i j => c i j

theorem leftInv_iff (n : Nat) (e c : Nat → Nat → K) : LeftInv n e c ↔ toMat n e * toMat n c = 1 := by
  unfold LeftInv
  constructor
  · intro h
    ext i j
    rw [Matrix.mul_apply, Matrix.one_apply]
    have := h i j i.2 j.2
    rw [Finset.sum_range] at this
    simp only [toMat]
    rw [this]
    simp [Fin.ext_iff]
  · intro h i j hi hj
    have := congrFun (congrFun h ⟨i, hi⟩) ⟨j, hj⟩
    rw [Matrix.mul_apply, Matrix.one_apply] at this
    rw [Finset.sum_range]
    simp only [toMat, Fin.mk.injEq] at this
    exact this

/-- `u^T M v` in Mathlib's terms. -/
theorem bilin_mat (n : Nat) (m : Nat → Nat → K) (u v : Nat → K) :
    bilin n m u v = dotProduct (fun i : Fin n => u i) (Matrix.mulVec (toMat n m) (fun j : Fin n => v j)) := by
  unfold bilin dotProduct Matrix.mulVec dotProduct
  rw [Finset.sum_range]
  refine Finset.sum_congr rfl (fun i _ => ?_)
  rw [Finset.sum_range, Finset.mul_sum]
  refine Finset.sum_congr rfl (fun j _ => ?_)
  simp only [toMat]
  ring

/-- With `C' = A C A^T` and inverses `E`, `E'`: `(A u)^T E' (A v) = u^T E v`. -/
theorem bilin_transform (n : Nat) (a c c' e e' : Nat → Nat → K) (ha : ∃ ai, LeftInv n ai a) (he : LeftInv n e c) (he' : LeftInv n e' c')
    (hc : ∀ i j, i < n → j < n → c' i j = ∑ p ∈ range n, ∑ q ∈ range n, a i p * c p q * a j q) (u v u' v' : Nat → K)
    (hu : ∀ i, i < n → u' i = ∑ j ∈ range n, a i j * u j) (hv : ∀ i, i < n → v' i = ∑ j ∈ range n, a i j * v j) :
    bilin n e' u' v' = bilin n e u v := by
  obtain ⟨ai, hai⟩ := ha
  rw [leftInv_iff] at hai he he'
  have hcm : toMat n c' = toMat n a * toMat n c * (toMat n a).transpose := by
    ext i j
    rw [Matrix.mul_apply]
    simp only [toMat, Matrix.mul_apply, Matrix.transpose_apply]
    have := hc i j i.2 j.2
    rw [this, Finset.sum_comm, Finset.sum_range]
    refine Finset.sum_congr rfl (fun q _ => ?_)
    rw [Finset.sum_range, Finset.sum_mul]
  have haa : toMat n a * toMat n ai = 1 := mul_eq_one_comm.mp hai
  have hce : toMat n c * toMat n e = 1 := mul_eq_one_comm.mp he
  have hat : (toMat n a).transpose * (toMat n ai).transpose = 1 := by
    rw [← Matrix.transpose_mul, hai, Matrix.transpose_one]
  -- A^T E' A = E
  have key : (toMat n a).transpose * toMat n e' * toMat n a = toMat n e := by
    have h1 : toMat n e' * toMat n a * toMat n c * (toMat n a).transpose = 1 := by
      rw [hcm] at he'
      simpa only [Matrix.mul_assoc] using he'
    have h2 : (toMat n a).transpose * (toMat n e' * toMat n a * toMat n c) = 1 := mul_eq_one_comm.mp h1
    calc (toMat n a).transpose * toMat n e' * toMat n a
        = (toMat n a).transpose * toMat n e' * toMat n a * (toMat n c * toMat n e) := by rw [hce, Matrix.mul_one]
      _ = (toMat n a).transpose * (toMat n e' * toMat n a * toMat n c) * toMat n e := by simp only [Matrix.mul_assoc]
      _ = toMat n e := by rw [h2, Matrix.one_mul]
  have hum : (fun i : Fin n => u' i) = Matrix.mulVec (toMat n a) (fun j : Fin n => u j) := by
    funext i
    rw [hu i i.2, Finset.sum_range]
    rfl
  have hvm : (fun i : Fin n => v' i) = Matrix.mulVec (toMat n a) (fun j : Fin n => v j) := by
    funext i
    rw [hv i i.2, Finset.sum_range]
    rfl
  rw [bilin_mat, bilin_mat, hum, hvm, ← key, Matrix.mulVec_mulVec, Matrix.dotProduct_mulVec, Matrix.dotProduct_mulVec, ← Matrix.vecMul_transpose,
    Matrix.vecMul_vecMul, ← Matrix.mul_assoc]

/-- An invertible change of bands keeps covariances invertible, both ways. -/
theorem leftInv_transform (n : Nat) (a c c' : Nat → Nat → K) (ha : ∃ ai, LeftInv n ai a)
    (hc : ∀ i j, i < n → j < n → c' i j = ∑ p ∈ range n, ∑ q ∈ range n, a i p * c p q * a j q) :
    (∃ e, LeftInv n e c) ↔ ∃ e, LeftInv n e c' := by
  obtain ⟨ai, hai⟩ := ha
  rw [leftInv_iff] at hai
  have hcm : toMat n c' = toMat n a * toMat n c * (toMat n a).transpose := by
    ext i j
    rw [Matrix.mul_apply]
    simp only [toMat, Matrix.mul_apply, Matrix.transpose_apply]
    have := hc i j i.2 j.2
    rw [this, Finset.sum_comm, Finset.sum_range]
    refine Finset.sum_congr rfl (fun q _ => ?_)
    rw [Finset.sum_range, Finset.sum_mul]
  have haa : toMat n a * toMat n ai = 1 := mul_eq_one_comm.mp hai
  have hat : (toMat n a).transpose * (toMat n ai).transpose = 1 := by rw [← Matrix.transpose_mul, hai, Matrix.transpose_one]
  have hat' : (toMat n ai).transpose * (toMat n a).transpose = 1 := mul_eq_one_comm.mp hat
  have back : ∀ m : Matrix (Fin n) (Fin n) K, ∃ f : Nat → Nat → K, toMat n f = m :=
    fun m => ⟨fun i j => if h : i < n ∧ j < n then m ⟨i, h.1⟩ ⟨j, h.2⟩ else 0, by ext i j; simp [toMat]⟩
  constructor
  · rintro ⟨e, he⟩
    rw [leftInv_iff] at he
    obtain ⟨f, hf⟩ := back ((toMat n ai).transpose * toMat n e * toMat n ai)
    refine ⟨f, ?_⟩
    rw [leftInv_iff, hf, hcm]
    calc (toMat n ai).transpose * toMat n e * toMat n ai * (toMat n a * toMat n c * (toMat n a).transpose)
        = (toMat n ai).transpose * (toMat n e * ((toMat n ai * toMat n a) * toMat n c)) * (toMat n a).transpose := by simp only [Matrix.mul_assoc]
      _ = 1 := by rw [hai, Matrix.one_mul, he, Matrix.mul_one, hat']
  · rintro ⟨e, he⟩
    rw [leftInv_iff, hcm] at he
    obtain ⟨f, hf⟩ := back ((toMat n a).transpose * toMat n e * toMat n a)
    refine ⟨f, ?_⟩
    rw [leftInv_iff, hf]
    have h1 : toMat n e * toMat n a * toMat n c * (toMat n a).transpose = 1 := by simpa only [Matrix.mul_assoc] using he
    have h2 : (toMat n a).transpose * (toMat n e * toMat n a * toMat n c) = 1 := mul_eq_one_comm.mp h1
    simpa only [Matrix.mul_assoc] using h2

/-! ### Default statistics -/

/-- What the default statistics are when they can be computed. -/
theorem default_stats (inv : A2 (Option K) → Py (A2 (Option K))) (hinv : InvContract inv) (img : A2 K) (mask : Option (A1 K)) (hm : MaskFits img mask)
    (hk : 2 ≤ (kept img.ny mask).card) :
    ∃ mm g, mean img mask = .ok mm ∧ mm.n = img.nx ∧ finite1 mm = some g ∧ (∀ b, b < img.nx → g.px b = avg img (kept img.ny mask) b) ∧
      invOrDefault inv img none mask =
        (if img.nx = 1 then .error .linAlgError else inv ⟨img.nx, img.nx, fun i j => some (cv img (kept img.ny mask) i j)⟩) ∧
      ∀ ic, invOrDefault inv img none mask = .ok ic → ∃ g2 e, ic.ny = img.nx ∧ ic.nx = img.nx ∧ finite2 ic = some g2 ∧
        (∀ i j, i < img.nx → j < img.nx → g2.px i j = e i j) ∧ LeftInv img.nx e (cv img (kept img.ny mask)) := by
  have hne : ((kept img.ny mask).card : K) ≠ 0 := by exact_mod_cast (by omega : (kept img.ny mask).card ≠ 0)
  obtain ⟨g, hg, hgn, hgv⟩ := finite1_of
    (⟨img.nx, fun b => fdiv (∑ k ∈ kept img.ny mask, img.px k b) ((kept img.ny mask).card : K)⟩ : A1 (Option K))
    (fun i _ => ⟨_, by simp only [fdiv, if_neg hne]; rfl⟩)
  have hio : invOrDefault inv img none mask =
        (if img.nx = 1 then .error .linAlgError else inv ⟨img.nx, img.nx, fun i j => some (cv img (kept img.ny mask) i j)⟩) := by
    unfold invOrDefault
    simp only []
    rw [cov_eq img mask hm]
    unfold covOver
    by_cases h1 : img.nx = 1
    · rw [if_pos h1, if_pos h1]; rfl
    · rw [if_neg h1, if_neg h1, ok_bind]
      simp only []
      congr 2
      funext b c
      exact covEntry_eq img _ hk b c
  refine ⟨_, g, mean_eq img mask hm, rfl, hg, ?_, hio, ?_⟩
  · intro b hb
    have := hgv b hb
    simp only [fdiv, if_neg hne, Option.some.injEq] at this
    rw [← this, avg]
  · intro ic hic
    rw [hio] at hic
    split at hic
    · cases hic
    obtain ⟨e, e1, e2, e3, e4⟩ := hinv img.nx _ ic hic
    obtain ⟨g2, hg2, g2y, g2x, hgv2⟩ := finite2_of ic (fun i j hi hj => ⟨_, e3 i j (by omega) (by omega)⟩)
    refine ⟨g2, e, e1, e2, hg2, ?_, e4⟩
    intro i j hi hj
    have := hgv2 i j (by omega) (by omega)
    rw [e3 i j hi hj] at this
    simpa using this.symm

/-- C54: with the default statistics the score of sample `x` is its Mahalanobis distance from the sample mean: `(x - mean)^T E (x - mean)` with `E` the inverse of the
sample covariance. -/
theorem C54_default (inv : A2 (Option K) → Py (A2 (Option K))) (hinv : InvContract inv) (img : A2 K) (hn : 2 ≤ img.ny)
    (r : A1 (Option K)) (hr : rx inv img none none = .ok r) :
    ∃ e : Nat → Nat → K, LeftInv img.nx e (cv img (range img.ny)) ∧ r.n = img.ny ∧
      ∀ k, k < img.ny → r.px k = some (bilin img.nx e (fun b => img.px k b - avg img (range img.ny) b) (fun b => img.px k b - avg img (range img.ny) b)) := by
  obtain ⟨mm, g, h1, h2, h3, h4, h5, h6⟩ := default_stats inv hinv img none trivial (by simpa [kept] using hn)
  unfold rx meanOrDefault at hr
  simp only [] at hr
  rw [h1, ok_bind] at hr
  obtain ⟨ic, hic, hr⟩ := bind_ok hr
  obtain ⟨g2, e, e1, e2, e3, e4, e5⟩ := h6 ic hic
  rw [if_pos ⟨h2, e1, e2⟩, h3, e3] at hr
  simp only [Except.ok.injEq] at hr
  subst hr
  refine ⟨e, e5, rfl, ?_⟩
  intro k hk
  simp only [rxScore, Option.some.injEq]
  unfold bilin
  rw [quad_eq]
  refine Finset.sum_congr rfl (fun i hi => Finset.sum_congr rfl (fun j hj => ?_))
  rw [Finset.mem_range] at hi hj
  rw [e4 i j hi hj, h4 i hi, h4 j hj]
  rfl

/-- C55: with the default statistics (of the unmasked samples) the ACE score is that of the demeaned sample and target under the inverse covariance. -/
theorem C55_default (inv : A2 (Option K) → Py (A2 (Option K))) (hinv : InvContract inv) (img : A2 K) (t : A1 K) (mask : Option (A1 K)) (hm : MaskFits img mask)
    (hk : 2 ≤ (kept img.ny mask).card) (r : A1 (Option K)) (hr : ace inv img t none none mask = .ok r) :
    ∃ e : Nat → Nat → K, LeftInv img.nx e (cv img (kept img.ny mask)) ∧ t.n = img.nx ∧ r.n = img.ny ∧
      ∀ k, k < img.ny → r.px k = fdiv
        (bilin img.nx e (fun b => t.px b - avg img (kept img.ny mask) b) (fun b => img.px k b - avg img (kept img.ny mask) b) ^ 2)
        (bilin img.nx e (fun b => t.px b - avg img (kept img.ny mask) b) (fun b => t.px b - avg img (kept img.ny mask) b) *
          bilin img.nx e (fun b => img.px k b - avg img (kept img.ny mask) b) (fun b => img.px k b - avg img (kept img.ny mask) b)) := by
  obtain ⟨mm, g, h1, h2, h3, h4, h5, h6⟩ := default_stats inv hinv img mask hm hk
  unfold ace meanOrDefault at hr
  simp only [] at hr
  rw [h1, ok_bind] at hr
  obtain ⟨ic, hic, hr⟩ := bind_ok hr
  obtain ⟨g2, e, e1, e2, e3, e4, e5⟩ := h6 ic hic
  split at hr
  · rename_i hc
    rw [h3, e3] at hr
    simp only [Except.ok.injEq] at hr
    subst hr
    refine ⟨e, e5, hc.2.1, rfl, ?_⟩
    intro k hk
    have q : ∀ u v u' v' : Nat → K, (∀ b, b < img.nx → u b = u' b) → (∀ b, b < img.nx → v b = v' b) → quad img.nx g2.px u v = bilin img.nx e u' v' := by
      intro u v u' v' hu hv
      rw [quad_congr img.nx g2.px e u u' v v' e4 hu hv, quad_eq]
      rfl
    simp only [aceScore]
    rw [q _ _ _ _ (fun b hb => by rw [h4 b hb]) (fun b hb => by rw [h4 b hb]), q _ _ _ _ (fun b hb => by rw [h4 b hb]) (fun b hb => by rw [h4 b hb]),
      q _ _ _ _ (fun b hb => by rw [h4 b hb]) (fun b hb => by rw [h4 b hb])]
  · cases hr

/-! ### C158 -/

/-- Demeaned samples and covariance of a recalibrated image. -/
theorem recalibrated_stats {a : Nat → Nat → K} {t : Nat → K} {img img' : A2 K} (h : Recalibrated a t img img') (mask : Option (A1 K))
    (hk : 2 ≤ (kept img.ny mask).card) :
    (∀ b, b < img.nx → avg img' (kept img.ny mask) b = ∑ i ∈ range img.nx, a b i * avg img (kept img.ny mask) i + t b) ∧
    (∀ i j, i < img.nx → j < img.nx → cv img' (kept img.ny mask) i j =
      ∑ p ∈ range img.nx, ∑ q ∈ range img.nx, a i p * cv img (kept img.ny mask) p q * a j q) := by
  obtain ⟨h1, h2, h3⟩ := h
  have hmem : ∀ k ∈ kept img.ny mask, k < img.ny := by
    intro k hk'
    cases mask with
    | none => exact Finset.mem_range.mp hk'
    | some m => exact Finset.mem_range.mp (Finset.mem_filter.mp hk').1
  constructor
  · intro b hb
    exact avg_affine img img' _ (by omega) img.nx a t b (fun k hk' => h3 k b (hmem k hk') hb)
  · intro i j hi hj
    exact cv_affine img img' _ (by omega) img.nx a t i j (fun k hk' => h3 k i (hmem k hk') hi) (fun k hk' => h3 k j (hmem k hk') hj)

/-- RX scores are unchanged by every invertible change of the bands and every offset: gains, units, band order, principal components. -/
theorem C158_rx (inv : A2 (Option K) → Py (A2 (Option K))) (hinv : InvContract inv) (img img' : A2 K) (hn : 2 ≤ img.ny) (a : Nat → Nat → K) (t : Nat → K)
    (ha : ∃ ai, LeftInv img.nx ai a) (h : Recalibrated a t img img') (r r' : A1 (Option K)) (hr : rx inv img none none = .ok r)
    (hr' : rx inv img' none none = .ok r') : r'.n = r.n ∧ ∀ k, k < img.ny → r'.px k = r.px k := by
  have hk : 2 ≤ (kept img.ny (none : Option (A1 K))).card := by simpa [kept] using hn
  obtain ⟨s1, s2⟩ := recalibrated_stats h none hk
  obtain ⟨q1, q2, q3⟩ := h
  obtain ⟨e, he, en, ev⟩ := C54_default inv hinv img hn r hr
  obtain ⟨e', he', en', ev'⟩ := C54_default inv hinv img' (by omega) r' hr'
  refine ⟨by omega, ?_⟩
  intro k hk'
  rw [ev k hk', ev' k (by omega), q1, q2]
  rw [q1, q2] at he'
  congr 1
  have hd : ∀ i, i < img.nx → img'.px k i - avg img' (range img.ny) i = ∑ j ∈ range img.nx, a i j * (img.px k j - avg img (range img.ny) j) := by
    intro i hi
    have s := s1 i hi
    simp only [kept] at s
    rw [q3 k i hk' hi, s]
    simp only [mul_sub, Finset.sum_sub_distrib]
    ring
  exact bilin_transform img.nx a _ _ e e' ha he he' s2 _ _ _ _ hd hd

/-- Recalibrating never turns a computable RX image into an error or the other way round. -/
theorem C158_rx_outcome (inv : A2 (Option K) → Py (A2 (Option K))) (hinv : InvExact inv) (img img' : A2 K) (hn : 2 ≤ img.ny) (a : Nat → Nat → K) (t : Nat → K)
    (ha : ∃ ai, LeftInv img.nx ai a) (h : Recalibrated a t img img') :
    ((∃ r, rx inv img none none = .ok r) ∧ ∃ r', rx inv img' none none = .ok r') ∨
      (rx inv img none none = .error .linAlgError ∧ rx inv img' none none = .error .linAlgError) := by
  have hk : 2 ≤ (kept img.ny (none : Option (A1 K))).card := by simpa [kept] using hn
  obtain ⟨s1, s2⟩ := recalibrated_stats h none hk
  obtain ⟨q1, q2, q3⟩ := h
  -- the outcome of one image
  have out : ∀ im : A2 K, 2 ≤ im.ny →
      ((im.nx ≠ 1 ∧ ∃ e, LeftInv im.nx e (cv im (range im.ny))) → ∃ r, rx inv im none none = .ok r) ∧
      (¬ (im.nx ≠ 1 ∧ ∃ e, LeftInv im.nx e (cv im (range im.ny))) → rx inv im none none = .error .linAlgError) := by
    intro im hn'
    obtain ⟨mm, g, h1, h2, h3, h4, h5, h6⟩ := default_stats inv hinv.1 im none trivial (by simpa [kept] using hn')
    have hkr : kept im.ny (none : Option (A1 K)) = range im.ny := rfl
    rw [hkr] at h5
    unfold rx meanOrDefault
    simp only []
    rw [h1, ok_bind]
    constructor
    · rintro ⟨hx, he⟩
      rw [if_neg hx] at h5
      obtain ⟨ic, hic⟩ := (hinv.2 im.nx (cv im (range im.ny))).1 he
      rw [hic] at h5
      obtain ⟨g2, e, e1, e2, e3, -⟩ := h6 ic h5
      rw [h5, ok_bind, if_pos ⟨h2, e1, e2⟩, h3, e3]
      exact ⟨_, rfl⟩
    · intro hno
      by_cases hx : im.nx = 1
      · rw [if_pos hx] at h5
        rw [h5]; rfl
      · rw [if_neg hx, (hinv.2 im.nx (cv im (range im.ny))).2 (fun he => hno ⟨hx, he⟩)] at h5
        rw [h5]; rfl
  have tr := leftInv_transform img.nx a _ _ ha s2
  simp only [kept] at tr
  have iff : (img.nx ≠ 1 ∧ ∃ e, LeftInv img.nx e (cv img (range img.ny))) ↔ (img'.nx ≠ 1 ∧ ∃ e, LeftInv img'.nx e (cv img' (range img'.ny))) := by
    rw [q1, q2, tr]
  by_cases hc : img.nx ≠ 1 ∧ ∃ e, LeftInv img.nx e (cv img (range img.ny))
  · exact Or.inl ⟨(out img hn).1 hc, (out img' (by omega)).1 (iff.mp hc)⟩
  · exact Or.inr ⟨(out img hn).2 hc, (out img' (by omega)).2 (fun h => hc (iff.mpr h))⟩

/-- ACE scores are unchanged when image and target are recalibrated together; masked samples are left out of the statistics but are scored. -/
theorem C158_ace (inv : A2 (Option K) → Py (A2 (Option K))) (hinv : InvContract inv) (img img' : A2 K) (tg tg' : A1 K) (mask : Option (A1 K)) (hm : MaskFits img mask)
    (hk : 2 ≤ (kept img.ny mask).card) (a : Nat → Nat → K) (t : Nat → K) (ha : ∃ ai, LeftInv img.nx ai a) (h : Recalibrated a t img img')
    (ht : ∀ b, b < img.nx → tg'.px b = ∑ i ∈ range img.nx, a b i * tg.px i + t b) (r r' : A1 (Option K)) (hr : ace inv img tg none none mask = .ok r)
    (hr' : ace inv img' tg' none none mask = .ok r') : r'.n = r.n ∧ ∀ k, k < img.ny → r'.px k = r.px k := by
  obtain ⟨s1, s2⟩ := recalibrated_stats h mask hk
  obtain ⟨q1, q2, q3⟩ := h
  have hm' : MaskFits img' mask := by
    cases mask with
    | none => trivial
    | some m => rw [MaskFits] at hm ⊢; rw [q1]; exact hm
  obtain ⟨e, he, -, en, ev⟩ := C55_default inv hinv img tg mask hm hk r hr
  obtain ⟨e', he', -, en', ev'⟩ := C55_default inv hinv img' tg' mask hm' (by rw [q1]; exact hk) r' hr'
  refine ⟨by omega, ?_⟩
  intro k hk'
  rw [ev k hk', ev' k (by omega), q1, q2]
  rw [q1, q2] at he'
  have hd : ∀ i, i < img.nx → img'.px k i - avg img' (kept img.ny mask) i =
      ∑ j ∈ range img.nx, a i j * (img.px k j - avg img (kept img.ny mask) j) := by
    intro i hi
    rw [q3 k i hk' hi, s1 i hi]
    simp only [mul_sub, Finset.sum_sub_distrib]
    ring
  have htd : ∀ i, i < img.nx → tg'.px i - avg img' (kept img.ny mask) i =
      ∑ j ∈ range img.nx, a i j * (tg.px j - avg img (kept img.ny mask) j) := by
    intro i hi
    rw [ht i hi, s1 i hi]
    simp only [mul_sub, Finset.sum_sub_distrib]
    ring
  rw [bilin_transform img.nx a _ _ e e' ha he he' s2 _ _ _ _ htd hd, bilin_transform img.nx a _ _ e e' ha he he' s2 _ _ _ _ htd htd,
    bilin_transform img.nx a _ _ e e' ha he he' s2 _ _ _ _ hd hd]

end

/-- There is an inversion as specified. -/
theorem invExact_exists (K : Type) [Field K] [LinearOrder K] [IsStrictOrderedRing K] : ∃ inv : A2 (Option K) → Py (A2 (Option K)), InvExact inv := by
  classical
  have uniq : ∀ n n' : Nat, ∀ c c' : Nat → Nat → K, (⟨n, n, fun i j => some (c i j)⟩ : A2 (Option K)) = ⟨n', n', fun i j => some (c' i j)⟩ → n = n' ∧ c = c' := by
    intro n n' c c' h
    simp only [A2.mk.injEq] at h
    refine ⟨h.1, ?_⟩
    funext i j
    have := congrFun (congrFun h.2.2 i) j
    simpa using this
  let inv : A2 (Option K) → Py (A2 (Option K)) := fun a =>
    if h : ∃ (r : A2 (Option K)) (n : Nat) (c e : Nat → Nat → K), a = ⟨n, n, fun i j => some (c i j)⟩ ∧ LeftInv n e c ∧ r = ⟨n, n, fun i j => some (e i j)⟩ then
      .ok h.choose
    else .error .linAlgError
  refine ⟨inv, ?_, ?_⟩
  · intro n c r hr
    simp only [inv] at hr
    split at hr
    · rename_i h
      simp only [Except.ok.injEq] at hr
      obtain ⟨n', c', e, h1, h2, h3⟩ := h.choose_spec
      rw [hr] at h3
      obtain ⟨rfl, rfl⟩ := uniq _ _ _ _ h1
      subst h3
      exact ⟨e, rfl, rfl, fun _ _ _ _ => rfl, h2⟩
    · cases hr
  · intro n c
    constructor
    · rintro ⟨e, he⟩
      exact ⟨_, dif_pos ⟨_, n, c, e, rfl, he, rfl⟩⟩
    · intro hno
      refine dif_neg ?_
      rintro ⟨r, n', c', e, h1, h2, -⟩
      obtain ⟨rfl, rfl⟩ := uniq _ _ _ _ h1
      exact hno ⟨e, h2⟩

/-- Three samples (0,0), (1,0), (0,1) and the same with gains 2 and 3 and offsets 5 and 7: the hypotheses are met, and the covariance can be inverted. -/
example : Recalibrated (fun b i => if b = i then (b : ℚ) + 2 else 0) (fun b => 2 * b + 5) ⟨3, 2, fun k b => if k = b + 1 then (1 : ℚ) else 0⟩
      ⟨3, 2, fun k b => (if k = b + 1 then (b : ℚ) + 2 else 0) + (2 * b + 5)⟩ ∧
    (∃ ai, LeftInv 2 ai (fun b i => if b = i then (b : ℚ) + 2 else 0)) ∧
    ∃ e, LeftInv 2 e (cv (⟨3, 2, fun k b => if k = b + 1 then (1 : ℚ) else 0⟩ : A2 ℚ) (range 3)) := by
  refine ⟨⟨rfl, rfl, ?_⟩, ⟨fun b i => if b = i then 1 / ((b : ℚ) + 2) else 0, ?_⟩, ⟨fun b i => if b = i then 4 else 2, ?_⟩⟩
  · intro k b _ hb
    have : b = 0 ∨ b = 1 := by simp only [] at hb; omega
    rcases this with rfl | rfl <;> simp [Finset.sum_range_succ]
  · intro i j hi hj
    have hi' : i = 0 ∨ i = 1 := by omega
    have hj' : j = 0 ∨ j = 1 := by omega
    rcases hi' with rfl | rfl <;> rcases hj' with rfl | rfl <;> norm_num [Finset.sum_range_succ]
  · intro i j hi hj
    have hi' : i = 0 ∨ i = 1 := by omega
    have hj' : j = 0 ∨ j = 1 := by omega
    rcases hi' with rfl | rfl <;> rcases hj' with rfl | rfl <;> norm_num [Finset.sum_range_succ, cv, avg]

end Verif.Spectral
