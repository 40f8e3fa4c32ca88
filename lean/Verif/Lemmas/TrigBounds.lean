import Mathlib.Analysis.Complex.Exponential
import Mathlib.Analysis.SpecialFunctions.Trigonometric.Inverse

/-! Rational bounds for sines and cosines, as tight as needed. -/

namespace Verif.FloatGeom

/-- The first `n` terms of the cosine series. -/
noncomputable def cosSum (n : ℕ) (x : ℝ) : ℝ := ∑ j ∈ Finset.range n, (-1) ^ j * x ^ (2 * j) / ((2 * j).factorial : ℝ)

/-- The first `n` terms of the sine series. -/
noncomputable def sinSum (n : ℕ) (x : ℝ) : ℝ := ∑ j ∈ Finset.range n, (-1) ^ j * x ^ (2 * j + 1) / ((2 * j + 1).factorial : ℝ)

theorem exp_sum (n : ℕ) (x : ℝ) :
    (∑ m ∈ Finset.range (2 * n), ((x : ℂ) * Complex.I) ^ m / (m.factorial : ℂ)) = (cosSum n x : ℂ) + (sinSum n x : ℂ) * Complex.I := by
  induction n with
  | zero => simp [cosSum, sinSum]
  | succ n ih =>
    rw [show 2 * (n + 1) = 2 * n + 1 + 1 by ring, Finset.sum_range_succ, Finset.sum_range_succ, ih]
    have e : ((x : ℂ) * Complex.I) ^ (2 * n) = (-1) ^ n * (x : ℂ) ^ (2 * n) := by
      rw [mul_pow, pow_mul Complex.I, Complex.I_sq]; ring
    have hc : cosSum (n + 1) x = cosSum n x + (-1) ^ n * x ^ (2 * n) / ((2 * n).factorial : ℝ) := Finset.sum_range_succ _ _
    have hs : sinSum (n + 1) x = sinSum n x + (-1) ^ n * x ^ (2 * n + 1) / ((2 * n + 1).factorial : ℝ) := Finset.sum_range_succ _ _
    rw [hc, hs, pow_succ ((x : ℂ) * Complex.I) (2 * n), e]
    push_cast
    ring

/-- The remainder of both series. -/
theorem trig_bounds (n : ℕ) (hn : 0 < n) (x : ℝ) (hx : |x| ≤ 1) :
    |Real.cos x - cosSum n x| ≤ (2 * n + 1 : ℝ) / ((2 * n).factorial * (2 * n)) ∧ |Real.sin x - sinSum n x| ≤ (2 * n + 1 : ℝ) / ((2 * n).factorial * (2 * n)) := by
  have hnorm : ‖(x : ℂ) * Complex.I‖ = |x| := by simp
  have b := Complex.exp_bound (x := (x : ℂ) * Complex.I) (by rw [hnorm]; exact hx) (n := 2 * n) (by omega)
  rw [exp_sum, hnorm, Complex.exp_mul_I, ← Complex.ofReal_cos, ← Complex.ofReal_sin] at b
  have b2 : |x| ^ (2 * n) * (((2 * n).succ : ℝ) * (((2 * n).factorial : ℝ) * ((2 * n : ℕ) : ℝ))⁻¹) ≤ (2 * n + 1 : ℝ) / ((2 * n).factorial * (2 * n)) := by
    have h1 : |x| ^ (2 * n) ≤ 1 := pow_le_one₀ (abs_nonneg x) hx
    have h2 : (0 : ℝ) ≤ ((2 * n).succ : ℝ) * (((2 * n).factorial : ℝ) * ((2 * n : ℕ) : ℝ))⁻¹ := by positivity
    refine (mul_le_mul_of_nonneg_right h1 h2).trans (le_of_eq ?_)
    push_cast
    rw [one_mul, div_eq_mul_inv]
  have b3 := b.trans b2
  have e : (Real.cos x : ℂ) + (Real.sin x : ℂ) * Complex.I - ((cosSum n x : ℂ) + (sinSum n x : ℂ) * Complex.I) =
      ((Real.cos x - cosSum n x : ℝ) : ℂ) + ((Real.sin x - sinSum n x : ℝ) : ℂ) * Complex.I := by push_cast; ring
  rw [e] at b3
  have re := (Complex.abs_re_le_norm _).trans b3
  have im := (Complex.abs_im_le_norm _).trans b3
  simp only [Complex.add_re, Complex.add_im, Complex.ofReal_re, Complex.ofReal_im, Complex.mul_re, Complex.mul_im, Complex.I_re, Complex.I_im, mul_zero, mul_one,
    sub_zero, add_zero, zero_add] at re im
  exact ⟨re, im⟩

end Verif.FloatGeom
