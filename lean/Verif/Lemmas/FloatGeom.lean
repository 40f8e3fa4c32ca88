import Verif.Lemmas.FloatSpectral
import Verif.Model.FloatGeom

/-! A calculus of rounding errors: each computed value comes with the exact one, a bound for its size and a number of roundings. -/

set_option linter.unusedSectionVars false

namespace Verif.FloatGeom
open Verif ImageUtils FloatSpectral

section
variable {K : Type} [Field K] [LinearOrder K] [IsStrictOrderedRing K]

/-- The computed `x'` is off the exact `x` by at most `((1+u)^k - 1) * s`, and `s` bounds the size of `x`. -/
structure Approx (u : K) (k : ℕ) (x' x s : K) : Prop where
  err : |x' - x| ≤ ((1 + u) ^ k - 1) * s
  size : |x| ≤ s

variable {u : K} {k l : ℕ} {x' x s y' y t : K}

theorem one_le_growth (hu : 0 ≤ u) (k : ℕ) : (1 : K) ≤ (1 + u) ^ k := one_le_pow₀ (by linarith)

theorem growth_mono (hu : 0 ≤ u) (h : k ≤ l) : (1 + u) ^ k ≤ (1 + u) ^ l := pow_le_pow_right₀ (by linarith) h

theorem Approx.nonneg (h : Approx u k x' x s) : 0 ≤ s := (abs_nonneg _).trans h.size

/-- The computed value is at most `(1+u)^k * s` in size. -/
theorem Approx.size' (h : Approx u k x' x s) : |x'| ≤ (1 + u) ^ k * s := by
  have : |x'| ≤ |x' - x| + |x| := by simpa using abs_add_le (x' - x) x
  have := h.err
  have := h.size
  linarith

theorem Approx.exact (u : K) (x : K) : Approx u 0 x x |x| := ⟨by simp, le_rfl⟩

theorem Approx.mono (hu : 0 ≤ u) (h : Approx u k x' x s) (hk : k ≤ l) (hs : s ≤ t) : Approx u l x' x t := by
  refine ⟨h.err.trans ?_, h.size.trans hs⟩
  have h1 := growth_mono (l := l) hu hk
  have h2 := one_le_growth hu k
  exact mul_le_mul (by linarith) hs h.nonneg (by linarith)

theorem Approx.weaken (hu : 0 ≤ u) (h : Approx u k x' x s) (hk : k ≤ l) : Approx u l x' x s := h.mono hu hk le_rfl

/-- A rounding costs one more factor. -/
theorem Approx.round {r : K → K} (hr : Rounds r u) (hu : 0 ≤ u) (h : Approx u k x' x s) : Approx u (k + 1) (r x') x s := by
  refine ⟨?_, h.size⟩
  have := hr.step hu h.err h.size'
  rw [pow_succ]
  nlinarith [this]

/-- Errors of a product. -/
theorem Approx.mul' (hu : 0 ≤ u) (hx : Approx u k x' x s) (hy : Approx u l y' y t) : Approx u (k + l) (x' * y') (x * y) (s * t) := by
  refine ⟨?_, ?_⟩
  · have e : x' * y' - x * y = (x' - x) * y' + x * (y' - y) := by ring
    rw [e]
    refine (abs_add_le _ _).trans ?_
    rw [abs_mul, abs_mul]
    have h1 : |x' - x| * |y'| ≤ (((1 + u) ^ k - 1) * s) * ((1 + u) ^ l * t) :=
      mul_le_mul hx.err hy.size' (abs_nonneg _) ((abs_nonneg _).trans hx.err)
    have h2 : |x| * |y' - y| ≤ s * (((1 + u) ^ l - 1) * t) := mul_le_mul hx.size hy.err (abs_nonneg _) hx.nonneg
    rw [pow_add]
    calc _ ≤ _ := add_le_add h1 h2
      _ = _ := by ring
  · rw [abs_mul]
    exact mul_le_mul hx.size hy.size (abs_nonneg _) hx.nonneg

/-- A rounded product. -/
theorem Approx.mul {r : K → K} (hr : Rounds r u) (hu : 0 ≤ u) (hx : Approx u k x' x s) (hy : Approx u l y' y t) :
    Approx u (k + l + 1) (r (x' * y')) (x * y) (s * t) := (hx.mul' hu hy).round hr hu

/-- A sum of terms with the same number of roundings. -/
theorem Approx.add' (hx : Approx u k x' x s) (hy : Approx u k y' y t) : Approx u k (x' + y') (x + y) (s + t) := by
  refine ⟨?_, (abs_add_le _ _).trans (add_le_add hx.size hy.size)⟩
  have e : x' + y' - (x + y) = (x' - x) + (y' - y) := by ring
  rw [e]
  refine (abs_add_le _ _).trans ((add_le_add hx.err hy.err).trans (le_of_eq (by ring)))

theorem Approx.neg (hx : Approx u k x' x s) : Approx u k (-x') (-x) s := by
  refine ⟨?_, by rw [abs_neg]; exact hx.size⟩
  have e : -x' - -x = -(x' - x) := by ring
  rw [e, abs_neg]
  exact hx.err

/-- A rounded sum. -/
theorem Approx.add {r : K → K} (hr : Rounds r u) (hu : 0 ≤ u) (hx : Approx u k x' x s) (hy : Approx u l y' y t) :
    Approx u (max k l + 1) (r (x' + y')) (x + y) (s + t) :=
  ((hx.weaken hu (le_max_left k l)).add' (hy.weaken hu (le_max_right k l))).round hr hu

/-- A rounded difference. -/
theorem Approx.sub {r : K → K} (hr : Rounds r u) (hu : 0 ≤ u) (hx : Approx u k x' x s) (hy : Approx u l y' y t) :
    Approx u (max k l + 1) (r (x' - y')) (x - y) (s + t) := by
  rw [sub_eq_add_neg, sub_eq_add_neg]
  exact hx.add hr hu hy.neg

/-- Division by a float that is not zero. -/
theorem Approx.div' (hx : Approx u k x' x s) (c : K) : Approx u k (x' / c) (x / c) (s / |c|) := by
  refine ⟨?_, ?_⟩
  · have e : x' / c - x / c = (x' - x) / c := by ring
    rw [e, abs_div, ← mul_div_assoc]
    exact div_le_div_of_nonneg_right hx.err (abs_nonneg _)
  · rw [abs_div]
    exact div_le_div_of_nonneg_right hx.size (abs_nonneg _)

/-- A rounded difference of two floats is off by one rounding of itself. -/
theorem Approx.diff {r : K → K} (hr : Rounds r u) (hu : 0 ≤ u) (a b : K) : Approx u 1 (r (a - b)) (a - b) |a - b| :=
  (Approx.exact u (a - b)).round hr hu

/-- A value whose error factor is zero-based can be seen with its own size when the bound is its size. -/
theorem Approx.of_abs (h : |x' - x| ≤ ((1 + u) ^ k - 1) * |x|) : Approx u k x' x |x| := ⟨h, le_rfl⟩

/-- Quotient of two computed values: the error in the numerator, and that in the denominator scaled by the exact quotient. -/
theorem quotient_err {n' n d' d en ed : K} (hn : |n' - n| ≤ en) (hd : |d' - d| ≤ ed) (h : ed < |d|) :
    d' ≠ 0 ∧ |n' / d' - n / d| ≤ (en + |n / d| * ed) / (|d| - ed) := by
  have hd0 : d ≠ 0 := by
    intro h0
    rw [h0, abs_zero] at h
    exact absurd ((abs_nonneg _).trans hd) (not_le.mpr h)
  have h1 : |d| - ed ≤ |d'| := by
    have : |d| ≤ |d' - d| + |d'| := by
      have := abs_sub_abs_le_abs_sub d d'
      rw [abs_sub_comm] at this
      linarith
    linarith
  have h2 : 0 < |d| - ed := by linarith
  have h3 : 0 < |d'| := lt_of_lt_of_le h2 h1
  have hd' : d' ≠ 0 := abs_pos.mp h3
  refine ⟨hd', ?_⟩
  have e : n' / d' - n / d = ((n' - n) - n / d * (d' - d)) / d' := by
    field_simp
    ring
  rw [e, abs_div]
  have h4 : |(n' - n) - n / d * (d' - d)| ≤ en + |n / d| * ed := by
    refine (abs_sub _ _).trans ?_
    rw [abs_mul]
    exact add_le_add hn (mul_le_mul_of_nonneg_left hd (abs_nonneg _))
  exact div_le_div₀ ((abs_nonneg _).trans h4) h4 h2 h1

end
end Verif.FloatGeom

namespace Verif.FloatGeom
open Verif ImageUtils FloatSpectral

section
variable {K : Type} [Field K] [LinearOrder K] [IsStrictOrderedRing K]

/-- An inner product of computed vectors, computed in any order. -/
theorem dot_approx {r : K → K} {u : K} (hr : Rounds r u) (hu : 0 ≤ u) {k l : ℕ} {x' x s y' y t : Nat → K} (hx : ∀ n, Approx u k (x' n) (x n) (s n))
    (hy : ∀ n, Approx u l (y' n) (y n) (t n)) (T : DotTree) :
    Approx u (k + l + T.leaves.length) (T.eval r x' y') (T.leaves.map (fun n => x n * y n)).sum (T.leaves.map (fun n => s n * t n)).sum := by
  induction T with
  | mul n =>
    simp only [DotTree.eval, DotTree.leaves, List.map_cons, List.map_nil, List.sum_cons, List.sum_nil, List.length_cons, List.length_nil, add_zero, zero_add]
    exact (hx n).mul hr hu (hy n)
  | fma n a iha =>
    simp only [DotTree.eval, DotTree.leaves, List.map_cons, List.sum_cons, List.length_cons]
    exact ((((hx n).mul' hu (hy n)).weaken (l := k + l + a.leaves.length) hu (by omega)).add' iha).round hr hu
  | add a b iha ihb =>
    simp only [DotTree.eval, DotTree.leaves, List.map_append, List.sum_append, List.length_append]
    have := a.leaves_pos
    have := b.leaves_pos
    exact (iha.add hr hu ihb).weaken hu (by omega)

end
end Verif.FloatGeom
