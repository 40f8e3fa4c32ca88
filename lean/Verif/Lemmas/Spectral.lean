import Verif.Lemmas.ImageUtils
import Verif.Model.Spectral
import Mathlib.Algebra.Order.BigOperators.Ring.Finset
import Mathlib.Algebra.BigOperators.Ring.Finset
import Mathlib.Algebra.BigOperators.Field
import Mathlib.Tactic.FieldSimp
import Mathlib.Tactic.Positivity

/-! Lemmas about the spectral model. -/

set_option linter.unusedSectionVars false

namespace Verif.Spectral
open Verif ImageUtils
open Finset (range)
open scoped BigOperators

section
variable {K : Type} [Field K] [LinearOrder K] [IsStrictOrderedRing K]

/-- The mean of band `b` over the samples in `s`. -/
def avg (img : A2 K) (s : Finset Nat) (b : Nat) : K := (∑ k ∈ s, img.px k b) / (s.card : K)

/-- The covariance of two bands over the samples in `s`. -/
def cv (img : A2 K) (s : Finset Nat) (b c : Nat) : K :=
  (∑ k ∈ s, (img.px k b - avg img s b) * (img.px k c - avg img s c)) / ((s.card : K) - 1)

theorem card_sub_one_pos (s : Finset Nat) (h : 2 ≤ s.card) : (0 : K) < (s.card : K) - 1 := by
  have : (2 : K) ≤ s.card := by exact_mod_cast h
  linarith

theorem covEntry_eq (img : A2 K) (s : Finset Nat) (h : 2 ≤ s.card) (b c : Nat) :
    covEntry img s b c = some (cv img s b c) := by
  unfold covEntry
  simp only []
  rw [if_neg (by omega)]
  unfold fdiv
  rw [if_neg (card_sub_one_pos s h).ne']
  rfl

theorem covEntry_none (img : A2 K) (s : Finset Nat) (h : s.card ≤ 1) (b c : Nat) : covEntry img s b c = none := by
  unfold covEntry
  simp only []
  rw [if_pos h]

theorem cv_symm (img : A2 K) (s : Finset Nat) (b c : Nat) : cv img s b c = cv img s c b := by
  unfold cv
  congr 1
  exact Finset.sum_congr rfl (fun k _ => mul_comm _ _)

theorem avg_sum_zero (img : A2 K) (s : Finset Nat) (h : 1 ≤ s.card) (b : Nat) :
    ∑ k ∈ s, (img.px k b - avg img s b) = 0 := by
  have hne : (s.card : K) ≠ 0 := by exact_mod_cast (by omega : s.card ≠ 0)
  rw [Finset.sum_sub_distrib, Finset.sum_const, nsmul_eq_mul]
  unfold avg
  rw [mul_div_cancel₀ _ hne, sub_self]

theorem cv_bilin (img : A2 K) (s : Finset Nat) (n m : Nat) (u v : Nat → K) :
    ∑ i ∈ range n, ∑ j ∈ range m, u i * cv img s i j * v j =
      (∑ k ∈ s, (∑ i ∈ range n, u i * (img.px k i - avg img s i)) * (∑ j ∈ range m, v j * (img.px k j - avg img s j))) /
        ((s.card : K) - 1) := by
  unfold cv
  have h : ∀ k ∈ s, (∑ i ∈ range n, u i * (img.px k i - avg img s i)) * (∑ j ∈ range m, v j * (img.px k j - avg img s j)) /
      ((s.card : K) - 1) = ∑ i ∈ range n, ∑ j ∈ range m,
        u i * ((img.px k i - avg img s i) * (img.px k j - avg img s j) / ((s.card : K) - 1)) * v j := by
    intro k _
    rw [Finset.sum_mul_sum, Finset.sum_div]
    refine Finset.sum_congr rfl (fun i _ => ?_)
    rw [Finset.sum_div]
    refine Finset.sum_congr rfl (fun j _ => ?_)
    ring
  rw [Finset.sum_div, Finset.sum_congr rfl h]
  conv_rhs => rw [Finset.sum_comm]
  refine Finset.sum_congr rfl (fun i _ => ?_)
  conv_rhs => rw [Finset.sum_comm]
  refine Finset.sum_congr rfl (fun j _ => ?_)
  rw [Finset.sum_div, Finset.mul_sum, Finset.sum_mul]

theorem cv_psd (img : A2 K) (s : Finset Nat) (h : 2 ≤ s.card) (n : Nat) (v : Nat → K) :
    0 ≤ ∑ i ∈ range n, ∑ j ∈ range n, v i * cv img s i j * v j := by
  rw [cv_bilin]
  apply div_nonneg _ (card_sub_one_pos s h).le
  exact Finset.sum_nonneg (fun k _ => mul_self_nonneg _)

/-- Averages of an image whose samples are affine functions of another's. -/
theorem avg_affine (img img' : A2 K) (s : Finset Nat) (h : 1 ≤ s.card) (n : Nat) (a : Nat → Nat → K) (t : Nat → K) (b : Nat)
    (hp : ∀ k ∈ s, img'.px k b = ∑ i ∈ range n, a b i * img.px k i + t b) :
    avg img' s b = ∑ i ∈ range n, a b i * avg img s i + t b := by
  have hne : (s.card : K) ≠ 0 := by exact_mod_cast (by omega : s.card ≠ 0)
  unfold avg
  rw [Finset.sum_congr rfl hp, Finset.sum_add_distrib, Finset.sum_const, nsmul_eq_mul, add_div, mul_div_cancel_left₀ _ hne,
    Finset.sum_comm, Finset.sum_div]
  congr 1
  refine Finset.sum_congr rfl (fun i _ => ?_)
  rw [← Finset.mul_sum, mul_div_assoc]

theorem cv_affine (img img' : A2 K) (s : Finset Nat) (h : 1 ≤ s.card) (n : Nat) (a : Nat → Nat → K) (t : Nat → K) (b c : Nat)
    (hb : ∀ k ∈ s, img'.px k b = ∑ i ∈ range n, a b i * img.px k i + t b)
    (hc : ∀ k ∈ s, img'.px k c = ∑ i ∈ range n, a c i * img.px k i + t c) :
    cv img' s b c = ∑ i ∈ range n, ∑ j ∈ range n, a b i * cv img s i j * a c j := by
  rw [cv_bilin]
  unfold cv
  congr 1
  refine Finset.sum_congr rfl (fun k hk => ?_)
  rw [avg_affine img img' s h n a t b hb, avg_affine img img' s h n a t c hc, hb k hk, hc k hk]
  simp only [mul_sub, Finset.sum_sub_distrib]
  ring

theorem finite1_some (n : Nat) (f : Nat → K) : ∃ g : A1 K, finite1 ⟨n, fun i => some (f i)⟩ = some g ∧ g.n = n ∧ ∀ i, g.px i = f i := by
  unfold finite1
  rw [if_pos (by simp)]
  exact ⟨_, rfl, rfl, fun i => rfl⟩

theorem finite1_of (a : A1 (Option K)) (h : ∀ i, i < a.n → ∃ v, a.px i = some v) :
    ∃ g : A1 K, finite1 a = some g ∧ g.n = a.n ∧ ∀ i, i < a.n → a.px i = some (g.px i) := by
  unfold finite1
  rw [if_pos (by
    simp only [List.all_eq_true, List.mem_range]
    intro i hi
    obtain ⟨v, hv⟩ := h i hi
    rw [hv]; rfl)]
  refine ⟨_, rfl, rfl, ?_⟩
  intro i hi
  obtain ⟨v, hv⟩ := h i hi
  simp [hv]

theorem finite2_of (a : A2 (Option K)) (h : ∀ i j, i < a.ny → j < a.nx → ∃ v, a.px i j = some v) :
    ∃ g : A2 K, finite2 a = some g ∧ g.ny = a.ny ∧ g.nx = a.nx ∧ ∀ i j, i < a.ny → j < a.nx → a.px i j = some (g.px i j) := by
  unfold finite2
  rw [if_pos (by
    simp only [List.all_eq_true]
    intro v hv
    obtain ⟨i, j, hi, hj, rfl⟩ := mem_pixels.mp hv
    obtain ⟨w, hw⟩ := h i j hi hj
    rw [hw]; rfl)]
  refine ⟨_, rfl, rfl, rfl, ?_⟩
  intro i j hi hj
  obtain ⟨v, hv⟩ := h i j hi hj
  simp [hv]

theorem quad_congr (n : Nat) (m m' : Nat → Nat → K) (u u' v v' : Nat → K) (hm : ∀ i j, i < n → j < n → m i j = m' i j)
    (hu : ∀ i, i < n → u i = u' i) (hv : ∀ i, i < n → v i = v' i) : quad n m u v = quad n m' u' v' := by
  unfold quad
  refine Finset.sum_congr rfl (fun i hi => ?_)
  rw [Finset.mem_range] at hi
  rw [hu i hi]
  congr 1
  refine Finset.sum_congr rfl (fun j hj => ?_)
  rw [Finset.mem_range] at hj
  rw [hm i j hi hj, hv j hj]

theorem quad_eq (n : Nat) (m : Nat → Nat → K) (u v : Nat → K) :
    quad n m u v = ∑ i ∈ range n, ∑ j ∈ range n, u i * m i j * v j := by
  unfold quad
  simp only [Finset.mul_sum, mul_assoc]

theorem quad_smul_left (n : Nat) (m : Nat → Nat → K) (c : K) (u v : Nat → K) : quad n m (fun i => c * u i) v = c * quad n m u v := by
  unfold quad
  simp only [Finset.mul_sum, mul_assoc]

theorem quad_smul_right (n : Nat) (m : Nat → Nat → K) (c : K) (u v : Nat → K) : quad n m u (fun i => c * v i) = c * quad n m u v := by
  unfold quad
  rw [Finset.mul_sum]
  refine Finset.sum_congr rfl (fun i _ => ?_)
  have : ∑ j ∈ range n, m i j * (c * v j) = c * ∑ j ∈ range n, m i j * v j := by
    rw [Finset.mul_sum]
    exact Finset.sum_congr rfl (fun j _ => by ring)
  rw [this]; ring

theorem quad_add_left (n : Nat) (m : Nat → Nat → K) (u u' v : Nat → K) :
    quad n m (fun i => u i + u' i) v = quad n m u v + quad n m u' v := by
  unfold quad
  simp only [add_mul, Finset.sum_add_distrib]

theorem quad_add_right (n : Nat) (m : Nat → Nat → K) (u v v' : Nat → K) :
    quad n m u (fun i => v i + v' i) = quad n m u v + quad n m u v' := by
  unfold quad
  simp only [mul_add, Finset.sum_add_distrib]

theorem quad_symm (n : Nat) (m : Nat → Nat → K) (hm : ∀ i j, i < n → j < n → m i j = m j i) (u v : Nat → K) :
    quad n m u v = quad n m v u := by
  rw [quad_eq, quad_eq, Finset.sum_comm]
  refine Finset.sum_congr rfl (fun j hj => Finset.sum_congr rfl (fun i hi => ?_))
  rw [Finset.mem_range] at hi hj
  rw [hm i j hi hj]; ring

/-- The Cauchy-Schwarz inequality for a symmetric positive semidefinite matrix. -/
theorem quad_cauchy (n : Nat) (m : Nat → Nat → K) (hm : ∀ i j, i < n → j < n → m i j = m j i)
    (hpsd : ∀ v : Nat → K, 0 ≤ quad n m v v) (u v : Nat → K) (hu : 0 < quad n m u u) :
    quad n m u v ^ 2 ≤ quad n m u u * quad n m v v := by
  set s := -(quad n m u v) / quad n m u u with hs
  have h := hpsd (fun i => s * u i + v i)
  rw [quad_add_left, quad_add_right, quad_add_right, quad_smul_left, quad_smul_left, quad_smul_right, quad_smul_right,
    quad_symm n m hm v u] at h
  have e : s * quad n m u u = -(quad n m u v) := by rw [hs, div_mul_cancel₀ _ hu.ne']
  have h2 : s * (s * quad n m u u) + s * quad n m u v + (s * quad n m u v + quad n m v v) =
      s * quad n m u v + quad n m v v := by rw [e]; ring
  rw [h2] at h
  have h3 := mul_le_mul_of_nonneg_left h hu.le
  have h4 : quad n m u u * (s * quad n m u v + quad n m v v) = (s * quad n m u u) * quad n m u v + quad n m u u * quad n m v v := by ring
  rw [h4, e, mul_zero] at h3
  nlinarith

end
end Verif.Spectral
