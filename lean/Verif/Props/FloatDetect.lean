import Verif.Lemmas.FloatGeom
import Verif.Model.FloatDetect
import Verif.Props.SpectralDetect
import Mathlib.Algebra.Order.Chebyshev

/-! C184: the RX and ACE scores in floating point are close to the exact ones. -/

set_option linter.unusedSectionVars false

namespace Verif.FloatSpectral
open Verif ImageUtils FloatGeom Spectral
open Finset (range)
open scoped BigOperators

section
variable {K : Type} [Field K] [LinearOrder K] [IsStrictOrderedRing K]

/-- Specification: the sum uses each of `n` rows once, and each row each of its `n` products once. -/
def FormOrder.Covers (n : Nat) (o : FormOrder) : Prop := o.sum.Covers n ∧ ∀ i, i < n → (o.rows i).Covers n

/-- Specification: the form of the absolute values, `sum |u_i| |m_ij| |v_j|`. -/
def absForm (n : Nat) (m : Nat → Nat → K) (u v : Nat → K) : K := bilin n (fun i j => |m i j|) (fun i => |u i|) (fun j => |v j|)

theorem absForm_nonneg (n : Nat) (m : Nat → Nat → K) (u v : Nat → K) : 0 ≤ absForm n m u v := by
  unfold absForm bilin
  exact Finset.sum_nonneg (fun _ _ => Finset.sum_nonneg (fun _ _ => by positivity))

/-- A sum of computed values, in any order. -/
theorem sum_approx {r : K → K} {u : K} (hr : Rounds r u) (hu : 0 ≤ u) {k : ℕ} {f' f s : Nat → K} (T : SumTree)
    (hf : ∀ n ∈ T.leaves, Approx u k (f' n) (f n) (s n)) :
    Approx u (k + (T.leaves.length - 1)) (T.eval r f') (T.leaves.map f).sum (T.leaves.map s).sum := by
  induction T with
  | leaf n => simpa [SumTree.eval, SumTree.leaves] using hf n (by simp [SumTree.leaves])
  | node a b iha ihb =>
    simp only [SumTree.eval, SumTree.leaves, List.map_append, List.sum_append, List.length_append]
    have := a.leaves_pos
    have := b.leaves_pos
    exact ((iha (fun n hn => hf n (by simp [SumTree.leaves, hn]))).add hr hu (ihb (fun n hn => hf n (by simp [SumTree.leaves, hn])))).weaken hu (by omega)

/-- A quadratic form of computed vectors. -/
theorem quad_approx {r : K → K} {u : K} (hr : Rounds r u) (hu : 0 ≤ u) {n a : ℕ} {o : FormOrder} (ho : o.Covers n) (m : Nat → Nat → K)
    {x' x y' y : Nat → K} (hx : ∀ i, Approx u a (x' i) (x i) |x i|) (hy : ∀ i, Approx u a (y' i) (y i) |y i|) :
    Approx u (2 * n + 2 * a) (quadR r o m x' y') (bilin n m x y) (absForm n m x y) := by
  have hl := covers_length ho.1
  have hn := o.sum.leaves_pos
  have hrow : ∀ i, i < n → Approx u (a + n) ((o.rows i).eval r (m i) y') (∑ j ∈ range n, m i j * y j) (∑ j ∈ range n, |m i j| * |y j|) := by
    intro i hi
    have h := dot_approx hr hu (k := 0) (fun j => Approx.exact u (m i j)) hy (o.rows i)
    rw [perm_sum (ho.2 i hi), perm_sum (ho.2 i hi), covers_length (ho.2 i hi), zero_add] at h
    exact h
  have h := sum_approx hr hu (k := a + (a + n) + 1) (f' := fun i => r (x' i * (o.rows i).eval r (m i) y')) (f := fun i => x i * ∑ j ∈ range n, m i j * y j)
    (s := fun i => |x i| * ∑ j ∈ range n, |m i j| * |y j|) o.sum (by
      intro i hi
      have hi' : i < n := by
        have := ho.1.mem_iff.mp hi
        simpa using this
      exact (hx i).mul hr hu (hrow i hi'))
  rw [perm_sum ho.1, perm_sum ho.1, hl] at h
  have e1 : bilin n m x y = ∑ i ∈ range n, x i * ∑ j ∈ range n, m i j * y j := by
    unfold bilin
    exact Finset.sum_congr rfl (fun i _ => by rw [Finset.mul_sum]; exact Finset.sum_congr rfl (fun j _ => by ring))
  have e2 : absForm n m x y = ∑ i ∈ range n, |x i| * ∑ j ∈ range n, |m i j| * |y j| := by
    unfold absForm bilin
    exact Finset.sum_congr rfl (fun i _ => by rw [Finset.mul_sum]; exact Finset.sum_congr rfl (fun j _ => by ring))
  rw [e1, e2]
  exact h.weaken hu (by omega)

/-- C184: each RX score is within `(1+u)^(2n+2) - 1` times the form of the absolute values of the exact score, for every order of the additions. -/
theorem C184_rx_error {r : K → K} {u : K} (hr : Rounds r u) (hu : 0 ≤ u) (order : Nat → FormOrder) (img : A2 K) (m : A1 K) (ic : A2 K)
    (ho : ∀ k, (order k).Covers img.nx) (s : A1 K) (hs : rxR r order img m ic = .ok s) :
    s.n = img.ny ∧ ∀ k, k < img.ny →
      |s.px k - bilin img.nx ic.px (fun b => img.px k b - m.px b) (fun b => img.px k b - m.px b)| ≤
        ((1 + u) ^ (2 * img.nx + 2) - 1) * absForm img.nx ic.px (fun b => img.px k b - m.px b) (fun b => img.px k b - m.px b) := by
  unfold rxR at hs
  split at hs
  · cases hs
    refine ⟨rfl, fun k _ => ?_⟩
    exact (quad_approx hr hu (a := 1) (ho k) ic.px (fun i => Approx.diff hr hu (img.px k i) (m.px i)) (fun i => Approx.diff hr hu (img.px k i) (m.px i))).err
  · cases hs

/-- C184: other shapes are a ValueError, and only those. -/
theorem C184_rx_shapes (r : K → K) (order : Nat → FormOrder) (img : A2 K) (m : A1 K) (ic : A2 K) :
    (∃ s, rxR r order img m ic = .ok s) ↔ m.n = img.nx ∧ ic.ny = img.nx ∧ ic.nx = img.nx := by
  unfold rxR
  split
  · simp_all
  · simp_all

/-- Specification: the absolute values of the terms of the three forms of a target and a sample are together at most `κ` times what they add up to; for the mixed form, `κ` times
the geometric mean of the other two. -/
def Tame (n : Nat) (κ : K) (m : Nat → Nat → K) (t x : Nat → K) : Prop :=
  absForm n m t t ≤ κ * bilin n m t t ∧ absForm n m x x ≤ κ * bilin n m x x ∧
    absForm n m t x ^ 2 ≤ κ ^ 2 * (bilin n m t t * bilin n m x x)

/-- The product of two values with relative errors at most `e`, rounded. -/
theorem rounded_prod {r : K → K} {u e a' a b' b P : K} (hr : Rounds r u) (hu : 0 ≤ u)
    (hP : |a| * |b| ≤ P) (h : |a' * b' - a * b| ≤ ((1 + e) ^ 2 - 1) * P) :
    |r (a' * b') - a * b| ≤ ((1 + u) * (1 + e) ^ 2 - 1) * P := by
  have h1 : |a' * b'| ≤ (1 + e) ^ 2 * P := by
    have h2 : |a' * b'| ≤ |a' * b' - a * b| + |a * b| := by
      have := abs_add_le (a' * b' - a * b) (a * b)
      rwa [sub_add_cancel] at this
    rw [abs_mul a b] at h2
    linarith
  have := hr.step hu h h1
  refine this.trans (le_of_eq ?_)
  ring

/-- The core of the ACE bound, for the three numbers. -/
theorem ace_core {r : K → K} {u e N' N A' A B' B S : K} (hr : Rounds r u) (hu : 0 ≤ u) (he : 0 ≤ e) (hA : 0 < A) (hB : 0 < B)
    (hN : N ^ 2 ≤ A * B) (hS0 : 0 ≤ S) (hS : S ^ 2 ≤ e ^ 2 * (A * B)) (h1 : |N' - N| ≤ S) (h2 : |A' - A| ≤ e * A) (h3 : |B' - B| ≤ e * B)
    (hh : (1 + u) * (1 + e) ^ 2 - 1 < 1) :
    ∃ v, (fdiv (r (N' * N')) (r (A' * B'))).map r = some v ∧
      |v - N ^ 2 / (A * B)| ≤ (1 + u) * (2 * ((1 + u) * (1 + e) ^ 2 - 1) / (1 - ((1 + u) * (1 + e) ^ 2 - 1))) + u := by
  have hAB : 0 < A * B := mul_pos hA hB
  have hNS : |N| * S ≤ e * (A * B) := by
    apply abs_le_of_sq_le_sq' _ (by positivity) |>.2
    have : (|N| * S) ^ 2 = N ^ 2 * S ^ 2 := by rw [mul_pow, sq_abs]
    rw [this]
    calc N ^ 2 * S ^ 2 ≤ (A * B) * (e ^ 2 * (A * B)) := mul_le_mul hN hS (sq_nonneg _) hAB.le
      _ = (e * (A * B)) ^ 2 := by ring
  have n1 : |N' * N' - N * N| ≤ ((1 + e) ^ 2 - 1) * (A * B) := by
    have e1 : N' * N' - N * N = (N' - N) * (N' - N) + 2 * (N * (N' - N)) := by ring
    rw [e1]
    refine (abs_add_le _ _).trans ?_
    rw [abs_mul, abs_mul, abs_mul, abs_two]
    have a1 : |N' - N| * |N' - N| ≤ S * S := mul_le_mul h1 h1 (abs_nonneg _) hS0
    have a2 : |N| * |N' - N| ≤ |N| * S := mul_le_mul_of_nonneg_left h1 (abs_nonneg _)
    nlinarith
  have d1 : |A' * B' - A * B| ≤ ((1 + e) ^ 2 - 1) * (A * B) := by
    have e1 : A' * B' - A * B = (A' - A) * (B' - B) + (A * (B' - B) + (A' - A) * B) := by ring
    rw [e1]
    refine (abs_add_le _ _).trans ?_
    have b0 := abs_add_le (A * (B' - B)) ((A' - A) * B)
    rw [abs_mul, abs_mul, abs_of_pos hA, abs_of_pos hB] at b0
    rw [abs_mul]
    have a1 : |A' - A| * |B' - B| ≤ (e * A) * (e * B) := mul_le_mul h2 h3 (abs_nonneg _) (by positivity)
    have a2 : A * |B' - B| ≤ A * (e * B) := mul_le_mul_of_nonneg_left h3 hA.le
    have a3 : |A' - A| * B ≤ e * A * B := mul_le_mul_of_nonneg_right h2 hB.le
    nlinarith
  have n2 := rounded_prod hr hu (a := N) (b := N) (P := A * B) (by rw [← sq, sq_abs]; exact hN) n1
  have d2 := rounded_prod hr hu (a := A) (b := B) (P := A * B) (by rw [abs_of_pos hA, abs_of_pos hB]) d1
  set h := (1 + u) * (1 + e) ^ 2 - 1 with hdef
  have h0 : 0 ≤ h := by
    have : (1 : K) ≤ (1 + u) * (1 + e) ^ 2 := one_le_mul_of_one_le_of_one_le (by linarith) (one_le_pow₀ (by linarith))
    linarith
  have hlt : h * (A * B) < |A * B| := by
    rw [abs_of_pos hAB]
    nlinarith
  obtain ⟨hne, hq⟩ := quotient_err n2 d2 hlt
  refine ⟨r (r (N' * N') / r (A' * B')), by simp only [fdiv, if_neg hne, Option.map_some], ?_⟩
  have hq1 : |N * N / (A * B)| ≤ 1 := by
    rw [abs_of_nonneg (div_nonneg (mul_self_nonneg _) hAB.le), div_le_one hAB, ← sq]
    exact hN
  have hq2 : |r (N' * N') / r (A' * B') - N * N / (A * B)| ≤ 2 * h / (1 - h) := by
    refine hq.trans ?_
    rw [abs_of_pos hAB]
    have : A * B - h * (A * B) = (1 - h) * (A * B) := by ring
    rw [this, div_le_div_iff₀ (by apply mul_pos <;> linarith) (by linarith)]
    have c1 : |N * N / (A * B)| * (h * (A * B)) ≤ 1 * (h * (A * B)) := mul_le_mul_of_nonneg_right hq1 (by positivity)
    have c2 : 0 ≤ 1 - h := by linarith
    nlinarith [mul_le_mul_of_nonneg_right c1 c2]
  have hq3 : |r (N' * N') / r (A' * B')| ≤ 2 * h / (1 - h) + 1 := by
    have := abs_add_le (r (N' * N') / r (A' * B') - N * N / (A * B)) (N * N / (A * B))
    rw [sub_add_cancel] at this
    linarith
  have := hr.step hu hq2 hq3
  rw [sq]
  linarith

/-- C184: the forms of a score, given that both vectors are computed with `a` roundings each. -/
theorem ace_score {r : K → K} {u : K} (hr : Rounds r u) (hu : 0 ≤ u) {n a : ℕ} {o1 o2 o3 : FormOrder} (h1 : o1.Covers n) (h2 : o2.Covers n) (h3 : o3.Covers n)
    {ic : Nat → Nat → K} (hpd : PosDef n ic) {t' t x' x : Nat → K} (ht : ∀ i, Approx u a (t' i) (t i) |t i|) (hx : ∀ i, Approx u a (x' i) (x i) |x i|)
    (ht0 : ∃ b, b < n ∧ t b ≠ 0) (hx0 : ∃ b, b < n ∧ x b ≠ 0) {κ e : K} (hκ : 0 ≤ κ) (hT : Tame n κ ic t x) (he : e = κ * ((1 + u) ^ (2 * n + 2 * a) - 1))
    (hh : (1 + u) * (1 + e) ^ 2 - 1 < 1) :
    ∃ v, aceScoreR r o1 o2 o3 ic t' x' = some v ∧
      |v - bilin n ic t x ^ 2 / (bilin n ic t t * bilin n ic x x)| ≤ (1 + u) * (2 * ((1 + u) * (1 + e) ^ 2 - 1) / (1 - ((1 + u) * (1 + e) ^ 2 - 1))) + u := by
  have q1 := quad_approx hr hu h1 ic ht hx
  have q2 := quad_approx hr hu h2 ic ht ht
  have q3 := quad_approx hr hu h3 ic hx hx
  set E := (1 + u) ^ (2 * n + 2 * a) - 1 with hE
  have hE0 : 0 ≤ E := by have := one_le_growth hu (2 * n + 2 * a); linarith
  have hA := hpd.2 t ht0
  have hB := hpd.2 x hx0
  have hcs : bilin n ic t x ^ 2 ≤ bilin n ic t t * bilin n ic x x := by
    have := quad_cauchy n ic hpd.1 (fun v => by rw [quad_eq]; exact hpd.nonneg v) t x (by rw [quad_eq]; exact hA)
    simpa only [quad_eq, bilin] using this
  have he0 : 0 ≤ e := by rw [he]; positivity
  refine ace_core hr hu he0 hA hB hcs (S := E * absForm n ic t x) (mul_nonneg hE0 (absForm_nonneg _ _ _ _)) ?_ q1.err ?_ ?_ hh
  · rw [mul_pow, he, mul_pow]
    have := mul_le_mul_of_nonneg_left hT.2.2 (sq_nonneg E)
    refine this.trans (le_of_eq (by ring))
  · refine q2.err.trans ?_
    rw [he]
    have := mul_le_mul_of_nonneg_left hT.1 hE0
    refine this.trans (le_of_eq (by ring))
  · refine q3.err.trans ?_
    rw [he]
    have := mul_le_mul_of_nonneg_left hT.2.1 hE0
    refine this.trans (le_of_eq (by ring))

/-- Specification: how far an ACE score may be off when the three forms are off by a factor `e`. -/
def aceSlack (u e : K) : K := (1 + u) * (2 * ((1 + u) * (1 + e) ^ 2 - 1) / (1 - ((1 + u) * (1 + e) ^ 2 - 1))) + u

/-- C184: each score of `ace_demeaned` is close to the exact one, for every order of the additions, when the sample and the target are not zero. -/
theorem C184_ace_demeaned_error {r : K → K} {u : K} (hr : Rounds r u) (hu : 0 ≤ u) (o1 : Nat → FormOrder) (o2 : FormOrder) (o3 : Nat → FormOrder) (img : A2 K) (t : A1 K) (ic : A2 K)
    (h1 : ∀ k, (o1 k).Covers img.nx) (h2 : o2.Covers img.nx) (h3 : ∀ k, (o3 k).Covers img.nx) (hpd : PosDef img.nx ic.px)
    (s : A1 (Option K)) (hs : aceDemeanedR r o1 o2 o3 img t ic = .ok s) (k : Nat)
    (ht0 : ∃ b, b < img.nx ∧ t.px b ≠ 0) (hx0 : ∃ b, b < img.nx ∧ img.px k b ≠ 0) (κ e : K) (hκ : 0 ≤ κ) (hT : Tame img.nx κ ic.px t.px (fun b => img.px k b))
    (he : e = κ * ((1 + u) ^ (2 * img.nx) - 1)) (hh : (1 + u) * (1 + e) ^ 2 < 2) :
    ∃ v, s.px k = some v ∧ |v - bilin img.nx ic.px t.px (fun b => img.px k b) ^ 2 / (bilin img.nx ic.px t.px t.px * bilin img.nx ic.px (fun b => img.px k b) (fun b => img.px k b))| ≤ aceSlack u e := by
  unfold aceDemeanedR at hs
  split at hs
  · cases hs
    exact ace_score hr hu (a := 0) (h1 k) h2 (h3 k) hpd (fun i => Approx.exact u (t.px i)) (fun i => Approx.exact u (img.px k i)) ht0 hx0 hκ hT he (by linarith)
  · cases hs

/-- C184: the same for `ace` with a given mean and inverse covariance. -/
theorem C184_ace_error {r : K → K} {u : K} (hr : Rounds r u) (hu : 0 ≤ u) (o1 : Nat → FormOrder) (o2 : FormOrder) (o3 : Nat → FormOrder) (img : A2 K) (t m : A1 K) (ic : A2 K)
    (h1 : ∀ k, (o1 k).Covers img.nx) (h2 : o2.Covers img.nx) (h3 : ∀ k, (o3 k).Covers img.nx) (hpd : PosDef img.nx ic.px)
    (s : A1 (Option K)) (hs : aceR r o1 o2 o3 img t m ic = .ok s) (k : Nat) (T X : Nat → K) (hTd : T = fun b => t.px b - m.px b) (hXd : X = fun b => img.px k b - m.px b)
    (ht0 : ∃ b, b < img.nx ∧ T b ≠ 0) (hx0 : ∃ b, b < img.nx ∧ X b ≠ 0) (κ e : K) (hκ : 0 ≤ κ) (hT : Tame img.nx κ ic.px T X)
    (he : e = κ * ((1 + u) ^ (2 * img.nx + 2) - 1)) (hh : (1 + u) * (1 + e) ^ 2 < 2) :
    ∃ v, s.px k = some v ∧ |v - bilin img.nx ic.px T X ^ 2 / (bilin img.nx ic.px T T * bilin img.nx ic.px X X)| ≤ aceSlack u e := by
  subst hTd hXd
  unfold aceR at hs
  split at hs
  · cases hs
    exact ace_score hr hu (a := 1) (h1 k) h2 (h3 k) hpd (fun i => Approx.diff hr hu (t.px i) (m.px i)) (fun i => Approx.diff hr hu (img.px k i) (m.px i)) ht0 hx0 hκ hT he (by linarith)
  · cases hs

theorem absForm_zero (n : Nat) (m : Nat → Nat → K) (u v : Nat → K) (h : ∀ i, i < n → v i = 0) : absForm n m u v = 0 := by
  unfold absForm
  exact bilin_zero n _ _ _ (fun i hi => by simp [h i hi])

/-- The form of a vector of zeros is zero. -/
theorem quadR_zero {r : K → K} {u : K} (hr : Rounds r u) (hu : 0 ≤ u) {n a : ℕ} {o : FormOrder} (ho : o.Covers n) (m : Nat → Nat → K)
    {x' x : Nat → K} (hx : ∀ i, Approx u a (x' i) (x i) |x i|) (h : ∀ i, i < n → x i = 0) : quadR r o m x' x' = 0 := by
  have q := (quad_approx hr hu ho m hx hx).err
  rw [absForm_zero n m x x h, bilin_zero n m x x h, mul_zero, sub_zero] at q
  exact abs_eq_zero.mp (le_antisymm q (abs_nonneg _))

/-- C184: the score of a sample equal to the mean, or against a target equal to the mean, is not finite. -/
theorem C184_ace_undefined {r : K → K} {u : K} (hr : Rounds r u) (hu : 0 ≤ u) (o1 : Nat → FormOrder) (o2 : FormOrder) (o3 : Nat → FormOrder) (img : A2 K) (t m : A1 K) (ic : A2 K)
    (h2 : o2.Covers img.nx) (h3 : ∀ k, (o3 k).Covers img.nx) (s : A1 (Option K)) (hs : aceR r o1 o2 o3 img t m ic = .ok s) (k : Nat)
    (h : (∀ b, b < img.nx → t.px b = m.px b) ∨ ∀ b, b < img.nx → img.px k b = m.px b) : s.px k = none := by
  unfold aceR at hs
  split at hs
  · cases hs
    have : quadR r o2 ic.px (demeanedR r t.px m.px) (demeanedR r t.px m.px) *
        quadR r (o3 k) ic.px (demeanedR r (fun b => img.px k b) m.px) (demeanedR r (fun b => img.px k b) m.px) = 0 := by
      rcases h with h | h
      · rw [quadR_zero hr hu (a := 1) h2 ic.px (x' := demeanedR r t.px m.px) (fun i => Approx.diff hr hu (t.px i) (m.px i)) (fun i hi => by rw [h i hi, sub_self]), zero_mul]
      · rw [quadR_zero hr hu (a := 1) (h3 k) ic.px (x' := demeanedR r (fun b => img.px k b) m.px) (fun i => Approx.diff hr hu (img.px k i) (m.px i))
          (fun i hi => by rw [h i hi, sub_self]), mul_zero]
    simp only [aceScoreR, this, hr.zero, fdiv, if_true, Option.map_none]
  · cases hs

/-- C184: a matrix with entries at most `M` and smallest eigenvalue at least `l` is tame for all vectors, with `κ = n M / l`. -/
theorem C184_condition (n : Nat) (m : Nat → Nat → K) (M l : K) (hM : ∀ i j, i < n → j < n → |m i j| ≤ M) (hM0 : 0 ≤ M) (hl : 0 < l)
    (hv : ∀ v : Nat → K, l * ∑ i ∈ range n, v i ^ 2 ≤ bilin n m v v) (t x : Nat → K) : Tame n (n * M / l) m t x := by
  have sq0 : ∀ v : Nat → K, 0 ≤ ∑ i ∈ range n, v i ^ 2 := fun v => Finset.sum_nonneg (fun _ _ => sq_nonneg _)
  have b1 : ∀ p q : Nat → K, absForm n m p q ≤ M * ((∑ i ∈ range n, |p i|) * ∑ i ∈ range n, |q i|) := by
    intro p q
    unfold absForm bilin
    rw [Finset.sum_mul_sum, Finset.mul_sum]
    refine Finset.sum_le_sum (fun i hi => ?_)
    rw [Finset.mul_sum]
    refine Finset.sum_le_sum (fun j hj => ?_)
    rw [Finset.mem_range] at hi hj
    have := mul_le_mul_of_nonneg_right (hM i j hi hj) (mul_nonneg (abs_nonneg (p i)) (abs_nonneg (q j)))
    calc |p i| * |m i j| * |q j| = |m i j| * (|p i| * |q j|) := by ring
      _ ≤ _ := this
  have b2 : ∀ p : Nat → K, (∑ i ∈ range n, |p i|) ^ 2 ≤ n * ∑ i ∈ range n, p i ^ 2 := by
    intro p
    have := sq_sum_le_card_mul_sum_sq (s := range n) (f := fun i => |p i|)
    simpa [sq_abs] using this
  have b4 : ∀ p q : Nat → K, absForm n m p q ^ 2 ≤ (n * M) ^ 2 * ((∑ i ∈ range n, p i ^ 2) * ∑ i ∈ range n, q i ^ 2) := by
    intro p q
    have h0 := pow_le_pow_left₀ (absForm_nonneg n m p q) (b1 p q) 2
    refine h0.trans ?_
    rw [mul_pow, mul_pow]
    have h1 := mul_le_mul (b2 p) (b2 q) (sq_nonneg _) (mul_nonneg (Nat.cast_nonneg n) (sq0 p))
    have h2 := mul_le_mul_of_nonneg_left h1 (sq_nonneg M)
    refine h2.trans (le_of_eq (by ring))
  have b5 : ∀ p : Nat → K, ∑ i ∈ range n, p i ^ 2 ≤ bilin n m p p / l := by
    intro p
    rw [le_div_iff₀ hl, mul_comm]
    exact hv p
  have b0 : ∀ p : Nat → K, 0 ≤ bilin n m p p := fun p => (mul_nonneg hl.le (sq0 p)).trans (hv p)
  have nM : 0 ≤ (n : K) * M := mul_nonneg (Nat.cast_nonneg n) hM0
  have b6 : ∀ p : Nat → K, absForm n m p p ≤ n * M / l * bilin n m p p := by
    intro p
    have h1 : absForm n m p p ≤ n * M * ∑ i ∈ range n, p i ^ 2 := by
      apply abs_le_of_sq_le_sq' _ (mul_nonneg nM (sq0 p)) |>.2
      refine (b4 p p).trans (le_of_eq (by ring))
    have h2 := mul_le_mul_of_nonneg_left (b5 p) nM
    refine h1.trans (h2.trans (le_of_eq (by ring)))
  refine ⟨b6 t, b6 x, (b4 t x).trans ?_⟩
  have h1 := mul_le_mul (b5 t) (b5 x) (sq0 x) (div_nonneg (b0 t) hl.le)
  have h2 := mul_le_mul_of_nonneg_left h1 (sq_nonneg ((n : K) * M))
  refine h2.trans (le_of_eq (by field_simp))

/-- The hypotheses are met: inverse covariance (2, -1; -1, 2), entries at most 2 and smallest eigenvalue 1, so `κ = 4`. -/
example (t x : Nat → ℚ) : Tame 2 (((2 : Nat) : ℚ) * 2 / 1) (fun i j => if i = j then (2 : ℚ) else -1) t x := by
  refine C184_condition 2 _ 2 1 (fun i j _ _ => ?_) (by norm_num) (by norm_num) (fun v => ?_) t x
  · split <;> norm_num
  · simp [bilin, Finset.sum_range_succ]
    nlinarith [sq_nonneg (v 0 - v 1)]

theorem quadR_id {n : Nat} {o : FormOrder} (ho : o.Covers n) (m : Nat → Nat → K) (x y : Nat → K) : quadR id o m x y = quad n m x y := by
  unfold quadR quad
  rw [SumTree.eval_id, perm_sum ho.1]
  refine Finset.sum_congr rfl (fun i hi => ?_)
  rw [DotTree.eval_id, perm_sum (ho.2 i (by simpa using hi))]
  rfl

theorem finite1_some (m : A1 K) : finite1 (⟨m.n, fun b => some (m.px b)⟩ : A1 (Option K)) = some m := by
  unfold finite1
  rw [if_pos (by simp)]
  rfl

theorem finite2_some (m : A2 K) : finite2 (⟨m.ny, m.nx, fun i j => some (m.px i j)⟩ : A2 (Option K)) = some m := by
  unfold finite2
  rw [if_pos (by simp [pixels])]
  rfl

theorem aceScoreR_id {n : Nat} {o1 o2 o3 : FormOrder} (h1 : o1.Covers n) (h2 : o2.Covers n) (h3 : o3.Covers n) (ic : Nat → Nat → K) (t x : Nat → K) :
    aceScoreR id o1 o2 o3 ic t x = aceScore n ic t x := by
  unfold aceScoreR aceScore
  rw [quadR_id h1, quadR_id h2, quadR_id h3, sq]
  exact Option.map_id'

/-- C184: without rounding, the scores are those of C54 and C55. -/
theorem C184_no_rounding (inv : A2 (Option K) → Py (A2 (Option K))) (order o1 o3 : Nat → FormOrder) (o2 : FormOrder) (img : A2 K) (t m : A1 K) (ic : A2 K) (mask : Option (A1 K))
    (ho : ∀ k, (order k).Covers img.nx) (h1 : ∀ k, (o1 k).Covers img.nx) (h2 : o2.Covers img.nx) (h3 : ∀ k, (o3 k).Covers img.nx) :
    (rxR id order img m ic).map (fun s => (⟨s.n, fun k => some (s.px k)⟩ : A1 (Option K))) = rx inv img (some m) (some ic) ∧ aceDemeanedR id o1 o2 o3 img t ic = aceDemeaned img t ic ∧
      aceR id o1 o2 o3 img t m ic = ace inv img t (some m) (some ic) mask := by
  refine ⟨?_, ?_, ?_⟩
  · unfold rxR rx meanOrDefault invOrDefault
    simp only [ok_bind, finite1_some, finite2_some]
    split
    · simp only [Except.map, rxScoreR, rxScore, quadR_id (ho _)]
      rfl
    · rfl
  · unfold aceDemeanedR aceDemeaned
    simp only [aceScoreR_id (h1 _) h2 (h3 _)]
  · unfold aceR ace meanOrDefault invOrDefault
    simp only [ok_bind, finite1_some, finite2_some, aceScoreR_id (h1 _) h2 (h3 _)]
    rfl

/-- Bernoulli's bound for the growth of rounding errors. -/
theorem growth_lin {u : K} (hu : 0 ≤ u) (k : ℕ) (h : (k : K) * (k + 1) * u ≤ 1) : (1 + u) ^ k - 1 ≤ (k + 1) * u := by
  rcases Nat.eq_zero_or_pos k with h0 | hk
  · subst h0
    simpa using hu
  have hk1 : (1 : K) ≤ k := by exact_mod_cast hk
  have hku : (k : K) * u ≤ 1 / 2 := by nlinarith
  have hu1 : u ≤ 1 := by nlinarith
  have b := one_add_mul_le_pow (a := -u) (by linarith) k
  have c : (1 + u) ^ k * (1 + -u) ^ k ≤ 1 := by
    rw [← mul_pow]
    exact pow_le_one₀ (by nlinarith) (by nlinarith)
  have p0 : (0 : K) < (1 + u) ^ k := by positivity
  have d : (1 + u) ^ k * (1 - k * u) ≤ 1 := by
    have := mul_le_mul_of_nonneg_left b p0.le
    linarith
  have : (1 + u) ^ k ≤ 1 / (1 - k * u) := by
    rw [le_div_iff₀ (by linarith)]
    exact d
  have e : 1 / (1 - (k : K) * u) ≤ 1 + (k + 1) * u := by
    rw [div_le_iff₀ (by linarith)]
    nlinarith
  linarith

theorem double_growth [FloorRing K] {n : ℕ} (hn : n ≤ 30000000) : (1 + (Rounding.unit 53 : K)) ^ (2 * n + 2) - 1 ≤ (2 * n + 3) / 2 ^ 53 := by
  have hu : (0 : K) ≤ Rounding.unit 53 := (Rounding.unit_pos 53).le
  have hn' : (n : K) ≤ 30000000 := by exact_mod_cast hn
  have h0 : (0 : K) ≤ n := Nat.cast_nonneg _
  have := growth_lin hu (2 * n + 2) (by
    unfold Rounding.unit
    push_cast
    have : (2 * (n : K) + 2) * (2 * n + 2 + 1) ≤ 60000002 * 60000003 := by
      apply mul_le_mul <;> linarith
    norm_num at this ⊢
    linarith)
  refine this.trans (le_of_eq ?_)
  unfold Rounding.unit
  push_cast
  norm_num
  ring

theorem slack_small {u e : K} (hu : 0 ≤ u) (hu' : u ≤ 1 / 1024) (he : 0 ≤ e) (he' : e ≤ 1 / 16) : (1 + u) * (1 + e) ^ 2 < 2 ∧ aceSlack u e ≤ 5 * e + 4 * u := by
  set h := (1 + u) * (1 + e) ^ 2 - 1 with hd
  have e2 : e ^ 2 ≤ e / 16 := by nlinarith
  have h1 : h ≤ 33 / 16 * e + 6 / 5 * u := by
    have a : (1 + e) ^ 2 ≤ 6 / 5 := by nlinarith
    have b := mul_le_mul_of_nonneg_left a hu
    nlinarith
  have h0 : 0 ≤ h := by
    have : (1 : K) ≤ (1 + u) * (1 + e) ^ 2 := one_le_mul_of_one_le_of_one_le (by linarith) (one_le_pow₀ (by linarith))
    linarith
  have h2 : h ≤ 7 / 50 := by linarith
  refine ⟨by linarith, ?_⟩
  have h3 : 2 * h / (1 - h) ≤ 100 / 43 * h := by
    rw [div_le_iff₀ (by linarith)]
    nlinarith
  have : aceSlack u e = (1 + u) * (2 * h / (1 - h)) + u := by rw [aceSlack, hd]
  rw [this]
  have h4 : (1 + u) * (2 * h / (1 - h)) ≤ (1 + 1 / 1024) * (100 / 43 * h) :=
    mul_le_mul (by linarith) h3 (div_nonneg (by linarith) (by linarith)) (by norm_num)
  linarith

/-- C184: in double precision with up to 30 million bands, an RX score is within `(2n + 3) / 2^53` times the form of the absolute values. -/
theorem C184_rx_double [FloorRing K] (order : Nat → FormOrder) (img : A2 K) (m : A1 K) (ic : A2 K) (ho : ∀ k, (order k).Covers img.nx) (hn : img.nx ≤ 30000000)
    (s : A1 K) (hs : rxR (Rounding.fl 53) order img m ic = .ok s) (k : Nat) (hk : k < img.ny) :
    |s.px k - bilin img.nx ic.px (fun b => img.px k b - m.px b) (fun b => img.px k b - m.px b)| ≤
      (2 * img.nx + 3) / 2 ^ 53 * absForm img.nx ic.px (fun b => img.px k b - m.px b) (fun b => img.px k b - m.px b) := by
  have hr : Rounds (Rounding.fl 53 : K → K) (Rounding.unit 53) := Rounding.fl_err' 53
  have hu : (0 : K) ≤ Rounding.unit 53 := (Rounding.unit_pos 53).le
  refine ((C184_rx_error hr hu order img m ic ho s hs).2 k hk).trans (mul_le_mul_of_nonneg_right ?_ (absForm_nonneg _ _ _ _))
  exact double_growth hn

/-- C184: in double precision an ACE score is within `5 κ (2n+3) + 4` roundings of the exact one. -/
theorem C184_ace_double [FloorRing K] (o1 : Nat → FormOrder) (o2 : FormOrder) (o3 : Nat → FormOrder) (img : A2 K) (t m : A1 K) (ic : A2 K)
    (h1 : ∀ k, (o1 k).Covers img.nx) (h2 : o2.Covers img.nx) (h3 : ∀ k, (o3 k).Covers img.nx) (hpd : PosDef img.nx ic.px)
    (s : A1 (Option K)) (hs : aceR (Rounding.fl 53) o1 o2 o3 img t m ic = .ok s) (k : Nat) (T X : Nat → K) (hTd : T = fun b => t.px b - m.px b) (hXd : X = fun b => img.px k b - m.px b)
    (ht0 : ∃ b, b < img.nx ∧ T b ≠ 0) (hx0 : ∃ b, b < img.nx ∧ X b ≠ 0) (κ : K) (hκ : 0 ≤ κ) (hT : Tame img.nx κ ic.px T X) (hn : img.nx ≤ 30000000)
    (hκn : κ * (2 * img.nx + 3) ≤ 2 ^ 49) :
    ∃ v, s.px k = some v ∧ |v - bilin img.nx ic.px T X ^ 2 / (bilin img.nx ic.px T T * bilin img.nx ic.px X X)| ≤ (5 * κ * (2 * img.nx + 3) + 4) / 2 ^ 53 := by
  have hr : Rounds (Rounding.fl 53 : K → K) (Rounding.unit 53) := Rounding.fl_err' 53
  have hu : (0 : K) ≤ Rounding.unit 53 := (Rounding.unit_pos 53).le
  have hE := double_growth (K := K) hn
  have hg := one_le_growth hu (2 * img.nx + 2)
  set e := κ * ((1 + Rounding.unit 53) ^ (2 * img.nx + 2) - 1) with he
  have e0 : 0 ≤ e := mul_nonneg hκ (by linarith)
  have e1 : e ≤ κ * (2 * img.nx + 3) / 2 ^ 53 := (mul_le_mul_of_nonneg_left hE hκ).trans (le_of_eq (by ring))
  have e2 : e ≤ 1 / 16 := by
    refine e1.trans ?_
    rw [div_le_iff₀ (by positivity)]
    refine hκn.trans (le_of_eq (by norm_num))
  have hu' : (Rounding.unit 53 : K) ≤ 1 / 1024 := by unfold Rounding.unit; norm_num
  obtain ⟨h, hb⟩ := slack_small hu hu' e0 e2
  obtain ⟨v, hv, hd⟩ := C184_ace_error hr hu o1 o2 o3 img t m ic h1 h2 h3 hpd s hs k T X hTd hXd ht0 hx0 κ e hκ hT he h
  refine ⟨v, hv, hd.trans (hb.trans ?_)⟩
  have hu2 : (Rounding.unit 53 : K) = 1 / 2 ^ 53 := by unfold Rounding.unit; norm_num
  rw [hu2]
  have : (5 * κ * (2 * img.nx + 3) + 4) / 2 ^ 53 = 5 * (κ * (2 * img.nx + 3) / 2 ^ 53) + 4 * (1 / 2 ^ 53 : K) := by ring
  rw [this]
  linarith

end
end Verif.FloatSpectral
