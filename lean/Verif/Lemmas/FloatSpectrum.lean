import Verif.Lemmas.FloatGeom
import Verif.Model.FloatSpectrum
import Verif.Props.Spectrum
import Mathlib.Data.List.GetD

/-! Helper lemmas for C199, C200: rounding errors of `np.interp` and `np.trapz`. -/

set_option linter.unusedSectionVars false

namespace Verif.Spectrum
open Verif ImageUtils FloatSpectral FloatGeom

section
variable {K : Type} [Field K] [LinearOrder K] [IsStrictOrderedRing K] {r : K → K} {u : K}

theorem trapz_sum : ∀ (xs ys : List K), ys.length = xs.length →
    trapz ys xs = ∑ k ∈ Finset.range (xs.length - 1), (xs.getD (k + 1) 0 - xs.getD k 0) * (ys.getD (k + 1) 0 + ys.getD k 0) / 2
  | [], ys, h => by simp at h; subst h; simp [trapz]
  | [x], [y], _ => by simp [trapz]
  | x0 :: x1 :: xs, y0 :: y1 :: ys, h => by
    have ih := trapz_sum (x1 :: xs) (y1 :: ys) (by simpa using h)
    simp only [List.length_cons, Nat.add_sub_cancel] at ih ⊢
    rw [Finset.sum_range_succ']
    simp only [trapz, ih, List.getD_cons_succ, List.getD_cons_zero, zero_add]
    rw [add_comm]

/-- The reciprocal of a rounded number. -/
theorem approx_inv (hr : Rounds r u) (hu : 0 ≤ u) (hu2 : u ≤ 1 / 2) {d : K} (hd : 0 < d) : Approx u 2 (r d)⁻¹ d⁻¹ d⁻¹ := by
  have h1 := hr.ge hd.le
  have h2 := hr d
  rw [abs_of_pos hd] at h2
  have hpos : 0 < r d := by
    have : 0 < (1 - u) * d := mul_pos (by linarith) hd
    linarith
  refine ⟨?_, by rw [abs_of_pos (inv_pos.mpr hd)]⟩
  have e : (r d)⁻¹ - d⁻¹ = (d - r d) * ((r d)⁻¹ * d⁻¹) := by field_simp
  rw [e, abs_mul, abs_of_pos (mul_pos (inv_pos.mpr hpos) (inv_pos.mpr hd)), abs_sub_comm, ← mul_assoc]
  refine mul_le_mul_of_nonneg_right ?_ (inv_pos.mpr hd).le
  rw [← div_eq_mul_inv, div_le_iff₀ hpos]
  have h3 : ((1 + u) ^ 2 - 1) * ((1 - u) * d) ≤ ((1 + u) ^ 2 - 1) * r d := mul_le_mul_of_nonneg_left h1 (by nlinarith)
  have h4 : u * d ≤ ((1 + u) ^ 2 - 1) * ((1 - u) * d) := by
    have : ((1 + u) ^ 2 - 1) * ((1 - u) * d) - u * d = u * (1 - u - u ^ 2) * d := by ring
    have h5 : 0 ≤ u * (1 - u - u ^ 2) * d := mul_nonneg (mul_nonneg hu (by nlinarith)) hd.le
    linarith
  linarith

/-- The interpolation formula. -/
theorem approx_line (hr : Rounds r u) (hu : 0 ≤ u) (hu2 : u ≤ 1 / 2) {x0 x1 y0 y1 x : K} (h0 : x0 ≤ x) (h1 : x < x1) :
    Approx u 7 (r (r (r (r (y1 - y0) / r (x1 - x0)) * r (x - x0)) + y0)) ((y1 - y0) / (x1 - x0) * (x - x0) + y0)
      (|y1 - y0| / (x1 - x0) * (x - x0) + |y0|) := by
  have hd : 0 < x1 - x0 := by linarith
  have a1 := Approx.diff hr hu y1 y0
  have a2 := approx_inv hr hu hu2 hd
  have a3 := (a1.mul' hu a2).round hr hu
  have a4 := Approx.diff hr hu x x0
  have a5 := a3.mul hr hu a4
  have a6 := (a5.add' ((Approx.exact u y0).weaken hu (Nat.zero_le _))).round hr hu
  rw [abs_of_nonneg (by linarith : 0 ≤ x - x0)] at a6
  simp only [← div_eq_mul_inv] at a6
  exact a6.weaken hu (by norm_num)

/-- The computed response at a wavelength, given a bound `P` of the tabulated ones. -/
theorem interp1R_approx (hr : Rounds r u) (hu : 0 ≤ u) (hu2 : u ≤ 1 / 2) (xp fp : List K) (hl : xp.length = fp.length) (hs : xp.Pairwise (· < ·))
    (P : K) (h0 : ∀ y ∈ fp, 0 ≤ y) (hP : ∀ y ∈ fp, y ≤ P) (hP0 : 0 ≤ P) (x : K) : Approx u 7 (interp1R r xp fp x) (interp1 xp fp x) (2 * P) := by
  have hexact : ∀ v : K, 0 ≤ v → v ≤ P → Approx u 7 v v (2 * P) := fun v h0 h1 =>
    (Approx.exact u v).mono hu (Nat.zero_le _) (by rw [abs_of_nonneg h0]; linarith)
  unfold interp1R interp1
  cases ha : xp.head? with
  | none => exact hexact 0 le_rfl hP0
  | some a =>
    cases hb : xp.getLast? with
    | none => exact hexact 0 le_rfl hP0
    | some b =>
      simp only []
      split_ifs with c1 c2 c3 c4
      · exact hexact 0 le_rfl hP0
      · exact hexact 0 le_rfl hP0
      · rw [c4, sub_self, mul_zero, zero_add]
        have := List.getD_eq_getElem fp 0 (n := xp.countP (fun p => decide (p ≤ x)) - 1) (by omega)
        rw [this]
        exact hexact _ (h0 _ (List.getElem_mem _)) (hP _ (List.getElem_mem _))
      · set j := xp.countP (fun p => decide (p ≤ x)) - 1 with hj
        have hget : ∀ (l : List K) (k : Nat), k < l.length → l[k]? = some (l.getD k 0) := by
          intro l k hk; simp [hk]
        have ha' : xp[0]? = some a := by rw [← List.head?_eq_getElem?]; exact ha
        have hc0 := (countLe_spec xp hs x 0 a ha').mp (not_lt.mp c1)
        have g0 : xp.getD j 0 ≤ x := (countLe_spec xp hs x j _ (hget xp j (by omega))).mpr (by omega)
        have g1 : x < xp.getD (j + 1) 0 := by
          by_contra hn
          have := (countLe_spec xp hs x (j + 1) _ (hget xp (j + 1) c3)).mp (not_lt.mp hn)
          omega
        have m0 : fp.getD j 0 ∈ fp := List.mem_of_getElem? (hget fp j (by omega))
        have m1 : fp.getD (j + 1) 0 ∈ fp := List.mem_of_getElem? (hget fp (j + 1) (by omega))
        refine (approx_line hr hu hu2 g0 g1).mono hu le_rfl ?_
        have b0 := h0 _ m0
        have b1 := h0 _ m1
        have b2 := hP _ m0
        have b3 := hP _ m1
        have b4 : |fp.getD (j + 1) 0 - fp.getD j 0| ≤ P := by rw [_root_.abs_le]; constructor <;> linarith
        have b5 : 0 < xp.getD (j + 1) 0 - xp.getD j 0 := by linarith
        have b6 : |fp.getD (j + 1) 0 - fp.getD j 0| / (xp.getD (j + 1) 0 - xp.getD j 0) * (x - xp.getD j 0) ≤ |fp.getD (j + 1) 0 - fp.getD j 0| := by
          rw [div_mul_eq_mul_div, div_le_iff₀ b5]
          exact mul_le_mul_of_nonneg_left (by linarith) (abs_nonneg _)
        rw [abs_of_nonneg b0]
        linarith
      · have hc1 : xp.countP (fun p => decide (p ≤ x)) ≤ xp.length := List.countP_le_length
        have hne : 0 < xp.length := by
          cases xp with
          | nil => simp at ha
          | cons _ _ => simp
        have := List.getD_eq_getElem fp 0 (n := xp.countP (fun p => decide (p ≤ x)) - 1) (by omega)
        rw [this]
        exact hexact _ (h0 _ (List.getElem_mem _)) (hP _ (List.getElem_mem _))

/-- At a wavelength of the table, and outside it, the computed response is the exact one. -/
theorem interp1R_exact (xp fp : List K) (hl : xp.length = fp.length) (hs : xp.Pairwise (· < ·)) (x : K)
    (hx : x ∈ xp ∨ (∀ p ∈ xp, x < p) ∨ (∀ p ∈ xp, p < x)) : interp1R r xp fp x = interp1 xp fp x := by
  unfold interp1R interp1
  cases ha : xp.head? with
  | none => rfl
  | some a =>
    cases hb : xp.getLast? with
    | none => rfl
    | some b =>
      simp only []
      split_ifs with c1 c2 c3 c4
      · rfl
      · rfl
      · rw [c4, sub_self, mul_zero, zero_add]
      · exfalso
        rcases hx with hx | hx | hx
        · obtain ⟨i, hi⟩ := List.getElem?_of_mem hx
          have hget : ∀ (l : List K) (k : Nat), k < l.length → l[k]? = some (l.getD k 0) := by
            intro l k hk; simp [hk]
          set c := xp.countP (fun p => decide (p ≤ x)) with hc
          have h1 := (countLe_spec xp hs x i x hi).mp le_rfl
          have h2 := (countLe_spec xp hs x (c - 1) _ (hget xp (c - 1) (by omega))).mpr (by omega)
          have h3 : ¬ i < c - 1 := by
            intro hlt
            obtain ⟨hi', e1⟩ := List.getElem?_eq_some_iff.mp hi
            have := List.pairwise_iff_getElem.mp hs i (c - 1) hi' (by omega) hlt
            rw [e1] at this
            rw [List.getD_eq_getElem xp 0 (by omega)] at h2
            exact absurd h2 (not_le.mpr this)
          have h4 : i = c - 1 := by omega
          apply c4
          rw [← h4, List.getD_eq_getElem?_getD, hi]
          rfl
        · exact c1 (hx a (List.mem_of_mem_head? ha))
        · exact c2 (hx b (List.mem_of_getLast? hb))
      · rfl

/-- One term of the integral. -/
theorem trapzTerm_approx (hr : Rounds r u) (hu : 0 ≤ u) {k : ℕ} (xs ys' ys ss : List K) (i : Nat) (h : ∀ i, Approx u k (ys'.getD i 0) (ys.getD i 0) (ss.getD i 0))
    (hx : xs.getD i 0 ≤ xs.getD (i + 1) 0) :
    Approx u (k + 4) (trapzTermR r ys' xs i) ((xs.getD (i + 1) 0 - xs.getD i 0) * (ys.getD (i + 1) 0 + ys.getD i 0) / 2)
      ((xs.getD (i + 1) 0 - xs.getD i 0) * (ss.getD (i + 1) 0 + ss.getD i 0) / 2) := by
  have a1 := ((h (i + 1)).add' (h i)).round hr hu
  have a2 := (Approx.diff hr hu (xs.getD (i + 1) 0) (xs.getD i 0)).mul hr hu a1
  have a3 := (a2.div' 2).round hr hu
  rw [abs_of_nonneg (by linarith : 0 ≤ xs.getD (i + 1) 0 - xs.getD i 0), abs_of_nonneg (by norm_num : (0 : K) ≤ 2)] at a3
  unfold trapzTermR
  exact a3.weaken hu (by omega)

/-- A sum of computed terms, in any order. -/
theorem sum_approx (hr : Rounds r u) (hu : 0 ≤ u) {k n : ℕ} {f' f s : Nat → K} (t : SumTree) (ht : t.Covers n) (h : ∀ i, i < n → Approx u k (f' i) (f i) (s i)) :
    Approx u (k + (n - 1)) (t.eval r f') (∑ i ∈ Finset.range n, f i) (∑ i ∈ Finset.range n, s i) := by
  have key : ∀ t : SumTree, (∀ i ∈ t.leaves, i < n) → Approx u (k + (t.leaves.length - 1)) (t.eval r f') (t.leaves.map f).sum (t.leaves.map s).sum := by
    intro t
    induction t with
    | leaf i => intro hi; simpa [SumTree.eval, SumTree.leaves] using h i (hi i (by simp [SumTree.leaves]))
    | node a b iha ihb =>
      intro hi
      have ha := a.leaves_pos
      have hb := b.leaves_pos
      have h1 := iha (fun i hm => hi i (by simp [SumTree.leaves, hm]))
      have h2 := ihb (fun i hm => hi i (by simp [SumTree.leaves, hm]))
      simp only [SumTree.eval, SumTree.leaves, List.map_append, List.sum_append, List.length_append]
      have h3 := ((h1.weaken hu (l := k + (a.leaves.length + b.leaves.length - 2)) (by omega)).add'
        (h2.weaken hu (l := k + (a.leaves.length + b.leaves.length - 2)) (by omega))).round hr hu
      exact h3.weaken hu (by omega)
  have hk := key t (fun i hi => by simpa using (ht.mem_iff).mp hi)
  rw [perm_sum ht, perm_sum ht, covers_length ht] at hk
  exact hk

theorem getD_mono (xs : List K) (hs : xs.Pairwise (· < ·)) (i : Nat) (hi : i + 1 < xs.length) : xs.getD i 0 ≤ xs.getD (i + 1) 0 := by
  rw [List.getD_eq_getElem xs 0 (by omega), List.getD_eq_getElem xs 0 hi]
  exact (List.pairwise_iff_getElem.mp hs i (i + 1) (by omega) hi (by omega)).le

/-- The computed integral against the exact one. -/
theorem trapzR_approx (hr : Rounds r u) (hu : 0 ≤ u) {k : ℕ} (xs ys' ys ss : List K) (t : SumTree) (hs : xs.Pairwise (· < ·)) (h2 : 2 ≤ xs.length)
    (ht : t.Covers (xs.length - 1)) (hy : ys.length = xs.length) (hss : ss.length = xs.length)
    (h : ∀ i, Approx u k (ys'.getD i 0) (ys.getD i 0) (ss.getD i 0)) :
    Approx u (k + xs.length + 2) (trapzR r t ys' xs) (trapz ys xs) (trapz ss xs) := by
  unfold trapzR
  rw [if_neg (by omega), trapz_sum xs ys hy, trapz_sum xs ss hss]
  have := sum_approx hr hu t ht (fun i hi => trapzTerm_approx hr hu xs ys' ys ss i h (getD_mono xs hs i (by omega)))
  exact this.weaken hu (by omega)

end
end Verif.Spectrum
