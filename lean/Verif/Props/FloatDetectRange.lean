import Verif.Props.FloatDetect
import Mathlib.Tactic.IntervalCases

/-! C185: what is left in floating point of "an RX score is not negative" and "an ACE score is between 0 and 1". -/

set_option linter.unusedSectionVars false

namespace Verif.FloatSpectral
open Verif ImageUtils FloatGeom Spectral Rounding
open Finset (range)
open scoped BigOperators

section
variable {K : Type} [Field K] [LinearOrder K] [IsStrictOrderedRing K]

/-- C185, RX: the score of a sample is not negative when its terms do not cancel below the rounding errors.  Missing: all samples, see `C185_rx_false`. -/
theorem C185_rx_partial {r : K → K} {u : K} (hr : Rounds r u) (hu : 0 ≤ u) (order : Nat → FormOrder) (img : A2 K) (m : A1 K) (ic : A2 K)
    (ho : ∀ k, (order k).Covers img.nx) (s : A1 K) (hs : rxR r order img m ic = .ok s) (k : Nat) (hk : k < img.ny) (X : Nat → K) (hX : X = fun b => img.px k b - m.px b)
    (h : ((1 + u) ^ (2 * img.nx + 2) - 1) * absForm img.nx ic.px X X ≤ bilin img.nx ic.px X X) : 0 ≤ s.px k := by
  subst hX
  have := (abs_le.mp ((C184_rx_error hr hu order img m ic ho s hs).2 k hk)).1
  linarith

/-- C185, RX: a matrix without cancellation (diagonal, not negative) gives no negative score. -/
theorem C185_rx_diagonal_partial {r : K → K} {u : K} (hr : Rounds r u) (hu : 0 ≤ u) (order : Nat → FormOrder) (img : A2 K) (m : A1 K) (ic : A2 K)
    (ho : ∀ k, (order k).Covers img.nx) (s : A1 K) (hs : rxR r order img m ic = .ok s) (k : Nat) (hk : k < img.ny)
    (hd : ∀ i j, i < img.nx → j < img.nx → i ≠ j → ic.px i j = 0) (hp : ∀ i, i < img.nx → 0 ≤ ic.px i i) (hsmall : (1 + u) ^ (2 * img.nx + 2) ≤ 2) : 0 ≤ s.px k := by
  refine C185_rx_partial hr hu order img m ic ho s hs k hk _ rfl ?_
  set X : Nat → K := fun b => img.px k b - m.px b
  have e : absForm img.nx ic.px X X = bilin img.nx ic.px X X := by
    unfold absForm bilin
    refine Finset.sum_congr rfl (fun i hi => Finset.sum_congr rfl (fun j hj => ?_))
    rw [Finset.mem_range] at hi hj
    by_cases hij : i = j
    · subst hij
      show |X i| * |ic.px i i| * |X i| = X i * ic.px i i * X i
      rw [abs_of_nonneg (hp i hi), mul_right_comm, abs_mul_abs_self]
      ring
    · show |X i| * |ic.px i j| * |X j| = X i * ic.px i j * X j
      rw [hd i j hi hj hij]
      simp
  rw [e]
  have h0 : 0 ≤ bilin img.nx ic.px X X := by rw [← e]; exact absForm_nonneg _ _ _ _
  calc ((1 + u) ^ (2 * img.nx + 2) - 1) * bilin img.nx ic.px X X ≤ 1 * bilin img.nx ic.px X X := mul_le_mul_of_nonneg_right (by linarith) h0
    _ = _ := one_mul _

/-- C185, ACE: the score of a sample is between 0 and 1 up to the rounding errors.  Missing: at most 1 exactly, see `C185_ace_false`. -/
theorem C185_ace_partial {r : K → K} {u : K} (hr : Rounds r u) (hu : 0 ≤ u) (o1 : Nat → FormOrder) (o2 : FormOrder) (o3 : Nat → FormOrder) (img : A2 K) (t m : A1 K) (ic : A2 K)
    (h1 : ∀ k, (o1 k).Covers img.nx) (h2 : o2.Covers img.nx) (h3 : ∀ k, (o3 k).Covers img.nx) (hpd : PosDef img.nx ic.px)
    (s : A1 (Option K)) (hs : aceR r o1 o2 o3 img t m ic = .ok s) (k : Nat) (T X : Nat → K) (hTd : T = fun b => t.px b - m.px b) (hXd : X = fun b => img.px k b - m.px b)
    (ht0 : ∃ b, b < img.nx ∧ T b ≠ 0) (hx0 : ∃ b, b < img.nx ∧ X b ≠ 0) (κ e : K) (hκ : 0 ≤ κ) (hT : Tame img.nx κ ic.px T X)
    (he : e = κ * ((1 + u) ^ (2 * img.nx + 2) - 1)) (hh : (1 + u) * (1 + e) ^ 2 < 2) :
    ∃ v, s.px k = some v ∧ 0 ≤ v ∧ v ≤ 1 + aceSlack u e := by
  obtain ⟨v, hv, hd⟩ := C184_ace_error hr hu o1 o2 o3 img t m ic h1 h2 h3 hpd s hs k T X hTd hXd ht0 hx0 κ e hκ hT he hh
  have hA := hpd.2 T ht0
  have hB := hpd.2 X hx0
  have hcs : bilin img.nx ic.px T X ^ 2 ≤ bilin img.nx ic.px T T * bilin img.nx ic.px X X := by
    have := quad_cauchy img.nx ic.px hpd.1 (fun v => by rw [quad_eq]; exact hpd.nonneg v) T X (by rw [quad_eq]; exact hA)
    simpa only [quad_eq, bilin] using this
  have hone : bilin img.nx ic.px T X ^ 2 / (bilin img.nx ic.px T T * bilin img.nx ic.px X X) ≤ 1 := by
    rw [div_le_one (mul_pos hA hB)]
    exact hcs
  refine ⟨v, hv, ?_, by have := (abs_le.mp hd).2; linarith⟩
  have hE0 : (0 : K) ≤ (1 + u) ^ (2 * img.nx + 2) - 1 := by have := one_le_growth hu (2 * img.nx + 2); linarith
  have he0 : 0 ≤ e := by rw [he]; positivity
  have he1 : e ≤ 1 := by
    by_contra hc
    push Not at hc
    nlinarith [sq_nonneg (e - 1), mul_nonneg hu (sq_nonneg (1 + e))]
  have hu1 : u ≤ 1 := by nlinarith [sq_nonneg e, mul_nonneg hu he0, mul_nonneg hu (sq_nonneg e)]
  subst hTd hXd
  unfold aceR at hs
  split at hs
  · cases hs
    have r0 : ∀ x : K, 0 ≤ x → 0 ≤ r x := fun x hx => (mul_nonneg (by linarith) hx).trans (hr.ge hx)
    have qa := (quad_approx hr hu (a := 1) h2 ic.px (fun i => Approx.diff hr hu (t.px i) (m.px i)) (fun i => Approx.diff hr hu (t.px i) (m.px i))).err
    have qb := (quad_approx hr hu (a := 1) (h3 k) ic.px (fun i => Approx.diff hr hu (img.px k i) (m.px i)) (fun i => Approx.diff hr hu (img.px k i) (m.px i))).err
    have na := (abs_le.mp qa).1
    have nb := (abs_le.mp qb).1
    have ta := mul_le_mul_of_nonneg_left hT.1 hE0
    have tb := mul_le_mul_of_nonneg_left hT.2.1 hE0
    simp only [mul_one] at na nb
    have pa : 0 ≤ quadR r o2 ic.px (demeanedR r t.px m.px) (demeanedR r t.px m.px) := by
      have := mul_le_mul_of_nonneg_right he1 hA.le
      rw [he] at this
      unfold demeanedR
      linarith
    have pb : 0 ≤ quadR r (o3 k) ic.px (demeanedR r (fun b => img.px k b) m.px) (demeanedR r (fun b => img.px k b) m.px) := by
      have := mul_le_mul_of_nonneg_right he1 hB.le
      rw [he] at this
      unfold demeanedR
      linarith
    simp only [aceScoreR, fdiv] at hv
    split at hv
    · simp at hv
    · simp only [Option.map_some, Option.some.injEq] at hv
      rw [← hv]
      exact r0 _ (div_nonneg (r0 _ (mul_self_nonneg _)) (r0 _ (mul_nonneg pa pb)))
  · cases hs

end

/-- The matrix of the witness: `(k x - (k+1) y)^2 + (x - y)^2` for `k = 2^20`. -/
def sharpForm : A2 ℚ := ⟨2, 2, fun i j => if i = 0 then (if j = 0 then 1099511627777 else -1099512676353) else (if j = 0 then -1099512676353 else 1099513724930)⟩

theorem sharp_eq (v : Nat → ℚ) : bilin 2 sharpForm.px v v = (1048576 * v 0 - 1048577 * v 1) ^ 2 + (v 0 - v 1) ^ 2 := by
  simp [bilin, sharpForm, Finset.sum_range_succ]
  ring

theorem sharp_posDef : PosDef 2 sharpForm.px := by
  refine ⟨?_, ?_⟩
  · intro i j hi hj
    interval_cases i <;> interval_cases j <;> simp [sharpForm]
  · rintro v ⟨i, hi, hv⟩
    rw [sharp_eq]
    by_contra hc
    push Not at hc
    have h1 : (v 0 - v 1) = 0 := by
      have := sq_nonneg (1048576 * v 0 - 1048577 * v 1)
      have := sq_nonneg (v 0 - v 1)
      exact pow_eq_zero_iff (n := 2) (by norm_num) |>.mp (by linarith)
    have h2 : (1048576 * v 0 - 1048577 * v 1) = 0 := by
      have := sq_nonneg (1048576 * v 0 - 1048577 * v 1)
      have := sq_nonneg (v 0 - v 1)
      exact pow_eq_zero_iff (n := 2) (by norm_num) |>.mp (by linarith)
    have h3 : v 1 = 0 := by linarith
    have h4 : v 0 = 0 := by linarith
    interval_cases i
    · exact hv h4
    · exact hv h3

/-- One way to compute a form of two bands: from left to right. -/
def leftToRight : FormOrder := ⟨fun _ => .add (.mul 0) (.mul 1), .node (.leaf 0) (.leaf 1)⟩

theorem leftToRight_covers : leftToRight.Covers 2 :=
  ⟨by show List.Perm [0, 1] (List.range 2); decide, fun _ _ => by show List.Perm [0, 1] (List.range 2); decide⟩

/-- FALSE: with a positive definite inverse covariance of float64 entries, no RX score of a float64 sample is negative. -/
theorem C185_rx_false : ¬ ∀ (order : Nat → FormOrder) (img : A2 ℚ) (m : A1 ℚ) (ic : A2 ℚ), (∀ k, (order k).Covers img.nx) → (∀ k b, IsFloat 53 (img.px k b)) →
    (∀ b, IsFloat 53 (m.px b)) → (∀ i j, IsFloat 53 (ic.px i j)) → PosDef img.nx ic.px → ∀ s : A1 ℚ, rxR (fl 53) order img m ic = .ok s → ∀ k, k < img.ny → 0 ≤ s.px k := by
  intro h
  have i0 : IsFloat 53 (5456900253140553 : ℚ) := by simpa using isFloat_nat (K := ℚ) (p := 53) 5456900253140553 (by norm_num)
  have i1 : IsFloat 53 (5456895049039897 : ℚ) := by simpa using isFloat_nat (K := ℚ) (p := 53) 5456895049039897 (by norm_num)
  have f0 := fl_of_isFloat (by norm_num) i0
  have f1 := fl_of_isFloat (by norm_num) i1
  have p00 : fl 53 (1099511627777 * 5456900253140553 : ℚ) = 5456900253145516 * 2 ^ 40 := by
    rw [fl_eq (p := 53) 92 5456900253145516 (by norm_num) (by norm_num) (by norm_num [abs_lt])]
    norm_num
  have p01 : fl 53 (-1099512676353 * 5456895049039897 : ℚ) = -(5456900253145516 * 2 ^ 40) := by
    rw [neg_mul, fl_neg, fl_eq (p := 53) 92 5456900253145516 (by norm_num) (by norm_num) (by norm_num [abs_lt])]
    norm_num
  have p10 : fl 53 (-1099512676353 * 5456900253140553 : ℚ) = -(5456905457251135 * 2 ^ 40) := by
    rw [neg_mul, fl_neg, fl_eq (p := 53) 92 5456905457251135 (by norm_num) (by norm_num) (by norm_num [abs_lt])]
    norm_num
  have p11 : fl 53 (1099513724930 * 5456895049039897 : ℚ) = 5456905457251134 * 2 ^ 40 := by
    rw [fl_eq (p := 53) 92 5456905457251134 (by norm_num) (by norm_num) (by norm_num [abs_lt])]
    norm_num
  have s1 : fl 53 (-(5456905457251135 * 2 ^ 40) + 5456905457251134 * 2 ^ 40 : ℚ) = -2 ^ 40 := by
    have := fl_exact (K := ℚ) (p := 53) (by norm_num) (-1) 40 (by norm_num)
    norm_num at this ⊢
    exact this
  have s2 : fl 53 (5456895049039897 * -2 ^ 40 : ℚ) = -(5456895049039897 * 2 ^ 40) := by
    have := fl_exact (K := ℚ) (p := 53) (by norm_num) (-5456895049039897) 40 (by norm_num)
    norm_num at this ⊢
    exact this
  have s3 : fl 53 (-(5456895049039897 * 2 ^ 40) : ℚ) = -(5456895049039897 * 2 ^ 40) := by
    have := fl_exact (K := ℚ) (p := 53) (by norm_num) (-5456895049039897) 40 (by norm_num)
    norm_num at this ⊢
    exact this
  have z := fl_zero (K := ℚ) 53
  have := h (fun _ => leftToRight) ⟨1, 2, fun _ b => if b = 0 then 5456900253140553 else 5456895049039897⟩ ⟨2, fun _ => 0⟩ sharpForm (fun _ => leftToRight_covers)
    (fun _ b => by dsimp only; split <;> assumption) (fun _ => isFloat_zero 53) (fun i j => by
      simp only [sharpForm]
      split <;> split <;> first
        | exact_mod_cast isFloat_int (K := ℚ) (p := 53) 1099511627777 (by norm_num)
        | exact_mod_cast isFloat_int (K := ℚ) (p := 53) (-1099512676353) (by norm_num)
        | exact_mod_cast isFloat_int (K := ℚ) (p := 53) 1099513724930 (by norm_num)) sharp_posDef _ rfl 0 (by norm_num)
  have e : rxScoreR (fl 53) leftToRight ⟨1, 2, fun _ b => if b = 0 then 5456900253140553 else 5456895049039897⟩ ⟨2, fun _ => 0⟩ sharpForm 0 =
      -(5456895049039897 * 2 ^ 40) := by
    simp only [rxScoreR, quadR, leftToRight, demeanedR, SumTree.eval, DotTree.eval, sharpForm, sub_zero, if_true, if_neg one_ne_zero, f0, f1, p00, p01, p10, p11, add_neg_cancel, z,
      s1, s2, mul_zero, zero_add, s3]
  have e' : (0 : ℚ) ≤ -(5456895049039897 * 2 ^ 40) := by
    rw [← e]
    exact this
  norm_num at e'

/-- FALSE: with a positive definite inverse covariance, every ACE score is at most 1.  One band, inverse covariance 1, mean 0, target 4503599627370497 and sample 3: 1.0000000000000002. -/
theorem C185_ace_false : ¬ ∀ (o1 : Nat → FormOrder) (o2 : FormOrder) (o3 : Nat → FormOrder) (img : A2 ℚ) (t m : A1 ℚ) (ic : A2 ℚ), (∀ k, (o1 k).Covers img.nx) → o2.Covers img.nx →
    (∀ k, (o3 k).Covers img.nx) → (∀ k b, IsFloat 53 (img.px k b)) → (∀ b, IsFloat 53 (t.px b)) → (∀ b, IsFloat 53 (m.px b)) → (∀ i j, IsFloat 53 (ic.px i j)) → PosDef img.nx ic.px →
    ∀ s : A1 (Option ℚ), aceR (fl 53) o1 o2 o3 img t m ic = .ok s → ∀ (k : Nat) (v : ℚ), s.px k = some v → v ≤ 1 := by
  intro h
  have i1 : IsFloat 53 (1 : ℚ) := by simpa using isFloat_nat (K := ℚ) (p := 53) 1 (by norm_num)
  have i3 : IsFloat 53 (3 : ℚ) := by simpa using isFloat_nat (K := ℚ) (p := 53) 3 (by norm_num)
  have i9 : IsFloat 53 (9 : ℚ) := by simpa using isFloat_nat (K := ℚ) (p := 53) 9 (by norm_num)
  have it : IsFloat 53 (4503599627370497 : ℚ) := by simpa using isFloat_nat (K := ℚ) (p := 53) 4503599627370497 (by norm_num)
  have f3 := fl_of_isFloat (by norm_num) i3
  have f9 := fl_of_isFloat (by norm_num) i9
  have ft := fl_of_isFloat (by norm_num) it
  have n1 : fl 53 (4503599627370497 * 3 : ℚ) = 13510798882111492 := by
    rw [fl_eq_even (p := 53) 53 6755399441055746 (by norm_num) (by norm_num) (by decide +kernel) (by norm_num [abs_le])]
    norm_num
  have a1 : fl 53 (4503599627370497 * 4503599627370497 : ℚ) = 4503599627370498 * 2 ^ 52 := by
    rw [fl_eq (p := 53) 104 4503599627370498 (by norm_num) (by norm_num) (by norm_num [abs_lt])]
    norm_num
  have n2 : fl 53 (13510798882111492 * 13510798882111492 : ℚ) = 9 * 2 ^ 104 + 3 * 2 ^ 55 := by
    rw [fl_eq (p := 53) 107 5066549580791811 (by norm_num) (by norm_num) (by norm_num [abs_lt])]
    norm_num
  have d2 : fl 53 (4503599627370498 * 2 ^ 52 * 9 : ℚ) = 9 * 2 ^ 104 + 2 * 2 ^ 55 := by
    rw [fl_eq (p := 53) 107 5066549580791810 (by norm_num) (by norm_num) (by norm_num [abs_lt])]
    norm_num
  have q : fl 53 ((9 * 2 ^ 104 + 3 * 2 ^ 55) / (9 * 2 ^ 104 + 2 * 2 ^ 55) : ℚ) = 4503599627370497 / 2 ^ 52 := by
    rw [fl_eq (p := 53) 0 4503599627370497 (by norm_num) (by norm_num) (by norm_num [abs_lt])]
    norm_num
  have hc : FormOrder.Covers 1 ⟨fun _ => .mul 0, .leaf 0⟩ :=
    ⟨by show List.Perm [0] (List.range 1); decide, fun _ _ => by show List.Perm [0] (List.range 1); decide⟩
  have := h (fun _ => ⟨fun _ => .mul 0, .leaf 0⟩) ⟨fun _ => .mul 0, .leaf 0⟩ (fun _ => ⟨fun _ => .mul 0, .leaf 0⟩) ⟨1, 1, fun _ _ => 3⟩ ⟨1, fun _ => 4503599627370497⟩
    ⟨1, fun _ => 0⟩ ⟨1, 1, fun _ _ => 1⟩ (fun _ => hc) hc (fun _ => hc) (fun _ _ => i3) (fun _ => it) (fun _ => isFloat_zero 53) (fun _ _ => i1) (by
      refine ⟨fun _ _ _ _ => rfl, ?_⟩
      rintro v ⟨i, hi, hv⟩
      interval_cases i
      simp only [bilin, Finset.sum_range_one, mul_one]
      exact mul_self_pos.mpr hv) _ rfl 0 (4503599627370497 / 2 ^ 52) (by
    simp only [aceScoreR, quadR, demeanedR, SumTree.eval, DotTree.eval, sub_zero, one_mul, f3, ft, n1, a1, n2, fdiv, show (3 * 3 : ℚ) = 9 by norm_num, f9, d2]
    rw [if_neg (by norm_num), Option.map_some, q])
  norm_num at this

/-- The hypotheses of `C185_rx_partial` and `C185_ace_partial` are met: two correlated bands, inverse covariance (2, -1; -1, 2), mean (1, 1), sample (4, 5), target (3, 1),
in double precision. -/
example : ∃ (img : A2 ℚ) (t m : A1 ℚ) (ic : A2 ℚ) (X T : Nat → ℚ), PosDef img.nx ic.px ∧ X = (fun b => img.px 0 b - m.px b) ∧ T = (fun b => t.px b - m.px b) ∧
    Tame img.nx 4 ic.px T X ∧ ((1 + unit 53) ^ (2 * img.nx + 2) - 1) * absForm img.nx ic.px X X ≤ bilin img.nx ic.px X X ∧
    (1 + unit 53) * (1 + 4 * ((1 + unit 53) ^ (2 * img.nx + 2) - 1)) ^ 2 < (2 : ℚ) ∧ (∃ b, b < img.nx ∧ X b ≠ 0) ∧ (∃ b, b < img.nx ∧ T b ≠ 0) ∧
    (∃ s, rxR (fl 53) (fun _ => leftToRight) img m ic = .ok s) ∧ ∃ s, aceR (fl 53) (fun _ => leftToRight) leftToRight (fun _ => leftToRight) img t m ic = .ok s := by
  refine ⟨⟨1, 2, fun _ b => if b = 0 then 4 else 5⟩, ⟨2, fun b => if b = 0 then 3 else 1⟩, ⟨2, fun _ => 1⟩, ⟨2, 2, fun i j => if i = j then 2 else -1⟩, _, _, ?_, rfl, rfl,
    ?_, ?_, ?_, ⟨0, by norm_num, by norm_num⟩, ⟨0, by norm_num, by norm_num⟩, ⟨_, rfl⟩, ⟨_, rfl⟩⟩
  · refine ⟨?_, ?_⟩
    · intro i j hi hj
      show (if i = j then (2 : ℚ) else -1) = if j = i then 2 else -1
      simp only [eq_comm]
    · rintro v ⟨i, hi, hv⟩
      have : bilin 2 (fun i j => if i = j then (2 : ℚ) else -1) v v = v 0 ^ 2 + v 1 ^ 2 + (v 0 - v 1) ^ 2 := by
        simp [bilin, Finset.sum_range_succ]
        ring
      show 0 < bilin 2 (fun i j => if i = j then (2 : ℚ) else -1) v v
      rw [this]
      have hi' : i < 2 := hi
      interval_cases i
      · have := sq_pos_of_ne_zero hv; positivity
      · have := sq_pos_of_ne_zero hv; positivity
  · refine ⟨?_, ?_, ?_⟩ <;> norm_num [absForm, bilin, Finset.sum_range_succ]
  · norm_num [absForm, bilin, Finset.sum_range_succ, unit]
  · norm_num [unit]

end Verif.FloatSpectral
